import Verif.Proof.ContextLife
import Verif.Spec.ContextLife
/-
C82: a context is made whole or not at all; it is shut down only when nobody uses it, and then nothing of it is left but what callers hold.
-/
namespace WS.Props
open WS WS.CL WS.RC WS.Spec.CL

/-! ### making a context -/

theorem cl_hpi (o : Opts) (h : Option Hpi) (al : Bool) : checkHpi o h al = none ↔ Complete o h al := by
  unfold checkHpi Complete
  cases h with
  | none => cases o.mallocBuiltins <;> cases o.clockBuiltins <;> simp
  | some h =>
    obtain ⟨st, m, f, r, ma, fa, g, d, a, t, fr, it, ifr⟩ := h
    cases m
    · cases hb : o.mallocBuiltins
      · simp
      · cases g
        · cases o.clockBuiltins <;> simp
        · cases d <;> cases a <;> cases t <;> cases fr <;> cases it <;> cases ifr <;> simp
    · cases f
      · simp
      cases r
      · simp
      cases ma <;> cases fa
      · cases g
        · cases o.clockBuiltins <;> cases al <;> simp
        · cases d <;> cases a <;> cases t <;> cases fr <;> cases it <;> cases ifr <;> cases al <;> simp
      · simp
      · simp
      · cases g
        · cases o.clockBuiltins <;> simp
        · cases d <;> cases a <;> cases t <;> cases fr <;> cases it <;> cases ifr <;> simp

theorem cl_settings (caller : RT.Build) (h : Option Hpi) :
    h.any (fun h => (h.settings.version != 0 || h.settings.config != 0) &&
        (h.settings.version != caller.version || h.settings.config != caller.config)) = false ↔ SameSettings caller h := by
  unfold SameSettings
  cases h with
  | none => simp
  | some h =>
    obtain ⟨⟨sv, sc⟩, m, f, r, ma, fa, g, d, a, t, fr, it, ifr⟩ := h
    obtain ⟨cv, cc⟩ := caller
    simp only [Option.any_some, Option.some.injEq, forall_eq', RT.Build.mk.injEq]
    by_cases h1 : sv = 0 <;> by_cases h2 : sc = 0 <;> by_cases h3 : sv = cv <;> by_cases h4 : sc = cc <;> grind

/-- What a call does once its arguments are found good. -/
def clCore (o : Opts) (v : Env) : CL.Out :=
  let a := contextAlloc o v
  match a.ret with
  | .ok =>
    if !v.mem (nAlloc o) then undo o .sysResourceFailed true a.live
    else if !v.mem (nAlloc o + 1) then undo o .sysResourceFailed true (.fallthrough :: a.live)
    else { ret := .ok, live := .builtin :: .fallthrough :: a.live, handle := true }
  | _ => a

theorem cl_init_good {o : Opts} {lib caller : RT.Build} {h : Option Hpi} {v : Env} (ha : Acceptable o lib caller h v) :
    init o lib caller h v = clCore o v := by
  obtain ⟨h1, h2, h3, h4⟩ := ha
  have h2' := (cl_settings caller h).2 h2
  have h4' := (cl_hpi o h v.aligned).2 h4
  unfold init clCore
  rw [h1]
  dsimp only
  rw [h2', h3]
  dsimp only
  rw [h4']
  rfl

/-- C82: a call whose arguments are not acceptable is refused, and nothing was allocated for it. -/
theorem C82_refused_leaves_nothing (o : Opts) (lib caller : RT.Build) (h : Option Hpi) (v : Env) (hn : ¬ Acceptable o lib caller h v) :
    (init o lib caller h v).ret ≠ .ok ∧ (init o lib caller h v).live = [] ∧ (init o lib caller h v).handle = false ∧
    (init o lib caller h v).uninit = false := by
  unfold init
  cases h1 : RT.compatible lib caller <;> dsimp only
  · cases h2 : h.any (fun h => (h.settings.version != 0 || h.settings.config != 0) &&
        (h.settings.version != caller.version || h.settings.config != caller.config)) with
    | true => simp
    | false =>
      cases h3 : v.confCheck with
      | error e => simp
      | ok u =>
        cases h4 : checkHpi o h v.aligned with
        | some r =>
          have hr : r ≠ .ok := by
            rintro rfl
            unfold checkHpi at h4
            dsimp only at h4
            repeat' split at h4
            all_goals first | (exact absurd h4 (by simp)) | skip
          simp [hr]
        | none => exact absurd ⟨h1, (cl_settings caller h).1 h2, h3, (cl_hpi o h v.aligned).1 h4⟩ hn
  all_goals simp

/-- C82: the reasons for a refusal: settings the library cannot serve, settings that contradict each other, a configuration that is
not valid, missing callbacks where the library has none of its own, or an incomplete set of callbacks. -/
theorem C82_refusal_reason (o : Opts) (lib caller : RT.Build) (h : Option Hpi) (v : Env) :
    (RT.compatible lib caller = .ok → ¬ SameSettings caller h → (init o lib caller h v).ret = .err .invalidArg) ∧
    (RT.compatible lib caller = .ok → SameSettings caller h → ∀ e, v.confCheck = .error e → (init o lib caller h v).ret = .err e) ∧
    (RT.compatible lib caller = .ok → SameSettings caller h → v.confCheck = .ok () → ¬ Complete o h v.aligned →
      (init o lib caller h v).ret = .err .invalidArg ∨
      (init o lib caller h v).ret = .err .implementationMissing ∧
        ((o.mallocBuiltins = false ∧ ∀ x, h = some x → x.malloc = false) ∨ (o.clockBuiltins = false ∧ ∀ x, h = some x → x.getTime = false))) := by
  refine ⟨?_, ?_, ?_⟩
  · intro h1 h2
    have : h.any (fun h => (h.settings.version != 0 || h.settings.config != 0) &&
        (h.settings.version != caller.version || h.settings.config != caller.config)) = true := by
      rw [← Bool.not_eq_false]; intro hc; exact h2 ((cl_settings caller h).1 hc)
    unfold init
    rw [h1]; dsimp only; rw [this]; rfl
  · intro h1 h2 e h3
    unfold init
    rw [h1]; dsimp only; rw [(cl_settings caller h).2 h2, h3]; rfl
  · intro h1 h2 h3 h4
    have hne : checkHpi o h v.aligned ≠ none := fun hc => h4 ((cl_hpi o h v.aligned).1 hc)
    cases hc : checkHpi o h v.aligned with
    | none => exact absurd hc hne
    | some r =>
      have : (init o lib caller h v).ret = r := by
        unfold init
        rw [h1]; dsimp only; rw [(cl_settings caller h).2 h2, h3]; dsimp only; rw [hc]; rfl
      rw [this]
      unfold checkHpi at hc
      cases h with
      | none =>
        cases hm : o.mallocBuiltins <;> cases hk : o.clockBuiltins <;> simp [hm, hk] at hc <;> subst hc <;> simp
      | some x =>
        dsimp only at hc
        cases hm : x.malloc <;> cases hg : x.getTime <;> cases hb : o.mallocBuiltins <;> cases hk : o.clockBuiltins <;>
          simp only [hm, hg, hb, hk, Bool.false_eq_true, if_true, if_false, reduceCtorEq] at hc <;>
          (repeat' split at hc) <;> first | contradiction | (cases hc; done) | (injection hc with hc; subst hc; simp [hm, hg])

theorem cl_first_refused (mem : Nat → Bool) (n : Nat) :
    (∀ i, i < n → mem i = true) ∨ ∃ j, j < n ∧ mem j = false ∧ ∀ i, i < j → mem i = true := by
  induction n with
  | zero => exact Or.inl (fun i hi => absurd hi (by omega))
  | succ n ih =>
    rcases ih with h | ⟨j, h1, h2, h3⟩
    · cases hm : mem n with
      | true =>
        refine Or.inl fun i hi => ?_
        by_cases hin : i = n
        · rw [hin, hm]
        · exact h i (by omega)
      | false => exact Or.inr ⟨n, by omega, hm, h⟩
    · exact Or.inr ⟨j, by omega, h2, h3⟩

/-- C82: a call succeeds exactly when its arguments are acceptable, every allocation is granted and, with threads, the lock can be
made; the caller then has a context, and what is allocated is exactly what a context consists of. -/
theorem C82_init_ready (o : Opts) (lib caller : RT.Build) (h : Option Hpi) (v : Env) :
    ((init o lib caller h v).ret = .ok ↔
      Acceptable o lib caller h v ∧ (∀ i, i < (demand o).length → v.mem i = true) ∧ (o.threads = true → v.lockInit = .ok ())) ∧
    ((init o lib caller h v).ret = .ok →
      (init o lib caller h v).live.Perm (whole o) ∧ (init o lib caller h v).handle = true ∧ (init o lib caller h v).uninit = false) := by
  by_cases ha : Acceptable o lib caller h v
  · rw [cl_init_good ha]
    simp only [ha, true_and]
    obtain ⟨th, nm, mb, cb⟩ := o
    obtain ⟨mem, lk, cc, al⟩ := v
    rcases cl_first_refused mem (demand ⟨th, nm, mb, cb⟩).length with hm | ⟨j, hj, hj1, hj2⟩
    · cases nm <;> cases th <;> cases lk <;>
        simp only [demand, clCore, contextAlloc, tables, allocTables, nAlloc, undo, free1, List.length_cons, List.length_nil, List.length_append, List.append_nil, List.cons_append, List.nil_append, Bool.false_eq_true, if_false, if_true, Nat.reduceAdd] at hm ⊢ <;> simp [hm, whole] <;> exact hm
    · have hno : ¬ ∀ i, i < (demand ⟨th, nm, mb, cb⟩).length → mem i = true := fun q => by
        have := q j hj; rw [hj1] at this; cases this
      have hret : (clCore ⟨th, nm, mb, cb⟩ ⟨mem, lk, cc, al⟩).ret ≠ .ok := by
        clear hno
        cases nm <;> cases th <;> cases lk <;>
          simp only [demand, clCore, contextAlloc, tables, allocTables, nAlloc, undo, free1, List.length_cons, List.length_nil, List.length_append, List.append_nil, List.cons_append, List.nil_append, Bool.false_eq_true, if_false, if_true, Nat.reduceAdd] at hj ⊢
        all_goals
          have h8 : j = 0 ∨ j = 1 ∨ j = 2 ∨ j = 3 ∨ j = 4 ∨ j = 5 ∨ j = 6 ∨ j = 7 ∨ j = 8 := by omega
          rcases h8 with rfl | rfl | rfl | rfl | rfl | rfl | rfl | rfl | rfl <;> first | (exfalso; omega) | simp [hj1, hj2]
      exact ⟨⟨fun q => absurd q hret, fun q => absurd q.1 hno⟩, fun q => absurd q hret⟩
  · have := C82_refused_leaves_nothing o lib caller h v ha
    exact ⟨⟨fun hr => absurd hr this.1, fun hr => absurd hr.1 ha⟩, fun hr => absurd hr this.1⟩

/-- C82, full claim: a call that fails leaves nothing allocated.  Proved here for builds without threads, unless the allocation that
fails is that of the table of values or one of the family tables.  See `C82_finding_uninitialised` and
`C82_finding_threads_leak` for the other cases. -/
theorem C82_init_failure_partial (o : Opts) (lib caller : RT.Build) (h : Option Hpi) (v : Env) (ha : Acceptable o lib caller h v)
    (ht : o.threads = false) (j : Nat) (hj : FirstRefused v j) (hl : j < (demand o).length) (hx : j < 4 ∨ (demand o).length ≤ j + 2) :
    (init o lib caller h v).ret = .err .sysResourceFailed ∧ (init o lib caller h v).live = [] ∧ (init o lib caller h v).handle = false ∧
    (init o lib caller h v).uninit = false := by
  rw [cl_init_good ha]
  obtain ⟨th, nm, mb, cb⟩ := o
  obtain ⟨mem, lk, cc, al⟩ := v
  obtain ⟨hj1, hj2⟩ := hj
  simp only at hj1 hj2 ht
  subst ht
  cases nm <;>
    simp only [demand, clCore, contextAlloc, tables, allocTables, nAlloc, undo, free1, List.length_cons, List.length_nil, List.length_append, List.append_nil, List.cons_append, List.nil_append, Bool.false_eq_true, if_false, if_true, Nat.reduceAdd] at hl hx ⊢
  all_goals
    have h8 : j = 0 ∨ j = 1 ∨ j = 2 ∨ j = 3 ∨ j = 4 ∨ j = 5 ∨ j = 6 ∨ j = 7 ∨ j = 8 := by omega
    rcases h8 with rfl | rfl | rfl | rfl | rfl | rfl | rfl | rfl | rfl <;> first | (exfalso; omega) | simp [hj1, hj2]

/-- C82 (finding): without threads, when the table of values or a family table cannot be allocated, undoing the call reads the rule
table, which nobody has written yet. -/
theorem C82_finding_uninitialised (o : Opts) (lib caller : RT.Build) (h : Option Hpi) (v : Env) (ha : Acceptable o lib caller h v)
    (ht : o.threads = false) (j : Nat) (hj : FirstRefused v j) (hx : 4 ≤ j ∧ j + 2 < (demand o).length) :
    (init o lib caller h v).uninit = true := by
  rw [cl_init_good ha]
  obtain ⟨th, nm, mb, cb⟩ := o
  obtain ⟨mem, lk, cc, al⟩ := v
  obtain ⟨hj1, hj2⟩ := hj
  simp only at hj1 hj2 ht
  subst ht
  cases nm <;>
    simp only [demand, clCore, contextAlloc, tables, allocTables, nAlloc, undo, free1, List.length_cons, List.length_nil, List.length_append, List.append_nil, List.cons_append, List.nil_append, Bool.false_eq_true, if_false, if_true, Nat.reduceAdd] at hx ⊢
  all_goals
    have h8 : j = 4 ∨ j = 5 ∨ j = 6 := by omega
    rcases h8 with rfl | rfl | rfl <;> first | (exfalso; omega) | simp [hj1, hj2]

/-- C82 (finding): with threads, a call that fails after its first allocation frees nothing: everything obtained so far stays
allocated, and so does a context whose lock could not be made. -/
theorem C82_finding_threads_leak (o : Opts) (lib caller : RT.Build) (h : Option Hpi) (v : Env) (ha : Acceptable o lib caller h v)
    (ht : o.threads = true) :
    (v.lockInit = .ok () → ∀ j, FirstRefused v j → 0 < j → j < (demand o).length →
      (init o lib caller h v).ret = .err .sysResourceFailed ∧ (init o lib caller h v).live.Perm ((demand o).take j)) ∧
    (∀ e, v.lockInit = .error e → (∀ i, i < (demand o).length → v.mem i = true) →
      (init o lib caller h v).ret = .err e ∧ (init o lib caller h v).live.Perm ((demand o).take ((demand o).length - 2))) := by
  rw [cl_init_good ha]
  obtain ⟨th, nm, mb, cb⟩ := o
  obtain ⟨mem, lk, cc, al⟩ := v
  simp only at ht
  subst ht
  constructor
  · intro hlk j hj h0 hl
    obtain ⟨hj1, hj2⟩ := hj
    simp only at hj1 hj2 hlk
    subst hlk
    cases nm <;>
      simp only [demand, clCore, contextAlloc, tables, allocTables, nAlloc, undo, free1, List.length_cons, List.length_nil, List.length_append, List.append_nil, List.cons_append, List.nil_append, Bool.false_eq_true, if_false, if_true, Nat.reduceAdd] at hl ⊢
    all_goals
      have h8 : j = 1 ∨ j = 2 ∨ j = 3 ∨ j = 4 ∨ j = 5 ∨ j = 6 ∨ j = 7 ∨ j = 8 := by omega
      rcases h8 with rfl | rfl | rfl | rfl | rfl | rfl | rfl | rfl <;> first | (exfalso; omega) | (simp [hj1, hj2]; try decide)
  · intro e hlk hm
    simp only at hlk hm
    subst hlk
    cases nm <;>
      simp only [demand, clCore, contextAlloc, tables, allocTables, nAlloc, undo, free1, List.length_cons, List.length_nil, List.length_append, List.append_nil, List.cons_append, List.nil_append, Bool.false_eq_true, if_false, if_true, Nat.reduceAdd] at hm ⊢ <;> simp [hm]

/-- Acceptable arguments exist, and every allocation can be the first refused. -/
theorem C82_example : ∃ lib : RT.Build, ∀ (mem : Nat → Bool) (o : Opts), o.mallocBuiltins = true → o.clockBuiltins = true →
    Acceptable o lib lib none { mem := mem } := by
  refine ⟨⟨1, 0⟩, ?_⟩
  intro mem o h1 h2
  exact ⟨by decide, (fun x hx => by cases hx), rfl, h1, h2⟩

/-! ### shutting down -/

/-- C82: a shutdown that is refused, because the lock cannot be had or because somebody uses the context, leaves the context as it is. -/
theorem C82_shutdown_refused (o : Opts) (lk : Except Err Lock) (w : World) :
    ((shutdown o lk w).1 = .ok () ↔ (o.threads = true → ∃ l, lk = .ok l ∧ l.holds = 1 ∧ l.readers = 0 ∧ l.writers = 0)) ∧
    (∀ e, (shutdown o lk w).1 = .error e → (shutdown o lk w).2 = w ∧ (lk = .error e ∨ e = .busy)) := by
  unfold shutdown
  cases ht : o.threads with
  | false => simp
  | true =>
    cases lk with
    | error e => simp
    | ok l =>
      simp only [if_true]
      by_cases hc : l.holds ≠ 1 ∨ l.readers ≠ 0 ∨ l.writers ≠ 0
      · rw [if_pos hc]
        refine ⟨⟨fun q => (by cases q), fun q => ?_⟩, ?_⟩
        · obtain ⟨l', h1, h2, h3, h4⟩ := q trivial
          cases h1
          omega
        · intro e he
          cases he
          exact ⟨rfl, Or.inr rfl⟩
      · rw [if_neg hc]
        refine ⟨⟨fun _ _ => ⟨l, rfl, by omega, by omega, by omega⟩, fun _ => rfl⟩, fun e he => ?_⟩
        cases he

theorem cl_shutdown_ok (o : Opts) (lk : Except Err Lock) (w : World) (hok : (shutdown o lk w).1 = .ok ()) :
    (shutdown o lk w).2.blocks = (free1 o true true w.blocks).1 ∧
    (shutdown o lk w).2.heap =
      giveUp (giveUp (freeEnts (freeEnts (freeEnts (freeEnts (freeEnts w.heap w.routes) w.actions) w.events) w.values) w.families) w.fallthrough) w.default := by
  unfold shutdown at hok ⊢
  split at hok
  · cases hok
  · split at hok
    · cases hok
    · next hc => rw [if_neg hc]; exact ⟨rfl, rfl⟩

/-- C82: a successful shutdown frees nothing a caller still holds, nor anything it refers to, and leaves its references intact. -/
theorem C82_shutdown_keeps_held (o : Opts) (lk : Except Err Lock) (w : World) (hs : Settled w) (hok : (shutdown o lk w).1 = .ok ())
    (x : Nat) (hx : Kept w x) :
    ((shutdown o lk w).2.heap.objs x).live = true ∧ ((shutdown o lk w).2.heap.objs x).refs = (w.heap.objs x).refs := by
  obtain ⟨f1, f2, f3⟩ := shutdown_heap hs (cl_shutdown_ok o lk w hok).2
  have hl : ((shutdown o lk w).2.heap.objs x).live = true := by
    induction hx with
    | held x h =>
      rw [C29_live_iff_referenced _ f1.reach]
      refine Or.inr (Or.inl ?_)
      rw [f2]; omega
    | through y x hy hx ih =>
      rw [C29_live_iff_referenced _ f1.reach]
      refine Or.inr (Or.inr (Or.inl ⟨y, ih, ?_⟩))
      rw [(f1.lives y ih).2]
      exact hx
  exact ⟨hl, (f1.lives x hl).2⟩

/-- C82: a successful shutdown frees the context's memory and every object that is not held, provided no object refers to itself. -/
theorem C82_shutdown_frees (o : Opts) (lk : Except Err Lock) (w : World) (hs : Settled w) (hb : .builtin ∉ w.blocks)
    (hok : (shutdown o lk w).1 = .ok ()) (hc : NoCycle w.heap) :
    (shutdown o lk w).2.blocks = [] ∧ ∀ x, ((shutdown o lk w).2.heap.objs x).live = true ↔ Kept w x := by
  obtain ⟨e1, e2⟩ := cl_shutdown_ok o lk w hok
  obtain ⟨f1, f2, f3⟩ := shutdown_heap hs e2
  constructor
  · rw [e1]
    simp only [free1, Bool.not_true, Bool.and_false, Bool.false_eq_true, if_false]
    rw [List.filter_eq_nil_iff]
    intro b hb' hbe
    simp at hbe
    subst hbe
    exact hb hb'
  · intro x
    refine ⟨?_, fun hk => (C82_shutdown_keeps_held o lk w hs hok x hk).1⟩
    -- a live object is held, or an object higher up refers to it
    obtain ⟨r, hr⟩ := hc
    obtain ⟨B, hB⟩ : ∃ B, ∀ y, y < w.heap.next → r y ≤ B := by
      generalize w.heap.next = n
      induction n with
      | zero => exact ⟨0, fun y hy => absurd hy (by omega)⟩
      | succ n ih =>
        obtain ⟨B, hB⟩ := ih
        refine ⟨B + r n, fun y hy => ?_⟩
        by_cases hyn : y = n
        · subst hyn; omega
        · have := hB y (by omega); omega
    have key : ∀ k x, B - r x < k → ((shutdown o lk w).2.heap.objs x).live = true → Kept w x := by
      intro k
      induction k with
      | zero => intro x hk; omega
      | succ k ih =>
        intro x hk hl
        rw [C29_live_iff_referenced _ f1.reach] at hl
        rcases hl with h1 | h1 | ⟨y, hy, hm⟩ | h1
        · rw [f3] at h1; cases h1
        · exact .held x (by rw [f2] at h1; omega)
        · have hm' := hm
          rw [(f1.lives y hy).2] at hm'
          have hlt := hr y x hm'
          have hyn := (reach_inv hs.reach).lt_next (((reach_inv hs.reach).live y).1 (f1.lives y hy).1)
          have := hB y hyn
          exact .through y x (ih y (by omega) hy) hm'
        · rw [f1.quiet] at h1; cases h1
    exact key (B - r x + 1) x (by omega)

/-- C82: with no cycle and no caller holding anything, nothing at all is left. -/
theorem C82_shutdown_leaves_nothing (o : Opts) (lk : Except Err Lock) (w : World) (hs : Settled w) (hb : .builtin ∉ w.blocks)
    (hok : (shutdown o lk w).1 = .ok ()) (hc : NoCycle w.heap) (hh : ∀ x, w.heap.handles x = (own w).count x) :
    (shutdown o lk w).2.blocks = [] ∧ ∀ x, ((shutdown o lk w).2.heap.objs x).live = false := by
  obtain ⟨h1, h2⟩ := C82_shutdown_frees o lk w hs hb hok hc
  refine ⟨h1, fun x => ?_⟩
  have hk : ∀ x, ¬ Kept w x := by
    intro x hk
    induction hk with
    | held x h => have := hh x; omega
    | through y x hy hx ih => exact ih
  cases hl : ((shutdown o lk w).2.heap.objs x).live with
  | false => rfl
  | true => exact absurd ((h2 x).1 hl) (hk x)

/-- The context just made is a context between two calls. -/
theorem C82_fresh_settled (out : CL.Out) : Settled (fresh out) ∧ NoCycle (fresh out).heap ∧ .builtin ∉ (fresh out).blocks ∧
    (∀ x, (fresh out).heap.handles x = (own (fresh out)).count x) := by
  have hobjs : ∀ x, (fresh out).heap.objs x = if x = 1 then { rc := 1, live := true, inTable := true } else if x = 0 then { rc := 1, live := true } else {} := by
    intro x
    by_cases h1 : x = 1
    · subst h1; rfl
    · by_cases h0 : x = 0
      · subst h0; rfl
      · simp [fresh, RC.step, Heap.setObj, Heap.setHandles, h1, h0]
  have hh : ∀ x, (fresh out).heap.handles x = if x = 0 then 1 else 0 := by
    intro x
    by_cases h1 : x = 1
    · subst h1; rfl
    · by_cases h0 : x = 0
      · subst h0; rfl
      · simp [fresh, RC.step, Heap.setObj, Heap.setHandles, h1, h0]
  refine ⟨⟨?_, rfl, by simp [entries, fresh], ?_, ?_⟩, ⟨fun _ => 0, ?_⟩, ?_, ?_⟩
  · exact Reach.step _ _ (Reach.step _ _ (Reach.step _ _ Reach.init trivial) trivial) (by simp [Enabled, RC.step, Heap.setObj, Heap.setHandles])
  · intro x
    rw [hobjs]
    by_cases h1 : x = 1
    · simp [h1, entries, fresh]
    · by_cases h0 : x = 0 <;> simp [h1, h0, entries, fresh]
  · intro x
    rw [hh]
    by_cases h0 : x = 0
    · subst h0; simp [own, fresh]
    · have : List.count x (own (fresh out)) = 0 := by simp [own, fresh, Ne.symm h0]
      omega
  · intro y x hx
    rw [hobjs] at hx
    by_cases h1 : y = 1
    · simp [h1] at hx
    · by_cases h0 : y = 0 <;> simp [h1, h0] at hx
  · simp [fresh]
  · intro x
    rw [hh]
    by_cases h0 : x = 0
    · subst h0; simp [own, fresh]
    · simp [own, fresh, h0, Ne.symm h0]

/-- C82: a context that is made and shut down leaves nothing behind. -/
theorem C82_init_then_shutdown (o : Opts) (lib caller : RT.Build) (h : Option Hpi) (v : Env) (lk : Except Err Lock)
    (hok : (shutdown o lk (fresh (init o lib caller h v))).1 = .ok ()) :
    (shutdown o lk (fresh (init o lib caller h v))).2.blocks = [] ∧
    ∀ x, ((shutdown o lk (fresh (init o lib caller h v))).2.heap.objs x).live = false := by
  obtain ⟨h1, h2, h3, h4⟩ := C82_fresh_settled (init o lib caller h v)
  exact C82_shutdown_leaves_nothing o lk _ h1 h3 hok h2 h4

/-- A context in use: an event (2), a rule (3) under it, both in their tables, and a caller who holds the event. -/
def clDemoHeap : Heap := runActs {} [.create, .create, .insertTable 1, .create, .insertTable 2, .create, .acquire 2, .link 3 2, .insertTable 3, .acquire 2]
def clDemo : World := { blocks := [.context, .events, .actions, .routes, .values, .byNumber], heap := clDemoHeap, routes := [3], actions := [1], events := [2], fallthrough := some 0 }

theorem clDemo_objs (x : Nat) : clDemoHeap.objs x =
    if x = 3 then { rc := 1, live := true, inTable := true, refs := [2] } else if x = 2 then { rc := 3, live := true, inTable := true }
    else if x = 1 then { rc := 1, live := true, inTable := true } else if x = 0 then { rc := 1, live := true } else {} := by
  by_cases h3 : x = 3
  · subst h3; rfl
  by_cases h2 : x = 2
  · subst h2; rfl
  by_cases h1 : x = 1
  · subst h1; rfl
  by_cases h0 : x = 0
  · subst h0; rfl
  simp [clDemoHeap, runActs, RC.step, acquire, refInc, maxRef, Heap.setObj, Heap.setHandles, h1, h0, h2, h3]

theorem clDemo_handles (x : Nat) : clDemoHeap.handles x = if x = 0 then 1 else if x = 2 then 1 else 0 := by
  by_cases h3 : x = 3
  · subst h3; rfl
  by_cases h2 : x = 2
  · subst h2; rfl
  by_cases h1 : x = 1
  · subst h1; rfl
  by_cases h0 : x = 0
  · subst h0; rfl
  simp [clDemoHeap, runActs, RC.step, acquire, refInc, maxRef, Heap.setObj, Heap.setHandles, h1, h0, h2, h3]

/-- C82: the hypotheses are met by a context in use; after its shutdown the event the caller holds is there, and the rule is not. -/
theorem C82_demo (o : Opts) : Settled clDemo ∧ NoCycle clDemo.heap ∧ .builtin ∉ clDemo.blocks ∧ (shutdown o (.ok {}) clDemo).1 = .ok () ∧
    ((shutdown o (.ok {}) clDemo).2.heap.objs 2).live = true ∧ ((shutdown o (.ok {}) clDemo).2.heap.objs 3).live = false := by
  have hs : Settled clDemo := by
    refine ⟨?_, rfl, by decide, ?_, ?_⟩
    · show Reach clDemoHeap
      unfold clDemoHeap runActs
      simp only [List.foldl]
      repeat (refine Reach.step _ _ ?_ (by simp [Enabled, step, acquire, decrement, refInc, maxRef, Heap.setObj, Heap.setHandles]))
      exact Reach.init
    · intro x
      show (clDemoHeap.objs x).inTable = true ↔ _
      rw [clDemo_objs]
      simp only [entries, clDemo]
      by_cases h3 : x = 3
      · simp [h3]
      by_cases h2 : x = 2
      · simp [h2]
      by_cases h1 : x = 1
      · simp [h1]
      by_cases h0 : x = 0 <;> simp [h1, h0, h2, h3]
    · intro x
      show _ ≤ clDemoHeap.handles x
      rw [clDemo_handles]
      by_cases h0 : x = 0
      · subst h0; decide
      · have : List.count x (own clDemo) = 0 := by simp [own, clDemo, Ne.symm h0]
        omega
  have hn : NoCycle clDemo.heap := by
    refine ⟨fun x => x, ?_⟩
    intro y x hx
    replace hx : x ∈ (clDemoHeap.objs y).refs := hx
    rw [clDemo_objs] at hx
    by_cases h3 : y = 3
    · simp [h3] at hx; subst hx; subst h3; decide
    by_cases h2 : y = 2
    · simp [h2] at hx
    by_cases h1 : y = 1
    · simp [h1] at hx
    by_cases h0 : y = 0 <;> simp [h1, h0, h2, h3] at hx
  have hok : (shutdown o (.ok {}) clDemo).1 = .ok () := by
    rw [(C82_shutdown_refused o (.ok {}) clDemo).1]
    exact fun _ => ⟨{}, rfl, rfl, rfl, rfl⟩
  have hb : Block.builtin ∉ clDemo.blocks := by decide
  obtain ⟨_, h2⟩ := C82_shutdown_frees o (.ok {}) clDemo hs hb hok hn
  refine ⟨hs, hn, hb, hok, (h2 2).2 (.held 2 (by decide)), ?_⟩
  cases hl : ((shutdown o (.ok {}) clDemo).2.heap.objs 3).live with
  | false => rfl
  | true =>
    exfalso
    have hk := (h2 3).1 hl
    have : ∀ x, Kept clDemo x → x = 2 := by
      intro x hx
      induction hx with
      | held x h =>
        replace h : _ < clDemoHeap.handles x := h
        rw [clDemo_handles] at h
        by_cases h0 : x = 0
        · subst h0; exact absurd h (by decide)
        · by_cases h2 : x = 2
          · exact h2
          · simp [h0, h2] at h
      | through y x hy hx ih =>
        subst ih
        replace hx : x ∈ (clDemoHeap.objs 2).refs := hx
        rw [clDemo_objs] at hx
        simp at hx
    exact absurd (this 3 hk) (by decide)

/-- C82 (finding): an object that refers to itself, such as an event that is its own auxiliary event, survives every shutdown. -/
theorem C82_finding_cycle_survives (o : Opts) (lk : Except Err Lock) (w : World) (hs : Settled w) (hok : (shutdown o lk w).1 = .ok ())
    (x : Nat) (hx : x ∈ (w.heap.objs x).refs) : ((shutdown o lk w).2.heap.objs x).live = true := by
  obtain ⟨f1, _, _⟩ := shutdown_heap hs (cl_shutdown_ok o lk w hok).2
  exact C29_self_reference_leaks _ f1.reach x (self_shutdown hs hx (cl_shutdown_ok o lk w hok).2)

end WS.Props
