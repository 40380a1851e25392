import Verif.Proof.Thread
import Verif.Proof.ThreadRo
import Verif.Proof.Dispatch
import Verif.Props.RwLock
/-
C69 identities of thread contexts, C70 deadlines and the end of a context, C71 lock queries and read-only
threads.
-/
namespace WS.Props
open WS WS.Thread WS.Spec.Thread

/-! ## C69 — identities -/

/-- C69: under every interleaving of initialisations and destructions, contexts in use have different,
non-zero identities, as long as fewer than 2^24 - 1 contexts have been initialised without help of the host.
(Beyond that: `C69_identities_repeat`.) -/
theorem C69_identities_distinct_partial {n : Nat} {s : Ids} (h : Spec.Thread.Reach n s) (hn : n < 2 ^ 24 - 1) : Distinct s :=
  (reach_inv h (by omega)).1.distinct
/-- Three contexts, the middle one destroyed while another is being initialised. -/
example : ∃ s, Spec.Thread.Reach 3 s ∧ inUse (s.slots 0) = some (0#64 - 1#64) ∧ inUse (s.slots 1) = some (0#64 - 2#64) ∧
    inUse (s.slots 2) = some (0#64 - 2#64 - 1#64 + 1#64 - 1#64) ∧ s.slots 1 = .leaving (0#64 - 2#64) true := by
  refine ⟨_, .step (c := .start 2 0#64) (.step (c := .test 1) (.step (c := .start 1 0#64) (.step (c := .start 0 0#64) .init
    (by intro h; exact absurd rfl h) rfl) (by intro h; exact absurd rfl h) rfl) trivial rfl) (by intro h; exact absurd rfl h) rfl, ?_, ?_, ?_, ?_⟩ <;> decide

/-- C69: contexts that come and go like interrupt handlers, the newest going first, can do so for ever: their
identities differ, and when all are gone the counter is where it was. -/
theorem C69_nested_for_ever {st : List Nat} {s : Ids} (h : Nested st s) :
    Distinct s ∧ (∀ k, inUse (s.slots k) ≠ none ↔ k ∈ st) ∧ (st = [] → s.counter = 0#64) := by
  have i := nest_inv h
  refine ⟨i.inv.distinct, ?_, ?_⟩
  · intro k
    constructor
    · intro hk
      apply Classical.byContradiction
      intro hm
      rw [i.rest k hm] at hk
      exact hk rfl
    · intro hk
      have : ∀ l : List Nat, Stacked s l → k ∈ l → inUse (s.slots k) ≠ none := by
        intro l
        induction l with
        | nil => intro _ hm; cases hm
        | cons a l ih =>
          intro h1 hm
          rcases List.mem_cons.1 hm with h2 | h2
          · subst h2
            obtain ⟨⟨id, h3, _⟩, _⟩ := h1
            rcases h3 with h3 | h3 <;> rw [h3] <;> simp [inUse]
          · exact ih h1.2.2 h2
      exact this st i.stk hk
  · intro hs
    have := i.cnt
    rw [hs] at this
    exact below_inj (by rw [this]; rfl)
example : ∃ s s', Nested [1, 0] s ∧ s.counter = 0#64 - 2#64 ∧ Nested [0] s' ∧ s'.counter = 0#64 - 1#64 := by
  have h : Nested [1, 0] _ := .enter (k := 1) (.enter (k := 0) .init (by decide) rfl) (by decide) rfl
  have h2 : Nested [1, 0] _ := Nested.test h rfl
  exact ⟨_, _, h, by decide, Nested.leave h2 rfl, by decide⟩

/-- C69: the calls as a single thread sees them are runs of the atomic steps. -/
theorem C69_calls_are_steps (s : Ids) (k : Nat) (host : Id) (flags : Flags) (user : Option Nat) (h : s.slots k = .absent) :
    ∃ s', runs s (if host = 0#64 ∧ s.counter - 1#64 = WRAP then [.start k host, .bump k] else [.start k host]) = some s' ∧
      inUse (s'.slots k) = some (initCtx s.counter host flags user).1.id ∧ s'.counter = (initCtx s.counter host flags user).2.1 ∧
      (∀ j, j ≠ k → s'.slots j = s.slots j) := by
  by_cases h0 : host = NO_ID
  · subst h0
    by_cases hw : s.counter - 1#64 = WRAP
    · rw [if_pos ⟨rfl, hw⟩]
      refine ⟨setSlot { s with counter := WRAP + 0xffffff#64 } k (.live WRAP true), ?_, ?_, ?_, ?_⟩
      · simp only [runs, idStep, h, ne_eq, not_true, if_false, hw, if_true, Option.bind_some, setSlot_eq]
        simp only [setSlot]
        congr 2
        funext j
        by_cases hj : j = k <;> simp [hj]
      · rw [setSlot_eq]; simp [inUse, initCtx, hw]
      · simp [initCtx, hw, setSlot]
      · intro j hj; rw [setSlot_ne _ _ hj]
    · rw [if_neg (by intro hc; exact hw hc.2)]
      refine ⟨setSlot { s with counter := s.counter - 1#64 } k (.live (s.counter - 1#64) true), ?_, ?_, ?_, ?_⟩
      · simp [runs, idStep, h, hw]
      · rw [setSlot_eq]; simp [inUse, initCtx]
      · simp [initCtx, hw, setSlot]
      · intro j hj; rw [setSlot_ne _ _ hj]
  · have h1 : ¬ host = 0#64 := h0
    rw [if_neg (by intro hc; exact h1 hc.1)]
    refine ⟨setSlot s k (.live host false), ?_, ?_, ?_, ?_⟩
    · simp [runs, idStep, h, h0]
    · rw [setSlot_eq]; simp [inUse, initCtx, h0]
    · simp [initCtx, h0, setSlot]
    · intro j hj; rw [setSlot_ne _ _ hj]

/-- C69: so is the end of a context that holds nothing. -/
theorem C69_end_is_steps (s : Ids) (k : Nat) (c : Ctx) (c' : Ctx) (n' : Id) (fb : Bool) (h : s.slots k = .live c.id fb)
    (hd : destroy s.counter c = .ok (c', n')) :
    ∃ s', runs s (if c.id = s.counter then [.test k, .swap k] else [.test k]) = some s' ∧
      s'.slots k = .absent ∧ s'.counter = n' ∧ c'.id = 0#64 ∧ (∀ j, j ≠ k → s'.slots j = s.slots j) := by
  have hn : n' = (if c.id = s.counter then c.id + 1#64 else s.counter) ∧ c' = {} := by
    unfold destroy inited at hd
    repeat' split at hd
    all_goals first | (cases hd; done) | (rename_i hx; cases hd)
    · exact ⟨by rw [if_pos hx], rfl⟩
    · exact ⟨by rw [if_neg hx], rfl⟩
  obtain ⟨hn, hc'⟩ := hn
  by_cases he : c.id = s.counter
  · rw [if_pos he] at hn ⊢
    refine ⟨setSlot { s with counter := c.id + 1#64 } k .absent, ?_, setSlot_eq _ _ _, hn.symm, by rw [hc']; rfl, ?_⟩
    · simp only [runs, idStep, h, he, if_true, Option.bind_some, setSlot_eq, setSlot_counter]
      simp only [setSlot]
      congr 2
      funext j
      by_cases hj : j = k <;> simp [hj]
    · intro j hj; rw [setSlot_ne _ _ hj]
  · rw [if_neg he] at hn ⊢
    refine ⟨setSlot s k .absent, ?_, setSlot_eq _ _ _, hn.symm, by rw [hc']; rfl, ?_⟩
    · simp [runs, idStep, h, he]
    · intro j hj; rw [setSlot_ne _ _ hj]
example : destroy 7#64 { id := 7#64, deadline := NEVER } = .ok ({}, 8#64) := by decide

/-- Finding: with never more than three contexts in use, contexts that go in the order they came use the
identities up; after 2^24 - 1 of them a context gets the identity of one that is still in use. -/
theorem C69_identities_repeat : ∃ cs s id, (∀ c ∈ cs, slotOf c < 3) ∧ runs {} cs = some s ∧ (∃ n, Spec.Thread.Reach n s) ∧
    inUse (s.slots 0) = some id ∧ inUse (s.slots 1) = some id := by
  have hb : below (0#64 - 1#64) = 1 := by decide
  obtain ⟨c, hr, hc⟩ := rounds_runs 0xfffffc (a := 0#64 - 1#64) (c := 0#64 - 1#64) (by rw [hb]; decide)
  obtain ⟨s, hf, h0, h1⟩ := finale_runs (a := 0#64 - 1#64) (c := c) (by rw [hc, hb])
  have hfirst : runs {} [.start 0 0#64] = some (base (0#64 - 1#64) (0#64 - 1#64)) := by
    have hw : ¬ (0#64 - 1#64 = WRAP) := by decide
    simp only [runs, idStep, NO_ID, ne_eq, not_true, if_false, Option.bind_some, hw, setSlot, base]
  have hall : runs {} ([.start 0 0#64] ++ (rounds 0xfffffc ++ finale)) = some s := by
    rw [runs_append, hfirst, Option.bind_some, runs_append, hr, Option.bind_some, hf]
  have hslots : ∀ c ∈ [Step.start 0 0#64] ++ (rounds 0xfffffc ++ finale), slotOf c < 3 ∧ ∀ k h, c = .start k h → h = 0#64 := by
    intro c hc
    rcases List.mem_append.1 hc with hc | hc
    · simp only [List.mem_cons, List.not_mem_nil, or_false] at hc
      subst hc
      exact ⟨by simp [slotOf], fun k x hx => by cases hx; rfl⟩
    · rcases List.mem_append.1 hc with hc | hc
      · exact rounds_slots _ c hc
      · simp only [finale, List.mem_cons, List.not_mem_nil, or_false] at hc
        rcases hc with hc | hc | hc | hc | hc <;> subst hc <;> refine ⟨by simp [slotOf], ?_⟩ <;> intro k x hx <;> cases hx <;> rfl
  refine ⟨_, s, 0#64 - 1#64, fun c hc => (hslots c hc).1, hall, ?_, by rw [h0]; rfl, by rw [h1]; rfl⟩
  exact runs_reach (fun c hc => (hslots c hc).2) .init hall

/-- Why it matters: the lock knows threads by their identity only, so a second context with the identity of
the exclusive holder is let in at once, whatever its own records say. -/
theorem C69_same_identity_is_let_in (t : RW.Tid) (l : RW.Lock) (x : RW.Thr) (w : RW.Wait) (h : l.st = .exclusive) (hw : l.wh = some t) :
    (RW.callOp t l x (.lockMutex w false)).2.2 = some .ok ∧ (RW.callOp t l x (.lockShared .no w false false)).2.2 = some .ok := by
  simp [RW.callOp, RW.sharedEntry, RW.mutexEntry, h, hw, RW.fin]

/-! ## C70 — deadlines -/

theorem deadline_or (f : Flags) : (f ||| DEADLINE).has DEADLINE = true := by
  unfold DEADLINE
  rw [has_of_bit (k := 0) rfl (by decide), getLsbD_or_bit _ _ _ (by decide)]; simp
theorem deadline_clear (f : Flags) : (f &&& ~~~DEADLINE).has DEADLINE = false := by
  unfold DEADLINE
  rw [has_of_bit (k := 0) rfl (by decide), BitVec.getLsbD_and, BitVec.getLsbD_not, bit_getLsbD _ _ (by decide)]; simp
theorem deadline_other_or (f : Flags) (k : Nat) (h : k ≠ 0) : (f ||| DEADLINE).getLsbD k = f.getLsbD k := by
  unfold DEADLINE; rw [getLsbD_or_bit _ _ _ (by decide)]; simp [Ne.symm h]
theorem deadline_other_clear (f : Flags) (k : Nat) (h : k ≠ 0) : (f &&& ~~~DEADLINE).getLsbD k = f.getLsbD k := by
  unfold DEADLINE
  rw [BitVec.getLsbD_and, BitVec.getLsbD_not, bit_getLsbD _ _ (by decide)]
  by_cases hk : k < 32
  · simp [Ne.symm h, hk]
  · rw [BitVec.getLsbD_of_ge _ _ (by omega)]; rfl

/-- C70: an absolute deadline is accepted exactly when it is a moment other than the two reserved ones; it is
then what the context reports, and nothing else of the context changes. -/
theorem C70_absolute {c : Ctx} (hi : c.id ≠ 0#64) (sec nsec : Int) :
    (∃ d, setDeadlineAbs c sec nsec = .ok d ∧ getDeadline d = .ok ⟨sec, nsec⟩ ∧ SameButDeadline c d) ↔
      (0 ≤ nsec ∧ nsec < 1000000000 ∧ sec ≠ -1 ∧ sec ≠ -2) := by
  have hi' : ¬ c.id = NO_ID := hi
  unfold setDeadlineAbs inited
  rw [if_neg hi']
  constructor
  · rintro ⟨d, h, _⟩
    split at h
    · cases h
    · split at h
      · cases h
      · rename_i h1 h2
        omega
  · rintro ⟨h1, h2, h3, h4⟩
    rw [if_neg (by omega), if_neg (by omega)]
    refine ⟨_, rfl, ?_, rfl, rfl, rfl, rfl, rfl, rfl, fun k hk => deadline_other_or _ k hk⟩
    simp [getDeadline, inited, hi', deadline_or]
example : setDeadlineAbs { id := 5#64 } 1700000000 999999999 = .ok { id := 5#64, deadline := ⟨1700000000, 999999999⟩, flags := 1 } := by decide
/-- Anything else is refused. -/
theorem C70_absolute_refused {c : Ctx} {sec nsec : Int} (h : nsec < 0 ∨ 1000000000 ≤ nsec ∨ sec = -1 ∨ sec = -2) :
    setDeadlineAbs c sec nsec = .error .invalidArg := by
  unfold setDeadlineAbs inited
  split
  · rfl
  · split
    · rfl
    · rw [if_pos (by omega)]

/-- C70: a deadline in the future is the present time plus the interval, in epoch time; an interval of zero is
reported as (-2, -2); a negative one, and failures of the clock, are refused. -/
theorem C70_relative (T : Clock) {c : Ctx} (hi : c.id ≠ 0#64) (usecs : Int) :
    (usecs < 0 → setDeadlineRel T c usecs = .error .invalidArg) ∧
    (usecs = 0 → ∃ d, setDeadlineRel T c usecs = .ok d ∧ getDeadline d = .ok ⟨-2, -2⟩ ∧ SameButDeadline c d) ∧
    (0 < usecs → ∀ now ts, T.now = .ok now → T.epoch (T.add now usecs) = .ok ts →
      ∃ d, setDeadlineRel T c usecs = .ok d ∧ getDeadline d = .ok ts ∧ SameButDeadline c d) ∧
    (0 < usecs → (∃ e, T.now = .error e) ∨ (∃ now e, T.now = .ok now ∧ T.epoch (T.add now usecs) = .error e) →
      ∃ e, setDeadlineRel T c usecs = .error e) := by
  have hi' : ¬ c.id = NO_ID := hi
  unfold setDeadlineRel inited
  rw [if_neg hi']
  refine ⟨fun h => by rw [if_pos h], ?_, ?_, ?_⟩
  · intro h
    rw [if_neg (by omega), if_neg (by omega)]
    refine ⟨_, rfl, ?_, rfl, rfl, rfl, rfl, rfl, rfl, fun k hk => deadline_other_or _ k hk⟩
    simp [getDeadline, inited, hi', deadline_or, NOW]
  · intro h now ts h1 h2
    rw [if_neg (by omega), if_pos h, h1]
    simp only [h2]
    refine ⟨_, rfl, ?_, rfl, rfl, rfl, rfl, rfl, rfl, fun k hk => deadline_other_or _ k hk⟩
    simp [getDeadline, inited, hi', deadline_or]
  · intro h h1
    rw [if_neg (by omega), if_pos h]
    rcases h1 with ⟨e, h1⟩ | ⟨now, e, h1, h2⟩
    · rw [h1]; exact ⟨e, rfl⟩
    · rw [h1]; simp only [h2]; exact ⟨e, rfl⟩

/-- The library's own clock. -/
def builtinClock (now : Int) : Clock where
  now := .ok now
  add := fun a b => a + b
  epoch := fun t => match Time.toEpoch t with
    | .ok (s, n) => .ok ⟨s, n⟩
    | .err e => .error e
    | .ub => .error .overflowAverted
/-- C70: with the library's clock the deadline is exact, and a proper moment, for every present time after
1970 that leaves room. -/
theorem C70_relative_exact {c : Ctx} (hi : c.id ≠ 0#64) (now usecs : Int) (hn : 0 ≤ now) (hu : 0 < usecs)
    (hm : now + usecs ≤ 9223372036854775807) :
    ∃ d ts, setDeadlineRel (builtinClock now) c usecs = .ok d ∧ getDeadline d = .ok ts ∧ Proper ts ∧
      ts.sec * 1000000 + ts.nsec / 1000 = now + usecs ∧ ts.nsec % 1000 = 0 := by
  have he : Time.toEpoch (now + usecs) = .ok ((now + usecs) / 1000000, (now + usecs) % 1000000 * 1000) := by
    unfold Time.toEpoch Time.chk Time.Res.bind
    rw [Int.tdiv_eq_ediv_of_nonneg (by omega), Int.tmod_eq_emod_of_nonneg (by omega)]
    rw [if_neg (by simp only [Time.I64_MAX]; omega), if_pos (by simp only [Time.I64_MAX, Time.I64_MIN]; omega)]
    simp only
    rw [if_pos (by simp only [Time.I64_MAX, Time.I64_MIN]; omega)]
  obtain ⟨d, h1, h2, _⟩ := (C70_relative (builtinClock now) hi usecs).2.2.1 hu now ⟨(now + usecs) / 1000000, (now + usecs) % 1000000 * 1000⟩ rfl
    (by simp only [builtinClock, he])
  refine ⟨d, _, h1, h2, ⟨?_, ?_⟩, ?_, ?_⟩ <;> simp only <;> omega
example : ∃ d, setDeadlineRel (builtinClock 1700000000123456) { id := 5#64 } 500 = .ok d ∧ d.deadline = ⟨1700000000, 123956000⟩ :=
  ⟨_, rfl, by decide⟩

/-- C70: a cleared deadline, and the one of a new context whatever its flags, is reported as "never". -/
theorem C70_no_deadline {c : Ctx} (hi : c.id ≠ 0#64) :
    (∃ d, clearDeadline c = .ok d ∧ getDeadline d = .ok ⟨-1, -1⟩ ∧ SameButDeadline c d ∧
      ∀ t, effective d t = t) ∧
    (∀ counter host flags user, (initCtx counter host flags user).1.id ≠ 0#64 →
      getDeadline (initCtx counter host flags user).1 = .ok ⟨-1, -1⟩) := by
  have hi' : ¬ c.id = NO_ID := hi
  constructor
  · unfold clearDeadline inited
    rw [if_neg hi']
    refine ⟨_, rfl, ?_, ⟨rfl, rfl, rfl, rfl, rfl, rfl, fun k hk => deadline_other_clear _ k hk⟩, ?_⟩
    · simp [getDeadline, inited, hi', deadline_clear, NEVER]
    · intro t
      simp [effective, deadline_clear]
  · intro counter host flags user hid
    have hid' : ¬ (initCtx counter host flags user).1.id = NO_ID := hid
    have : (initCtx counter host flags user).1.deadline = NEVER := by
      unfold initCtx; dsimp only; split <;> rfl
    simp [getDeadline, inited, hid', this, NEVER]

/-- C70: while another thread keeps the lock, a lock call without a time-out of its own returns "timed out"
to a thread with a proper deadline, and "busy" or "timed out" to a call with a time-out of its own. -/
theorem C70_deadline_applies {c d : Ctx} {sec nsec : Int} (h : setDeadlineAbs c sec nsec = .ok d) (t : Timeout) :
    (t = .none → contended (effective d t) = some .timedOut) ∧
    (t ≠ .none → contended (effective d t) = contended t) ∧
    (t = .constNow → contended (effective d t) = some .busy) ∧
    (∀ ts, t = .at_ ts → Proper ts → contended (effective d t) = some .timedOut) := by
  have hd : d.deadline = ⟨sec, nsec⟩ ∧ d.flags.has DEADLINE = true ∧ 0 ≤ nsec ∧ nsec < 1000000000 := by
    unfold setDeadlineAbs inited at h
    repeat' split at h
    all_goals cases h
    exact ⟨rfl, deadline_or _, by omega, by omega⟩
  obtain ⟨h1, h2, h3, h4⟩ := hd
  refine ⟨?_, ?_, ?_, ?_⟩
  · intro ht
    subst ht
    simp only [effective, h2, h1]
    have e : ¬ (nsec < 0 ∨ nsec ≥ 1000000000) := by omega
    simp only [contended, semTimedwait, if_neg e, true_and, if_true, Nat.lt_irrefl, if_false, Nat.zero_lt_one]
  · intro ht
    simp [effective, ht]
  · intro ht
    subst ht
    simp [effective, contended]
  · intro ts ht hp
    subst ht
    have := hp.1; have := hp.2
    have e : ¬ (ts.nsec < 0 ∨ ts.nsec ≥ 1000000000) := by omega
    simp only [effective, contended, semTimedwait, if_neg e, reduceCtorEq, false_and, if_true, Nat.lt_irrefl, if_false, Nat.zero_lt_one]
/-- C70: without a deadline such a call waits. -/
theorem C70_no_deadline_waits {c d : Ctx} (h : clearDeadline c = .ok d) : contended (effective d .none) = none := by
  unfold clearDeadline inited at h
  split at h
  · cases h
  · cases h
    simp [effective, deadline_clear, contended]

/-- Finding: the deadline "now" that `set_deadline_rel_usecs(0)` sets is not the time-out "now" of the
try-lock calls: the lock calls compare pointers (src/wolfsentry_util.c:1722, 1748), so the values (-2, -2)
reach `sem_timedwait`, and instead of "busy" the caller gets a fatal system error, or "invalid argument" if
the lock's own semaphore is taken. -/
theorem C70_finding_deadline_now (T : Clock) {c d : Ctx} (h : setDeadlineRel T c 0 = .ok d) :
    contended (effective d .none) = some .sysOpFatal ∧ contendedSem (effective d .none) = some .invalidArg ∧
    contended .constNow = some .busy := by
  unfold setDeadlineRel inited at h
  split at h
  · cases h
  · rw [if_neg (by omega), if_neg (by omega)] at h
    cases h
    simp [effective, deadline_or, contended, contendedSem, semTimedwait, NOW]
/-- Finding: so does a context initialised with the flag DEADLINE but no deadline, which reports "never". -/
theorem C70_finding_deadline_flag :
    getDeadline (initCtx 9#64 5#64 1 none).1 = .ok ⟨-1, -1⟩ ∧
    contended (effective (initCtx 9#64 5#64 1 none).1 .none) = some .sysOpFatal := by decide

/-! ### the end of a context -/

/-- The context of a thread of the lock model: identity and records. -/
def ctxOf (id : Id) (f : Flags) (x : RW.Thr) : Ctx :=
  { id := id, flags := f, deadline := NEVER, trk := if x.trk then some 0 else none, dep := x.dep, sc := x.sc, mrc := x.mrc }

/-- C70: a thread's context can be destroyed exactly when the thread holds no lock and no reservation; else
the answer is "busy", and the context is unchanged.  (For threads meeting the obligations of C30-C32.) -/
theorem C70_end_iff_nothing_held_partial {n : Nat} {s : RW.Sys} (h : RW.Spec.Reach n s) {t : RW.Tid} (hi : (s.th t).pc = .idle)
    (counter id : Id) (f : Flags) (hid : id ≠ 0#64) :
    ((∃ c', destroy counter (ctxOf id f (s.th t)) = .ok c') ↔
      (RW.Spec.holds s.log t).sh = 0 ∧ (RW.Spec.holds s.log t).ex = 0 ∧ (RW.Spec.holds s.log t).resv = false) ∧
    ((∀ c', destroy counter (ctxOf id f (s.th t)) ≠ .ok c') → destroy counter (ctxOf id f (s.th t)) = .error .busy) := by
  have i := RW.inv_of_reach h
  obtain ⟨h1, h2⟩ := C31_counters_partial h hi
  have ti := i.ti t
  have hsc := ti.sc
  have htrk := ti.trk
  have hid' : ¬ id = NO_ID := hid
  have hsum : (∃ c', destroy counter (ctxOf id f (s.th t)) = .ok c') ∧ (s.th t).sc = 0 ∧ (s.th t).mrc = 0 ∨
      destroy counter (ctxOf id f (s.th t)) = .error .busy ∧ (0 < (s.th t).sc ∨ 0 < (s.th t).mrc) := by
    by_cases hs : 0 < (s.th t).sc
    · right
      refine ⟨?_, Or.inl hs⟩
      simp [destroy, inited, ctxOf, hid', hs]
    · have hs0 : (s.th t).sc = 0 := by omega
      have hd0 : (s.th t).dep = 0 := by omega
      have ht0 : (s.th t).trk = false := by
        cases hh : (s.th t).trk with
        | false => rfl
        | true => have := htrk.1 hh; omega
      by_cases hm : 0 < (s.th t).mrc
      · right
        refine ⟨?_, Or.inr hm⟩
        simp [destroy, inited, ctxOf, hid', hs0, hm]
      · left
        have hm0 : (s.th t).mrc = 0 := by
          have hge : 0 ≤ (s.th t).mrc := by rw [h2]; split <;> omega
          omega
        refine ⟨?_, hs0, hm0⟩
        simp [destroy, inited, ctxOf, hid', hs0, hm0, hd0, ht0]
  constructor
  · constructor
    · rintro ⟨c', hc⟩
      rcases hsum with ⟨_, a, b⟩ | ⟨a, _⟩
      · rw [h1] at a
        rw [h2] at b
        refine ⟨by omega, ?_⟩
        cases hr : (RW.Spec.holds s.log t).resv with
        | false => rw [hr, if_neg (by simp)] at b; exact ⟨by omega, rfl⟩
        | true => rw [hr, if_pos rfl] at b; omega
      · rw [a] at hc; cases hc
    · rintro ⟨a, b, c⟩
      rcases hsum with ⟨e, _⟩ | ⟨_, e⟩
      · exact e
      · rw [h1, h2, a, b, c] at e; simp at e
  · intro hne
    rcases hsum with ⟨⟨c', e⟩, _⟩ | ⟨e, _⟩
    · exact absurd e (hne c')
    · exact e
example : destroy 3#64 (ctxOf 8#64 0 ((RW.after RW.Spec.StepOk 2 rwPromote).th 0)) = .error .busy := by decide

/-- Finding: a reader granted the lock as its wait expires has no record of it (C31): its context can be
destroyed while it holds the lock, and `have_shared` denies the hold. -/
theorem C70_finding_late_reader : ∃ s, RW.Spec.ReachP RW.Spec.CallerOk 2 s ∧ (RW.Spec.holds s.log 1).sh = 1 ∧
    (∃ c', destroy 3#64 (ctxOf 8#64 0 (s.th 1)) = .ok c') ∧
    RW.haveShared s.l (s.th 1) false = .err .lackingReadLock :=
  ⟨RW.after RW.Spec.CallerOk 2 rwLateReader, RW.after_reach, by decide, ⟨_, rfl⟩, by decide⟩

/-! ## C71 — queries, read-only threads -/

/-- C71: the queries about a lock tell a thread exactly what it holds. -/
theorem C71_queries_partial {n : Nat} {s : RW.Sys} (h : RW.Spec.Reach n s) {t : RW.Tid} (hi : (s.th t).pc = .idle) (ro : Bool) :
    (RW.haveMutex t s.l = .haveMutex ↔ 0 < (RW.Spec.holds s.log t).ex) ∧
    (RW.haveShared s.l (s.th t) ro = .haveRead ↔ 0 < (RW.Spec.holds s.log t).sh) ∧
    (RW.haveShared s.l (s.th t) ro ≠ .ok) ∧
    (RW.haveEither t s.l (s.th t) ro = .haveRead ↔ 0 < (RW.Spec.holds s.log t).sh) ∧
    (RW.haveEither t s.l (s.th t) ro = .haveMutex ↔ 0 < (RW.Spec.holds s.log t).ex) ∧
    (RW.haveEither t s.l (s.th t) ro = .err .lackingReadLock ↔ (RW.Spec.holds s.log t).sh = 0 ∧ (RW.Spec.holds s.log t).ex = 0) ∧
    (RW.haveReservation t s.l = .ok ↔ (RW.Spec.holds s.log t).resv = true) ∧
    ((RW.Spec.holds s.log t).resv = true → RW.isReserved s.l = .yes) := by
  have i := RW.inv_of_reach h
  have ti := i.ti t
  have h3 := (i.hl t).2.2 (by rw [hi]; exact id) (by rw [hi]; simp)
  obtain ⟨hsh, hex, hrs⟩ := h3
  have hrh : s.l.rh = some t → s.l.st = .shared := by
    intro hr
    rcases (ti.rh hr).2 with a | a
    · exact a.1
    · rw [hi] at a; simp [RW.isW, RW.isX] at a
  have hexst : 0 < (RW.Spec.holds s.log t).ex ↔ s.l.st = .exclusive ∧ s.l.wh = some t := by
    constructor
    · intro hx
      by_cases hc : s.l.wh = some t ∧ s.l.rh ≠ some t
      · exact ⟨ti.wh hc.1, hc.1⟩
      · rw [if_neg hc] at hex; omega
    · rintro ⟨a, b⟩
      have hr : s.l.rh ≠ some t := by
        intro hr; have := hrh hr; rw [a] at this; cases this
      have := (ti.own b hr).2
      rw [if_pos ⟨b, hr⟩] at hex
      omega
  have hshst : 0 < (RW.Spec.holds s.log t).sh ↔ s.l.st = .shared ∧ (s.th t).trk = true := by
    rw [ti.trk]
    constructor
    · intro hx
      refine ⟨?_, by omega⟩
      cases hst : s.l.st with
      | shared => rfl
      | unlocked =>
        have hu := i.g.un hst
        have htn : t < n := i.lt_of_dep (by omega)
        have := (i.ctx htn).oR
        omega
      | exclusive =>
        by_cases hw : s.l.wh = some t
        · have hr : s.l.rh ≠ some t := by intro hr; have := hrh hr; rw [hst] at this; cases this
          have := (ti.own hw hr).1; omega
        · have htn : t < n := i.lt_of_dep (by omega)
          have := (i.ctx htn).oEx hst hw; omega
    · rintro ⟨_, b⟩; omega
  have hsc := ti.sc
  have htrk := ti.trk
  have hHM : RW.haveMutex t s.l = .haveMutex ↔ 0 < (RW.Spec.holds s.log t).ex := by
    rw [hexst]; unfold RW.haveMutex
    split
    · split <;> simp_all
    · simp_all
  have hHMe : ¬ 0 < (RW.Spec.holds s.log t).ex → RW.haveMutex t s.l = .err .notPermitted ∨ RW.haveMutex t s.l = .err .lackingMutex := by
    intro hx
    rw [hexst] at hx; unfold RW.haveMutex
    split
    · split
      · simp_all
      · exact Or.inl rfl
    · exact Or.inr rfl
  have hHS : RW.haveShared s.l (s.th t) ro = if 0 < (RW.Spec.holds s.log t).sh then .haveRead else .err .lackingReadLock := by
    unfold RW.haveShared
    by_cases hx : 0 < (RW.Spec.holds s.log t).sh
    · obtain ⟨a, b⟩ := hshst.1 hx
      rw [if_pos hx]; cases ro <;> simp [a, b]
    · rw [if_neg hx]
      have hx' : ¬ (s.l.st = .shared ∧ (s.th t).trk = true) := fun hc => hx (hshst.2 hc)
      by_cases hst : s.l.st = .shared
      · have ht : (s.th t).trk = false := by
          cases hh : (s.th t).trk with
          | false => rfl
          | true => exact absurd ⟨hst, hh⟩ hx'
        have hd : ¬ (s.th t).sc > 0 := by
          intro hc; rw [hsc] at hc; have := htrk.2 hc; rw [ht] at this; cases this
        cases ro <;> simp [hst, ht, hd]
      · simp [hst]
  have hdisj : ¬ (0 < (RW.Spec.holds s.log t).sh ∧ 0 < (RW.Spec.holds s.log t).ex) := by
    rintro ⟨a, b⟩
    have a1 := (hshst.1 a).1; have b1 := (hexst.1 b).1; rw [a1] at b1; cases b1
  have hHE : RW.haveEither t s.l (s.th t) ro = if 0 < (RW.Spec.holds s.log t).sh then .haveRead
      else if 0 < (RW.Spec.holds s.log t).ex then .haveMutex else .err .lackingReadLock := by
    unfold RW.haveEither
    rw [hHS]
    by_cases hx : 0 < (RW.Spec.holds s.log t).sh
    · simp only [if_pos hx]
    · simp only [if_neg hx]
      by_cases hy : 0 < (RW.Spec.holds s.log t).ex
      · rw [if_pos hy, hHM.2 hy]
      · rw [if_neg hy]
        rcases hHMe hy with e | e <;> rw [e]
  refine ⟨hHM, ?_, ?_, ?_, ?_, ?_, ?_, ?_⟩
  · rw [hHS]; split <;> simp_all
  · rw [hHS]; split <;> simp
  · rw [hHE]; split
    · simp_all
    · split <;> simp_all
  · rw [hHE]; split
    · rename_i hx; simp; omega
    · split <;> simp_all
  · rw [hHE]; split
    · rename_i hx; simp; omega
    · split
      · rename_i hx; simp; omega
      · simp; omega
  · unfold RW.haveReservation
    rw [hrs, hi]
    split <;> simp_all [RW.isSm]
  · intro hr
    have := (hrs.1 hr).1
    simp [RW.isReserved, this]
example : RW.haveMutex 0 (RW.after RW.Spec.StepOk 2 rwPromote).l = .haveMutex := by decide

/-- C71: a thread marked read-only never holds a lock exclusively, nor a reservation; and the guarantees of
the lock (C30) hold in the presence of read-only threads. -/
theorem C71_readonly_partial {n : Nat} {y : RW.SysRo} (h : RW.Spec.ReachRo n y) :
    (∀ t, y.ro t = true → (RW.Spec.holds y.s.log t).ex = 0 ∧ (RW.Spec.holds y.s.log t).resv = false) ∧
    RW.Spec.Exclusive y.s := by
  have i := RW.roInv_of_reach h
  refine ⟨?_, RW.exclusive_of_inv i.inv⟩
  intro t hr
  obtain ⟨h1, h2, h3⟩ := i.ro t hr
  have hp : ¬ RW.isPend (y.s.th t).pc ∧ (y.s.th t).pc ≠ .incW := by
    cases hx : (y.s.th t).pc <;> rw [hx] at h3 <;> simp [RW.roPc, RW.isPend] at h3 ⊢
  have h4 := (i.inv.hl t).2.2 hp.1 hp.2
  rw [if_neg (by intro hc; exact h1 hc.1)] at h4
  refine ⟨by omega, ?_⟩
  cases hh : (RW.Spec.holds y.s.log t).resv with
  | false => rfl
  | true => exact absurd (h4.2.2.1 hh).1 h2

/-- C71: its requests for more are refused, and leave the lock as it is. -/
theorem C71_readonly_refused {y y' : RW.SysRo} {t : RW.Tid} {op : RW.Op} (hr : y.ro t = true)
    (hop : RW.isLM op ∨ op = .reserve ∨ RW.isS2 op ∨ ∃ w a b, op = .lockShared .get w a b)
    (hs : RW.stepRo y t (.lock (.call op)) = some y') :
    y'.s.l = y.s.l ∧ ∃ e, y'.s.log = ⟨t, op, .err e⟩ :: y.s.log ∧ (e = .notPermitted ∨ e = .incompatibleState) := by
  simp only [RW.stepRo] at hs
  split at hs
  · have hs := Option.some.inj hs
    subst hs
    simp only [hr, if_true]
    cases op <;> simp only [RW.isLM, RW.isS2, reduceCtorEq, false_or, or_false, exists_false] at hop
    · obtain ⟨w, a, b, hop⟩ := hop
      cases hop
      simp only [RW.callRo]
      split
      · exact ⟨rfl, _, rfl, Or.inl rfl⟩
      · exact ⟨rfl, _, rfl, Or.inr rfl⟩
    · exact ⟨rfl, _, rfl, Or.inl rfl⟩
    · exact ⟨rfl, _, rfl, Or.inl rfl⟩
    · exact ⟨rfl, _, rfl, Or.inl rfl⟩
  · cases hs

/-- C71: a thread can be marked read-only exactly when it holds nothing exclusively and no reservation, and the
mark can always be taken off again. -/
theorem C71_marks_partial {n : Nat} {y y' : RW.SysRo} (h : RW.Spec.ReachRo n y) {t : RW.Tid} :
    (RW.stepRo y t .setRo = some y' → y'.s = y.s ∧ (y'.ro t = true ↔
      y.ro t = true ∨ ((RW.Spec.holds y.s.log t).ex = 0 ∧ (RW.Spec.holds y.s.log t).resv = false))) ∧
    (RW.stepRo y t .setRw = some y' → y'.s = y.s ∧ y'.ro t = false) := by
  have i := RW.roInv_of_reach h
  constructor
  · intro hs
    simp only [RW.stepRo] at hs
    split at hs
    · rename_i hp
      have h3 := (i.inv.hl t).2.2 (by rw [hp]; exact id) (by rw [hp]; simp)
      have hm := (i.inv.ti t).mrc
      split at hs
      · rename_i hg
        cases hs
        refine ⟨rfl, ⟨Or.inl, ?_⟩⟩
        rintro (hr | ⟨a, b⟩)
        · exact hr
        · exfalso
          rw [hm] at hg
          by_cases hrh : y.s.l.rh = some t
          · have := h3.2.2.2 ⟨hrh, by rw [hp]; exact id⟩
            rw [b] at this; cases this
          · rw [if_neg hrh] at hg
            have := h3.2.1
            omega
      · rename_i hg
        cases hs
        refine ⟨rfl, ⟨fun _ => Or.inr ?_, fun _ => by simp [RW.upd]⟩⟩
        obtain ⟨h1, h2⟩ := RW.inv_owns i.inv hg
        rw [if_neg (by intro hc; exact h1 hc.1)] at h3
        refine ⟨by omega, ?_⟩
        cases hh : (RW.Spec.holds y.s.log t).resv with
        | false => rfl
        | true => exact absurd (h3.2.2.1 hh).1 h2
    · cases hs
  · intro hs
    simp only [RW.stepRo] at hs
    split at hs
    · have hsc := (i.inv.ti t).sc
      rw [if_neg (by omega)] at hs
      cases hs
      exact ⟨rfl, by simp [RW.upd]⟩
    · cases hs

/-- The hypotheses are met: thread 1 is read-only and shares the lock with thread 0; its request for the
exclusive lock is refused. -/
example : ∃ y, RW.Spec.ReachRo 2 y ∧ y.ro 1 = true ∧ (RW.Spec.holds y.s.log 1).sh = 1 ∧ (RW.Spec.holds y.s.log 0).sh = 1 ∧
    y.s.log.head? = some ⟨1, .lockMutex .now false, .err .notPermitted⟩ := by
  refine ⟨_, .step (t := 1) (c := .lock (.call (.lockMutex .now false)))
    (.step (t := 1) (c := .lock .run) (.step (t := 1) (c := .lock (.call (.lockShared .try_ .block false false)))
    (.step (t := 0) (c := .lock .run) (.step (t := 0) (c := .lock (.call (.lockShared .no .block false false)))
    (.step (t := 1) (c := .setRo) .init (by decide) (by intro k hk; cases hk) rfl)
    (by decide) (by intro k hk; cases hk; trivial) rfl) (by decide) (by intro k hk; cases hk; trivial) rfl)
    (by decide) (by intro k hk; cases hk; trivial) rfl) (by decide) (by intro k hk; cases hk; trivial) rfl)
    (by decide) (by intro k hk; cases hk; trivial) rfl, by decide, by decide, by decide, by decide⟩

/-- C70: what a new context reports: the host's identity, or the one below the counter; the flags and the user's pointer it was created
with (no pointer is an error). -/
theorem C70_new_context (counter host : Id) (flags : Flags) (user : Option Nat) :
    (host ≠ 0#64 → getId (initCtx counter host flags user).1 = .ok host ∧ (initCtx counter host flags user).2 = (counter, false) ∧
      getFlags (initCtx counter host flags user).1 = .ok flags ∧
      (∀ u, user = some u → getUser (initCtx counter host flags user).1 = .ok u) ∧
      (user = none → getUser (initCtx counter host flags user).1 = .error .invalidArg)) ∧
    (host = 0#64 → counter ≠ 1#64 → getId (initCtx counter host flags user).1 = .ok (counter - 1#64) ∧
      (initCtx counter host flags user).2.2 = true ∧ getFlags (initCtx counter host flags user).1 = .ok flags ∧
      (∀ u, user = some u → getUser (initCtx counter host flags user).1 = .ok u) ∧
      (user = none → getUser (initCtx counter host flags user).1 = .error .invalidArg)) := by
  constructor
  · intro hh
    have hh' : ¬ host = NO_ID := hh
    simp only [initCtx, if_neg hh', getId, getFlags, getUser, inited]
    exact ⟨trivial, trivial, trivial, fun u e => by rw [e], fun e => by rw [e]⟩
  · intro hh hc
    have hn : ¬ counter - 1#64 = NO_ID := fun q => hc (by unfold NO_ID at q; bv_omega)
    subst hh
    have h0 : (0#64 : Id) = NO_ID := rfl
    simp only [initCtx, if_pos h0, getId, getFlags, getUser, inited, if_neg hn]
    exact ⟨trivial, trivial, trivial, fun u e => by rw [e], fun e => by rw [e]⟩
example : getUser (initCtx 9#64 0#64 0 (some 77)).1 = .ok 77 := by decide

/-- C70: a context that is not marked as having a deadline reports "never", whatever the fields say; a marked one reports its fields. -/
theorem C70_deadline_mark {c : Ctx} (hi : c.id ≠ 0#64) :
    getDeadline c = .ok (if c.flags.has DEADLINE then c.deadline else ⟨-1, -1⟩) := by
  have hi' : ¬ c.id = NO_ID := hi
  simp only [getDeadline, inited, if_neg hi', NEVER]
  cases c.flags.has DEADLINE <;> rfl

/-- C70: a context that still tracks a lock, or has a count of any kind left, is never destroyed. -/
theorem C70_end_needs_clean {counter : Id} {c : Ctx} {r : Ctx × Id} (h : destroy counter c = .ok r) :
    c.sc = 0 ∧ c.mrc = 0 ∧ c.dep = 0 ∧ c.trk = none ∧ c.id ≠ 0#64 ∧ r.1 = {} := by
  unfold destroy inited at h
  repeat' split at h
  all_goals cases h
  all_goals
    rename_i h1 h2 h3 h4 h5 h6 h7 _
    exact ⟨by omega, by omega, by omega, by simpa using h7, h1, rfl⟩

theorem readonly_or (f : Flags) (k : Nat) (h : k < 32) : (f ||| READONLY).getLsbD k = (f.getLsbD k || decide (k = 1)) := by
  unfold READONLY
  rw [getLsbD_or_bit _ _ _ (by decide)]
  simp [h, eq_comm]
theorem readonly_clear (f : Flags) (k : Nat) (h : k < 32) : (f &&& ~~~READONLY).getLsbD k = (f.getLsbD k && decide (k ≠ 1)) := by
  unfold READONLY
  rw [BitVec.getLsbD_and, BitVec.getLsbD_not, bit_getLsbD _ _ (by decide)]
  by_cases e : k = 1
  · subst e; simp
  · simp [e, Ne.symm e, h]

/-- C71: a context is marked read-only exactly when it has no exclusive hold and no reservation, and the mark is all that changes; the mark is
removed exactly when every shared hold is on the tracked lock, and it alone is removed. -/
theorem C71_marking {c : Ctx} (hi : c.id ≠ 0#64) :
    ((∃ d, setReadonly c = .ok d) ↔ c.mrc ≤ 0) ∧
    (∀ d, setReadonly c = .ok d → (∀ k, k < 32 → d.flags.getLsbD k = (c.flags.getLsbD k || decide (k = 1))) ∧ d = { c with flags := d.flags }) ∧
    ((∃ d, setReadwrite c = .ok d) ↔ c.sc ≤ c.dep) ∧
    (∀ d, setReadwrite c = .ok d → (∀ k, k < 32 → d.flags.getLsbD k = (c.flags.getLsbD k && decide (k ≠ 1))) ∧ d = { c with flags := d.flags }) := by
  have hi' : ¬ c.id = NO_ID := hi
  simp only [setReadonly, setReadwrite, inited, if_neg hi']
  refine ⟨?_, ?_, ?_, ?_⟩
  · by_cases h : c.mrc > 0
    · rw [if_pos h]
      exact ⟨fun ⟨_, q⟩ => (by cases q), fun q => by omega⟩
    · rw [if_neg h]
      exact ⟨fun _ => by omega, fun _ => ⟨_, rfl⟩⟩
  · intro d h
    split at h
    · cases h
    · cases h
      exact ⟨fun k hk => readonly_or _ k hk, rfl⟩
  · by_cases h : c.sc > c.dep
    · rw [if_pos h]
      exact ⟨fun ⟨_, q⟩ => (by cases q), fun q => by omega⟩
    · rw [if_neg h]
      exact ⟨fun _ => by omega, fun _ => ⟨_, rfl⟩⟩
  · intro d h
    split at h
    · cases h
    · cases h
      exact ⟨fun k hk => readonly_clear _ k hk, rfl⟩
example : setReadonly { id := 5#64, flags := 1 } = .ok { id := 5#64, flags := 3 } := by decide

end WS.Props
