import Verif.Proof.Clone8
import Verif.Proof.CloneLinks
/-
C45: a cloned context is a faithful copy, made of new objects only.

Copies are made by `wolfsentry_context_clone` (src/wolfsentry_util.c:3881-3967).  What a copy is:
`Spec/Clone.lean`.  The claim "for all contexts, the clone has everything and later changes to one do not
affect the other" is false of the code in the respects proved under "Findings" below; the theorems named
`_partial` prove it for sources whose cross-references all go to objects still in their tables (`WF`).
-/
namespace WS.Props
open WS WS.Cl

/-! ### Example: two actions, two registered families, two events, two rules, one user value -/

def clMem : List Obj :=
  [ ⟨1, 0, none, .action { label := [97#8] }⟩,
    ⟨2, 5, some 0, .action { label := [98#8], flags := 1 }⟩,
    ⟨3, 0, none, .afNum { number := 200, name := 3 }⟩,
    ⟨4, 0, some 5, .afName { label := [120#8], number := 2 }⟩,
    ⟨5, 0, some 2, .afNum { number := 201, name := 5 }⟩,
    ⟨6, 0, none, .afName { label := [119#8], number := 4 }⟩,
    ⟨7, 0, none, .event { label := [101#8], priority := 3, lists := ⟨[0, 1], [], [1], [], [], []⟩, aux := some 7 }⟩,
    ⟨8, 0, some 6, .event { label := [102#8], lists := ⟨[], [], [], [], [0], []⟩ }⟩,
    ⟨9, 3, none, .route { body := { flags := RF.SA_FAMILY_WILDCARD, data := { purgeAfter := 7 } }, event := some 6, size := 1, data := [9#8] }⟩,
    ⟨10, 0, some 8, .route { body := { family := 2, data := { purgeAfter := 9 } } }⟩,
    ⟨11, 0, none, .kv [107#8] { val := .uint 4 }⟩,
    ⟨0, 0, none, .route { body := {} }⟩ ]

def clHeap : Heap := { mem := fun p => clMem[p]?, refs := fun _ => 1, next := 12 }

def clTab (l : List Ptr) : Tab := { ents := l, nEnts := l.length }

def clCtx : Ctx :=
  { tab := fun
      | .actions => clTab [0, 1]
      | .afNum => clTab [2, 4]
      | .afName => clTab [5, 3]
      | .events => clTab [6, 7]
      | .routes => clTab [8, 9]
      | .kvs => clTab [10]
    byId := [0, 1, 2, 3, 4, 5, 6, 7, 8, 9, 10], nById := 11
    rt := { purge := [9, 8], maxPurgeable := 10, maxIdle := 5, defaultEvent := some 7, fallthrough := some 11,
            lastAfWildcard := some 8, defaultPolicy := 3, highest := 0 }
    validator := 77, idState := 12 }

theorem clCtx_wf : WF clHeap clCtx where
  valid := by intro k; cases k <;> simp [clCtx, clTab, clHeap, clMem, Pay.kind]
  nodup := by intro k; cases k <;> decide
  ids := by decide
  sorted := by
    intro k hk
    rcases hk with rfl | rfl | rfl <;> simp [clCtx, clTab, clHeap, clMem, Heap.label] <;> decide
  byIdSorted := by decide
  byIdAll := by
    intro p
    simp [clCtx, Ctx.objs, clTab]
    omega
  counts := by intro k; cases k <;> rfl
  numbers := by
    intro p hp o a ho ha
    simp [clCtx, clTab] at hp
    rcases hp with rfl | rfl <;> simp [clHeap, clMem] at ho <;> subst ho <;> cases ha <;>
      simp [clCtx, clTab, clHeap, clMem]
  names := by
    intro p hp o a ho ha
    simp [clCtx, clTab] at hp
    rcases hp with rfl | rfl <;> simp [clHeap, clMem] at ho <;> subst ho <;> cases ha <;>
      simp [clCtx, clTab, clHeap, clMem]
  actionRefs := by
    intro p hp o a ho ha
    simp [clCtx, clTab] at hp
    rcases hp with rfl | rfl <;> simp [clHeap, clMem] at ho <;> subst ho <;> cases ha <;>
      simp [clCtx, clTab, Six.all]
  auxRefs := by
    intro p hp o a ho ha
    simp [clCtx, clTab] at hp
    rcases hp with rfl | rfl <;> simp [clHeap, clMem] at ho <;> subst ho <;> cases ha <;>
      simp [clCtx, clTab]
  eventRefs := by
    intro p hp o a ho ha
    simp [clCtx, clTab] at hp
    rcases hp with rfl | rfl <;> simp [clHeap, clMem] at ho <;> subst ho <;> cases ha <;>
      simp [clCtx, clTab]
  private_ := by
    intro p hp o a ho ha
    simp [clCtx, clTab] at hp
    rcases hp with rfl | rfl <;> simp [clHeap, clMem] at ho <;> subst ho <;> cases ha <;>
      simp [clHeap, clMem, clCtx]
  defaultRef := by simp [clCtx, clTab]
  fallthroughOld := by simp [clCtx, clHeap]

/-- A test on the example's clone. -/
def clCheck (P : Heap → Ctx → Bool) : Bool :=
  match contextClone {} clCtx clHeap with
  | .ok (h, d) => P h d
  | .error _ => false

theorem flatMap_same {f g : Ptr → List Ptr} : ∀ {l : List Ptr}, (∀ x ∈ l, f x = g x) → l.flatMap f = l.flatMap g
  | [], _ => rfl
  | x :: l, h => by
    rw [List.flatMap_cons, List.flatMap_cons, h x (by simp), flatMap_same (fun y hy => h y (by simp [hy]))]

/-! ### The clone is a copy -/

theorem clone_copies (f : CloneFlags) (H : Heap) (S : Ctx) (w : WF H S) :
    ∃ H' D, contextClone f S H = .ok (H', D) ∧ CopyOf f H S H' D (newPtr f H S) := by
  have hO := order_ord f w
  have hlen : ∀ {h' : Heap} {Hx : Heap} {R : List Ptr}, Inv Hx (newPtr f H S) (fin f H (newPtr f H S)) h' (order f H S) R →
      Hx.mem = H.mem → ∀ p, f.kept S p →
      (H.next ≤ newPtr f H S p ∧ newPtr f H S p < h'.next) ∧
      ∃ o o', H.mem p = some o ∧ h'.mem (newPtr f H S p) = some o' ∧ o'.id = o.id ∧ o'.hits = o.hits ∧
        o'.pay = o.pay.rename f (newPtr f H S) := by
    intro h' Hx R I hx p hp
    have hpo := (mem_order w).2 hp
    obtain ⟨o, pr, h1, h2⟩ := I.copied p hpo
    rw [hx] at h1
    exact ⟨⟨(hO.fresh hpo).1, I.below p hpo⟩, o, _, h1, h2, rfl, rfl, fin_of h1⟩
  have hinj : ∀ p q, f.kept S p → f.kept S q → newPtr f H S p = newPtr f H S q → p = q :=
    fun p q hp hq h => hO.inj ((mem_order w).2 hp) ((mem_order w).2 hq) h
  cases hf : f.asAtCreation with
  | true =>
    obtain ⟨h', D, k1, k2, k3, k4, k5, _⟩ := clone_creation f hf w
    exact ⟨h', D, k1, fun p hp => (hlen k2 rfl p hp).1, hinj, k4,
      fun k hk => by rw [k5 k hk]; exact ⟨rfl, rfl⟩, fun p hp => (hlen k2 rfl p hp).2, k3.result w⟩
  | false =>
    obtain ⟨h', D, k1, k2, k3, k4, k5, _⟩ := clone_full f hf w
    exact ⟨h', D, k1, fun p hp => (hlen k2 (bumped_mem H S).1 p hp).1, hinj, k4,
      fun k hk => by rw [k5 k hk]; exact ⟨rfl, rfl⟩, fun p hp => (hlen k2 (bumped_mem H S).1 p hp).2, k3.result w⟩

theorem clone_result {f : CloneFlags} {H : Heap} {S : Ctx} (w : WF H S) {H' : Heap} {D : Ctx}
    (h : contextClone f S H = .ok (H', D)) :
    CopyOf f H S H' D (newPtr f H S) ∧ ∃ Hx, Hx = (if f.asAtCreation then H else bumped H S) ∧
      Inv Hx (newPtr f H S) (fin f H (newPtr f H S)) H' (order f H S) (takenRefs f H S) := by
  obtain ⟨H1, D1, k1, k2⟩ := clone_copies f H S w
  rw [h] at k1; cases k1
  refine ⟨k2, _, rfl, ?_⟩
  cases hf : f.asAtCreation with
  | true =>
    obtain ⟨h', D', k1, k2, _⟩ := clone_creation f hf w
    rw [h] at k1; cases k1
    simpa using k2
  | false =>
    obtain ⟨h', D', k1, k2, _⟩ := clone_full f hf w
    rw [h] at k1; cases k1
    simpa using k2

/-- Cloning a well-formed context succeeds, and the result is a copy made of new objects: same tables in
the same order, same IDs, hit counts and contents, references renamed, same ID index. -/
theorem C45_clone_is_copy_partial (f : CloneFlags) (H : Heap) (S : Ctx) (w : WF H S) :
    ∃ H' D ρ, contextClone f S H = .ok (H', D) ∧ CopyOf f H S H' D ρ := by
  obtain ⟨H', D, k1, k2⟩ := clone_copies f H S w
  exact ⟨H', D, _, k1, k2⟩

example : ∃ H' D ρ, contextClone {} clCtx clHeap = .ok (H', D) ∧ CopyOf {} clHeap clCtx H' D ρ :=
  C45_clone_is_copy_partial {} clHeap clCtx clCtx_wf

/-- What the example's clone looks like. -/
example : (match contextClone {} clCtx clHeap with
    | .ok (h, d) => ([Kind.actions, .afNum, .afName, .events, .routes, .kvs].map (fun k => (d.tab k).ents), d.byId,
        (h.mem 18).map Obj.pay, h.next)
    | .error _ => ([], [], none, 0)) =
    ([[12, 13], [14, 16], [17, 15], [18, 19], [20, 21], [22]], [12, 13, 14, 15, 16, 17, 18, 19, 20, 21, 22],
      some (.event { label := [101#8], priority := 3, lists := ⟨[12, 13], [], [13], [], [], []⟩, aux := some 19 }), 23) := by
  decide +kernel

/-- The settings of a full clone: configuration, validator, ID counter, policy, limit, default event, and
the queue of expiring rules (the same rules, latest expiry first). -/
theorem C45_clone_settings_partial (f : CloneFlags) (hf : f.asAtCreation = false) (H : Heap) (S : Ctx) (w : WF H S)
    (H' : Heap) (D : Ctx) (h : contextClone f S H = .ok (H', D)) :
    ∃ ρ, CopyOf f H S H' D ρ ∧ D.config = S.config ∧ D.config0 = S.config0 ∧ D.validator = S.validator ∧
      D.mkId = S.mkId ∧ D.idState = S.idState ∧ D.rt.defaultPolicy = S.rt.defaultPolicy ∧
      D.rt.maxPurgeable = S.rt.maxPurgeable ∧ D.rt.defaultEvent = S.rt.defaultEvent.map ρ ∧
      (f.noRoutes = false → D.rt.highest = S.rt.highest ∧
        (∀ n, n ∈ D.rt.purge ↔ n ∈ (D.tab .routes).ents ∧ H'.expiry n ≠ 0) ∧ D.rt.purge.Nodup ∧
        D.rt.purge.Pairwise (fun a b => H'.expiry b ≤ H'.expiry a)) ∧
      (f.noRoutes = true → D.rt.purge = [] ∧ D.rt.highest = 65535) := by
  obtain ⟨c, Hx, hHx, I⟩ := clone_result w h
  obtain ⟨h', D', k1, k2, k3, k4, k5, k6, k7, k8, k9, k10, k11⟩ := clone_full f hf w
  rw [h] at k1; cases k1
  obtain ⟨P, p1, p2, p3⟩ := k6
  refine ⟨newPtr f H S, c, k8, k9, k7, k10, k11, by rw [p3]; rfl, by rw [p3]; rfl, by rw [p3]; rfl, ?_, ?_⟩
  · intro hn
    simp only [hn, Bool.false_eq_true, if_false] at p1
    have hkr : f.keeps .routes = true := by simp [CloneFlags.keeps, hf, hn]
    have ht := (k4 .routes hkr).1
    have hO := order_ord f w
    have hro : ∀ p ∈ (S.tab .routes).ents, p ∈ order f H S := fun p hp => (mem_order w).2 ⟨.routes, hkr, hp⟩
    have hex : ∀ p ∈ (S.tab .routes).ents, H'.expiry (newPtr f H S p) = (fin f H (newPtr f H S) p).expiry :=
      fun p hp => k2.expiry (hro p hp)
    have hP : ∀ p ∈ P, p ∈ (S.tab .routes).ents ∧ (fin f H (newPtr f H S) p).expiry ≠ 0 := by
      intro p hp
      have := p1.mem_iff.1 hp
      rw [List.mem_filter] at this
      exact ⟨this.1, by simpa using this.2⟩
    refine ⟨by rw [p3]; simp [headerCopy, hn], ?_, ?_, ?_⟩
    · intro n
      rw [p3, ht]
      simp only [List.mem_map]
      constructor
      · rintro ⟨p, hp, rfl⟩
        obtain ⟨h1, h2⟩ := hP p hp
        exact ⟨⟨p, h1, rfl⟩, by rw [hex p h1]; exact h2⟩
      · rintro ⟨⟨p, hp, rfl⟩, h2⟩
        refine ⟨p, p1.mem_iff.2 ?_, rfl⟩
        rw [List.mem_filter]
        exact ⟨hp, by rw [hex p hp] at h2; simpa using h2⟩
    · rw [p3]
      have : P.Nodup := p1.nodup_iff.2 ((w.nodup .routes).filter _)
      exact nodup_map_of_inj this (fun p hp q hq hh => hO.inj (hro p (hP p hp).1) (hro q (hP q hq).1) hh)
    · rw [p3]
      simp only
      rw [List.pairwise_map]
      refine p2.imp_of_mem (fun {a b} ha hb hab => ?_)
      rw [hex a (hP a ha).1, hex b (hP b hb).1]; exact hab
  · intro hn
    simp only [hn, if_true] at p1
    have : P = [] := by simpa using p1
    subst this
    rw [p3]; simp [headerCopy, hn]

example : ∃ H' D, contextClone {} clCtx clHeap = .ok (H', D) ∧ D.rt.purge = [21, 20] ∧ D.rt.defaultEvent = some 19 ∧
    D.rt.highest = 0 ∧ D.validator = 77 ∧ D.idState = 12 := by
  obtain ⟨H', D, _, h, _⟩ := C45_clone_is_copy_partial {} clHeap clCtx clCtx_wf
  refine ⟨H', D, h, ?_⟩
  have : clCheck (fun _ d => decide (d.rt.purge = [21, 20] ∧ d.rt.defaultEvent = some 19 ∧ d.rt.highest = 0 ∧ d.validator = 77 ∧ d.idState = 12)) = true := by decide +kernel
  unfold clCheck at this
  rw [h] at this; simpa using this

/-- A clone "as at creation" has the configuration of creation time, the ID counter, and no rules, events
or values. -/
theorem C45_clone_at_creation_partial (f : CloneFlags) (hf : f.asAtCreation = true) (H : Heap) (S : Ctx) (w : WF H S)
    (H' : Heap) (D : Ctx) (h : contextClone f S H = .ok (H', D)) :
    D.config = S.config0 ∧ D.config0 = S.config0 ∧ D.mkId = S.mkId ∧ D.idState = S.idState ∧
      (D.tab .routes).ents = [] ∧ (D.tab .events).ents = [] ∧ (D.tab .kvs).ents = [] ∧ D.rt = {} := by
  obtain ⟨h', D', k1, _, _, _, k5, k6⟩ := clone_creation f hf w
  rw [h] at k1; cases k1
  obtain ⟨a1, a2, a3, a4, a5, a6⟩ := k6
  refine ⟨by rw [a3]; simp [freshCtx, hf], by rw [a4]; rfl, by rw [a5]; rfl, by rw [a6]; rfl, ?_, ?_, ?_, by rw [a1]; rfl⟩
  · rw [k5 .routes (by simp [CloneFlags.keeps, hf])]
  · rw [k5 .events (by simp [CloneFlags.keeps, hf])]
  · rw [k5 .kvs (by simp [CloneFlags.keeps, hf])]

example : ∃ H' D, contextClone { asAtCreation := true } clCtx clHeap = .ok (H', D) ∧ (D.tab .events).ents = [] := by
  obtain ⟨H', D, _, h, _⟩ := C45_clone_is_copy_partial { asAtCreation := true } clHeap clCtx clCtx_wf
  exact ⟨H', D, h, (C45_clone_at_creation_partial _ rfl _ _ clCtx_wf _ _ h).2.2.2.2.2.1⟩

/-! ### The clone refers to its own objects -/

/-- All pointers in the content of an object. -/
def pointers : Pay → List Ptr
  | .afNum a => [a.name]
  | .afName a => [a.number]
  | y => y.refs

theorem mem_objs_of_kept {f : CloneFlags} {H H' : Heap} {S D : Ctx} {ρ : Ptr → Ptr} (c : CopyOf f H S H' D ρ) {p : Ptr}
    (h : f.kept S p) : ρ p ∈ D.objs := by
  obtain ⟨k, hk, hp⟩ := h
  exact mem_objs.2 ⟨k, by rw [(c.tables k hk).1]; exact List.mem_map_of_mem hp⟩

theorem kept_of_mem_objs {f : CloneFlags} {H H' : Heap} {S D : Ctx} {ρ : Ptr → Ptr} (c : CopyOf f H S H' D ρ) {n : Ptr}
    (h : n ∈ D.objs) : ∃ p, f.kept S p ∧ n = ρ p := by
  obtain ⟨k, hk⟩ := mem_objs.1 h
  cases hkk : f.keeps k with
  | false => rw [(c.others k hkk).1] at hk; simp at hk
  | true =>
    rw [(c.tables k hkk).1, List.mem_map] at hk
    obtain ⟨p, hp, rfl⟩ := hk
    exact ⟨p, ⟨k, hkk, hp⟩, rfl⟩

theorem rename_pointers (f : CloneFlags) (ρ : Ptr → Ptr) (y : Pay) : pointers (y.rename f ρ) = (pointers y).map ρ := by
  cases y with
  | event e => cases h : e.aux <;> simp [pointers, Pay.rename, Pay.refs, Six.map, h]
  | route r => cases h : r.event <;> simp [pointers, Pay.rename, Pay.refs, h]
  | _ => rfl

/-- Objects reachable by one pointer from a kept object are kept. -/
theorem pointers_kept {f : CloneFlags} {H : Heap} {S : Ctx} (w : WF H S) {p : Ptr} (hp : f.kept S p) {o : Obj}
    (ho : H.mem p = some o) : ∀ x ∈ pointers o.pay, f.kept S x := by
  obtain ⟨k, hk, hp⟩ := hp
  obtain ⟨_, o', ho', hkk, _⟩ := w.valid k p hp
  rw [ho] at ho'; cases ho'
  intro x hx
  cases hy : o.pay with
  | action a => rw [hy] at hx; simp [pointers, Pay.refs] at hx
  | kv a b => rw [hy] at hx; simp [pointers, Pay.refs] at hx
  | afNum a =>
    rw [hy] at hx hkk; simp [pointers] at hx; subst hx
    simp [Pay.kind] at hkk; subst hkk
    exact ⟨.afName, rfl, (w.numbers p hp o a ho hy).1⟩
  | afName a =>
    rw [hy] at hx hkk; simp [pointers] at hx; subst hx
    simp [Pay.kind] at hkk; subst hkk
    exact ⟨.afNum, rfl, (w.names p hp o a ho hy).1⟩
  | route r =>
    rw [hy] at hx hkk; simp [pointers, Pay.refs] at hx
    simp [Pay.kind] at hkk; subst hkk
    refine ⟨.events, ?_, w.eventRefs p hp o r ho hy x hx⟩
    simp [CloneFlags.keeps] at hk ⊢; exact hk.1
  | event e =>
    rw [hy] at hx hkk; simp [pointers, Pay.refs] at hx
    simp [Pay.kind] at hkk; subst hkk
    obtain ⟨l1, l2, l3, l4, l5, l6⟩ := w.actionRefs p hp o e ho hy
    rcases hx with h | h | h | h | h | h | h
    · exact ⟨.actions, rfl, l1 x h⟩
    · exact ⟨.actions, rfl, l2 x h⟩
    · exact ⟨.actions, rfl, l3 x h⟩
    · exact ⟨.actions, rfl, l4 x h⟩
    · exact ⟨.actions, rfl, l5 x h⟩
    · exact ⟨.actions, rfl, l6 x h⟩
    · exact ⟨.events, hk, w.auxRefs p hp o e ho hy x h⟩

/-- Every pointer held by an object of the clone goes to an object of the clone. -/
theorem C45_own_references_partial (f : CloneFlags) (H : Heap) (S : Ctx) (w : WF H S)
    (H' : Heap) (D : Ctx) (h : contextClone f S H = .ok (H', D)) :
    ∀ n ∈ D.objs, ∃ o, H'.mem n = some o ∧ H.next ≤ n ∧ ∀ x ∈ pointers o.pay, x ∈ D.objs := by
  obtain ⟨c, _⟩ := clone_result w h
  intro n hn
  obtain ⟨p, hp, rfl⟩ := kept_of_mem_objs c hn
  obtain ⟨o, o', h1, h2, _, _, h5⟩ := c.content p hp
  refine ⟨o', h2, (c.fresh p hp).1, fun x hx => ?_⟩
  rw [h5, rename_pointers, List.mem_map] at hx
  obtain ⟨q, hq, rfl⟩ := hx
  exact mem_objs_of_kept c (pointers_kept w hp h1 q hq)

example : ∃ H' D, contextClone {} clCtx clHeap = .ok (H', D) ∧ 18 ∈ D.objs ∧
    (H'.mem 18).map (fun o => pointers o.pay) = some [12, 13, 13, 19] := by
  obtain ⟨H', D, _, h, _⟩ := C45_clone_is_copy_partial {} clHeap clCtx clCtx_wf
  refine ⟨H', D, h, ?_⟩
  have : clCheck (fun h d => decide (18 ∈ d.objs ∧ (h.mem 18).map (fun o => pointers o.pay) = some [12, 13, 13, 19])) = true := by decide +kernel
  unfold clCheck at this
  rw [h] at this; simpa using this

/-- The reference count of each object of the clone is one more than the references the clone holds to
it. -/
theorem C45_refcounts_partial (f : CloneFlags) (H : Heap) (S : Ctx) (w : WF H S)
    (H' : Heap) (D : Ctx) (h : contextClone f S H = .ok (H', D)) :
    ∀ n ∈ D.objs, H'.refs n = 1 + (D.held H').count n := by
  obtain ⟨c, Hx, hHx, I⟩ := clone_result w h
  have hO := order_ord f w
  intro n hn
  obtain ⟨p, hp, rfl⟩ := kept_of_mem_objs c hn
  rw [I.refs p ((mem_order w).2 hp)]
  congr 1
  have hrf : ∀ k, f.keeps k = true → (D.tab k).ents.flatMap H'.refsOf =
      (S.tab k).ents.flatMap (fun p => (fin f H (newPtr f H S) p).refs) := by
    intro k hk
    rw [(c.tables k hk).1, List.flatMap_map]
    refine flatMap_same fun q hq => ?_
    obtain ⟨o, pr, h1, h2⟩ := I.copied q ((mem_order w).2 ⟨k, hk, hq⟩)
    unfold Heap.refsOf; rw [h2]
  have hnil : ∀ k, k ≠ .events → k ≠ .routes → (D.tab k).ents.flatMap H'.refsOf = [] := by
    intro k h1 h2
    cases hk : f.keeps k with
    | false => rw [(c.others k hk).1]; rfl
    | true =>
      rw [hrf k hk, List.flatMap_eq_nil_iff]
      intro q hq; exact kind_refs w f _ h1 h2 hq
  have hheld : D.held H' = (D.tab .events).ents.flatMap H'.refsOf ++ (D.tab .routes).ents.flatMap H'.refsOf ++
      D.rt.defaultEvent.toList := by
    unfold Ctx.held Ctx.objs
    simp only [List.flatMap_append, hnil .actions (by decide) (by decide), hnil .afNum (by decide) (by decide),
      hnil .afName (by decide) (by decide), hnil .kvs (by decide) (by decide), List.nil_append, List.append_nil]
  rw [hheld]
  cases hf : f.asAtCreation with
  | true =>
    have hd := (C45_clone_at_creation_partial f hf H S w H' D h).2.2.2.2
    rw [hd.1, hd.2.1, hd.2.2.2]
    simp [takenRefs, hf]
  | false =>
    obtain ⟨ρ', c', _, _, _, _, _, _, _, hde, _⟩ := C45_clone_settings_partial f hf H S w H' D h
    obtain ⟨h', D', k1, _, _, _, _, k6, _⟩ := clone_full f hf w
    rw [h] at k1; cases k1
    obtain ⟨P, _, _, p3⟩ := k6
    have hde : D.rt.defaultEvent = S.rt.defaultEvent.map (newPtr f H S) := by rw [p3]; rfl
    rw [hrf .events (by simp [CloneFlags.keeps, hf]), hde]
    unfold takenRefs
    rw [if_neg (by simp [hf])]
    cases hn : f.noRoutes with
    | true =>
      rw [(c.others .routes (by simp [CloneFlags.keeps, hf, hn])).1]
      simp
    | false =>
      rw [hrf .routes (by simp [CloneFlags.keeps, hf, hn])]
      simp only [Bool.false_eq_true, if_false, List.count_append]; omega

example : ∃ H' D, contextClone {} clCtx clHeap = .ok (H', D) ∧ 13 ∈ D.objs ∧ H'.refs 13 = 3 ∧ H'.refs 19 = 3 ∧ H'.refs 18 = 2 := by
  obtain ⟨H', D, _, h, _⟩ := C45_clone_is_copy_partial {} clHeap clCtx clCtx_wf
  refine ⟨H', D, h, ?_⟩
  have : clCheck (fun h d => decide (13 ∈ d.objs ∧ h.refs 13 = 3 ∧ h.refs 19 = 3 ∧ h.refs 18 = 2)) = true := by decide +kernel
  unfold clCheck at this
  rw [h] at this; simpa using this

/-! ### Source and clone are independent -/

/-- Cloning changes no object that existed before, and no reference count but that of the fallthrough
rule, which the clone shares. -/
theorem C45_source_untouched_partial (f : CloneFlags) (H : Heap) (S : Ctx) (w : WF H S)
    (H' : Heap) (D : Ctx) (h : contextClone f S H = .ok (H', D)) :
    ∀ q, q < H.next → H'.mem q = H.mem q ∧
      H'.refs q = H.refs q + (if f.asAtCreation = false ∧ S.rt.fallthrough = some q then 1 else 0) := by
  obtain ⟨c, Hx, hHx, I⟩ := clone_result w h
  intro q hq
  have hn : Hx.next = H.next ∧ Hx.mem = H.mem := by
    rw [hHx]; split
    · exact ⟨rfl, rfl⟩
    · exact ⟨(bumped_mem H S).2, (bumped_mem H S).1⟩
  refine ⟨by rw [I.old q (by rw [hn.1]; exact hq), hn.2], ?_⟩
  rw [I.oldRefs q (by rw [hn.1]; exact hq), hHx]
  cases hf : f.asAtCreation with
  | true => simp
  | false =>
    simp only [Bool.false_eq_true, if_false, true_and]
    unfold bumped
    cases hft : S.rt.fallthrough with
    | none => simp
    | some x =>
      by_cases hx : x = q
      · subst hx; simp [Heap.upref]
      · have hxq : ¬ q = x := fun e => hx e.symm
        simp [Heap.upref, hx, hxq]

/-- Later changes to the source do not show in the clone: whatever is stored in objects that existed
before the clone was made, or in objects created after it, the clone stays a copy of the source as it was. -/
theorem C45_clone_keeps_partial (f : CloneFlags) (H : Heap) (S : Ctx) (w : WF H S)
    (H' : Heap) (D : Ctx) (h : contextClone f S H = .ok (H', D)) (K : Heap) (hn : H'.next ≤ K.next)
    (hK : ∀ q, H.next ≤ q → q < H'.next → K.mem q = H'.mem q) :
    ∃ ρ, CopyOf f H S K D ρ := by
  obtain ⟨c, _⟩ := clone_result w h
  refine ⟨newPtr f H S, fun p hp => ⟨(c.fresh p hp).1, Nat.lt_of_lt_of_le (c.fresh p hp).2 hn⟩, c.inj, c.tables, c.others,
    fun p hp => ?_, c.byId⟩
  obtain ⟨o, o', h1, h2, h3⟩ := c.content p hp
  exact ⟨o, o', h1, by rw [hK _ (c.fresh p hp).1 (c.fresh p hp).2]; exact h2, h3⟩

/-- Later changes to the clone do not show in the source: whatever is stored in the clone's objects, or
in objects created later, the source's objects are as before, and the source stays well-formed. -/
theorem C45_source_keeps_partial (f : CloneFlags) (H : Heap) (S : Ctx) (w : WF H S)
    (H' : Heap) (D : Ctx) (h : contextClone f S H = .ok (H', D)) (K : Heap)
    (hK : ∀ q, q < H.next → K.mem q = H'.mem q) :
    (∀ p ∈ S.objs, K.mem p = H.mem p) ∧ ∀ n ∈ D.objs, n ∉ S.objs := by
  obtain ⟨c, _⟩ := clone_result w h
  refine ⟨fun p hp => ?_, fun n hn hs => ?_⟩
  · obtain ⟨k, hk⟩ := mem_objs.1 hp
    have hlt := (w.valid k p hk).1
    rw [hK p hlt, (C45_source_untouched_partial f H S w H' D h p hlt).1]
  · obtain ⟨p, hp, rfl⟩ := kept_of_mem_objs c hn
    obtain ⟨k, hk⟩ := mem_objs.1 hs
    have := (w.valid k _ hk).1
    have := (c.fresh p hp).1
    omega

/-- The example: a store to the source's first event, then one to the clone's. -/
example : ∃ H' D, contextClone {} clCtx clHeap = .ok (H', D) ∧
    (∃ ρ, CopyOf {} clHeap clCtx (H'.set 6 ⟨7, 0, none, .event { label := [0#8] }⟩) D ρ) ∧
    ∀ p ∈ clCtx.objs, (H'.set 18 ⟨7, 0, none, .event { label := [0#8] }⟩).mem p = clHeap.mem p := by
  obtain ⟨H', D, _, h, _⟩ := C45_clone_is_copy_partial {} clHeap clCtx clCtx_wf
  refine ⟨H', D, h, ?_, ?_⟩
  · refine C45_clone_keeps_partial {} clHeap clCtx clCtx_wf H' D h _ (Nat.le_refl _) (fun q hq _ => ?_)
    have : q ≠ 6 := by simp [clHeap] at hq; omega
    simp [Heap.set, this]
  · refine (C45_source_keeps_partial {} clHeap clCtx clCtx_wf H' D h _ (fun q hq => ?_)).1
    have : q ≠ 18 := by simp [clHeap] at hq; omega
    simp [Heap.set, this]

/-! ### Findings -/

/-- The clone shares the source's fallthrough rule: it is not one of its own objects. -/
theorem C45_fallthrough_shared (f : CloneFlags) (hf : f.asAtCreation = false) (H : Heap) (S : Ctx) (w : WF H S)
    (H' : Heap) (D : Ctx) (h : contextClone f S H = .ok (H', D)) : D.rt.fallthrough = S.rt.fallthrough := by
  obtain ⟨h', D', k1, _, _, _, _, k6, _⟩ := clone_full f hf w
  rw [h] at k1; cases k1
  obtain ⟨P, _, _, p3⟩ := k6
  rw [p3]; rfl

example : clCtx.rt.fallthrough = some 11 := rfl

/-- The idle limit of purgeable rules is not copied: in every clone it is 0. -/
theorem C45_idle_limit_lost (f : CloneFlags) (H : Heap) (S : Ctx) (w : WF H S)
    (H' : Heap) (D : Ctx) (h : contextClone f S H = .ok (H', D)) : D.rt.maxIdle = 0 := by
  cases hf : f.asAtCreation with
  | true => rw [(C45_clone_at_creation_partial f hf H S w H' D h).2.2.2.2.2.2.2]
  | false =>
    obtain ⟨h', D', k1, _, _, _, _, k6, _⟩ := clone_full f hf w
    rw [h] at k1; cases k1
    obtain ⟨P, _, _, p3⟩ := k6
    rw [p3]; rfl

example : clCtx.rt.maxIdle = 5 := rfl

/-- The any-family rule remembered by a clone is the last one in the table (insertion remembers the
first: C10_remembers_first). -/
theorem C45_remembers_last (H : Heap) (S : Ctx) (w : WF H S)
    (H' : Heap) (D : Ctx) (h : contextClone {} S H = .ok (H', D)) :
    D.rt.lastAfWildcard = ((D.tab .routes).ents.filter (fun n =>
      match H'.mem n with
      | some ⟨_, _, _, .route r⟩ => r.body.flags.has RF.SA_FAMILY_WILDCARD
      | _ => false)).getLast? := by
  obtain ⟨h', D', k1, k2, _, k4, _, k6, _⟩ := clone_full {} rfl w
  rw [h] at k1; cases k1
  obtain ⟨P, _, _, p3⟩ := k6
  rw [p3, (k4 .routes rfl).1, List.filter_map, List.getLast?_map]
  simp only [Bool.false_eq_true, if_false]
  congr 2
  apply List.filter_congr
  intro p hp
  obtain ⟨o, pr, _, h2⟩ := k2.copied p ((mem_order w).2 ⟨.routes, rfl, hp⟩)
  obtain ⟨o, r, ho, hr⟩ := w.route hp
  have hfin : fin {} H (newPtr {} H S) p = .route { r with event := r.event.map (newPtr {} H S) } := by
    rw [fin_of ho, hr]; rfl
  rw [hfin] at h2
  simp only [Function.comp, h2, hfin, Pay.rflags]

example : clCheck (fun _ d => decide (d.rt.lastAfWildcard = some 20)) = true := by decide +kernel

/-- The links back from the by-number family objects are not set in a clone.  Deleting the second of two
families from the source keeps the first; deleting it from the clone loses the first as well. -/
theorem C45_family_delete_loses_others :
    (unlinkEnt clHeap (clCtx.tab .afNum) 4).ents = [2] ∧
    ∃ H' D, contextClone {} clCtx clHeap = .ok (H', D) ∧ (D.tab .afNum).ents = [14, 16] ∧
      (unlinkEnt H' (D.tab .afNum) 16).ents = [] := by
  refine ⟨by decide +kernel, ?_⟩
  obtain ⟨H', D, _, h, _⟩ := C45_clone_is_copy_partial {} clHeap clCtx clCtx_wf
  refine ⟨H', D, h, ?_⟩
  have : clCheck (fun h d => decide ((d.tab .afNum).ents = [14, 16] ∧ (unlinkEnt h (d.tab .afNum) 16).ents = [])) = true := by
    decide +kernel
  unfold clCheck at this
  rw [h] at this; simpa using this

/-- Deleting any object from any table of any clone but the by-number family table removes that object
and no other (the links back are set).  This needs no assumption on the source. -/
theorem C45_delete_from_clone (f : CloneFlags) (H : Heap) (S : Ctx) (H' : Heap) (D : Ctx)
    (h : contextClone f S H = .ok (H', D)) (k : Kind) (hk : k ≠ .afNum) (p : Ptr) (hp : p ∈ (D.tab k).ents) :
    (unlinkEnt H' (D.tab k) p).ents = (D.tab k).ents.erase p := by
  have ht := (contextClone_links h).1 k hk
  unfold unlinkEnt
  have key : ∀ (l : List Ptr) (q : Ptr), LinkedFrom H' (some q) l → ∀ x ∈ l, ∃ y, (H'.mem x).map Obj.prev = some (some y) := by
    intro l
    induction l with
    | nil => intro _ _ x hx; simp at hx
    | cons z l ih =>
      intro q hl x hx
      rcases List.mem_cons.1 hx with rfl | hx
      · exact ⟨q, hl.1⟩
      · exact ih z hl.2 x hx
  cases he : (D.tab k).ents with
  | nil => rw [he] at hp; simp at hp
  | cons z l =>
    rw [he] at ht hp
    have hl := ht.2
    by_cases hz : p = z
    · subst hz
      cases hm : H'.mem p with
      | none => rw [LinkedFrom, hm] at hl; cases hl.1
      | some o =>
        have : o.prev = none := by have := hl.1; rw [hm] at this; simpa using this
        simp only [this]
        simp
    · obtain ⟨y, hy⟩ := key l z hl.2 p (by simpa [hz] using hp)
      cases hm : H'.mem p with
      | none => rw [hm] at hy; cases hy
      | some o =>
        have : o.prev = some y := by rw [hm] at hy; simpa using hy
        simp only [this]

example : clCheck (fun h d => decide ((d.tab .events).ents = [18, 19] ∧ (unlinkEnt h (d.tab .events) 19).ents = [18])) = true := by
  decide +kernel

/-- In every clone, deleting a registered family loses every by-number object before it as well. -/
theorem C45_family_links_missing (f : CloneFlags) (H : Heap) (S : Ctx) (H' : Heap) (D : Ctx)
    (h : contextClone f S H = .ok (H', D)) (a b : List Ptr) (p : Ptr) (hp : p ∉ a) (he : (D.tab .afNum).ents = a ++ p :: b) :
    (unlinkEnt H' (D.tab .afNum) p).ents = b := by
  have ht := (contextClone_links h).2 p (by rw [he]; simp)
  unfold unlinkEnt
  cases hm : H'.mem p with
  | none => rw [hm] at ht; cases ht
  | some o =>
    have : o.prev = none := by rw [hm] at ht; simpa using ht
    simp only [this, he]
    have : (a ++ p :: b).dropWhile (fun q => q != p) = p :: b := by
      clear he
      induction a with
      | nil => simp
      | cons x a ih =>
        simp only [List.mem_cons, not_or] at hp
        have hx : (x != p) = true := by simpa using fun hh : x = p => hp.1 hh.symm
        simp only [List.cons_append, List.dropWhile_cons, hx, if_true]
        exact ih hp.2
    rw [this]; rfl

/-- The example after its first event was deleted: the event is no longer in the table, but its rule
still refers to it (`wolfsentry_event_delete`, src/events.c:432-494, only drops the table's reference). -/
def clDeleted : Ctx :=
  { clCtx with tab := fun k => if k = .events then clTab [7] else clCtx.tab k
               byId := [0, 1, 2, 3, 4, 5, 7, 8, 9, 10], nById := 10 }

/-- A context one of whose rules belongs to a deleted event cannot be cloned. -/
theorem C45_deleted_event_fails : (match contextClone {} clDeleted clHeap with
    | .error e => decide (e = .itemNotFound)
    | .ok _ => false) = true := by decide +kernel

/-- The example after the configured private-data size grew from 0 to 1 byte. -/
def clPrivate : Ctx := { clCtx with config := { config := { privSize := 1 } } }

/-- A rule inserted before the private-data size of its configuration changed: the copy's data area is a
zero byte and the address.  (When the size shrinks, private data are copied in place of the address:
`C45_private_resize_corrupts`.) -/
theorem C45_private_resize : (match contextClone {} clPrivate clHeap with
    | .ok (h, _) => decide ((h.mem 20).map Obj.pay = some (.route
        { body := { flags := RF.SA_FAMILY_WILDCARD, data := { purgeAfter := 7 } }, event := some 18, off := 1, size := 1, data := [0#8, 9#8] }))
    | .error _ => false) = true := by decide +kernel

/-- When the size of the private data area changed to any other size, the copied rule's address bytes are
taken from the start of the source's area, where the private data are. -/
theorem C45_private_resize_corrupts (n : Nat) (r : RouteO) (hr : r.off ≠ n) (hs : r.size ≤ r.off) :
    (routeCopy n r).data.drop n = r.data.take r.size ∧ (routeCopy n r).off = n ∧ r.data.take r.size = (r.data.take r.off).take r.size := by
  unfold routeCopy
  rw [if_neg hr]
  refine ⟨by simp, rfl, ?_⟩
  rw [List.take_take, Nat.min_eq_left hs]

example : (routeCopy 0 { body := {}, off := 2, size := 1, data := [1#8, 2#8, 9#8] }).data = [1#8] := by decide

end WS.Props
