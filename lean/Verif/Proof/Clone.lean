import Verif.Spec.Clone
import Verif.Proof.RouteMatch
import Verif.Proof.RouteKey
/-
Lemmas for property C45: the loops of the clone code keep an invariant about a fixed renaming.
-/
namespace WS.Cl
open WS

variable {H : Heap} {S : Ctx} {ρ : Ptr → Ptr} {O : List Ptr}

/-- The order in which copies are allocated determines the renaming. -/
structure Ord (H : Heap) (O : List Ptr) (ρ : Ptr → Ptr) : Prop where
  nodup : O.Nodup
  ren : ∀ p ∈ O, ρ p = H.next + O.idxOf p
  live : ∀ p ∈ O, p < H.next ∧ ∃ o, H.mem p = some o ∧ o.id ≠ 0
  ids : ∀ p ∈ O, ∀ q ∈ O, H.idOf p = H.idOf q → p = q

theorem idxOf_inj {l : List Ptr} {p q : Ptr} (hp : p ∈ l) (hq : q ∈ l) (h : l.idxOf p = l.idxOf q) : p = q := by
  have h1 := List.getElem_idxOf (List.idxOf_lt_length_of_mem hp)
  have h2 := List.getElem_idxOf (List.idxOf_lt_length_of_mem hq)
  rw [← h1, ← h2]; simp only [h]

theorem Ord.inj (hO : Ord H O ρ) {p q : Ptr} (hp : p ∈ O) (hq : q ∈ O) (h : ρ p = ρ q) : p = q := by
  rw [hO.ren p hp, hO.ren q hq] at h
  exact idxOf_inj hp hq (by omega)

theorem Ord.at (hO : Ord H O ρ) {D rest : List Ptr} {p : Ptr} (e : O = D ++ p :: rest) : ρ p = H.next + D.length := by
  have hp : p ∈ O := by rw [e]; simp
  rw [hO.ren p hp]
  have hn : p ∉ D := by
    have := hO.nodup; rw [e] at this
    have := (List.nodup_append.1 this).2.2
    intro hd; exact this p hd p (by simp) rfl
  rw [e, List.idxOf_append, if_neg hn]; simp

theorem Ord.fresh (hO : Ord H O ρ) {p : Ptr} (hp : p ∈ O) : H.next ≤ ρ p ∧ ρ p < H.next + O.length := by
  rw [hO.ren p hp]
  have := List.idxOf_lt_length_of_mem hp
  omega

/-- The label of a content. -/
def Pay.label? : Pay → Option Label
  | .action a => some a.label
  | .event e => some e.label
  | .afName a => some a.label
  | _ => none

theorem Heap.label_of {h : Heap} {p : Ptr} {o : Obj} (e : h.mem p = some o) : h.label p = o.pay.label? := by
  unfold Heap.label; rw [e]
  cases o with | mk id hits prev pay => cases pay <;> rfl

theorem Heap.idOf_of {h : Heap} {p : Ptr} {o : Obj} (e : h.mem p = some o) : h.idOf p = o.id := by
  unfold Heap.idOf; rw [e]

/-- The heap while the clone is under way: the objects `D` have been copied, with contents `g`; the old
objects are as before; the counts of the copies are one more than their references in `R`. -/
structure Inv (H : Heap) (ρ : Ptr → Ptr) (g : Ptr → Pay) (h : Heap) (D R : List Ptr) : Prop where
  next : h.next = H.next + D.length
  old : ∀ q, q < H.next → h.mem q = H.mem q
  oldRefs : ∀ q, q < H.next → h.refs q = H.refs q
  copied : ∀ p ∈ D, ∃ o pr, H.mem p = some o ∧ h.mem (ρ p) = some ⟨o.id, o.hits, pr, g p⟩
  refs : ∀ p ∈ D, h.refs (ρ p) = 1 + R.count (ρ p)
  bound : ∀ q ∈ R, q < h.next
  below : ∀ p ∈ D, ρ p < h.next

theorem Inv.congr {g g' : Ptr → Pay} {h : Heap} {D R : List Ptr} (I : Inv H ρ g h D R) (e : ∀ p ∈ D, g p = g' p) :
    Inv H ρ g' h D R :=
  { I with copied := fun p hp => by obtain ⟨o, pr, h1, h2⟩ := I.copied p hp; exact ⟨o, pr, h1, by rw [h2, e p hp]⟩ }

theorem Inv.idOf {g : Ptr → Pay} {h : Heap} {D R : List Ptr} (I : Inv H ρ g h D R) {p : Ptr} (hp : p ∈ D) :
    h.idOf (ρ p) = H.idOf p := by
  obtain ⟨o, pr, h1, h2⟩ := I.copied p hp
  rw [Heap.idOf_of h1, Heap.idOf_of h2]

theorem Inv.label {g : Ptr → Pay} {h : Heap} {D R : List Ptr} (I : Inv H ρ g h D R) {p : Ptr} (hp : p ∈ D) :
    h.label (ρ p) = (g p).label? := by
  obtain ⟨o, pr, h1, h2⟩ := I.copied p hp
  rw [Heap.label_of h2]

theorem Inv.oldLabel {g : Ptr → Pay} {h : Heap} {D R : List Ptr} (I : Inv H ρ g h D R) {q : Ptr} (hq : q < H.next) :
    h.label q = H.label q := by
  unfold Heap.label; rw [I.old q hq]

theorem Inv.start (g : Ptr → Pay) : Inv H ρ g H [] [] :=
  ⟨by simp, fun _ _ => rfl, fun _ _ => rfl, by simp, by simp, by simp, by simp⟩

theorem Inv.alloc {g : Ptr → Pay} {h : Heap} {D R rest : List Ptr} {p : Ptr} {o : Obj} (hO : Ord H O ρ)
    (I : Inv H ρ g h D R) (e : O = D ++ p :: rest) (ho : H.mem p = some o) (pr : Option Ptr) :
    (h.alloc ⟨o.id, o.hits, pr, g p⟩).1 = ρ p ∧ Inv H ρ g (h.alloc ⟨o.id, o.hits, pr, g p⟩).2 (D ++ [p]) R := by
  have hat := hO.at e
  have hn : h.next = ρ p := by rw [I.next, hat]
  have hD : ∀ q ∈ D, ρ q ≠ h.next := by
    intro q hq hc
    rw [hn] at hc
    have hqO : q ∈ O := by rw [e]; simp [hq]
    have hpO : p ∈ O := by rw [e]; simp
    have := hO.inj hqO hpO hc
    subst this
    have hnd := hO.nodup; rw [e] at hnd
    exact (List.nodup_append.1 hnd).2.2 q hq q (by simp) rfl
  refine ⟨hn, ?_, ?_, ?_, ?_, ?_, ?_, ?_⟩
  · simp [Heap.alloc, I.next]; omega
  · intro q hq
    have : q ≠ h.next := by have := I.next; omega
    simp only [Heap.alloc, if_neg this]; exact I.old q hq
  · intro q hq
    have : q ≠ h.next := by have := I.next; omega
    simp only [Heap.alloc, if_neg this]; exact I.oldRefs q hq
  · intro q hq
    rcases List.mem_append.1 hq with hq | hq
    · obtain ⟨o', pr', h1, h2⟩ := I.copied q hq
      exact ⟨o', pr', h1, by simp only [Heap.alloc, if_neg (hD q hq)]; exact h2⟩
    · simp at hq; subst hq
      exact ⟨o, pr, ho, by simp only [Heap.alloc, hn, if_pos]⟩
  · intro q hq
    rcases List.mem_append.1 hq with hq | hq
    · simp only [Heap.alloc, if_neg (hD q hq)]; exact I.refs q hq
    · simp at hq; subst hq
      have : R.count (ρ q) = 0 := by
        rw [List.count_eq_zero]
        intro hc; have := I.bound _ hc; omega
      simp only [Heap.alloc, hn, if_pos, this]
  · intro q hq
    have := I.bound q hq
    simp only [Heap.alloc]; omega
  · intro q hq
    rcases List.mem_append.1 hq with hq | hq
    · have := I.below q hq
      simp only [Heap.alloc]; omega
    · simp at hq; subst hq; simp only [Heap.alloc]; omega

theorem Inv.set {g g' : Ptr → Pay} {h : Heap} {D R : List Ptr} {p : Ptr} {o : Obj} (hO : Ord H O ρ) (hDO : ∀ q ∈ D, q ∈ O)
    (I : Inv H ρ g h D R) (hp : p ∈ D) (ho : H.mem p = some o) (pr : Option Ptr)
    (hg : ∀ q ∈ D, q ≠ p → g' q = g q) : Inv H ρ g' (h.set (ρ p) ⟨o.id, o.hits, pr, g' p⟩) D R := by
  have hf := (hO.fresh (hDO p hp)).1
  refine ⟨I.next, ?_, I.oldRefs, ?_, I.refs, I.bound, I.below⟩
  · intro q hq
    have : q ≠ ρ p := by omega
    simp only [Heap.set, if_neg this]; exact I.old q hq
  · intro q hq
    by_cases hqp : q = p
    · subst hqp
      exact ⟨o, pr, ho, by simp only [Heap.set, if_pos]⟩
    · obtain ⟨o', pr', h1, h2⟩ := I.copied q hq
      have : ρ q ≠ ρ p := fun hc => hqp (hO.inj (hDO q hq) (hDO p hp) hc)
      exact ⟨o', pr', h1, by simp only [Heap.set, if_neg this]; rw [h2, hg q hq hqp]⟩

theorem Inv.upref {g : Ptr → Pay} {h : Heap} {D R : List Ptr} {x : Ptr} (hO : Ord H O ρ) (hDO : ∀ q ∈ D, q ∈ O)
    (I : Inv H ρ g h D R) (hx : x ∈ D) : Inv H ρ g (h.upref (ρ x)) D (R ++ [ρ x]) := by
  have hf := (hO.fresh (hDO x hx)).1
  refine ⟨I.next, I.old, ?_, I.copied, ?_, ?_, I.below⟩
  · intro q hq
    have : q ≠ ρ x := by omega
    simp only [Heap.upref, if_neg this]; exact I.oldRefs q hq
  · intro q hq
    rw [List.count_append]
    by_cases hqx : ρ q = ρ x
    · simp only [Heap.upref, hqx, if_pos]
      have h1 := I.refs x hx
      rw [h1]; simp; omega
    · simp only [Heap.upref, if_neg hqx]
      rw [I.refs q hq]
      have : [ρ x].count (ρ q) = 0 := by
        rw [List.count_eq_zero]; simp; exact hqx
      omega
  · intro q hq
    rcases List.mem_append.1 hq with hq | hq
    · exact I.bound q hq
    · simp at hq; subst hq
      exact I.below x hx

/-! ### the ID index -/

/-- The index lists the copies of `D`, by ID. -/
def ByIdL (H : Heap) (ρ : Ptr → Ptr) (b : List Ptr) (n : Nat) (D : List Ptr) : Prop :=
  ∃ B : List Ptr, B.Pairwise (fun p q => H.idOf p < H.idOf q) ∧ B.Perm D ∧ b = B.map ρ ∧ n = D.length

theorem idSplice_map (h : Heap) (p : Ptr) : ∀ B : List Ptr, B.Pairwise (fun p q => H.idOf p < H.idOf q) →
    (∀ q ∈ p :: B, h.idOf (ρ q) = H.idOf q) → (∀ q ∈ B, H.idOf q ≠ H.idOf p) →
    ∃ B' : List Ptr, h.idSplice (ρ p) (B.map ρ) = some (B'.map ρ) ∧
      B'.Pairwise (fun p q => H.idOf p < H.idOf q) ∧ B'.Perm (p :: B)
  | [], _, _, _ => ⟨[p], rfl, by simp, List.Perm.refl _⟩
  | i :: B, hs, hi, hne => by
    rw [List.pairwise_cons] at hs
    have e1 : h.idOf (ρ i) = H.idOf i := hi i (by simp)
    have e2 : h.idOf (ρ p) = H.idOf p := hi p (by simp)
    by_cases hlt : H.idOf i < H.idOf p
    · obtain ⟨B', h1, h2, h3⟩ := idSplice_map h p B hs.2 (fun q hq => hi q (by
        rcases List.mem_cons.1 hq with rfl | hq
        · simp
        · simp [hq])) (fun q hq => hne q (by simp [hq]))
      refine ⟨i :: B', ?_, ?_, ?_⟩
      · simp only [List.map_cons, Heap.idSplice, e1, e2, if_pos hlt, h1, Option.map_some]
      · rw [List.pairwise_cons]
        refine ⟨fun q hq => ?_, h2⟩
        rcases List.mem_cons.1 (h3.mem_iff.1 hq) with rfl | hq
        · exact hlt
        · exact hs.1 q hq
      · exact (List.Perm.cons i h3).trans (List.Perm.swap p i B)
    · have hne' : ¬ H.idOf i = H.idOf p := hne i (by simp)
      refine ⟨p :: i :: B, ?_, ?_, List.Perm.refl _⟩
      · simp only [List.map_cons, Heap.idSplice, e1, e2, if_neg hlt, if_neg hne']
      · rw [List.pairwise_cons, List.pairwise_cons]
        refine ⟨fun q hq => ?_, hs⟩
        rcases List.mem_cons.1 hq with rfl | hq
        · omega
        · have := hs.1 q hq; omega

theorem insertById_step {g : Ptr → Pay} {h : Heap} {d : Ctx} {D D' R rest : List Ptr} {p : Ptr} (hO : Ord H O ρ)
    (I : Inv H ρ g h D' R) (e : O = D ++ p :: rest) (hD' : ∀ q ∈ D ++ [p], q ∈ D')
    (hb : ByIdL H ρ d.byId d.nById D) :
    ∃ b n, insertById h d (ρ p) = .ok { d with byId := b, nById := n } ∧ ByIdL H ρ b n (D ++ [p]) := by
  obtain ⟨B, h1, h2, h3, h4⟩ := hb
  have hpO : p ∈ O := by rw [e]; simp
  have hnd := hO.nodup
  rw [e] at hnd
  have hpD : p ∉ D := fun hd => (List.nodup_append.1 hnd).2.2 p hd p (by simp) rfl
  obtain ⟨B', k1, k2, k3⟩ := idSplice_map (H := H) (ρ := ρ) h p B h1 (fun q hq => I.idOf (hD' q (by
      rcases List.mem_cons.1 hq with rfl | hq
      · simp
      · simp [h2.mem_iff.1 hq]))) (fun q hq hc => by
      have hqD := h2.mem_iff.1 hq
      have := hO.ids q (by rw [e]; simp [hqD]) p hpO hc
      subst this; exact hpD hqD)
  have hid : h.idOf (ρ p) ≠ 0 := by
    rw [I.idOf (hD' p (by simp))]
    obtain ⟨o, ho, hz⟩ := (hO.live p hpO).2
    rw [Heap.idOf_of ho]; exact hz
  refine ⟨B'.map ρ, d.nById + 1, ?_, B', k2, k3.trans ((List.Perm.cons p h2).trans (List.perm_append_singleton p D).symm), rfl, by simp [h4]⟩
  simp only [insertById, if_neg hid, h3, k1]

/-! ### lookup by label -/

theorem labelCmp_gt_ne {a b : Label} (h : labelCmp a b = .lt) : labelCmp b a ≠ .eq ∧ labelCmp b a ≠ .lt := by
  have : labelCmp b a = .gt := by
    rw [labelCmp_lex] at *
    rw [Std.OrientedCmp.eq_swap (cmp := compare), h]; rfl
  rw [this]; decide

/-- Looking a label up among the copies of a sorted list finds the copy of its owner. -/
theorem find_map (h : Heap) (x : Ptr) (l : Label) (hx : H.label x = some l) : ∀ E : List Ptr, x ∈ E →
    E.Pairwise (fun p q => ∃ a b, H.label p = some a ∧ H.label q = some b ∧ labelCmp a b = .lt) →
    (∀ q ∈ E, h.label (ρ q) = H.label q) → h.find l (E.map ρ) = .ok (ρ x)
  | [], hm, _, _ => by simp at hm
  | i :: E, hm, hs, hl => by
    rw [List.pairwise_cons] at hs
    have ei : h.label (ρ i) = H.label i := hl i (by simp)
    by_cases hxi : x = i
    · subst hxi
      have : labelCmp l l = .eq := (labelCmp_eq_iff l l).2 rfl
      simp only [List.map_cons, Heap.find, ei, hx, this]
    · have hxE : x ∈ E := by
        rcases List.mem_cons.1 hm with h | h
        · exact absurd h hxi
        · exact h
      obtain ⟨a, b, h1, h2, h3⟩ := hs.1 x hxE
      rw [hx] at h2; cases h2
      simp only [List.map_cons, Heap.find, ei, h1, h3]
      exact find_map h x l hx E hxE hs.2 (fun q hq => hl q (by simp [hq]))

/-! ### rule table header -/

def Pay.expiry : Pay → Int
  | .route r => r.body.data.purgeAfter
  | _ => 0

def Pay.rflags : Pay → Flags
  | .route r => r.body.flags
  | _ => 0

def Pay.family : Pay → Nat
  | .route r => r.body.family
  | _ => 0

/-- A rule's contribution to the list of families with bitmask rules. -/
def bmStep (afs : List (Nat × Nat)) (y : Pay) : List (Nat × Nat) :=
  if y.rflags.has (RF.REMOTE_ADDR_BITMASK ||| RF.LOCAL_ADDR_BITMASK) then
    match WS.upref y.family afs with
    | .ok l => l
    | .error _ => afs
  else afs

/-- The rule table header after the copies of `done` were noted. -/
def RtI (ρ : Ptr → Ptr) (g : Ptr → Pay) (rt0 rt : RtHdr) (done : List Ptr) : Prop :=
  ∃ P : List Ptr, P.Perm (done.filter (fun p => (g p).expiry != 0)) ∧
    P.Pairwise (fun p q => (g q).expiry ≤ (g p).expiry) ∧
    rt = { rt0 with
      purge := P.map ρ,
      lastAfWildcard := (done.filter (fun p => (g p).rflags.has RF.SA_FAMILY_WILDCARD)).getLast?.map ρ,
      bitmaskAfs := done.foldl (fun l p => bmStep l (g p)) [] }

theorem purgeSplice_map (e : Ptr → Int) (p : Ptr) (t : Int) : ∀ P : List Ptr,
    purgeSplice e (ρ p) t (P.map ρ) = (purgeSplice (fun q => e (ρ q)) p t P).map ρ
  | [] => rfl
  | x :: P => by
    simp only [List.map_cons, purgeSplice]
    split
    · rfl
    · rw [List.map_cons, purgeSplice_map e p t P]

theorem purgeSplice_congr (e e' : Ptr → Int) (p : Ptr) (t : Int) : ∀ P : List Ptr, (∀ q ∈ P, e q = e' q) →
    purgeSplice e p t P = purgeSplice e' p t P
  | [], _ => rfl
  | x :: P, h => by
    simp only [purgeSplice, h x (by simp), purgeSplice_congr e e' p t P (fun q hq => h q (by simp [hq]))]

theorem purgeSplice_sorted (e : Ptr → Int) (p : Ptr) : ∀ P : List Ptr, P.Pairwise (fun p q => e q ≤ e p) →
    (purgeSplice e p (e p) P).Pairwise (fun p q => e q ≤ e p) ∧ (purgeSplice e p (e p) P).Perm (p :: P)
  | [], _ => by simp [purgeSplice]
  | x :: P, h => by
    rw [List.pairwise_cons] at h
    obtain ⟨h1, h2⟩ := purgeSplice_sorted e p P h.2
    simp only [purgeSplice]
    split
    · rename_i hlt
      refine ⟨?_, List.Perm.refl _⟩
      rw [List.pairwise_cons, List.pairwise_cons]
      refine ⟨fun q hq => ?_, h⟩
      rcases List.mem_cons.1 hq with rfl | hq
      · omega
      · have := h.1 q hq; omega
    · rename_i hge
      refine ⟨?_, (List.Perm.cons x h2).trans (List.Perm.swap p x P)⟩
      rw [List.pairwise_cons]
      refine ⟨fun q hq => ?_, h1⟩
      rcases List.mem_cons.1 (h2.mem_iff.1 hq) with rfl | hq
      · omega
      · exact h.1 q hq

theorem Inv.expiry {g : Ptr → Pay} {h : Heap} {D R : List Ptr} (I : Inv H ρ g h D R) {p : Ptr} (hp : p ∈ D) :
    h.expiry (ρ p) = (g p).expiry := by
  obtain ⟨o, pr, _, h2⟩ := I.copied p hp
  unfold Heap.expiry; rw [h2]
  generalize g p = y
  cases y <;> rfl

theorem noteRoute_eq {h : Heap} {n i hh : Nat} {pr : Option Ptr} {r : RouteO}
    (hm : h.mem n = some ⟨i, hh, pr, .route r⟩) (rt0 : RtHdr) (A : List Ptr) (W : Option Ptr) (X : List (Nat × Nat)) :
    noteRoute h { rt0 with purge := A, lastAfWildcard := W, bitmaskAfs := X } n =
      { rt0 with
        purge := if r.body.data.purgeAfter ≠ 0 then purgeSplice h.expiry n r.body.data.purgeAfter A else A,
        lastAfWildcard := if r.body.flags.has RF.SA_FAMILY_WILDCARD then some n else W,
        bitmaskAfs := bmStep X (.route r) } := by
  unfold noteRoute bmStep; rw [hm]
  simp only [Pay.rflags, Pay.family]
  by_cases hw : r.body.flags.has RF.SA_FAMILY_WILDCARD = true <;>
    by_cases hb : r.body.flags.has (RF.REMOTE_ADDR_BITMASK ||| RF.LOCAL_ADDR_BITMASK) = true <;>
    by_cases hx : r.body.data.purgeAfter = 0 <;>
    simp only [hw, hb, hx, if_true, ne_eq, not_true, not_false_eq_true, if_false, Bool.false_eq_true] <;>
    cases WS.upref r.body.family X <;> rfl

theorem noteRoute_step {g : Ptr → Pay} {h : Heap} {D R done : List Ptr} {rt0 rt : RtHdr} {p : Ptr}
    (I : Inv H ρ g h D R) (hp : p ∈ D) (hd : ∀ q ∈ done, q ∈ D) (hr : ∃ r, g p = .route r)
    (hi : RtI ρ g rt0 rt done) : RtI ρ g rt0 (noteRoute h rt (ρ p)) (done ++ [p]) := by
  obtain ⟨P, h1, h2, h3⟩ := hi
  obtain ⟨r, hr⟩ := hr
  obtain ⟨o, pr, _, hm⟩ := I.copied p hp
  have ex : (g p).expiry = r.body.data.purgeAfter := by rw [hr]; rfl
  have ef : (g p).rflags = r.body.flags := by rw [hr]; rfl
  have ea : (g p).family = r.body.family := by rw [hr]; rfl
  have hP : ∀ q ∈ P, h.expiry (ρ q) = (g q).expiry := fun q hq => I.expiry (hd q (by
    have := h1.mem_iff.1 hq; simp at this; exact this.1))
  have esp : purgeSplice h.expiry (ρ p) r.body.data.purgeAfter (P.map ρ) =
      (purgeSplice (fun q => (g q).expiry) p (g p).expiry P).map ρ := by
    rw [purgeSplice_map, ex, purgeSplice_congr _ (fun q => (g q).expiry) p _ P hP]
  obtain ⟨s1, s2⟩ := purgeSplice_sorted (fun q => (g q).expiry) p P h2
  have hl : (List.filter (fun p => (g p).rflags.has RF.SA_FAMILY_WILDCARD) (done ++ [p])).getLast?.map ρ =
      if r.body.flags.has RF.SA_FAMILY_WILDCARD then some (ρ p)
      else (done.filter (fun p => (g p).rflags.has RF.SA_FAMILY_WILDCARD)).getLast?.map ρ := by
    rw [List.filter_append]
    by_cases hw : r.body.flags.has RF.SA_FAMILY_WILDCARD = true
    · simp [ef, hw]
    · simp [ef, hw]
  have hbm : (done ++ [p]).foldl (fun l p => bmStep l (g p)) [] =
      bmStep (done.foldl (fun l p => bmStep l (g p)) []) (g p) := by
    rw [List.foldl_append]; rfl
  by_cases hx : r.body.data.purgeAfter = 0
  · refine ⟨P, ?_, h2, ?_⟩
    · rw [List.filter_append]; simp [ex, hx]; exact h1
    · rw [hl, hbm]
      rw [h3, noteRoute_eq (by rw [hm, hr]), hr, if_neg (by simp [hx])]
  · refine ⟨purgeSplice (fun q => (g q).expiry) p (g p).expiry P, ?_, s1, ?_⟩
    · rw [List.filter_append]
      have : [p].filter (fun p => (g p).expiry != 0) = [p] := by simp [ex, hx]
      rw [this]
      exact s2.trans ((List.Perm.cons p h1).trans (List.perm_append_singleton p _).symm)
    · rw [hl, hbm, ← esp]
      rw [h3, noteRoute_eq (by rw [hm, hr]), hr, if_pos (by simp [hx])]

end WS.Cl
