import Verif.Proof.DList
import Verif.Proof.Table
import Verif.Model.RouteOps
/-
Property C05: the intrusive doubly linked lists.  `IsList s xs` (Spec/DList.lean) says that memory
holds a well-formed doubly linked list of exactly the cells `xs`.
-/
namespace WS.Props
open WS WS.DList

/-- A list of the cells `1, 2, 3`, used by the examples below. -/
def demoList : State :=
  { cell := fun x => if x = 1 then ⟨none, some 2⟩ else if x = 2 then ⟨some 1, some 3⟩
      else if x = 3 then ⟨some 2, none⟩ else ⟨some 7, some 8⟩,
    head := some 1, tail := some 3, len := 3 }

theorem demoList_isList : IsList demoList [1, 2, 3] := by
  constructor
  · decide
  · rfl
  · rfl
  · rfl
  · intro i x h
    match i, h with
    | 0, h => cases h; rfl
    | 1, h => cases h; rfl
    | 2, h => cases h; rfl
    | _ + 3, h => simp at h
  · intro i x h
    match i, h with
    | 0, h => cases h; rfl
    | 1, h => cases h; rfl
    | 2, h => cases h; rfl
    | _ + 3, h => simp at h

/-- C05, prepend: whatever the links of the new cell were. -/
theorem C05_prepend {s : State} {xs : List Nat} {e : Nat} (h : IsList s xs) (he : e ∉ xs) :
    IsList (prepend s e) (e :: xs) ∧ Frame s (prepend s e) xs e := prepend_rep h he
example : IsList (prepend demoList 9) [9, 1, 2, 3] := (C05_prepend demoList_isList (by decide)).1

/-- C05, append: whatever the links of the new cell were. -/
theorem C05_append {s : State} {xs : List Nat} {e : Nat} (h : IsList s xs) (he : e ∉ xs) :
    IsList (append s e) (xs ++ [e]) ∧ Frame s (append s e) xs e := append_rep h he
example : IsList (append demoList 9) [1, 2, 3, 9] := (C05_append demoList_isList (by decide)).1

/-- C05, delete: never dereferences NULL, and removes exactly the given cell. -/
theorem C05_delete {s : State} {as bs : List Nat} {e : Nat} (h : IsList s (as ++ e :: bs)) :
    ∃ s', DList.delete s e = some s' ∧ IsList s' (as ++ bs) ∧ Frame s s' (as ++ bs) e := delete_rep_ll h
example : ∃ s', DList.delete demoList 2 = some s' ∧ IsList s' [1, 3] ∧ Frame demoList s' [1, 3] 2 :=
  C05_delete (as := [1]) (bs := [3]) demoList_isList

/-- C05, insert-before, anywhere but in front of the head, whatever the links of the new cell were;
in front of the head only if the `prev` link of the new cell was already NULL.  (The full claim
drops that condition; it is false of the code, see `C05_insertBefore_stale_broken`.) -/
theorem C05_insertBefore_partial {s : State} {as bs : List Nat} {p e : Nat} (h : IsList s (as ++ p :: bs))
    (he : e ∉ as ++ p :: bs) (hstale : as = [] → (s.cell e).prev = none) :
    IsList (insertBefore s (some p) e) (as ++ e :: p :: bs) ∧
      Frame s (insertBefore s (some p) e) (as ++ p :: bs) e := insertBefore_rep h he hstale
example : IsList (insertBefore demoList (some 3) 9) [1, 2, 9, 3] :=
  (C05_insertBefore_partial (as := [1, 2]) (bs := []) demoList_isList (by decide) (by simp)).1

/-- C05, insert-before with no point appends. -/
theorem C05_insertBefore_null {s : State} {xs : List Nat} {e : Nat} (h : IsList s xs) (he : e ∉ xs) :
    IsList (insertBefore s none e) (xs ++ [e]) ∧ Frame s (insertBefore s none e) xs e := append_rep h he

/-- C05, insert-after, anywhere but behind the tail, whatever the links of the new cell were;
behind the tail only if the `next` link of the new cell was already NULL. -/
theorem C05_insertAfter_partial {s : State} {as bs : List Nat} {p e : Nat} (h : IsList s (as ++ p :: bs))
    (he : e ∉ as ++ p :: bs) (hstale : bs = [] → (s.cell e).next = none) :
    IsList (insertAfter s (some p) e) (as ++ p :: e :: bs) ∧
      Frame s (insertAfter s (some p) e) (as ++ p :: bs) e := insertAfter_rep h he hstale
example : IsList (insertAfter demoList (some 1) 9) [1, 9, 2, 3] :=
  (C05_insertAfter_partial (as := []) (bs := [2, 3]) demoList_isList (by decide) (by simp)).1

/-- Finding: for EVERY list and every new cell with a stale non-NULL `prev`, inserting in front of
the head does not produce a well-formed list of anything that starts with the new cell. -/
theorem C05_insertBefore_stale_broken {s : State} {p e : Nat} {bs : List Nat} (h : IsList s (p :: bs))
    (he : e ≠ p) (hstale : (s.cell e).prev ≠ none) (ys : List Nat) :
    ¬ IsList (insertBefore s (some p) e) ys := by
  intro hy
  have hp : (s.cell p).prev = none := by have := h.prev 0 p rfl; simpa using this
  have hhead : (insertBefore s (some p) e).head = some e := by
    simp [insertBefore, setNext_prev, hp]
  have h0 : ys[0]? = some e := by rw [← hy.head, hhead]
  have := hy.prev 0 e h0
  simp [insertBefore, setNext_prev, hp, he] at this
  exact hstale this
example : ¬ IsList (insertBefore demoList (some 1) 9) [9, 1, 2, 3] :=
  C05_insertBefore_stale_broken demoList_isList (by decide) (by decide) _

/-- Finding: the same for insert-after behind the tail. -/
theorem C05_insertAfter_stale_broken {s : State} {p e : Nat} {as : List Nat} (h : IsList s (as ++ [p]))
    (he : e ≠ p) (hstale : (s.cell e).next ≠ none) (ys : List Nat) :
    ¬ IsList (insertAfter s (some p) e) ys := by
  intro hy
  have hp : (s.cell p).next = none := by
    have := (link_facts (bs := []) h).2.1; simpa using this
  have htail : (insertAfter s (some p) e).tail = some e := by
    simp [insertAfter, setPrev_next, hp]
  have h0 : ys[ys.length - 1]? = some e := by rw [← hy.tail, htail]
  have := hy.next _ e h0
  have hl : ys.length ≤ ys.length - 1 + 1 := by omega
  rw [List.getElem?_eq_none hl] at this
  simp [insertAfter, setPrev_next, hp, he] at this
  exact hstale this
example : ¬ IsList (insertAfter demoList (some 3) 9) [1, 2, 3, 9] :=
  C05_insertAfter_stale_broken (as := [1, 2]) demoList_isList (by decide) (by decide) _

/-- C05 for the tables' own insertion surgery, in front of any element or at the end. -/
theorem C05_table_splice {s : State} {as bs : List Nat} {e : Nat} (h : IsList s (as ++ bs)) (he : e ∉ as ++ bs) :
    IsList (tableSplice s bs[0]? e) (as ++ e :: bs) ∧ Frame s (tableSplice s bs[0]? e) (as ++ bs) e :=
  tableSplice_rep h he
example : IsList (tableSplice demoList (some 1) 9) [9, 1, 2, 3] :=
  (C05_table_splice (as := []) (bs := [1, 2, 3]) demoList_isList (by decide)).1

/-- C05 for the tables' own removal surgery, which also clears the links of the removed cell. -/
theorem C05_table_unlink {s : State} {as bs : List Nat} {e : Nat} (h : IsList s (as ++ e :: bs)) :
    IsList (tableUnlink s e) (as ++ bs) ∧ Frame s (tableUnlink s e) (as ++ bs) e ∧
      (tableUnlink s e).cell e = {} := tableUnlink_rep h
example : IsList (tableUnlink demoList 3) [1, 2] := (C05_table_unlink (as := [1, 2]) (bs := []) demoList_isList).1

/-- Walking a well-formed list visits exactly its cells, in order, and stops. -/
theorem C05_walk {s : State} {xs : List Nat} (h : IsList s xs) (n : Nat) (hn : xs.length ≤ n) :
    walk s n s.head = xs := by
  have := walk_list h 0 n (by omega)
  rw [h.head, this, List.drop_zero]
example : walk demoList 100 demoList.head = [1, 2, 3] := C05_walk demoList_isList 100 (by decide)

/-- Two well-formed readings of the same memory agree: the list is determined by memory. -/
theorem C05_unique {s : State} {xs ys : List Nat} (hx : IsList s xs) (hy : IsList s ys) : xs = ys := by
  exact (C05_walk hx (max xs.length ys.length) (Nat.le_max_left _ _)).symm.trans
    (C05_walk hy (max xs.length ys.length) (Nat.le_max_right _ _))

/-! ### Histories of the list API -/

/-- One call of the list API that does not depend on stale links. -/
inductive LOp where
  | prepend (e : Nat) | append (e : Nat) | delete (e : Nat)
  deriving DecidableEq, Repr

/-- What the caller must respect: add only absent cells, delete only present ones. -/
def LOp.ok (xs : List Nat) : LOp → Prop
  | .prepend e => e ∉ xs
  | .append e => e ∉ xs
  | .delete e => e ∈ xs

/-- The edited sequence. -/
def LOp.spec (xs : List Nat) : LOp → List Nat
  | .prepend e => e :: xs
  | .append e => xs ++ [e]
  | .delete e => xs.erase e

def LOp.run (s : State) : LOp → Option State
  | .prepend e => some (DList.prepend s e)
  | .append e => some (DList.append s e)
  | .delete e => DList.delete s e

def LOp.okAll : List Nat → List LOp → Prop
  | _, [] => True
  | xs, o :: os => o.ok xs ∧ LOp.okAll (o.spec xs) os

/-- C05 over histories: any sequence of calls, from any well-formed list and any stale contents of
the other cells, never dereferences NULL and ends in the correspondingly edited list. -/
theorem C05_history {s : State} {xs : List Nat} (h : IsList s xs) (os : List LOp) (hok : LOp.okAll xs os) :
    ∃ s', os.foldlM LOp.run s = some s' ∧ IsList s' (os.foldl LOp.spec xs) := by
  induction os generalizing s xs with
  | nil => exact ⟨s, rfl, h⟩
  | cons o os ih =>
    obtain ⟨h1, h2⟩ := hok
    rw [List.foldlM_cons, List.foldl_cons]
    cases o with
    | prepend e => exact ih (prepend_rep h h1).1 h2
    | append e => exact ih (append_rep h h1).1 h2
    | delete e =>
      obtain ⟨as, bs, hab, hn⟩ := List.append_of_mem h1 |>.imp fun as h => h.imp fun bs h => And.intro h trivial
      subst hab
      obtain ⟨s', hs, hl, _⟩ := delete_rep_ll h
      have hea : e ∉ as := by
        have := h.nodup
        rw [List.nodup_append] at this
        intro hc; exact this.2.2 e hc e List.mem_cons_self rfl
      have he : (as ++ e :: bs).erase e = as ++ bs := by
        rw [List.erase_append_right _ hea, List.erase_cons_head]
      have hl' : IsList s' (LOp.spec (as ++ e :: bs) (.delete e)) := by
        show IsList s' ((as ++ e :: bs).erase e); rw [he]; exact hl
      obtain ⟨s'', h3, h4⟩ := ih hl' h2
      exact ⟨s'', by show (DList.delete s e).bind _ = _; rw [hs]; exact h3, h4⟩
example : LOp.okAll [1, 2, 3] [.delete 2, .prepend 2, .append 9, .delete 1] := by
  refine ⟨?_, ?_, ?_, ?_, trivial⟩ <;> simp [LOp.ok, LOp.spec]

/-! ### The tables' ordered insertion at pointer level implements the list-level `idSplice` -/

/-- The pointer-level scan-and-splice by ID does exactly what the list-level model
(`WS.idSplice`, used for C02–C04) says, with cells named by object ID. -/
theorem C05_ordered_insert_refines {κ : Type} {s : State} {l : List (Ent κ)} {e : Ent κ} (n : Nat)
    (hs : IsList s (l.map (·.id))) (hn : l.length ≤ n) :
    match idSplice e l with
    | none => orderedInsert s (fun x => compare x e.id) n e.id = none
    | some l' => e.id ∉ l.map (·.id) →
        ∃ s', orderedInsert s (fun x => compare x e.id) n e.id = some s' ∧ IsList s' (l'.map (·.id)) := by
  have hw : walk s n s.head = l.map (·.id) := C05_walk hs n (by simpa using hn)
  have key : ∀ (as bs : List (Ent κ)), IsList s ((as ++ bs).map (·.id)) →
      match idSplice e bs with
      | none => ∃ i, (bs.map (·.id)).find? (fun x => decide (compare x e.id ≠ .lt)) = some i ∧ i = e.id
      | some l' => e.id ∉ (as ++ bs).map (·.id) →
          ∃ cs ds, bs = cs ++ ds ∧ l' = cs ++ e :: ds ∧
          (bs.map (·.id)).find? (fun x => decide (compare x e.id ≠ .lt)) = (ds.map (·.id))[0]? := by
    intro as bs
    induction bs generalizing as with
    | nil => intro _ _; exact ⟨[], [], rfl, rfl, rfl⟩
    | cons b bs ih =>
      intro hl
      have ih' := ih (as ++ [b]) (by simpa using hl)
      by_cases h1 : b.id < e.id
      · have hlt : compare b.id e.id = .lt := Nat.compare_eq_lt.2 h1
        simp only [idSplice, h1, if_true, List.map_cons, List.find?_cons, hlt]
        cases h2 : idSplice e bs with
        | none => rw [h2] at ih'; simpa using ih'
        | some l' =>
          rw [h2] at ih'
          intro hni
          obtain ⟨cs, ds, e1, e2, e3⟩ := ih' (by simpa using hni)
          exact ⟨b :: cs, ds, by rw [e1]; rfl, by rw [e2]; rfl, by simpa using e3⟩
      · have hnl : compare b.id e.id ≠ .lt := fun hc => h1 (Nat.compare_eq_lt.1 hc)
        by_cases h2 : b.id = e.id
        · simp [idSplice, h2]
        · simp only [idSplice, h1, if_false, h2, List.map_cons, List.find?_cons]
          intro _
          refine ⟨[], b :: bs, rfl, rfl, ?_⟩
          simp [hnl]
  have hk := key [] l hs
  rw [orderedInsert, hw]
  cases h2 : idSplice e l with
  | none =>
    rw [h2] at hk
    obtain ⟨i, h3, h4⟩ := hk
    rw [h3]; simp [h4]
  | some l' =>
    rw [h2] at hk
    intro hni
    obtain ⟨cs, ds, e1, e2, e3⟩ := hk hni
    rw [e3]
    have hs' : IsList s (cs.map (·.id) ++ ds.map (·.id)) := by rw [← List.map_append, ← e1]; exact hs
    have hni' : e.id ∉ cs.map (·.id) ++ ds.map (·.id) := by rw [← List.map_append, ← e1]; exact hni
    have hr := (tableSplice_rep hs' hni').1
    rw [e2, List.map_append, List.map_cons]
    cases ds with
    | nil => exact ⟨_, rfl, hr⟩
    | cons d ds =>
      have hne : d.id ≠ e.id := fun hc => hni' (by rw [← hc]; simp)
      refine ⟨_, ?_, hr⟩
      simp [hne]
example : ∃ s', orderedInsert demoList (fun x => compare x 5) 10 5 = some s' ∧ IsList s' [1, 2, 3, 5] :=
  C05_ordered_insert_refines (κ := Unit) (l := [⟨1, 0, ()⟩, ⟨2, 0, ()⟩, ⟨3, 0, ()⟩]) (e := ⟨5, 0, ()⟩) 10
    demoList_isList (by decide) (by decide)

/-- The purge queue's pointer surgery (`wolfsentry_route_purge_list_insert`) implements the list
insertion used by the rule-table model (`purgeSplice`: behind every rule that expires at the same
time or later), provided the new rule's stale `prev` link is NULL when it goes to the head.
(Without that condition: `C05_purge_time_set_corrupts`.) -/
theorem C05_purge_insert_refines_partial {s : State} {xs : List Nat} {e : Nat} (expiry : Nat → Int) (n : Nat)
    (h : IsList s xs) (he : e ∉ xs) (hn : xs.length ≤ n)
    (hstale : ∀ x, xs[0]? = some x → expiry x < expiry e → (s.cell e).prev = none) :
    IsList (DList.purgeInsert s expiry n e) (purgeSplice expiry e (expiry e) xs) := by
  have hw : walk s n s.head = xs := by
    rw [h.head]; simpa using walk_list h 0 n (by omega)
  have key : ∀ bs : List Nat,
      (bs.find? (fun p => decide (expiry p < expiry e)) = none ∧ purgeSplice expiry e (expiry e) bs = bs ++ [e]) ∨
      ∃ cs p ds, bs = cs ++ p :: ds ∧ bs.find? (fun p => decide (expiry p < expiry e)) = some p ∧
        expiry p < expiry e ∧ purgeSplice expiry e (expiry e) bs = cs ++ e :: p :: ds := by
    intro bs
    induction bs with
    | nil => exact Or.inl ⟨rfl, rfl⟩
    | cons b bs ih =>
      by_cases hb : expiry b < expiry e
      · exact Or.inr ⟨[], b, bs, rfl, by simp [hb], hb, by simp [purgeSplice, hb]⟩
      · rcases ih with ⟨h1, h2⟩ | ⟨cs, p, ds, h1, h2, h3, h4⟩
        · exact Or.inl ⟨by simp [hb, List.find?_cons, h1], by simp [purgeSplice, hb, h2]⟩
        · exact Or.inr ⟨b :: cs, p, ds, by rw [h1]; rfl, by rw [List.find?_cons]; simp [hb, h2], h3,
            by simp [purgeSplice, hb, h4]⟩
  unfold DList.purgeInsert
  rw [hw]
  rcases key xs with ⟨h1, h2⟩ | ⟨cs, p, ds, h1, h2, h3, h4⟩
  · rw [h1, h2]; exact (C05_insertBefore_null h he).1
  · rw [h2, h4]
    rw [h1] at h he
    exact (C05_insertBefore_partial h he (fun hc => hstale p (by rw [h1, hc]; rfl) h3)).1
/-- A new rule with the same expiry as rule 2 goes behind it. -/
example : IsList (DList.purgeInsert demoList (fun x => if x = 1 then 30 else if x = 2 then 20 else if x = 9 then 20 else 10) 10 9)
    [1, 2, 9, 3] :=
  C05_purge_insert_refines_partial (xs := [1, 2, 3]) _ 10 demoList_isList (by decide) (by decide)
    (by intro x hx; cases hx; decide)

/-! ### Finding: re-timing a rule corrupts the purge queue -/

/-- The purge queue `1, 2, 3` (expiries 30, 20, 10): moving rule 2 to expiry 40 puts it at the head
with a stale `prev`; a later insertion of rule 4 with expiry 50 is then lost from the queue and the
walk from the head never ends. -/
theorem C05_purge_time_set_corrupts :
    ∃ s1, purgeMove demoList (fun x => if x = 1 then 30 else if x = 2 then 40 else 10) 10 2 = some s1 ∧
      (∀ ys, ¬ IsList s1 ys) ∧
      let s2 := purgeInsert s1 (fun x => if x = 1 then 30 else if x = 2 then 40 else if x = 4 then 50 else 10) 10 4
      s2.head ≠ some 4 ∧ (∀ n, (walk s2 n s2.head).length = n) := by
  refine ⟨_, rfl, ?_, ?_⟩
  · intro ys hy
    have hh : ys[0]? = some 2 := hy.head.symm
    have := hy.prev 0 2 hh
    rw [if_pos rfl] at this
    revert this
    decide +revert
  · refine ⟨by decide, ?_⟩
    intro n
    have hcyc : ∀ s : State, (s.cell 2).next = some 1 → (s.cell 1).next = some 4 →
        (s.cell 4).next = some 2 → ∀ m x, (x = some 2 ∨ x = some 1 ∨ x = some 4) → (walk s m x).length = m := by
      intro s h1 h2 h3 m
      induction m with
      | zero => intro x _; cases x <;> rfl
      | succ m ih =>
        rintro x (rfl | rfl | rfl)
        · rw [walk, List.length_cons, ih]; rw [h1]; simp
        · rw [walk, List.length_cons, ih]; rw [h2]; simp
        · rw [walk, List.length_cons, ih]; rw [h3]; simp
    exact hcyc _ (by decide) (by decide) (by decide) n _ (Or.inl (by decide))

end WS.Props
