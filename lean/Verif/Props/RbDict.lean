import Verif.Proof.RbMap
/-
C50: the JSON dictionary is a finite map, and stays a red-black tree.
-/
namespace WS.Rb
variable {β : Type}

/-! ### the default comparison is the lexicographic order of bytes -/

def lex : Key → Key → Ordering
  | [], [] => .eq
  | [], _ :: _ => .lt
  | _ :: _, [] => .gt
  | a :: as, b :: bs => if a.toNat < b.toNat then .lt else if b.toNat < a.toNat then .gt else lex as bs

theorem defaultCmp_lex : ∀ a b : Key, defaultCmp a b = lex a b := by
  intro a
  induction a with
  | nil =>
    intro b
    cases b with
    | nil => rfl
    | cons => simp [defaultCmp, memcmp, lex]
  | cons x xs ih =>
    intro b
    cases b with
    | nil => simp [defaultCmp, memcmp, lex]
    | cons y ys =>
      have := ih ys
      unfold defaultCmp at this ⊢
      simp only [List.length_cons, Nat.add_lt_add_iff_right, Nat.add_right_cancel_iff] at this ⊢
      have hmin : (if xs.length < ys.length then xs.length + 1 else ys.length + 1) = (if xs.length < ys.length then xs.length else ys.length) + 1 := by
        split <;> rfl
      rw [hmin, List.take_succ_cons, List.take_succ_cons, memcmp, lex, ← this]
      rcases Nat.lt_trichotomy x.toNat y.toNat with h | h | h
      · simp only [if_pos h]
      · have h1 : ¬ x.toNat < y.toNat := by omega
        have h2 : ¬ y.toNat < x.toNat := by omega
        simp only [if_neg h1, if_neg h2]
      · have h1 : ¬ x.toNat < y.toNat := by omega
        simp only [if_neg h1, if_pos h]

theorem lex_swap : ∀ a b : Key, lex a b = (lex b a).swap := by
  intro a
  induction a with
  | nil => intro b; cases b <;> rfl
  | cons x xs ih =>
    intro b
    cases b with
    | nil => rfl
    | cons y ys =>
      rw [lex, lex]
      rcases Nat.lt_trichotomy x.toNat y.toNat with h | h | h
      · rw [if_pos h, if_neg (by omega), if_pos h]; rfl
      · rw [if_neg (by omega), if_neg (by omega), if_neg (by omega), if_neg (by omega)]; exact ih ys
      · rw [if_neg (by omega), if_pos h, if_pos h]; rfl

theorem lex_trans : ∀ a b c : Key, (lex a b).isLE = true → (lex b c).isLE = true → (lex a c).isLE = true := by
  intro a
  induction a with
  | nil => intro b c _ _; cases c <;> rfl
  | cons x xs ih =>
    intro b c h1 h2
    cases b with
    | nil => cases h1
    | cons y ys =>
      cases c with
      | nil => cases h2
      | cons z zs =>
        rw [lex] at h1 h2 ⊢
        rcases Nat.lt_trichotomy x.toNat y.toNat with h | h | h
        · rcases Nat.lt_trichotomy y.toNat z.toNat with h' | h' | h'
          · rw [if_pos (by omega)]; rfl
          · rw [if_pos (by omega)]; rfl
          · rw [if_neg (by omega), if_pos h'] at h2; cases h2
        · rw [if_neg (by omega), if_neg (by omega)] at h1
          rcases Nat.lt_trichotomy y.toNat z.toNat with h' | h' | h'
          · rw [if_pos (by omega)]; rfl
          · rw [if_neg (by omega), if_neg (by omega)] at h2 ⊢; exact ih ys zs h1 h2
          · rw [if_neg (by omega), if_pos h'] at h2; cases h2
        · rw [if_neg (by omega), if_pos h] at h1; cases h1

instance : Std.TransCmp defaultCmp where
  eq_swap := by intro a b; rw [defaultCmp_lex, defaultCmp_lex]; exact lex_swap a b
  isLE_trans := by intro a b c; rw [defaultCmp_lex, defaultCmp_lex, defaultCmp_lex]; exact lex_trans a b c

theorem lex_eq : ∀ a b : Key, lex a b = .eq ↔ a = b := by
  intro a
  induction a with
  | nil => intro b; cases b <;> simp [lex]
  | cons x xs ih =>
    intro b
    cases b with
    | nil => simp [lex]
    | cons y ys =>
      rw [lex]
      rcases Nat.lt_trichotomy x.toNat y.toNat with h | h | h
      · rw [if_pos h]
        constructor
        · intro h; cases h
        · intro he; cases he; omega
      · rw [if_neg (by omega), if_neg (by omega), ih ys]
        have : x = y := BitVec.eq_of_toNat_eq h
        simp [this]
      · rw [if_neg (by omega), if_pos h]
        constructor
        · intro h; cases h
        · intro he; cases he; omega

end WS.Rb

namespace WS.Rb
/-- Bytes of an ASCII text. -/
def ascii' (s : String) : Key := s.toList.map (fun c => BitVec.ofNat 8 c.toNat)
end WS.Rb

namespace WS.Props
open WS.Rb
variable {β : Type}

/-- Two keys are the same for the default comparison exactly when they are equal byte for byte. -/
theorem C50_default_keys_equal (a b : Key) : defaultCmp a b = .eq ↔ a = b := by rw [defaultCmp_lex]; exact lex_eq a b

/-- The default comparison is the lexicographic order on byte values. -/
theorem C50_default_order (a b : Key) : defaultCmp a b = .lt ↔ a.map (·.toNat) < b.map (·.toNat) := by
  rw [defaultCmp_lex]
  induction a generalizing b with
  | nil => cases b <;> simp [lex]
  | cons x xs ih =>
    cases b with
    | nil => simp [lex]
    | cons y ys =>
      rw [lex, List.map_cons, List.map_cons, List.cons_lt_cons_iff, ← ih ys]
      rcases Nat.lt_trichotomy x.toNat y.toNat with h | h | h
      · rw [if_pos h]; simp [h]
      · rw [if_neg (by omega), if_neg (by omega)]; simp [h]
      · rw [if_neg (by omega), if_pos h]
        simp only [reduceCtorEq, false_iff, not_or, not_and]
        exact ⟨by omega, fun hc => by omega⟩

example : defaultCmp (ascii' "ab") (ascii' "abc") = .lt ∧ defaultCmp (ascii' "b") (ascii' "abc") = .gt := by decide

theorem runFrom_rep (cmp : Key → Key → Ordering) [Std.TransCmp cmp] (new : β) : ∀ (ops : List (Op β)) (d : Dict β) (l : List (Key × β)),
    Rep cmp d l → d.size + ops.length < 4294967295 →
    ∃ d', runFrom cmp new ops d = some d' ∧ Rep cmp d' (ops.foldl (absStep cmp new) l) ∧ d'.order.isSome = d.order.isSome ∧
      d'.size ≤ d.size + ops.length := by
  intro ops
  induction ops with
  | nil => intro d l h _; exact ⟨d, rfl, h, rfl, by simp⟩
  | cons o ops ih =>
    intro d l h hn
    simp only [List.length_cons] at hn
    have key : ∀ d1, step cmp new d o = some d1 → Rep cmp d1 (absStep cmp new l o) → d1.order.isSome = d.order.isSome →
        d1.size ≤ d.size + 1 → ∃ d', runFrom cmp new (o :: ops) d = some d' ∧ Rep cmp d' ((o :: ops).foldl (absStep cmp new) l) ∧
          d'.order.isSome = d.order.isSome ∧ d'.size ≤ d.size + (o :: ops).length := by
      intro d1 h1 h2 h3 h4
      obtain ⟨d', e1, e2, e3, e4⟩ := ih d1 _ h2 (by omega)
      refine ⟨d', by rw [runFrom, h1]; exact e1, e2, by rw [e3, h3], by simp only [List.length_cons]; omega⟩
    cases o with
    | add k alloc =>
      obtain ⟨d1, res, h1, h2, _, _, h3⟩ := getOrAdd_rep h (by omega) new alloc k
      refine key d1 (by simp [step, h1]) h2 h3 ?_
      rw [h2.size, h.size]
      simp only [absStep]
      split <;> simp
    | set k v => exact key _ rfl (update_rep h new k v) rfl (by show d.size ≤ _; omega)
    | remove k =>
      obtain ⟨d1, res, h1, h2, _, h3⟩ := remove_rep h (by omega) new k
      refine key d1 (by simp [step, h1]) h2 h3 ?_
      rw [h2.size, h.size]
      have := List.length_filter_le (fun e : Key × β => !(cmp k e.1 == .eq)) l
      simp only [absStep]; omega

theorem run_rep (cmp : Key → Key → Ordering) [Std.TransCmp cmp] (new : β) (ordered : Bool) (ops : List (Op β)) (hn : ops.length < 4294967295) :
    ∃ d, run cmp new ordered ops = some d ∧ Rep cmp d (absRun cmp new ops) ∧ d.order.isSome = ordered ∧ d.size ≤ ops.length := by
  obtain ⟨d, h1, h2, h3, h4⟩ := runFrom_rep cmp new ops _ [] (rep_empty ordered) (by simpa using hn)
  refine ⟨d, h1, h2, ?_, by simpa using h4⟩
  rw [h3]
  cases ordered <;> rfl

theorem run_rep' {cmp : Key → Key → Ordering} [Std.TransCmp cmp] {new : β} {ordered : Bool} {ops : List (Op β)} (hn : ops.length < 4294967295)
    {d : Dict β} (h : run cmp new ordered ops = some d) : Rep cmp d (absRun cmp new ops) ∧ d.order.isSome = ordered ∧ d.size ≤ ops.length := by
  obtain ⟨d', h1, h2⟩ := run_rep cmp new ordered ops hn
  rw [h] at h1
  cases h1
  exact h2

/-- Every history of fewer than 2^32-1 calls runs without a NULL dereference, without following a missing
child and without overrunning the path array that the dictionary's size provides for. -/
theorem C50_never_undefined (cmp : Key → Key → Ordering) [Std.TransCmp cmp] (new : β) (ordered : Bool) (ops : List (Op β))
    (hn : ops.length < 4294967295) : ∃ d, run cmp new ordered ops = some d := by
  obtain ⟨d, h, _⟩ := run_rep cmp new ordered ops hn
  exact ⟨d, h⟩

/-- After every history, looking a key up gives what the history associates with it. -/
theorem C50_finite_map {cmp : Key → Key → Ordering} [Std.TransCmp cmp] {new : β} {ordered : Bool} {ops : List (Op β)}
    (hn : ops.length < 4294967295) {d : Dict β} (h : run cmp new ordered ops = some d) (k : Key) :
    get cmp k d.root = absGet cmp k (absRun cmp new ops) := by
  obtain ⟨hr, _, _⟩ := run_rep' hn h
  rw [get_eq k d.root hr.asc]
  exact absGet_perm hr.perm hr.asc.distinct k

/-- After every history the tree is a red-black tree: black root, no red-red edge, equal black heights. -/
theorem C50_red_black {cmp : Key → Key → Ordering} [Std.TransCmp cmp] {new : β} {ordered : Bool} {ops : List (Op β)}
    (hn : ops.length < 4294967295) {d : Dict β} (h : run cmp new ordered ops = some d) : RedBlack d.root :=
  (run_rep' hn h).1.rb

/-- ... and so of logarithmic height. -/
theorem C50_height {cmp : Key → Key → Ordering} [Std.TransCmp cmp] {new : β} {ordered : Bool} {ops : List (Op β)}
    (hn : ops.length < 4294967295) {d : Dict β} (h : run cmp new ordered ops = some d) :
    height d.root ≤ 2 * (d.size + 1).log2 := by
  obtain ⟨hr, _, _⟩ := run_rep' hn h
  obtain ⟨⟨N, hN⟩, hb⟩ := hr.rb
  have h1 := hN.height_le.2 hb
  have h2 := hN.le_slots
  rw [hr.treeSize] at h2
  omega

/-- The reported size is the number of entries. -/
theorem C50_size {cmp : Key → Key → Ordering} [Std.TransCmp cmp] {new : β} {ordered : Bool} {ops : List (Op β)}
    (hn : ops.length < 4294967295) {d : Dict β} (h : run cmp new ordered ops = some d) : d.size = (absRun cmp new ops).length :=
  (run_rep' hn h).1.size

/-- The result of get-or-add: the value of the key if it has one, a new entry if not and memory suffices,
NULL otherwise. -/
theorem C50_get_or_add_result {cmp : Key → Key → Ordering} [Std.TransCmp cmp] {new : β} {ordered : Bool} {ops : List (Op β)}
    (hn : ops.length < 4294967294) {d : Dict β} (h : run cmp new ordered ops = some d) (alloc : Bool) (k : Key) :
    ∃ d' res, getOrAdd cmp new alloc k d = some (d', res) ∧
      (∀ v, res = .existing v ↔ absGet cmp k (absRun cmp new ops) = some v) ∧
      (res = .fresh ↔ absGet cmp k (absRun cmp new ops) = none ∧ alloc = true) := by
  obtain ⟨hr, _, hs⟩ := run_rep' (by omega) h
  obtain ⟨d', res, h1, _, h2, h3, _⟩ := getOrAdd_rep hr (by omega) new alloc k
  exact ⟨d', res, h1, h2, h3⟩

/-- Removal reports whether the key had an entry. -/
theorem C50_remove_result {cmp : Key → Key → Ordering} [Std.TransCmp cmp] {new : β} {ordered : Bool} {ops : List (Op β)}
    (hn : ops.length < 4294967294) {d : Dict β} (h : run cmp new ordered ops = some d) (k : Key) :
    ∃ d' res, remove cmp k d = some (d', res) ∧ (res = true ↔ ∃ v, absGet cmp k (absRun cmp new ops) = some v) := by
  obtain ⟨hr, _, hs⟩ := run_rep' (by omega) h
  obtain ⟨d', res, h1, _, h2, _⟩ := remove_rep hr (by omega) new k
  exact ⟨d', res, h1, h2⟩

/-- The sorted walk visits every entry exactly once, in strictly ascending key order, until the visitor
reports an error, and never overruns its stack. -/
theorem C50_sorted_walk {σ : Type} {cmp : Key → Key → Ordering} [Std.TransCmp cmp] {new : β} {ordered : Bool} {ops : List (Op β)}
    (hn : ops.length < 4294967294) {d : Dict β} (h : run cmp new ordered ops = some d) :
    ∃ es : List (Key × β), es.Perm (absRun cmp new ops) ∧ es.Pairwise (fun a b => cmp a.1 b.1 = .lt) ∧
      (∀ (visit : σ → Key → β → Except Int σ) (acc : σ), walkSorted visit acc d = some (es.foldlM (fun a e => visit a e.1 e.2) acc)) ∧
      ∀ room, keysSorted room d = some ((es.map (·.1)).take room) := by
  obtain ⟨hr, _, hs⟩ := run_rep' (by omega) h
  obtain ⟨N, cap, hN, hslots, hcap⟩ := hr.slots (by omega)
  have hh := hN.height_le.2 hr.rb.2
  obtain ⟨st, h1, h2, h3⟩ := leftPath_spec (H := 2 * N) hcap d.root [] trivial (by simpa using hh)
  have h3' : stackList st = toList d.root := by simpa [stackList] using h3
  refine ⟨toList d.root, hr.perm, hr.asc, ?_, ?_⟩
  · intro visit acc
    unfold walkSorted
    rw [hslots]
    dsimp only
    rw [h1]
    dsimp only
    rw [walkLoop_spec hcap visit _ st acc (Nat.le_refl _) h2, h3']
  · intro room
    unfold keysSorted
    rw [hslots]
    dsimp only
    rw [h1]
    dsimp only
    rw [keysLoop_spec hcap room st h2, h3']

/-- With maintained order, the ordered walk gives the keys in order of insertion. -/
theorem C50_ordered_walk {cmp : Key → Key → Ordering} [Std.TransCmp cmp] {new : β} {ops : List (Op β)}
    (hn : ops.length < 4294967295) {d : Dict β} (h : run cmp new true ops = some d) :
    d.order = some ((absRun cmp new ops).map (·.1)) ∧ ∀ room, keysOrdered room d = ((absRun cmp new ops).map (·.1)).take room := by
  obtain ⟨hr, ho, _⟩ := run_rep' hn h
  cases hd : d.order with
  | none => rw [hd] at ho; cases ho
  | some o =>
    have := hr.order o hd
    refine ⟨by rw [this], fun room => ?_⟩
    unfold keysOrdered
    rw [hd, this]

/-! ### cloning -/

theorem clone_step {cmp : Key → Key → Ordering} [Std.TransCmp cmp] {new : β} (f : β → β) {d : Dict β} {done : List (Key × β)} {k : Key} {v : β}
    (h : Rep cmp d (done.map (fun e => (e.1, f e.2)))) (hd : ∀ e ∈ done, cmp e.1 k ≠ .eq) (hn : d.size + 1 < 4294967296) :
    ∃ d1, getOrAdd cmp new true k d = some (d1, .fresh) ∧
      Rep cmp { d1 with root := update cmp k (f v) d1.root } ((done ++ [(k, v)]).map (fun e => (e.1, f e.2))) ∧
      d1.order.isSome = d.order.isSome := by
  obtain ⟨d1, res, h1, h2, _, h3, h4⟩ := getOrAdd_rep h hn new true k
  have hnone : ∀ e ∈ done.map (fun e => (e.1, f e.2)), cmp k e.1 ≠ .eq := by
    intro e he
    obtain ⟨e', he', rfl⟩ := List.mem_map.1 he
    exact ne_eq_symm (hd e' he')
  have hres := h3.2 ⟨absGet_none_of hnone, rfl⟩
  subst hres
  refine ⟨d1, h1, ?_, h4⟩
  have h5 := update_rep h2 new k (f v)
  have hhas : has cmp k (done.map (fun e => (e.1, f e.2))) = false := by
    unfold has
    rw [Bool.eq_false_iff]
    intro hc
    rw [List.any_eq_true] at hc
    obtain ⟨e, he1, he2⟩ := hc
    exact hnone e he1 (by simpa using he2)
  have habs : absStep cmp new (absStep cmp new (done.map (fun e => (e.1, f e.2))) (.add k true)) (.set k (f v)) =
      (done ++ [(k, v)]).map (fun e => (e.1, f e.2)) := by
    simp only [absStep, hhas, Bool.not_true, Bool.or_false, Bool.false_eq_true, if_false]
    rw [List.map_append, List.map_append]
    congr 1
    · conv => rhs; rw [← List.map_id (done.map (fun e => (e.1, f e.2)))]
      apply List.map_congr_left
      intro e he
      simp [hnone e he]
    · simp [Std.ReflCmp.compare_self]
  rw [habs] at h5
  exact h5

theorem cloneOrdered_ok {cmp : Key → Key → Ordering} [Std.TransCmp cmp] {new : β} {f : β → β} {cloneV : β → Except Int β} :
    ∀ (src done : List (Key × β)) (allocs : List Bool) (ret : Int) (d : Dict β), Rep cmp d (done.map (fun e => (e.1, f e.2))) →
    (done ++ src).Pairwise (fun a b => cmp a.1 b.1 ≠ .eq) → (∀ e ∈ src, cloneV e.2 = .ok (f e.2)) → (∀ b ∈ allocs, b = true) →
    (done ++ src).length + 1 < 4294967296 →
    ∃ d', cloneOrderedLoop cmp new cloneV src allocs ret d = some (d', if src = [] then ret else 0) ∧
      Rep cmp d' ((done ++ src).map (fun e => (e.1, f e.2))) ∧ d'.order.isSome = d.order.isSome := by
  intro src
  induction src with
  | nil => intro done allocs ret d h _ _ _ _; exact ⟨d, rfl, by rw [List.append_nil]; exact h, rfl⟩
  | cons e src ih =>
    intro done allocs ret d h hd hc ha hn
    obtain ⟨k, v⟩ := e
    have hd' := hd
    rw [List.pairwise_append] at hd'
    have hsz : d.size = done.length := by rw [h.size, List.length_map]
    obtain ⟨d1, h1, h2, h3⟩ := clone_step (new := new) (v := v) f h (fun e he => hd'.2.2 e he (k, v) (by simp))
      (by rw [List.length_append] at hn; omega)
    have hal : allocs.headD true = true := by
      cases allocs with
      | nil => rfl
      | cons b bs => exact ha b (by simp)
    obtain ⟨d', e1, e2, e3⟩ := ih (done ++ [(k, v)]) allocs.tail 0 _ h2 (by simpa using hd) (fun e he => hc e (by simp [he]))
      (fun b hb => ha b (List.mem_of_mem_tail hb)) (by simpa using hn)
    refine ⟨d', ?_, by simpa using e2, by rw [e3]; exact h3⟩
    rw [cloneOrderedLoop, hal, h1]
    dsimp only
    rw [hc (k, v) (by simp)]
    dsimp only
    rw [e1]
    split <;> simp

theorem cloneSorted_ok {cmp : Key → Key → Ordering} [Std.TransCmp cmp] {new : β} {f : β → β} {cloneV : β → Except Int β} :
    ∀ (src done : List (Key × β)) (allocs : List Bool) (d : Dict β), Rep cmp d (done.map (fun e => (e.1, f e.2))) →
    (done ++ src).Pairwise (fun a b => cmp a.1 b.1 ≠ .eq) → (∀ e ∈ src, cloneV e.2 = .ok (f e.2)) → (∀ b ∈ allocs, b = true) →
    (done ++ src).length + 1 < 4294967296 →
    ∃ d', cloneSortedLoop cmp new cloneV src allocs d = some (d', 0) ∧
      Rep cmp d' ((done ++ src).map (fun e => (e.1, f e.2))) ∧ d'.order.isSome = d.order.isSome := by
  intro src
  induction src with
  | nil => intro done allocs d h _ _ _ _; exact ⟨d, rfl, by rw [List.append_nil]; exact h, rfl⟩
  | cons e src ih =>
    intro done allocs d h hd hc ha hn
    obtain ⟨k, v⟩ := e
    have hd' := hd
    rw [List.pairwise_append] at hd'
    have hsz : d.size = done.length := by rw [h.size, List.length_map]
    obtain ⟨d1, h1, h2, h3⟩ := clone_step (new := new) (v := v) f h (fun e he => hd'.2.2 e he (k, v) (by simp))
      (by rw [List.length_append] at hn; omega)
    have hal : allocs.headD true = true := by
      cases allocs with
      | nil => rfl
      | cons b bs => exact ha b (by simp)
    obtain ⟨d', e1, e2, e3⟩ := ih (done ++ [(k, v)]) allocs.tail _ h2 (by simpa using hd) (fun e he => hc e (by simp [he]))
      (fun b hb => ha b (List.mem_of_mem_tail hb)) (by simpa using hn)
    refine ⟨d', ?_, by simpa using e2, by rw [e3]; exact h3⟩
    rw [cloneSortedLoop, hal, h1]
    dsimp only
    rw [hc (k, v) (by simp)]
    exact e1

/-- Cloning a dictionary, when every value can be cloned and memory suffices: the clone succeeds and holds
the same keys with the cloned values, in the same order of insertion if order is maintained, again as a
red-black tree. -/
theorem C50_clone {cmp : Key → Key → Ordering} [Std.TransCmp cmp] {new : β} {ordered : Bool} {ops : List (Op β)}
    (hn : ops.length < 4294967294) {d : Dict β} (h : run cmp new ordered ops = some d) (f : β → β) (cloneV : β → Except Int β)
    (hc : ∀ e ∈ absRun cmp new ops, cloneV e.2 = .ok (f e.2)) (allocs : List Bool) (ha : ∀ b ∈ allocs, b = true) :
    ∃ d', cloneDict cmp new cloneV allocs d = some (d', 0) ∧ RedBlack d'.root ∧ d'.size = d.size ∧
      (∀ k, get cmp k d'.root = (get cmp k d.root).map f) ∧ d'.order = d.order := by
  obtain ⟨hr, ho, hs⟩ := run_rep' (by omega) h
  have hlen : (absRun cmp new ops).length ≤ ops.length := by rw [← hr.size]; exact hs
  have fin : ∀ (d' : Dict β) (es : List (Key × β)), es.Perm (absRun cmp new ops) → Rep cmp d' (es.map (fun e => (e.1, f e.2))) →
      RedBlack d'.root ∧ d'.size = d.size ∧ (∀ k, get cmp k d'.root = (get cmp k d.root).map f) := by
    intro d' es hp h'
    refine ⟨h'.rb, ?_, ?_⟩
    · rw [h'.size, List.length_map, hp.length_eq, hr.size]
    · intro k
      rw [get_eq k _ h'.asc, get_eq k _ hr.asc, absGet_perm h'.perm h'.asc.distinct, absGet_perm hr.perm hr.asc.distinct,
        ← absGet_perm hp (distinct_perm hp.symm hr.distinct)]
      unfold absGet
      rw [List.find?_map]
      simp only [Function.comp_def]
      cases es.find? (fun e => cmp k e.1 == .eq) <;> rfl
  unfold cloneDict
  cases hd : d.order with
  | some o =>
    have ho' := hr.order o hd
    have hsrc : o.filterMap (fun k => (get cmp k d.root).map (k, ·)) = absRun cmp new ops := by
      rw [ho', List.filterMap_map]
      have hall : ∀ (g : Key × β → Option (Key × β)) (l : List (Key × β)), (∀ e ∈ l, g e = some e) → l.filterMap g = l := by
        intro g l
        induction l with
        | nil => intro _; rfl
        | cons e l ih => intro hg; rw [List.filterMap_cons, hg e (by simp), ih (fun x hx => hg x (by simp [hx]))]
      apply hall
      intro e he
      simp only [Function.comp]
      have : get cmp e.1 d.root = some e.2 := by
        rw [get_eq _ _ hr.asc, absGet_perm hr.perm hr.asc.distinct]
        exact (absGet_iff hr.distinct).2 ⟨e.1, Std.ReflCmp.compare_self, he⟩
      rw [this]; rfl
    dsimp only
    rw [hsrc]
    obtain ⟨d', e1, e2, e3⟩ := cloneOrdered_ok (new := new) (f := f) (cloneV := cloneV) (absRun cmp new ops) [] allocs 0
      { order := some [] } (rep_empty true) (by simpa using hr.distinct) hc ha (by simp only [List.nil_append]; omega)
    rw [List.nil_append] at e2
    refine ⟨d', by rw [e1]; split <;> rfl, ?_⟩
    obtain ⟨f1, f2, f3⟩ := fin d' _ (List.Perm.refl _) e2
    refine ⟨f1, f2, f3, ?_⟩
    cases hd2 : d'.order with
    | none => rw [hd2] at e3; cases e3
    | some o2 =>
      rw [e2.order _ hd2, ho', List.map_map]
      rfl
  | none =>
    obtain ⟨es, w1, w2, w3, _⟩ := C50_sorted_walk (σ := List (Key × β)) hn h
    have hfold : ∀ (es acc : List (Key × β)), es.foldlM (m := Except Int) (fun a e => .ok (a ++ [(e.1, e.2)])) acc = .ok (acc ++ es) := by
      intro es
      induction es with
      | nil => intro acc; simp; rfl
      | cons e es ih =>
        intro acc
        rw [List.foldlM_cons]
        show es.foldlM (m := Except Int) _ (acc ++ [(e.1, e.2)]) = _
        rw [ih]; simp
    dsimp only
    rw [w3, hfold]
    dsimp only
    rw [List.nil_append]
    have hdist : es.Pairwise (fun a b => cmp a.1 b.1 ≠ .eq) := distinct_perm w1.symm hr.distinct
    obtain ⟨d', e1, e2, e3⟩ := cloneSorted_ok (new := new) (f := f) (cloneV := cloneV) es [] allocs
      {} (rep_empty false) (by simpa using hdist) (fun e he => hc e (w1.mem_iff.1 he)) ha
      (by simp only [List.nil_append]; rw [w1.length_eq]; omega)
    rw [List.nil_append] at e2
    obtain ⟨f1, f2, f3⟩ := fin d' _ w1 e2
    refine ⟨d', e1, f1, f2, f3, ?_⟩
    cases hd2 : d'.order with
    | none => rfl
    | some o2 => rw [hd2] at e3; cases e3

/-- Finding: when order is maintained, a value that cannot be cloned does not make the clone fail unless it
is the last one; here the first value is lost and the call reports success. -/
theorem C50_clone_error_lost :
    ∃ d d', run defaultCmp (0 : Nat) true [.add [1#8] true, .set [1#8] 7, .add [2#8] true] = some d ∧
      cloneDict defaultCmp 0 (fun v => if v = 7 then .error (-2) else .ok v) [] d = some (d', 0) ∧
      get defaultCmp [1#8] d.root = some 7 ∧ get defaultCmp [1#8] d'.root = some 0 := by
  refine ⟨⟨.node .black .nil [1#8] 7 (.node .red .nil [2#8] 0 .nil), 2, some [[1#8], [2#8]]⟩,
    ⟨.node .black .nil [1#8] 0 (.node .red .nil [2#8] 0 .nil), 2, some [[1#8], [2#8]]⟩, ?_, ?_, ?_, ?_⟩ <;> decide +kernel

/-! ### examples -/

/-- A history with removals of a black leaf, of an inner node, and a refused allocation. -/
def rbOps : List (Op Nat) :=
  [.add (ascii' "d") true, .add (ascii' "b") true, .add (ascii' "f") true, .add (ascii' "a") true, .add (ascii' "c") true,
   .add (ascii' "g") false, .set (ascii' "c") 7, .remove (ascii' "d"), .add (ascii' "c") true, .remove (ascii' "x")]

example : absRun defaultCmp 0 rbOps = [(ascii' "b", 0), (ascii' "f", 0), (ascii' "a", 0), (ascii' "c", 7)] := by decide +kernel

example : ∃ d, run defaultCmp 0 true rbOps = some d ∧ get defaultCmp (ascii' "c") d.root = some 7 ∧ RedBlack d.root ∧ d.size = 4 := by
  obtain ⟨d, h⟩ := C50_never_undefined defaultCmp 0 true rbOps (by decide)
  refine ⟨d, h, ?_, C50_red_black (by decide) h, ?_⟩
  · rw [C50_finite_map (by decide) h]; decide +kernel
  · rw [C50_size (by decide) h]; decide +kernel

end WS.Props
