import Verif.Spec.JsonDom
import Verif.Proof.JsonInts
import Verif.Props.JsonNum
import Verif.Props.RbDict
/-
The tree under construction: what a sequence of events leaves in memory.
-/
namespace WS.Dom
open WS WS.Sax WS.Spec.Json WS.Spec.Dom WS.JNum WS.Props

variable {S : List Byte → Option (BitVec 64)} {pol : DupKey} {o : Bool}

/-! ### Numbers -/

theorem number_kinds {t : List Byte} (h : Number t) : (∃ v, Integer t v) ∨ analyze t = {} := by
  obtain ⟨sign, int, frac, exp, rfl, hs, hi, hf, he⟩ := h
  rcases hf with rfl | ⟨ds, rfl, _⟩
  · rcases he with rfl | ⟨e, sg, ds, rfl, he, _, _⟩
    · have hd : Dec int (val int) := val_dec (canon_dig (canon_of_int hi))
      rcases hs with rfl | rfl
      · exact Or.inl ⟨_, int, _, hi, hd, Or.inl ⟨by simp, rfl⟩⟩
      · exact Or.inl ⟨_, int, _, hi, hd, Or.inr ⟨by simp, rfl⟩⟩
    · refine Or.inr (C52_fraction_is_no_integer _ (Or.inr ?_))
      rcases he with rfl | rfl
      · exact Or.inl (by simp)
      · exact Or.inr (by simp)
  · exact Or.inr (C52_fraction_is_no_integer _ (Or.inl (by simp)))

theorem initNumber_of_num {t : List Byte} {v : V} (h : Num S t v) : initNumber S t = .ok v := by
  cases h with
  | @int32 i hi h1 h2 =>
    obtain ⟨k1, _, _, _⟩ := C52_classified_by_value t _ hi
    simp only [initNumber, k1.2 ⟨h1, h2⟩, if_true, (C52_32_bits t _ hi).1 h1 h2]
  | @uint32 n hi h1 h2 =>
    obtain ⟨k1, k2, _, _⟩ := C52_classified_by_value t _ hi
    have e1 : (analyze t).i32 = false := by
      rw [Bool.eq_false_iff]; intro h; have := k1.1 h; omega
    have e2 : (analyze t).u32 = true := k2.2 (by omega)
    have e3 := (C52_32_bits t _ hi).2 (by omega) (by omega)
    simp only [initNumber, e1, e2, if_true]
    simp only [Bool.false_eq_true, if_false, NumOut.ok.injEq, V.uint32.injEq]
    omega
  | @int64 i hi h1 h2 h3 =>
    obtain ⟨k1, k2, k3, _⟩ := C52_classified_by_value t _ hi
    have e1 : (analyze t).i32 = false := by
      rw [Bool.eq_false_iff]; intro h; have := k1.1 h; omega
    have e2 : (analyze t).u32 = false := by
      rw [Bool.eq_false_iff]; intro h; have := k2.1 h; omega
    have e3 : (analyze t).i64 = true := k3.2 (by omega)
    simp only [initNumber, e1, e2, e3, if_true, C52_signed_value t _ hi h1 h2]
    simp
  | @uint64 n hi h1 h2 =>
    obtain ⟨k1, k2, k3, k4⟩ := C52_classified_by_value t _ hi
    have e1 : (analyze t).i32 = false := by
      rw [Bool.eq_false_iff]; intro h; have := k1.1 h; omega
    have e2 : (analyze t).u32 = false := by
      rw [Bool.eq_false_iff]; intro h; have := k2.1 h; omega
    have e3 : (analyze t).i64 = false := by
      rw [Bool.eq_false_iff]; intro h; have := k3.1 h; omega
    have e4 : (analyze t).u64 = true := k4.2 (by omega)
    have e5 := C52_unsigned_value t _ hi (by omega) (by omega)
    simp only [initNumber, e1, e2, e3, e4, if_true]
    simp only [Bool.false_eq_true, if_false, NumOut.ok.injEq, V.uint64.injEq]
    omega
  | @double d hn hi hd =>
    have ha : analyze t = {} := by
      rcases number_kinds hn with ⟨i, h⟩ | h
      · obtain ⟨k1, k2, k3, k4⟩ := C52_classified_by_value t _ h
        have := hi _ h
        have e1 : (analyze t).i32 = false := by
          rw [Bool.eq_false_iff]; intro h; have := k1.1 h; omega
        have e2 : (analyze t).u32 = false := by
          rw [Bool.eq_false_iff]; intro h; have := k2.1 h; omega
        have e3 : (analyze t).i64 = false := by
          rw [Bool.eq_false_iff]; intro h; have := k3.1 h; omega
        have e4 : (analyze t).u64 = false := by
          rw [Bool.eq_false_iff]; intro h; have := k4.1 h; omega
        generalize analyze t = k at *
        cases k; simp_all
      · exact h
    simp only [initNumber, ha, hd]
    simp

theorem num_cases {t : List Byte} (h : Number t) :
    (∃ v, Num S t v) ∨ (initNumber S t = .err ∧ ∀ v, ¬ Num S t v) := by
  have key : (∀ i, Integer t i → i < -2 ^ 63 ∨ 2 ^ 64 ≤ i) → (∃ v, Num S t v) ∨ (initNumber S t = .err ∧ ∀ v, ¬ Num S t v) := by
    intro hi
    rcases hs : S t with _ | d
    · have ha : analyze t = {} := by
        rcases number_kinds h with ⟨i, h⟩ | h
        · obtain ⟨k1, k2, k3, k4⟩ := C52_classified_by_value t _ h
          have := hi _ h
          have e1 : (analyze t).i32 = false := by
            rw [Bool.eq_false_iff]; intro h; have := k1.1 h; omega
          have e2 : (analyze t).u32 = false := by
            rw [Bool.eq_false_iff]; intro h; have := k2.1 h; omega
          have e3 : (analyze t).i64 = false := by
            rw [Bool.eq_false_iff]; intro h; have := k3.1 h; omega
          have e4 : (analyze t).u64 = false := by
            rw [Bool.eq_false_iff]; intro h; have := k4.1 h; omega
          generalize analyze t = k at *
          cases k; simp_all
        · exact h
      have he : initNumber S t = .err := by simp [initNumber, ha, hs]
      refine Or.inr ⟨he, fun v hv => ?_⟩
      rw [initNumber_of_num hv] at he
      cases he
    · exact Or.inl ⟨_, .double h hi hs⟩
  by_cases hex : ∃ i, Integer t i ∧ -2 ^ 63 ≤ i ∧ i < 2 ^ 64
  · obtain ⟨i, hi, h1, h2⟩ := hex
    left
    by_cases a1 : -2 ^ 31 ≤ i ∧ i < 2 ^ 31
    · exact ⟨_, .int32 hi a1.1 a1.2⟩
    by_cases a2 : 2 ^ 31 ≤ i ∧ i < 2 ^ 32
    · have : ((i.toNat : Nat) : Int) = i := by omega
      rw [← this] at hi
      exact ⟨_, .uint32 hi (by omega) (by omega)⟩
    by_cases a3 : i < 2 ^ 63
    · exact ⟨_, .int64 hi h1 a3 (by omega)⟩
    · have : ((i.toNat : Nat) : Int) = i := by omega
      rw [← this] at hi
      exact ⟨_, .uint64 hi (by omega) (by omega)⟩
  · refine key fun i hi => ?_
    refine Classical.byContradiction fun hc => hex ⟨i, hi, by omega, by omega⟩

/-! ### Dictionaries -/

theorem cmp_eq (a b : List Byte) : (Rb.defaultCmp a b == .eq) = decide (a = b) := by
  by_cases h : a = b
  · simp [h, (C50_default_keys_equal b b).2 rfl]
  · have : ¬ Rb.defaultCmp a b = .eq := fun h' => h ((C50_default_keys_equal a b).1 h')
    simp only [h, decide_false, beq_eq_false_iff_ne, ne_eq, this, not_false_eq_true]

theorem has_iff {β : Type} (k : List Byte) (es : List (List Byte × β)) : Rb.has Rb.defaultCmp k es = decide (k ∈ es.map (·.1)) := by
  simp only [Rb.has, cmp_eq]
  rw [Bool.eq_iff_iff, List.any_eq_true, decide_eq_true_eq, List.mem_map]
  constructor
  · rintro ⟨x, hx, h⟩; exact ⟨x, hx, (of_decide_eq_true h).symm⟩
  · rintro ⟨x, hx, h⟩; exact ⟨x, hx, decide_eq_true h.symm⟩

/-- Storing a value for a key. -/
def set {β : Type} (k : List Byte) (v : β) (es : List (List Byte × β)) : List (List Byte × β) :=
  es.map fun e => if k = e.1 then (e.1, v) else e

theorem absSet {β : Type} (n : β) (k : List Byte) (v : β) (es : List (List Byte × β)) :
    Rb.absStep Rb.defaultCmp n es (.set k v) = set k v es := by
  simp only [Rb.absStep, cmp_eq, set, decide_eq_true_eq]

theorem set_keys {β : Type} (k : List Byte) (v : β) (es : List (List Byte × β)) : (set k v es).map (·.1) = es.map (·.1) := by
  rw [set, List.map_map]
  apply List.map_congr_left
  intro a _
  simp only [Function.comp]
  split <;> rfl

theorem set_none {β : Type} (k : List Byte) (v : β) (es : List (List Byte × β)) (h : k ∉ es.map (·.1)) : set k v es = es := by
  rw [set]
  conv => rhs; rw [← List.map_id es]
  apply List.map_congr_left
  intro a ha
  have : ¬ k = a.1 := fun hk => h (List.mem_map.2 ⟨a, ha, hk.symm⟩)
  simp only [this, if_false, id]

/-! ### Runs -/

theorem run_append (st : State) (a b : List Event) :
    run S pol o st (a ++ b) = match run S pol o st a with | .ok st' => run S pol o st' b | r => r := by
  induction a generalizing st with
  | nil => rfl
  | cons e a ih =>
    simp only [List.cons_append, run]
    rcases process S pol o st e with st' | c | _
    · exact ih st'
    · rfl
    · rfl

theorem run_append_ok {st st' : State} {a : List Event} (b : List Event) (h : run S pol o st a = .ok st') :
    run S pol o st (a ++ b) = run S pol o st' b := by rw [run_append, h]

theorem run_append_err {st : State} {c : Int} {a : List Event} (b : List Event) (h : run S pol o st a = .err c) :
    run S pol o st (a ++ b) = .err c := by rw [run_append, h]

/-- Members stored one after the other. -/
inductive After (S : List Byte → Option (BitVec 64)) (pol : DupKey) (o : Bool) :
    List (List Byte × V) → List (List Byte × T) → List (List Byte × V) → Prop
  | nil {es} : After S pol o es [] es
  | new {es es' ms k t v} : k ∉ es.map (·.1) → Reads S pol o t v → After S pol o (es ++ [(k, v)]) ms es' →
      After S pol o es ((k, t) :: ms) es'
  | first {es es' ms k t} : pol = .useFirst → k ∈ es.map (·.1) → After S pol o es ms es' → After S pol o es ((k, t) :: ms) es'
  | last {es es' ms k t v} : pol = .useLast → k ∈ es.map (·.1) → Reads S pol o t v → After S pol o (set k v es) ms es' →
      After S pol o es ((k, t) :: ms) es'

theorem readsMembers_keys {ms : List (List Byte × T)} {es : List (List Byte × V)} (h : ReadsMembers S pol o ms es) :
    es.map (·.1) = ms.map (·.1) := by
  induction ms generalizing es with
  | nil => cases h; rfl
  | cons m ms ih => cases h with | cons _ h => simp [ih h]

/-- ABORT. -/
theorem after_abort (hp : pol = .abort) (ms : List (List Byte × T)) : ∀ (es es' : List (List Byte × V)),
    After S pol o es ms es' ↔ (ms.map (·.1)).Nodup ∧ (∀ k ∈ ms.map (·.1), k ∉ es.map (·.1)) ∧
      ∃ l, ReadsMembers S pol o ms l ∧ es' = es ++ l := by
  induction ms with
  | nil =>
    intro es es'
    constructor
    · intro h; cases h; exact ⟨List.nodup_nil, by simp, [], .nil, by simp⟩
    · rintro ⟨_, _, l, h, rfl⟩; cases h; simp only [List.append_nil]; exact .nil
  | cons m ms ih =>
    obtain ⟨k, t⟩ := m
    intro es es'
    constructor
    · intro h
      cases h with
      | new h1 h2 h3 =>
        rename_i v
        obtain ⟨g1, g2, l, g3, rfl⟩ := (ih _ _).1 h3
        refine ⟨?_, ?_, (k, v) :: l, .cons h2 g3, by simp⟩
        · rw [List.map_cons, List.nodup_cons]
          refine ⟨fun hk => ?_, g1⟩
          exact g2 k hk (by simp)
        · intro x hx
          rw [List.map_cons] at hx
          rcases List.mem_cons.1 hx with rfl | hx
          · exact h1
          · intro hc
            exact g2 x hx (by rw [List.map_append]; exact List.mem_append_left _ hc)
      | first h _ _ => rw [hp] at h; cases h
      | last h _ _ _ => rw [hp] at h; cases h
    · rintro ⟨h1, h2, l, h3, rfl⟩
      cases h3 with
      | cons hv hl =>
        rename_i v l
        rw [List.map_cons, List.nodup_cons] at h1
        refine .new (h2 k (by simp)) hv ((ih _ _).2 ⟨h1.2, ?_, l, hl, by simp⟩)
        intro x hx hc
        rw [List.map_append] at hc
        rcases List.mem_append.1 hc with hc | hc
        · exact h2 x (by rw [List.map_cons]; exact List.mem_cons_of_mem _ hx) hc
        · simp only [List.map_cons, List.map_nil, List.mem_singleton] at hc
          subst hc
          exact h1.1 hx

/-- USEFIRST. -/
theorem after_first (hp : pol = .useFirst) (ms : List (List Byte × T)) : ∀ (es es' : List (List Byte × V)),
    After S pol o es ms es' ↔ ∃ l, ReadsMembers S pol o ((firsts ms).filter fun x => x.1 ∉ es.map (·.1)) l ∧ es' = es ++ l := by
  induction ms with
  | nil =>
    intro es es'
    constructor
    · intro h; cases h; exact ⟨[], .nil, by simp⟩
    · rintro ⟨l, h, rfl⟩; simp only [firsts, List.filter_nil] at h; cases h; simp only [List.append_nil]; exact .nil
  | cons m ms ih =>
    obtain ⟨k, t⟩ := m
    intro es es'
    by_cases hk : k ∈ es.map (·.1)
    · have hf : ((firsts ((k, t) :: ms)).filter fun x => x.1 ∉ es.map (·.1)) = (firsts ms).filter fun x => x.1 ∉ es.map (·.1) := by
        rw [firsts, List.filter_cons]
        simp only [hk, not_true_eq_false, decide_false, Bool.false_eq_true, if_false, List.filter_filter]
        apply List.filter_congr
        intro x _
        by_cases hx : x.1 = k
        · simp [hx, hk]
        · simp [hx]
      rw [hf, ← ih]
      constructor
      · intro h
        cases h with
        | new h1 _ _ => exact absurd hk h1
        | first _ _ h => exact h
        | last h _ _ _ => rw [hp] at h; cases h
      · exact fun h => .first hp hk h
    · have hf : ((firsts ((k, t) :: ms)).filter fun x => x.1 ∉ es.map (·.1)) =
          (k, t) :: (firsts ms).filter fun x => x.1 ∉ (es.map (·.1) ++ [k]) := by
        rw [firsts, List.filter_cons]
        simp only [hk, not_false_eq_true, decide_true, if_true, List.filter_filter]
        congr 1
        apply List.filter_congr
        intro x _
        by_cases hx : x.1 = k
        · simp [hx]
        · simp [hx]
      rw [hf]
      constructor
      · intro h
        cases h with
        | new hnew h2 h3 =>
          rename_i v
          obtain ⟨l, h4, rfl⟩ := (ih _ _).1 h3
          rw [List.map_append] at h4
          exact ⟨(k, v) :: l, .cons h2 h4, by simp⟩
        | first _ h _ => exact absurd h hk
        | last h _ _ _ => rw [hp] at h; cases h
      · rintro ⟨l, hl, rfl⟩
        cases hl with
        | cons hv hl =>
          rename_i v l
          refine .new hk hv ((ih _ _).2 ⟨l, ?_, by simp⟩)
          rw [List.map_append]
          exact hl

/-- Members stored one after the other, each replacing the one with its key. -/
def upd {β : Type} : List (List Byte × β) → List (List Byte × β) → List (List Byte × β)
  | es, [] => es
  | es, (k, v) :: l => upd (if k ∈ es.map (·.1) then set k v es else es ++ [(k, v)]) l

theorem upd_keys {β : Type} : ∀ (l es : List (List Byte × β)),
    (upd es l).map (·.1) = es.map (·.1) ++ ((firsts l).map (·.1)).filter fun x => x ∉ es.map (·.1)
  | [], es => by simp [upd, firsts]
  | (k, v) :: l, es => by
    rw [upd, upd_keys l, firsts]
    by_cases hk : k ∈ es.map (·.1)
    · simp only [hk, if_true, set_keys, List.map_cons, List.filter_cons, not_true_eq_false, decide_false, Bool.false_eq_true, if_false]
      congr 1
      rw [List.filter_map, List.filter_map, List.filter_filter]
      congr 1
      apply List.filter_congr
      intro x _
      by_cases hx : x.1 = k
      · simp only [Function.comp, hx, hk]; simp
      · simp [hx]
    · simp only [hk, if_false, List.map_append, List.map_cons, List.map_nil, List.filter_cons, not_false_eq_true, decide_true, if_true,
        List.append_assoc, List.cons_append, List.nil_append]
      congr 2
      rw [List.filter_map, List.filter_map, List.filter_filter]
      congr 1
      apply List.filter_congr
      intro x _
      by_cases hx : x.1 = k
      · simp [hx]
      · simp [hx]

theorem lastOf_cons {β : Type} (k : List Byte) (e : List Byte × β) (l : List (List Byte × β)) :
    lastOf k (e :: l) = if (lastOf k l).isSome then lastOf k l else if e.1 = k then some e.2 else none := by
  simp only [lastOf, List.filter_cons]
  by_cases he : e.1 = k
  · simp only [he, decide_true, if_true, List.map_cons, List.getLast?_cons]
    generalize ((l.filter fun x => decide (x.1 = k)).map (·.2)).getLast? = r
    cases r <;> simp
  · simp only [he, decide_false, Bool.false_eq_true, if_false]
    generalize ((l.filter fun x => decide (x.1 = k)).map (·.2)).getLast? = r
    cases r <;> simp

theorem upd_mem {β : Type} : ∀ (l es : List (List Byte × β)), ∀ e ∈ upd es l,
    lastOf e.1 l = some e.2 ∨ (lastOf e.1 l = none ∧ e ∈ es)
  | [], es, e, he => Or.inr ⟨rfl, he⟩
  | (k, v) :: l, es, e, he => by
    rw [upd] at he
    rw [lastOf_cons]
    rcases upd_mem l _ e he with h | ⟨h, hm⟩
    · left; simp [h]
    · simp only [h, Option.isSome_none, Bool.false_eq_true, if_false]
      by_cases hk : k = e.1
      · left
        simp only [hk, if_true]
        congr 1
        split at hm
        · obtain ⟨a, ha, rfl⟩ := List.mem_map.1 hm
          split
          · rfl
          · rename_i hka; simp only [hka, if_false] at hk
        · rename_i hn
          rcases List.mem_append.1 hm with hm | hm
          · exact absurd (List.mem_map.2 ⟨e, hm, rfl⟩) (hk ▸ hn)
          · rw [List.mem_singleton.1 hm]
      · right
        simp only [hk, if_false, true_and]
        split at hm
        · obtain ⟨a, ha, rfl⟩ := List.mem_map.1 hm
          split
          · rename_i hka; simp only [hka, if_true] at hk; exact absurd trivial hk
          · exact ha
        · rcases List.mem_append.1 hm with hm | hm
          · exact hm
          · rw [List.mem_singleton.1 hm] at hk; exact absurd rfl hk

theorem ext_keys {β : Type} (f : List Byte → Option β) : ∀ {a b : List (List Byte × β)}, a.map (·.1) = b.map (·.1) →
    (∀ e ∈ a, f e.1 = some e.2) → (∀ e ∈ b, f e.1 = some e.2) → a = b
  | [], [], _, _, _ => rfl
  | [], _ :: _, h, _, _ => by simp at h
  | _ :: _, [], h, _, _ => by simp at h
  | (k, x) :: a, (k', y) :: b, h, ha, hb => by
    simp only [List.map_cons, List.cons.injEq] at h
    obtain ⟨rfl, h⟩ := h
    have h1 := ha _ List.mem_cons_self
    have h2 := hb _ List.mem_cons_self
    simp only at h1 h2
    rw [h1] at h2
    cases h2
    rw [ext_keys f h (fun e he => ha e (List.mem_cons_of_mem _ he)) (fun e he => hb e (List.mem_cons_of_mem _ he))]

theorem lasts_upd {β : Type} (l es : List (List Byte × β)) : Lasts l es ↔ es = upd [] l := by
  have h : Lasts l (upd [] l) := by
    refine ⟨by simp [upd_keys], fun e he => ?_⟩
    rcases upd_mem l [] e he with h | ⟨_, h⟩
    · exact h
    · cases h
  constructor
  · intro h'
    exact ext_keys (fun k => lastOf k l) (by rw [h'.1, h.1]) h'.2 h.2
  · rintro rfl; exact h

/-- USELAST. -/
theorem after_last (hp : pol = .useLast) (ms : List (List Byte × T)) : ∀ (es es' : List (List Byte × V)),
    After S pol o es ms es' ↔ ∃ l, ReadsMembers S pol o ms l ∧ es' = upd es l := by
  induction ms with
  | nil =>
    intro es es'
    constructor
    · intro h; cases h; exact ⟨[], .nil, rfl⟩
    · rintro ⟨l, h, rfl⟩; cases h; exact .nil
  | cons m ms ih =>
    obtain ⟨k, t⟩ := m
    intro es es'
    constructor
    · intro h
      cases h with
      | new h1 h2 h3 =>
        rename_i v
        obtain ⟨l, h4, rfl⟩ := (ih _ _).1 h3
        exact ⟨(k, v) :: l, .cons h2 h4, by rw [upd, if_neg h1]⟩
      | first h _ _ => rw [hp] at h; cases h
      | last hlast h1 h2 h3 =>
        rename_i v
        obtain ⟨l, h4, rfl⟩ := (ih _ _).1 h3
        exact ⟨(k, v) :: l, .cons h2 h4, by rw [upd, if_pos h1]⟩
    · rintro ⟨l, hl, rfl⟩
      cases hl with
      | cons hv hl =>
        rename_i v l
        by_cases hk : k ∈ es.map (·.1)
        · exact .last hp hk hv ((ih _ _).2 ⟨l, hl, by rw [upd, if_pos hk]⟩)
        · exact .new hk hv ((ih _ _).2 ⟨l, hl, by rw [upd, if_neg hk]⟩)

theorem after_reads (ms : List (List Byte × T)) (v : V) :
    Reads S pol o (.obj ms) v ↔ ∃ es, After S pol o [] ms es ∧ v = .dict o es := by
  rcases hp : pol with _ | _ | _
  · constructor
    · intro h
      cases h with
      | distinct _ h1 h2 => exact ⟨_, (after_abort rfl ms _ _).2 ⟨h1, by simp, _, h2, by simp⟩, rfl⟩
      | first h _ => cases h
      | last h _ _ => cases h
    · rintro ⟨es, h, rfl⟩
      obtain ⟨h1, _, l, h2, rfl⟩ := (after_abort rfl ms _ _).1 h
      exact .distinct rfl h1 h2
  · have hf : ((firsts ms).filter fun x => x.1 ∉ ([] : List (List Byte × V)).map (·.1)) = firsts ms := by
      rw [List.filter_eq_self]; simp
    constructor
    · intro h
      cases h with
      | distinct h _ _ => cases h
      | first _ h1 => exact ⟨_, (after_first rfl ms _ _).2 ⟨_, by rw [hf]; exact h1, by simp⟩, rfl⟩
      | last h _ _ => cases h
    · rintro ⟨es, h, rfl⟩
      obtain ⟨l, h2, rfl⟩ := (after_first rfl ms _ _).1 h
      rw [hf] at h2
      exact .first rfl h2
  · constructor
    · intro h
      cases h with
      | distinct h _ _ => cases h
      | first h _ => cases h
      | last _ h1 h2 => exact ⟨_, (after_last rfl ms _ _).2 ⟨_, h1, (lasts_upd _ _).1 h2⟩, rfl⟩
    · rintro ⟨es, h, rfl⟩
      obtain ⟨l, h1, h2⟩ := (after_last rfl ms _ _).1 h
      exact .last rfl h1 ((lasts_upd _ _).2 h2)

end WS.Dom
