import Verif.Proof.Config7
/-
Loader proofs, part 8: user values.
-/
namespace WS.Conf
open WS WS.Sax WS.Time WS.ConfNum WS.Spec.Load WS.Spec.Conf

variable {α : Type}

def AtValues (nr : Bool) (s : State) (f : Fr) : Prop :=
  ∃ k kd dom, s = { base nr f k kd dom with table := .userValues, depth := 2 }

def AtTyped (nr : Bool) (lbl : List Byte) (s : State) (f : Fr) : Prop :=
  ∃ k kd dom, s = { base nr f k kd dom with table := .userValues, object := .userValue, depth := 3, uvLabel := lbl }

theorem values_level (nr : Bool) : Level (AtValues nr) 2 := by
  constructor
  · rintro s x ⟨k, kd, dom, rfl⟩; simp [base]
  · rintro s x ⟨k, kd, dom, rfl⟩; rfl
  · rintro s x k' ⟨k, kd, dom, rfl⟩; exact ⟨k', _, dom, rfl⟩

theorem typed_level (nr : Bool) (lbl : List Byte) : Level (AtTyped nr lbl) 3 := by
  constructor
  · rintro s x ⟨k, kd, dom, rfl⟩; simp [base]
  · rintro s x ⟨k, kd, dom, rfl⟩; rfl
  · rintro s x k' ⟨k, kd, dom, rfl⟩; exact ⟨k', _, dom, rfl⟩

/-! ### Plain values -/

theorem s64_not_ub (ty : JType) (d : List Byte) : convertS64 ty d ≠ .ub := by
  unfold convertS64
  split
  · simp
  split
  · simp
  rcases strtol d with ⟨_ | v, n⟩
  · simp
  · simp only; split <;> simp

theorem plain_iff {E : Env α} {a a' : α} {s s' : State} {v : J} (hr : restEvs v = []) :
    plainValue E a s (leafEv v) = (a', .ok s') ↔ PlainValue E s.key v a a' ∧ s' = s := by
  cases v with
  | null =>
    show invoke _ _ _ _ = _ ↔ _
    rw [invoke_ok]
    exact ⟨fun ⟨h, e⟩ => ⟨.null h, e⟩, fun ⟨h, e⟩ => ⟨by cases h; assumption, e⟩⟩
  | bool b =>
    cases b
    · show invoke _ _ _ _ = _ ↔ _
      rw [invoke_ok]
      exact ⟨fun ⟨h, e⟩ => ⟨.bool h, e⟩, fun ⟨h, e⟩ => ⟨by cases h; assumption, e⟩⟩
    · show invoke _ _ _ _ = _ ↔ _
      rw [invoke_ok]
      exact ⟨fun ⟨h, e⟩ => ⟨.bool h, e⟩, fun ⟨h, e⟩ => ⟨by cases h; assumption, e⟩⟩
  | arr xs => exact absurd hr (rest_arr xs)
  | obj ms => exact absurd hr (rest_obj ms)
  | str t r =>
    show (if 16384 ≤ t.length then _ else _) = _ ↔ _
    by_cases hl : 16384 ≤ t.length
    · rw [if_pos hl]
      simp only [Prod.mk.injEq, reduceCtorEq, and_false, false_iff]
      rintro ⟨⟨⟩, _⟩
      omega
    · rw [if_neg hl]
      show invoke _ _ _ _ = _ ↔ _
      rw [invoke_ok]
      exact ⟨fun ⟨h, e⟩ => ⟨.string (by omega) h, e⟩, fun ⟨h, e⟩ => ⟨by cases h; assumption, e⟩⟩
  | num t r =>
    have hd : ∀ a1, withValue a1 (convertDouble E (leafEv (.num t r)).type (leafEv (.num t r)).data) (fun d => invoke E a1 (.store s.key (.double d)) s) = (a', .ok s') ↔
        (∃ d, Double E (.num t r) d ∧ Did E (.store s.key (.double d)) a1 a') ∧ s' = s := by
      intro a1
      rw [res_invoke]
      simp only [double_conv]
      exact ⟨fun ⟨d, h1, h2, h3⟩ => ⟨⟨d, h1, h2⟩, h3⟩, fun ⟨⟨d, h1, h2⟩, h3⟩ => ⟨d, h1, h2, h3⟩⟩
    unfold plainValue
    rcases hc : convertS64 (leafEv (.num t r)).type (leafEv (.num t r)).data with i | e | _
    · have hi : SInt (.num t r) i := s64_conv.1 hc
      have hu : ∀ j, SInt (.num t r) j → j = i := by
        intro j hj
        have := hc.symm.trans (s64_conv.2 hj)
        injection this with this
        exact this.symm
      simp only [leafEv]
      rcases hs : E.call a (.store s.key (.sint i)) with ⟨a1, _ | e⟩
      · simp only [Prod.mk.injEq, Res.ok.injEq]
        constructor
        · rintro ⟨rfl, rfl⟩; exact ⟨.int hi hs, rfl⟩
        · rintro ⟨h, rfl⟩
          refine ⟨?_, rfl⟩
          cases h with
          | int h1 h2 => rw [hu _ h1] at h2; unfold Did at h2; rw [hs] at h2; simpa using h2
          | double h1 _ _ => exact absurd hi (h1 i)
          | retried h1 h2 _ _ => rw [hu _ h1] at h2; rw [hs] at h2; simp at h2
      · simp only
        show withValue a1 (convertDouble E (leafEv (.num t r)).type (leafEv (.num t r)).data) _ = _ ↔ _
        rw [hd]
        constructor
        · rintro ⟨⟨d, h1, h2⟩, h3⟩; exact ⟨.retried hi hs h1 h2, h3⟩
        · rintro ⟨h, h3⟩
          refine ⟨?_, h3⟩
          cases h with
          | int h1 h2 => rw [hu _ h1] at h2; unfold Did at h2; rw [hs] at h2; simp at h2
          | double h1 _ _ => exact absurd hi (h1 i)
          | retried h1 h2 h3 h4 =>
            rw [hu _ h1] at h2; rw [hs] at h2
            simp only [Prod.mk.injEq] at h2
            obtain ⟨rfl, _⟩ := h2
            exact ⟨_, h3, h4⟩
    · have hn : ∀ i, ¬ SInt (.num t r) i := by
        intro i hi
        have := s64_conv.2 hi
        rw [hc] at this
        cases this
      simp only [leafEv]
      show withValue a (convertDouble E (leafEv (.num t r)).type (leafEv (.num t r)).data) _ = _ ↔ _
      rw [hd]
      constructor
      · rintro ⟨⟨d, h1, h2⟩, h3⟩; exact ⟨.double hn h1 h2, h3⟩
      · rintro ⟨h, h3⟩
        refine ⟨?_, h3⟩
        cases h with
        | int h1 _ => exact absurd h1 (hn _)
        | double _ h1 h2 => exact ⟨_, h1, h2⟩
        | retried h1 _ _ _ => exact absurd h1 (hn _)
    · exact absurd hc (s64_not_ub _ _)

/-! ### Embedded JSON -/

/-- What the DOM builder gets of an event. -/
def domEv (e : Ev) : JType × List Byte := (e.type, e.data)

/-- Within an embedded JSON value. -/
def jst (nr : Bool) (lbl : List Byte) (f : Fr) (k : List Byte) (d : Int) (acc : List (JType × List Byte)) : State :=
  { base nr f k 3 acc with table := .userValues, object := .userValue, section_ := .json, depth := d, uvLabel := lbl }

theorem json_step (E : Env α) (nr : Bool) (lbl : List Byte) (f : Fr) (k : List Byte) (a : α) (d : Int) (acc : List (JType × List Byte)) (e : Ev)
    (hd : 3 ≤ newDepth e.type d) :
    step E a (jst nr lbl f k d acc) e = jsonValue E a (jst nr lbl f k (newDepth e.type d) acc) e := by
  have hu : ∀ d', 3 ≤ d' → handleUserValue E a (jst nr lbl f k d' acc) e = jsonValue E a (jst nr lbl f k d' acc) e := by
    intro d' hd'
    have h1 : d' ≠ 1 := by omega
    have h2 : d' ≠ 2 := by omega
    unfold handleUserValue userValueTail
    simp only [jst, base, ne_eq, not_true_eq_false, if_false, h1, h2, false_and, reduceCtorEq, and_false, hd', true_and, and_true, if_true]
  by_cases hk : e.type = .key
  · have hn : newDepth e.type d = d := by rw [hk]; rfl
    rw [hn] at hd ⊢
    unfold step handleKey
    have hj : (jst nr lbl f k d acc).section_ = .json := rfl
    rw [if_pos hk, if_pos hj]
    exact hu d hd
  · rw [step_deep hk (by show 2 ≤ newDepth e.type d; omega)]
    exact hu _ hd

/-- The depth after the events, if it never drops below 4. -/
def deep : Int → List Ev → Option Int
  | d, [] => some d
  | d, e :: es => if 4 ≤ newDepth e.type d then deep (newDepth e.type d) es else none

theorem deep_append (xs ys : List Ev) : ∀ (d d' : Int), deep d xs = some d' → deep d (xs ++ ys) = deep d' ys := by
  induction xs with
  | nil => intro d d' h; simp only [deep, Option.some.injEq] at h; rw [h]; rfl
  | cons x xs ih =>
    intro d d' h
    simp only [deep, List.cons_append] at h ⊢
    split at h
    · rename_i h4; rw [if_pos h4]; exact ih _ _ h
    · cases h

mutual
theorem deep_value : ∀ (v : J) (d : Int), 4 ≤ d → deep d v.events = some d
  | .null, d, h => by simp [J.events, deep, newDepth, h]
  | .bool false, d, h => by simp [J.events, deep, newDepth, h]
  | .bool true, d, h => by simp [J.events, deep, newDepth, h]
  | .num _ _, d, h => by simp [J.events, deep, newDepth, h]
  | .str _ _, d, h => by simp [J.events, deep, newDepth, h]
  | .arr xs, d, h => by
    simp only [J.events, deep, newDepth, show (4 : Int) ≤ d + 1 by omega, if_true]
    rw [deep_append _ _ _ _ (deep_elements xs (d + 1) (by omega))]
    simp only [deep, newDepth, show (4 : Int) ≤ d + 1 - 1 by omega, if_true]
    congr 1; omega
  | .obj ms, d, h => by
    simp only [J.events, deep, newDepth, show (4 : Int) ≤ d + 1 by omega, if_true]
    rw [deep_append _ _ _ _ (deep_members ms (d + 1) (by omega))]
    simp only [deep, newDepth, show (4 : Int) ≤ d + 1 - 1 by omega, if_true]
    congr 1; omega
theorem deep_elements : ∀ (vs : List J) (d : Int), 4 ≤ d → deep d (Spec.Load.elements vs) = some d
  | [], d, h => rfl
  | v :: vs, d, h => by
    simp only [Spec.Load.elements]
    rw [deep_append _ _ _ _ (deep_value v d h)]
    exact deep_elements vs d h
theorem deep_members : ∀ (ms : List (List Byte × J)) (d : Int), 4 ≤ d → deep d (Spec.Load.members ms) = some d
  | [], d, h => rfl
  | (k, v) :: ms, d, h => by
    simp only [Spec.Load.members, deep, newDepth, h, if_true]
    rw [deep_append _ _ _ _ (deep_value v d h)]
    exact deep_members ms d h
end

/-- No prefix is refused. -/
def Accepted (E : Env α) (acc evs : List (JType × List Byte)) : Prop := ∀ p, p ≠ [] → p <+: evs → E.domRefuses (acc ++ p) = none

theorem accepted_nil (E : Env α) (acc : List (JType × List Byte)) : Accepted E acc [] := by
  intro p h1 h2
  exact absurd (List.prefix_nil.1 h2) h1

theorem accepted_cons {E : Env α} {acc : List (JType × List Byte)} {x : JType × List Byte} {xs : List (JType × List Byte)} :
    Accepted E acc (x :: xs) ↔ E.domRefuses (acc ++ [x]) = none ∧ Accepted E (acc ++ [x]) xs := by
  constructor
  · intro h
    refine ⟨h [x] (by simp) ⟨xs, rfl⟩, ?_⟩
    intro p h1 h2
    obtain ⟨t, rfl⟩ := h2
    have := h (x :: p) (by simp) ⟨t, rfl⟩
    rwa [List.append_cons] at this
  · rintro ⟨h1, h2⟩ p hp hx
    cases p with
    | nil => exact absurd rfl hp
    | cons y q =>
      obtain ⟨t, ht⟩ := hx
      simp only [List.cons_append, List.cons.injEq] at ht
      obtain ⟨rfl, rfl⟩ := ht
      rw [List.append_cons]
      cases q with
      | nil => simpa using h1
      | cons z q => exact h2 _ (by simp) ⟨t, rfl⟩

theorem json_run (E : Env α) (nr : Bool) (lbl : List Byte) (f : Fr) (k : List Byte) (a a' : α) (s' : State) : ∀ (evs : List Ev) (d d' : Int)
    (acc : List (JType × List Byte)), deep d evs = some d' →
    (run E a (jst nr lbl f k d acc) evs = (a', .ok s') ↔
      Accepted E acc (evs.map domEv) ∧ a' = a ∧ s' = jst nr lbl f k d' (acc ++ evs.map domEv))
  | [], d, d', acc, h => by
    simp only [deep, Option.some.injEq] at h
    subst h
    simp only [run, Prod.mk.injEq, Res.ok.injEq, List.map_nil, List.append_nil]
    exact ⟨fun ⟨h1, h2⟩ => ⟨accepted_nil E acc, h1.symm, h2.symm⟩, fun ⟨_, h1, h2⟩ => ⟨h1.symm, h2.symm⟩⟩
  | e :: es, d, d', acc, h => by
    simp only [deep] at h
    split at h
    · rename_i h4
      have hs : step E a (jst nr lbl f k d acc) e =
          match E.domRefuses (acc ++ [domEv e]) with
          | some err => (a, .err err)
          | none => (a, .ok (jst nr lbl f k (newDepth e.type d) (acc ++ [domEv e]))) := by
        rw [json_step E nr lbl f k a d acc e (by omega)]
        unfold jsonValue
        have hd3 : (jst nr lbl f k (newDepth e.type d) acc).depth ≠ 3 := by show newDepth e.type d ≠ 3; omega
        simp only [if_neg hd3]
        rfl
      show andThen (step E a _ e) _ = _ ↔ _
      rw [hs, List.map_cons, accepted_cons]
      rcases E.domRefuses (acc ++ [domEv e]) with _ | err
      · simp only [andThen, true_and]
        rw [json_run E nr lbl f k a a' s' es _ d' _ h, ← List.append_cons]
      · simp [andThen]
    · cases h

/-- The last event of an embedded value, or its only one. -/
theorem jsonValue_last (E : Env α) (nr : Bool) (lbl : List Byte) (f : Fr) (k : List Byte) (a a' : α) (acc : List (JType × List Byte)) (e : Ev) (s' : State) :
    jsonValue E a (jst nr lbl f k 3 acc) e = (a', .ok s') ↔
      E.domRefuses (acc ++ [domEv e]) = none ∧ Did E (.store lbl (.json (acc ++ [domEv e]))) a a' ∧
        s' = { jst nr lbl f k 3 (acc ++ [domEv e]) with section_ := .none } := by
  unfold jsonValue
  have hd3 : (jst nr lbl f k 3 acc).depth = 3 := rfl
  show (match E.domRefuses (acc ++ [domEv e]) with | some e => _ | none => _) = _ ↔ _
  rcases E.domRefuses (acc ++ [domEv e]) with _ | err
  · simp only [hd3, if_true, true_and]
    rw [invoke_ok]
    rfl
  · simp

/-- The first event of an embedded value. -/
theorem json_first (E : Env α) (nr : Bool) (lbl : List Byte) (f : Fr) (dom : List (JType × List Byte)) (a : α) (v : J) :
    step E a { base nr f (ascii "json") 3 dom with table := .userValues, object := .userValue, depth := 3, uvLabel := lbl } (leafEv v) =
      jsonValue E a (jst nr lbl f (ascii "json") (newDepth (leafEv v).type 3) []) (leafEv v) := by
  rw [step_leaf (by show (1 : Int) ≤ 3; decide)]
  simp only
  unfold handleUserValue userValueTail
  have h3 : newDepth (leafEv v).type 3 = 3 ∨ newDepth (leafEv v).type 3 = 4 := by
    rcases leaf_depth_or v 3 with h | h <;> rw [h] <;> simp
  have h1 : ¬ newDepth (leafEv v).type 3 = 1 := by omega
  have h2 : ¬ newDepth (leafEv v).type 3 = 2 := by omega
  have h4 : 3 ≤ newDepth (leafEv v).type 3 := by omega
  have n1 : ¬ (3 : Int) = 2 := by decide
  simp only [base, ne_eq, not_true_eq_false, not_false_eq_true, reduceCtorEq, h1, h2, h4, n1, false_and, and_false, if_false, and_self, if_true]
  rfl

theorem restEvs_split {v : J} (h : restEvs v ≠ []) : newDepth (leafEv v).type 3 = 4 ∧
    ∃ mid e, restEvs v = mid ++ [e] ∧ deep 4 mid = some 4 ∧ newDepth e.type 4 = 3 := by
  cases v with
  | arr xs => exact ⟨rfl, _, _, rfl, deep_elements xs 4 (by decide), rfl⟩
  | obj ms => exact ⟨rfl, _, _, rfl, deep_members ms 4 (by decide), rfl⟩
  | bool b => cases b <;> exact absurd rfl h
  | _ => exact absurd rfl h

theorem accepted_append {E : Env α} {acc xs ys : List (JType × List Byte)} :
    Accepted E acc (xs ++ ys) ↔ Accepted E acc xs ∧ Accepted E (acc ++ xs) ys := by
  induction xs generalizing acc with
  | nil => simp [accepted_nil]
  | cons x xs ih => rw [List.cons_append, accepted_cons, accepted_cons, ih, and_assoc, ← List.append_cons]

theorem typed_json (E : Env α) (nr : Bool) (lbl : List Byte) (v : J) :
    Sim E (Keyed (AtTyped nr lbl) 3 (ascii "json")) (AtTyped nr lbl) v.events
      (fun p q => TypedValue E lbl (ascii "json") v p.2 q.2 ∧ q.1 = p.1) := by
  have key : ∀ (a : α) (f : Fr) dom a' s',
      run E a { base nr f (ascii "json") 3 dom with table := .userValues, object := .userValue, depth := 3, uvLabel := lbl } v.events = (a', .ok s') ↔
        Accepted E [] (v.events.map domEv) ∧ Did E (.store lbl (.json (v.events.map domEv))) a a' ∧
          s' = { jst nr lbl f (ascii "json") 3 (v.events.map domEv) with section_ := .none } := by
    intro a f dom a' s'
    by_cases hr : restEvs v = []
    · rw [events_leaf, hr, run_one, json_first, leaf_depth hr, jsonValue_last, List.map_cons, List.map_nil, accepted_cons]
      simp only [List.nil_append]
      constructor
      · rintro ⟨h1, h2, h3⟩; exact ⟨⟨h1, accepted_nil E _⟩, h2, h3⟩
      · rintro ⟨⟨h1, _⟩, h2, h3⟩; exact ⟨h1, h2, h3⟩
    · obtain ⟨hd, mid, e, hs, hdeep, he⟩ := restEvs_split hr
      rw [events_leaf, hs]
      show andThen (step E a _ (leafEv v)) _ = _ ↔ _
      rw [json_first, hd]
      have h1 : jsonValue E a (jst nr lbl f (ascii "json") 4 []) (leafEv v) =
          match E.domRefuses [domEv (leafEv v)] with
          | some err => (a, .err err)
          | none => (a, .ok (jst nr lbl f (ascii "json") 4 [domEv (leafEv v)])) := by
        unfold jsonValue
        have hd3 : (jst nr lbl f (ascii "json") 4 []).depth ≠ 3 := by show (4 : Int) ≠ 3; decide
        simp only [if_neg hd3]
        rfl
      rw [h1, List.map_cons, accepted_cons, List.map_append, accepted_append, List.map_cons, List.map_nil]
      simp only [List.nil_append]
      rcases E.domRefuses [domEv (leafEv v)] with _ | err
      · simp only [andThen, true_and]
        rw [run_append, andThen_ok]
        constructor
        · rintro ⟨a1, s1, r1, r2⟩
          obtain ⟨m1, rfl, rfl⟩ := (json_run E nr lbl f _ _ _ _ mid 4 4 _ hdeep).1 r1
          rw [run_one, json_step _ _ _ _ _ _ _ _ _ (by omega), he] at r2
          obtain ⟨g1, g2, g3⟩ := (jsonValue_last E nr lbl f _ _ _ _ _ _).1 r2
          refine ⟨⟨m1, accepted_cons.2 ⟨g1, accepted_nil E _⟩⟩, ?_, ?_⟩
          · simpa using g2
          · simpa using g3
        · rintro ⟨⟨m1, m2⟩, g2, g3⟩
          refine ⟨a, _, (json_run E nr lbl f _ _ _ _ mid 4 4 _ hdeep).2 ⟨m1, rfl, rfl⟩, ?_⟩
          rw [run_one, json_step _ _ _ _ _ _ _ _ _ (by omega), he]
          refine (jsonValue_last E nr lbl f _ _ _ _ _ _).2 ⟨(accepted_cons.1 m2).1, ?_, ?_⟩
          · simpa using g2
          · simpa using g3
      · simp [andThen]
  have htv : ∀ a a', TypedValue E lbl (ascii "json") v a a' ↔
      Accepted E [] (v.events.map domEv) ∧ Did E (.store lbl (.json (v.events.map domEv))) a a' := by
    intro a a'
    constructor
    · intro h
      generalize hk : ascii "json" = kk at h
      cases h with
      | json h1 h2 h3 => subst h1; exact ⟨h2, h3⟩
      | _ => exact absurd hk (by decide)
    · rintro ⟨h1, h2⟩; exact .json rfl h1 h2
  intro a s f hA
  obtain ⟨⟨k, kd, dom, rfl⟩, hk, hkd⟩ := hA
  have hk : k = ascii "json" := hk
  have hkd : kd = 3 := hkd
  subst hk hkd
  constructor
  · intro a' s' hr
    obtain ⟨h1, h2, rfl⟩ := (key _ _ _ _ _).1 hr
    exact ⟨f, ⟨_, _, _, rfl⟩, (htv _ _).2 ⟨h1, h2⟩, rfl⟩
  · rintro a' y ⟨h, rfl⟩
    obtain ⟨h1, h2⟩ := (htv _ _).1 h
    exact ⟨_, (key _ _ _ _ _).2 ⟨h1, h2, rfl⟩, ⟨_, _, _, rfl⟩⟩

/-! ### Typed values -/

theorem typed_key {E : Env α} {l k : List Byte} {v : J} {a a' : α} (h : TypedValue E l k v a a') :
    (k = ascii "uint" ∧ ∃ n, UInt 64 24 v n ∧ Did E (.store l (.uint n)) a a') ∨
    (k = ascii "sint" ∧ ∃ i, SInt v i ∧ Did E (.store l (.sint i)) a a') ∨
    (k = ascii "float" ∧ ∃ d, Double E v d ∧ Did E (.store l (.double d)) a a') ∨
    (k = ascii "string" ∧ ∃ s, Text v s ∧ s.length < 16384 ∧ Did E (.store l (.string s)) a a') ∨
    (k = ascii "base64" ∧ ∃ s, Text v s ∧ s.length < 16384 ∧ Did E (.store l (.base64 s)) a a') ∨ k = ascii "json" := by
  cases h with
  | uint h1 h2 => exact .inl ⟨rfl, _, h1, h2⟩
  | sint h1 h2 => exact .inr (.inl ⟨rfl, _, h1, h2⟩)
  | float h1 h2 => exact .inr (.inr (.inl ⟨rfl, _, h1, h2⟩))
  | string h1 h2 h3 => exact .inr (.inr (.inr (.inl ⟨rfl, _, h1, h2, h3⟩)))
  | base64 h1 h2 h3 => exact .inr (.inr (.inr (.inr (.inl ⟨rfl, _, h1, h2, h3⟩))))
  | json => exact .inr (.inr (.inr (.inr (.inr rfl))))

theorem typed_text {E : Env α} {l k : List Byte} {v : J} {a a' : α} (h : TypedValue E l k v a a') (hk : k ≠ ascii "json") : ∃ t, Text v t := by
  rcases typed_key h with ⟨_, n, ⟨t, h, _⟩, _⟩ | ⟨_, n, ⟨t, h, _⟩, _⟩ | ⟨_, n, ⟨t, h, _⟩, _⟩ | ⟨_, t, h, _⟩ | ⟨_, t, h, _⟩ | h
  · exact ⟨t, h⟩
  · exact ⟨t, h⟩
  · exact ⟨t, h⟩
  · exact ⟨t, h⟩
  · exact ⟨t, h⟩
  · exact absurd h hk

theorem typed_cases {E : Env α} {l k : List Byte} {v : J} {a a' : α} (hk : k ≠ ascii "json") : TypedValue E l k v a a' ↔
    (k = ascii "uint" ∧ ∃ n, UInt 64 24 v n ∧ Did E (.store l (.uint n)) a a') ∨
    (k = ascii "sint" ∧ ∃ i, SInt v i ∧ Did E (.store l (.sint i)) a a') ∨
    (k = ascii "float" ∧ ∃ d, Double E v d ∧ Did E (.store l (.double d)) a a') ∨
    (k = ascii "string" ∧ ∃ s, Text v s ∧ s.length < 16384 ∧ Did E (.store l (.string s)) a a') ∨
    (k = ascii "base64" ∧ ∃ s, Text v s ∧ s.length < 16384 ∧ Did E (.store l (.base64 s)) a a') := by
  constructor
  · intro h
    rcases typed_key h with h | h | h | h | h | h
    · exact .inl h
    · exact .inr (.inl h)
    · exact .inr (.inr (.inl h))
    · exact .inr (.inr (.inr (.inl h)))
    · exact .inr (.inr (.inr (.inr h)))
    · exact absurd h hk
  · rintro (⟨rfl, n, h1, h2⟩ | ⟨rfl, n, h1, h2⟩ | ⟨rfl, n, h1, h2⟩ | ⟨rfl, n, h1, h2, h3⟩ | ⟨rfl, n, h1, h2, h3⟩)
    · exact .uint h1 h2
    · exact .sint h1 h2
    · exact .float h1 h2
    · exact .string h1 h2 h3
    · exact .base64 h1 h2 h3

theorem text_only {v : J} {P : List Byte → Prop} (ht : Text v (leafEv v).data) : (∃ s, Text v s ∧ P s) ↔ P (leafEv v).data := by
  constructor
  · rintro ⟨s, h1, h2⟩; rwa [(text_iff.1 h1).2] at h2
  · intro h; exact ⟨_, ht, h⟩

theorem typedValue_iff {E : Env α} {a a' : α} {s s' : State} {v : J} (hkd : s.keydepth = 3) (hk : s.key ≠ ascii "json") :
    typedValue E a s (leafEv v) = (a', .ok s') ↔ TypedValue E s.uvLabel s.key v a a' ∧ s' = s := by
  unfold typedValue
  simp only [hkd, ne_eq, not_true_eq_false, if_false]
  by_cases ht : (leafEv v).type = .number ∨ (leafEv v).type = .string
  · have htt : Text v (leafEv v).data := text_iff.2 ⟨ht, rfl⟩
    have hn : ¬ (¬ (leafEv v).type = .number ∧ ¬ (leafEv v).type = .string) := by
      rcases ht with h | h <;> simp [h]
    rw [if_neg hn, typed_cases hk]
    simp only [text_only htt]
    have n12 : ¬ ascii "uint" = ascii "sint" := by decide
    have n13 : ¬ ascii "uint" = ascii "float" := by decide
    have n14 : ¬ ascii "uint" = ascii "string" := by decide
    have n15 : ¬ ascii "uint" = ascii "base64" := by decide
    have n23 : ¬ ascii "sint" = ascii "float" := by decide
    have n24 : ¬ ascii "sint" = ascii "string" := by decide
    have n25 : ¬ ascii "sint" = ascii "base64" := by decide
    have n34 : ¬ ascii "float" = ascii "string" := by decide
    have n35 : ¬ ascii "float" = ascii "base64" := by decide
    have n45 : ¬ ascii "string" = ascii "base64" := by decide
    generalize hkk : s.key = kk
    by_cases k1 : kk = ascii "uint"
    · rw [if_pos k1, res_invoke]
      simp only [u64_conv, k1, n12, n13, n14, n15, false_and, or_false, true_and]
      constructor
      · rintro ⟨n, h1, h2, h3⟩; exact ⟨⟨n, h1, h2⟩, h3⟩
      · rintro ⟨⟨n, h1, h2⟩, h3⟩; exact ⟨n, h1, h2, h3⟩
    rw [if_neg k1]
    by_cases k2 : kk = ascii "sint"
    · rw [if_pos k2, res_invoke]
      simp only [s64_conv, k1, false_or, k2, n23, n24, n25, false_and, or_false, true_and]
      constructor
      · rintro ⟨n, h1, h2, h3⟩; exact ⟨.inr ⟨n, h1, h2⟩, h3⟩
      · rintro ⟨h | ⟨n, h1, h2⟩, h3⟩
        · exact absurd h.1.symm n12
        · exact ⟨n, h1, h2, h3⟩
    rw [if_neg k2]
    by_cases k3 : kk = ascii "float"
    · rw [if_pos k3, res_invoke]
      simp only [double_conv, k1, k2, false_and, false_or]
      constructor
      · rintro ⟨n, h1, h2, h3⟩; exact ⟨.inl ⟨k3, n, h1, h2⟩, h3⟩
      · rintro ⟨⟨_, n, h1, h2⟩ | ⟨h, _⟩ | ⟨h, _⟩, h3⟩
        · exact ⟨n, h1, h2, h3⟩
        · exact absurd (k3.symm.trans h) n34
        · exact absurd (k3.symm.trans h) n35
    rw [if_neg k3]
    by_cases k4 : kk = ascii "string"
    · rw [if_pos k4]
      simp only [k1, k2, k3, false_and, false_or]
      by_cases hl : 16384 ≤ (leafEv v).data.length
      · rw [if_pos hl]
        simp only [Prod.mk.injEq, reduceCtorEq, and_false, false_iff]
        rintro ⟨⟨_, h, _⟩ | ⟨_, h, _⟩, _⟩ <;> omega
      · rw [if_neg hl, invoke_ok]
        constructor
        · rintro ⟨h, h3⟩; exact ⟨.inl ⟨k4, by omega, h⟩, h3⟩
        · rintro ⟨⟨_, _, h⟩ | ⟨h, _⟩, h3⟩
          · exact ⟨h, h3⟩
          · exact absurd (k4.symm.trans h) n45
    rw [if_neg k4]
    by_cases k5 : kk = ascii "base64"
    · rw [if_pos k5]
      simp only [k1, k2, k3, k4, false_and, false_or]
      by_cases hl : 16384 ≤ (leafEv v).data.length
      · rw [if_pos hl]
        simp only [Prod.mk.injEq, reduceCtorEq, and_false, false_iff]
        rintro ⟨⟨_, h, _⟩, _⟩; omega
      · rw [if_neg hl, invoke_ok]
        constructor
        · rintro ⟨h, h3⟩; exact ⟨⟨k5, by omega, h⟩, h3⟩
        · rintro ⟨⟨_, _, h⟩, h3⟩; exact ⟨h, h3⟩
    rw [if_neg k5]
    simp only [k1, k2, k3, k4, k5, false_and, or_false, Prod.mk.injEq, reduceCtorEq, and_false]
  · have hn : ¬ (leafEv v).type = .number ∧ ¬ (leafEv v).type = .string := ⟨fun h => ht (.inl h), fun h => ht (.inr h)⟩
    rw [if_pos hn]
    simp only [Prod.mk.injEq, reduceCtorEq, and_false, false_iff]
    rintro ⟨h, _⟩
    obtain ⟨t, h⟩ := typed_text h hk
    exact ht (text_iff.1 h).1

theorem typed_value (E : Env α) (nr : Bool) (lbl k : List Byte) (v : J) :
    Sim E (Keyed (AtTyped nr lbl) 3 k) (AtTyped nr lbl) v.events (fun p q => TypedValue E lbl k v p.2 q.2 ∧ q.1 = p.1) := by
  by_cases hj : k = ascii "json"
  · subst hj; exact typed_json E nr lbl v
  · refine Sim.leaf ?_ ?_
    · rintro a s f ⟨⟨k', kd, dom, rfl⟩, hk, hkd⟩
      have hk : k' = k := hk
      have hkd : kd = 3 := hkd
      subst hk hkd
      refine ⟨fun y => { base nr y k' 3 dom with table := .userValues, object := .userValue, depth := 3, uvLabel := lbl }, fun y => ⟨_, _, _, rfl⟩, ?_⟩
      intro a' s'
      rw [step_leaf (by show (1 : Int) ≤ 3; decide)]
      simp only
      unfold handleUserValue userValueTail
      by_cases hr : restEvs v = []
      · rw [leaf_depth hr]
        have n1 : ¬ (3 : Int) = 1 := by decide
        have n2 : ¬ (3 : Int) = 2 := by decide
        simp only [base, ne_eq, not_true_eq_false, if_false, n1, n2, false_and, reduceCtorEq, and_false, hj, and_true, if_true, not_false_eq_true]
        rw [typedValue_iff rfl hj]
        simp only
        constructor
        · rintro ⟨h1, h2⟩; exact ⟨f, ⟨h1, rfl⟩, h2⟩
        · rintro ⟨y, ⟨h1, rfl⟩, h2⟩; exact ⟨h1, h2⟩
      · rw [leaf_depth_rest hr]
        have n1 : ¬ (4 : Int) = 1 := by decide
        have n2 : ¬ (4 : Int) = 2 := by decide
        have n3 : ¬ (4 : Int) = 3 := by decide
        simp only [base, ne_eq, not_true_eq_false, if_false, show (3 : Int) + 1 = 4 by decide, n1, n2, n3, false_and, reduceCtorEq, and_false, hj, and_true, if_true, not_false_eq_true,
          Prod.mk.injEq, false_iff]
        rintro ⟨y, ⟨h, _⟩, _⟩
        obtain ⟨t, h⟩ := typed_text h hj
        exact hr (text_leaf h)
    · rintro hr p q ⟨h, _⟩
      obtain ⟨t, h⟩ := typed_text h hj
      exact hr (text_leaf h)

/-! ### The members of "user-values" -/

theorem typed_object (E : Env α) (nr : Bool) (k : List Byte) (ms : List (List Byte × J)) :
    Sim E (Keyed (AtValues nr) 2 k) (AtValues nr) (J.obj ms).events (fun p q => Members (TypedValue E k) ms p.2 q.2 ∧ q.1 = p.1) := by
  refine (Sim.object (B := AtTyped nr k) (typed_level nr k) (O := fun p q => q = (p.1, p.2)) (S := fun p q => q = (p.1, p.2))
    (R := fun k' v p q => TypedValue E k k' v p.2 q.2 ∧ q.1 = p.1) ?_ ?_ ?_).congr ?_
  · refine Sim.move id ?_
    rintro a s f ⟨⟨k', kd, dom, rfl⟩, hk, hkd⟩
    have hk : k' = k := hk
    have hkd : kd = 2 := hkd
    subst hk hkd
    exact ⟨_, rfl, k', 2, dom, rfl⟩
  · intro k' v _; exact typed_value E nr k (name k') v
  · refine Sim.move id ?_
    rintro a s f ⟨k', kd, dom, rfl⟩
    exact ⟨_, rfl, k', kd, dom, rfl⟩
  · rintro ⟨f, a⟩ ⟨f', a'⟩
    constructor
    · rintro ⟨h, rfl⟩
      exact ⟨_, rfl, (f', a'), members_lib.2 ⟨h, rfl⟩, rfl⟩
    · rintro ⟨_, rfl, ⟨f1, a1⟩, h2, h3⟩
      obtain ⟨h2', rfl⟩ := members_lib.1 h2
      simp only [Prod.mk.injEq] at h3
      obtain ⟨rfl, rfl⟩ := h3
      exact ⟨h2', rfl⟩

def ValueInv (s : State) : Prop := s.table = .userValues ∧ s.object = .userValue

theorem invoke_inv {E : Env α} {a a' : α} {c : Call} {s s' : State} (h : invoke E a c s = (a', .ok s')) : s' = s := (invoke_ok.1 h).2

theorem value_tail_inv {E : Env α} {a a' : α} {s s' : State} {e : Ev} (hi : ValueInv s) (h : userValueTail E a s e = (a', .ok s')) :
    ValueInv s' ∧ s'.depth = s.depth := by
  have ht : ∀ s1 : State, ValueInv s1 → typedValue E a s1 e = (a', .ok s') → ValueInv s' ∧ s'.depth = s1.depth := by
    intro s1 h1 h
    have : s' = s1 := by
      unfold typedValue at h
      repeat' split at h
      all_goals first
        | exact invoke_inv h
        | (obtain ⟨_, _, _, h⟩ := res_invoke.1 h; exact h)
        | simp at h
    rw [this]; exact ⟨h1, rfl⟩
  have hj : ∀ s1 : State, ValueInv s1 → jsonValue E a s1 e = (a', .ok s') → ValueInv s' ∧ s'.depth = s1.depth := by
    intro s1 h1 h
    unfold jsonValue at h
    simp only at h
    split at h
    · simp at h
    · split at h
      · rw [invoke_inv h]; exact ⟨h1, rfl⟩
      · simp only [Prod.mk.injEq, Res.ok.injEq] at h
        rw [← h.2]; exact ⟨h1, rfl⟩
  unfold userValueTail at h
  by_cases hc : s.object = .userValue ∧ s.section_ ≠ .json ∧ s.key = ascii "json"
  · simp only [hc, if_true, ne_eq, reduceCtorEq, not_false_eq_true, and_self, and_true] at h
    split at h
    · have g := hj _ (by exact ⟨hi.1, rfl⟩) h
      exact g
    · split at h
      · have g := ht _ (by exact ⟨hi.1, rfl⟩) h
        exact g
      · simp at h
  · simp only [if_neg hc] at h
    split at h
    · exact hj _ hi h
    · split at h
      · exact ht _ hi h
      · simp at h

theorem values_inv (E : Env α) : Inv E 3 ValueInv (fun _ => True) := by
  have hu : ∀ a s e a' s', ValueInv s → 3 ≤ s.depth → handleUserValue E a s e = (a', .ok s') → ValueInv s' ∧ s'.depth = s.depth := by
    intro a s e a' s' hi hd h
    unfold handleUserValue at h
    have h1 : ¬ s.depth = 1 := by omega
    have h2 : ¬ s.depth = 2 := by omega
    simp only [hi.1, hi.2, ne_eq, not_true_eq_false, if_false, h1, h2, false_and, reduceCtorEq, and_false] at h
    exact value_tail_inv hi h
  constructor
  · intro a s e a' s' hi hd hk hs
    unfold step handleKey at hs
    rw [if_pos hk] at hs
    split at hs
    · obtain ⟨g1, g2⟩ := hu _ _ _ _ _ hi hd hs
      exact ⟨g1, g2, fun _ => trivial⟩
    · split at hs
      · simp at hs
      · simp only [Prod.mk.injEq, Res.ok.injEq] at hs
        rw [← hs.2]; exact ⟨hi, rfl, fun _ => trivial⟩
  · intro a s e a' s' hi hk hd hs
    rw [step_deep hk (by omega)] at hs
    simp only [hi.1] at hs
    obtain ⟨g1, g2⟩ := hu _ _ _ _ _ (by exact ⟨rfl, hi.2⟩) (by exact hd) hs
    exact ⟨g1, g2, fun _ => trivial, fun _ => trivial⟩

theorem value_member (E : Env α) (nr : Bool) (k : List Byte) (v : J) :
    Sim E (Keyed (AtValues nr) 2 k) (AtValues nr) v.events (fun p q => ValueMember E k v p.2 q.2 ∧ q.1 = p.1) := by
  by_cases hobj : ∃ ms, v = .obj ms
  · obtain ⟨ms, rfl⟩ := hobj
    refine (typed_object E nr k ms).congr ?_
    intro p q
    constructor
    · rintro ⟨h, h2⟩
      cases h with
      | plain h => cases h
      | typed h => exact ⟨h, h2⟩
    · rintro ⟨h, h2⟩; exact ⟨.typed h, h2⟩
  have hnt : ∀ a a', ValueMember E k v a a' ↔ PlainValue E k v a a' := by
    intro a a'
    constructor
    · intro h
      cases h with
      | plain h => exact h
      | typed h => exact absurd ⟨_, rfl⟩ hobj
    · exact .plain
  by_cases hr : restEvs v = []
  · refine Sim.leaf ?_ (fun h => absurd hr h)
    rintro a s f ⟨⟨k', kd, dom, rfl⟩, hk, hkd⟩
    have hk : k' = k := hk
    have hkd : kd = 2 := hkd
    subst hk hkd
    refine ⟨fun y => { base nr y k' 2 dom with table := .userValues, depth := 2 }, fun y => ⟨_, _, _, rfl⟩, ?_⟩
    intro a' s'
    rw [step_leaf (by show (1 : Int) ≤ 2; decide)]
    simp only
    unfold handleUserValue
    rw [leaf_depth hr]
    have n1 : ¬ (2 : Int) = 1 := by decide
    have n2 : ¬ (2 : Int) = 3 := by decide
    simp only [base, ne_eq, not_true_eq_false, if_false, n1, n2, false_and, reduceCtorEq, and_false, and_true, if_true]
    rw [plain_iff hr]
    simp only [hnt]
    constructor
    · rintro ⟨h1, h2⟩; exact ⟨f, ⟨h1, rfl⟩, h2⟩
    · rintro ⟨y, ⟨h1, rfl⟩, h2⟩; exact ⟨h1, h2⟩
  · refine Sim.never ?_ ?_
    · rintro a s f ⟨⟨k', kd, dom, rfl⟩, hk, hkd⟩ a' s' hrun
      have hk : k' = k := hk
      have hkd : kd = 2 := hkd
      subst hk hkd
      cases v with
      | arr xs =>
        rw [events_leaf] at hrun
        obtain ⟨a1, s1, h1, hrun1⟩ := run_cons hrun
        obtain ⟨a2, s2, h2, hrun⟩ := run_app hrun1
        clear hrun1
        have h1' : (a, Res.ok _) = (a1, Res.ok s1) := h1
        simp only [Prod.mk.injEq, Res.ok.injEq] at h1'
        obtain ⟨rfl, rfl⟩ := h1'
        obtain ⟨i2, d2, _⟩ := elements_inv (values_inv E) xs _ _ _ _ (show ValueInv _ from ⟨rfl, rfl⟩) (by show (3 : Int) ≤ 2 + 1; decide) h2
        have d2 : s2.depth = 3 := d2
        rw [run_one, step_deep (by simp) (by show 2 ≤ s2.depth - 1; omega)] at hrun
        simp only [i2.1] at hrun
        have hn : newDepth .arrayEnd s2.depth = 2 := by show s2.depth - 1 = 2; omega
        unfold handleUserValue userValueTail at hrun
        have n1 : ¬ (2 : Int) = 1 := by decide
        have n2 : ¬ (2 : Int) = 3 := by decide
        have n3 : ¬ (3 : Int) ≤ 2 := by decide
        by_cases hc : s2.section_ ≠ .json ∧ s2.key = ascii "json"
        · simp [hn, i2.2, i2.1, hc] at hrun
        · simp [hn, i2.2, i2.1, hc] at hrun
      | obj ms => exact hobj ⟨ms, rfl⟩
      | bool b => cases b <;> exact hr rfl
      | _ => exact hr rfl
    · rintro p q ⟨h, _⟩
      rw [hnt] at h
      cases h <;> exact hr rfl

theorem values_object (E : Env α) (nr : Bool) (ms : List (List Byte × J)) :
    Sim E (Keyed (AtTop nr) 1 (ascii "user-values")) (AtTop nr) (J.obj ms).events
      (fun p q => 0 < p.1.version ∧ q.1 = p.1 ∧ Members (ValueMember E) ms p.2 q.2) := by
  refine (Sim.object (B := AtValues nr) (values_level nr) (O := fun p q => q = p ∧ 0 < p.1.version) (S := fun p q => q = (p.1, p.2))
    (R := fun k' v p q => ValueMember E k' v p.2 q.2 ∧ q.1 = p.1) ?_ ?_ ?_).congr ?_
  · refine open_section ?_ ?_
    · intro a x dom hx
      refine ⟨_, ?_, ascii "user-values", 1, dom, rfl⟩
      have hx' : ¬ x.version = 0 := by omega
      have n1 : ¬ ascii "user-values" = ascii "config-update" := by decide
      have n2 : ¬ ascii "user-values" = ascii "default-policies" := by decide
      simp [step, dispatch, handleTop, newDepth, base, hx', n1, n2]
    · intro a x dom hx a' s'
      simp [step, dispatch, handleTop, newDepth, base, hx]
  · intro k' v _; exact value_member E nr (name k') v
  · refine Sim.move id ?_
    rintro a s f ⟨k', kd, dom, rfl⟩
    exact ⟨_, rfl, k', kd, dom, rfl⟩
  · rintro ⟨f, a⟩ ⟨f', a'⟩
    constructor
    · rintro ⟨h1, h2, h3⟩
      simp only at h2; subst h2
      exact ⟨_, ⟨rfl, h1⟩, (f', a'), members_lib.2 ⟨h3, rfl⟩, rfl⟩
    · rintro ⟨_, ⟨rfl, h1⟩, ⟨f1, a1⟩, h2, h3⟩
      obtain ⟨h2', rfl⟩ := members_lib.1 h2
      simp only [Prod.mk.injEq] at h3
      obtain ⟨rfl, rfl⟩ := h3
      exact ⟨h1, rfl, h2'⟩

end WS.Conf
