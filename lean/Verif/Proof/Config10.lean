import Verif.Proof.Config9
import Verif.Proof.JsonAccept
/-
Loader proofs, part 10: what follows a value in memory does not matter as long as it can follow it in a text, and the
parser (C49) in front of the loader.
-/
namespace WS.Conf
open WS WS.Sax WS.Time WS.ConfNum WS.Spec.Load WS.Spec.Conf

variable {α : Type}

/-- The event comes from a text read in place. -/
def GoodEv (e : Ev) : Prop :=
  (e.type = .number → Spec.Json.Number e.data ∧ Followed e.after) ∧ (e.type = .string → Quoted e.after)

theorem dur_after {t : JType} {d x y : List Byte} (hx : GoodEv ⟨t, d, x⟩) (hy : GoodEv ⟨t, d, y⟩) (v : Int) :
    convertDuration t d x = .ok v ↔ convertDuration t d y = .ok v := by
  cases t with
  | number =>
    have h1 := dur_conv (v := .num d x) (d := v) (hx.1 rfl)
    have h2 := dur_conv (v := .num d y) (d := v) (hy.1 rfl)
    simp only [leafEv] at h1 h2
    rw [h1, h2]
    unfold Duration
    constructor <;> (rintro ⟨t, h, h'⟩; cases h; exact ⟨_, .num _ _, h'⟩)
  | string =>
    have h1 := dur_conv (v := .str d x) (d := v) (hx.2 rfl)
    have h2 := dur_conv (v := .str d y) (d := v) (hy.2 rfl)
    simp only [leafEv] at h1 h2
    rw [h1, h2]
    unfold Duration
    constructor <;> (rintro ⟨t, h, h'⟩; cases h; exact ⟨_, .str _ _, h'⟩)
  | _ => simp [convertDuration]

theorem link_after {d x y : List Byte} (hx : Quoted x) (hy : Quoted y) (v : List Byte) :
    linkBytes 9 [] d x = .ok v ↔ linkBytes 9 [] d y = .ok v := by
  obtain ⟨r, rfl⟩ := hx
  obtain ⟨r', rfl⟩ := hy
  rw [linkBytes_ok r 9 [] d v rfl, linkBytes_ok r' 9 [] d v rfl]

/-- Two results that agree whenever one of them is a success. -/
def SameOk (r r' : α × Res State) : Prop := ∀ a' s', r = (a', .ok s') ↔ r' = (a', .ok s')

theorem SameOk.rfl {r : α × Res State} : SameOk r r := fun _ _ => Iff.rfl

theorem SameOk.of_eq {r r' : α × Res State} (h : r = r') : SameOk r r' := h ▸ SameOk.rfl

theorem SameOk.map {β : Type} {a : α} {f : β → State} {r r' : Res β} (h : ∀ v, r = .ok v ↔ r' = .ok v) :
    SameOk (a, Res.map f r) (a, Res.map f r') := by
  intro a' s'
  simp only [Prod.mk.injEq, map_ok, h]

theorem SameOk.withValue {β : Type} {a : α} {f : β → α × Res State} {r r' : Res β} (h : ∀ v, r = .ok v ↔ r' = .ok v) :
    SameOk (withValue a r f) (withValue a r' f) := by
  rcases r with v | e | _
  · rw [(h v).1 (Eq.refl _)]; exact SameOk.rfl
  all_goals
    rcases r' with v' | e' | _
    · have := (h v').2 (Eq.refl _)
      cases this
    all_goals (intro a' s'; simp [Conf.withValue])

theorem SameOk.ite {c : Prop} [Decidable c] {x y x' y' : α × Res State} (h1 : SameOk x x') (h2 : SameOk y y') :
    SameOk (if c then x else y) (if c then x' else y') := by
  by_cases hc : c
  · rw [if_pos hc, if_pos hc]; exact h1
  · rw [if_neg hc, if_neg hc]; exact h2

theorem config_after (E : Env α) (a : α) (st : State) {t : JType} {d x y : List Byte} (hx : GoodEv ⟨t, d, x⟩) (hy : GoodEv ⟨t, d, y⟩)
    (c : EventConfig) (put : EventConfig → State) :
    SameOk (handleConfig E a st ⟨t, d, x⟩ c put) (handleConfig E a st ⟨t, d, y⟩ c put) := by
  have h := dur_after hx hy
  unfold handleConfig
  simp only
  repeat' first
    | refine SameOk.ite ?_ ?_
    | exact SameOk.map h
    | exact SameOk.withValue h
    | exact SameOk.rfl

theorem address_after (E : Env α) {t : JType} {d x y : List Byte} (hx : GoodEv ⟨t, d, x⟩) (hy : GoodEv ⟨t, d, y⟩) (m : Bool) (sa : Sa) (off : Nat) (sa' : Sa) :
    convertAddress E ⟨t, d, x⟩ m sa off = .ok sa' ↔ convertAddress E ⟨t, d, y⟩ m sa off = .ok sa' := by
  unfold convertAddress
  by_cases hl : sa.family = AF_LINK48 ∨ sa.family = AF_LINK64
  · rw [if_pos hl, if_pos hl]
    by_cases ht : t = .string
    · subst ht
      simp only [ne_eq, not_true_eq_false, if_false]
      have h := link_after (d := d) (hx.2 rfl) (hy.2 rfl)
      simp only [bind_ok_iff, h]
    · simp only [ne_eq, ht, not_false_eq_true, if_true]
  · rw [if_neg hl, if_neg hl]

theorem endpoint_after (E : Env α) (k : List Byte) {t : JType} {d x y : List Byte} (hx : GoodEv ⟨t, d, x⟩) (hy : GoodEv ⟨t, d, y⟩) (side : Side) (r r' : RouteUC) :
    endpointClause E k ⟨t, d, x⟩ side r = .ok r' ↔ endpointClause E k ⟨t, d, y⟩ side r = .ok r' := by
  have h := address_after E hx hy
  unfold endpointClause
  simp only
  have ite : ∀ {c : Prop} [Decidable c] {x y x' y' : Res RouteUC}, (x = .ok r' ↔ x' = .ok r') → (y = .ok r' ↔ y' = .ok r') →
      ((if c then x else y) = .ok r' ↔ (if c then x' else y') = .ok r') := by
    intro c _ x y x' y' h1 h2
    by_cases hc : c
    · rw [if_pos hc, if_pos hc]; exact h1
    · rw [if_neg hc, if_neg hc]; exact h2
  refine ite Iff.rfl (ite (ite Iff.rfl ?_) (ite (ite Iff.rfl ?_) (ite Iff.rfl Iff.rfl)))
  · simp only [map_ok, h]
  · cases E.famMaxBits (r.sa side).family with
    | error e => exact Iff.rfl
    | ok size => exact ite Iff.rfl (ite Iff.rfl (by simp only [bind_ok_iff, h]))

theorem route_after (E : Env α) (a : α) (st : State) {t : JType} {d x y : List Byte} (hx : GoodEv ⟨t, d, x⟩) (hy : GoodEv ⟨t, d, y⟩) :
    SameOk (handleRoute E a st ⟨t, d, x⟩) (handleRoute E a st ⟨t, d, y⟩) := by
  unfold handleRoute
  simp only
  repeat' first
    | refine SameOk.ite ?_ ?_
    | exact SameOk.map (fun v => endpoint_after E _ hx hy _ _ v)
    | exact SameOk.rfl

theorem event_after (E : Env α) (a : α) (st : State) {t : JType} {d x y : List Byte} (hx : GoodEv ⟨t, d, x⟩) (hy : GoodEv ⟨t, d, y⟩) :
    SameOk (handleEvent E a st ⟨t, d, x⟩) (handleEvent E a st ⟨t, d, y⟩) := by
  unfold handleEvent
  simp only
  repeat' first
    | exact config_after E a st hx hy _ _
    | refine SameOk.ite ?_ ?_
    | exact SameOk.rfl

theorem step_after (E : Env α) (a : α) (st : State) {t : JType} {d x y : List Byte} (hx : GoodEv ⟨t, d, x⟩) (hy : GoodEv ⟨t, d, y⟩) :
    SameOk (step E a st ⟨t, d, x⟩) (step E a st ⟨t, d, y⟩) := by
  unfold step
  simp only
  split
  · exact SameOk.rfl
  · unfold dispatch
    simp only
    split
    · exact SameOk.rfl
    split
    · exact SameOk.rfl
    cases st.table with
    | none => exact SameOk.rfl
    | topConfig => exact config_after E a _ hx hy _ _
    | defaultPolicies => exact SameOk.rfl
    | userValues => exact SameOk.rfl
    | routes =>
      simp only
      split
      · exact SameOk.rfl
      · exact route_after E a _ hx hy
    | events =>
      simp only
      split
      · exact SameOk.rfl
      · exact event_after E a _ hx hy

/-- The event without what follows it. -/
def erase (e : Ev) : Sax.Event := ⟨e.type, e.data⟩

theorem run_after (E : Env α) : ∀ (xs ys : List Ev) (a : α) (st : State), (∀ e ∈ xs, GoodEv e) → (∀ e ∈ ys, GoodEv e) → xs.map erase = ys.map erase →
    SameOk (run E a st xs) (run E a st ys)
  | [], [], a, st, _, _, _ => SameOk.rfl
  | [], y :: ys, a, st, _, _, h => by simp at h
  | x :: xs, [], a, st, _, _, h => by simp at h
  | ⟨t, d, x⟩ :: xs, ⟨t', d', y⟩ :: ys, a, st, hx, hy, h => by
    simp only [List.map_cons, List.cons.injEq, erase, Sax.Event.mk.injEq] at h
    obtain ⟨⟨rfl, rfl⟩, h2⟩ := h
    have h1 := step_after E a st (hx _ List.mem_cons_self) (hy _ List.mem_cons_self)
    intro a' s'
    simp only [run, andThen_ok]
    constructor
    · rintro ⟨a1, s1, g1, g2⟩
      exact ⟨a1, s1, (h1 _ _).1 g1, (run_after E xs ys a1 s1 (fun e he => hx e (List.mem_cons_of_mem _ he)) (fun e he => hy e (List.mem_cons_of_mem _ he)) h2 _ _).1 g2⟩
    · rintro ⟨a1, s1, g1, g2⟩
      exact ⟨a1, s1, (h1 _ _).2 g1, (run_after E xs ys a1 s1 (fun e he => hx e (List.mem_cons_of_mem _ he)) (fun e he => hy e (List.mem_cons_of_mem _ he)) h2 _ _).2 g2⟩

mutual
theorem good_value : ∀ (v : J), v.InPlace → ∀ e ∈ v.events, GoodEv e
  | .null, _, e, he => by simp only [J.events, List.mem_singleton] at he; subst he; exact ⟨by simp, by simp⟩
  | .bool false, _, e, he => by simp only [J.events, List.mem_singleton] at he; subst he; exact ⟨by simp, by simp⟩
  | .bool true, _, e, he => by simp only [J.events, List.mem_singleton] at he; subst he; exact ⟨by simp, by simp⟩
  | .num t r, h, e, he => by simp only [J.events, List.mem_singleton] at he; subst he; exact ⟨fun _ => h, by simp⟩
  | .str t r, h, e, he => by simp only [J.events, List.mem_singleton] at he; subst he; exact ⟨by simp, fun _ => h⟩
  | .arr xs, h, e, he => by
    simp only [J.events, List.mem_cons, List.mem_append, List.mem_singleton, List.not_mem_nil, or_false] at he
    rcases he with rfl | he | rfl
    · exact ⟨by simp, by simp⟩
    · exact good_elements xs h e he
    · exact ⟨by simp, by simp⟩
  | .obj ms, h, e, he => by
    simp only [J.events, List.mem_cons, List.mem_append, List.mem_singleton, List.not_mem_nil, or_false] at he
    rcases he with rfl | he | rfl
    · exact ⟨by simp, by simp⟩
    · exact good_members ms h e he
    · exact ⟨by simp, by simp⟩
theorem good_elements : ∀ (vs : List J), elementsInPlace vs → ∀ e ∈ Spec.Load.elements vs, GoodEv e
  | [], _, e, he => by cases he
  | v :: vs, h, e, he => by
    simp only [Spec.Load.elements, List.mem_append] at he
    rcases he with he | he
    · exact good_value v h.1 e he
    · exact good_elements vs h.2 e he
theorem good_members : ∀ (ms : List (List Byte × J)), membersInPlace ms → ∀ e ∈ Spec.Load.members ms, GoodEv e
  | [], _, e, he => by cases he
  | (k, v) :: ms, h, e, he => by
    simp only [Spec.Load.members, List.mem_cons, List.mem_append] at he
    rcases he with rfl | he | he
    · exact ⟨by simp, by simp⟩
    · exact good_value v h.1 e he
    · exact good_members ms h.2 e he
end

/-! ### Every JSON text is the text of a tree -/

/-- As `GoodEv`, and nothing follows what is not a number or a string. -/
def InText (e : Ev) : Prop :=
  (e.type = .number → Followed e.after) ∧ (e.type = .string → Quoted e.after) ∧
  (e.type ≠ .number → e.type ≠ .string → e.after = [])

theorem map_two {xs : List Ev} {a b : Sax.Event} (h : xs.map erase = [a, b]) : ∃ x y, xs = [x, y] ∧ erase x = a ∧ erase y = b := by
  rcases xs with _ | ⟨x, _ | ⟨y, _ | ⟨z, xs⟩⟩⟩ <;> simp at h
  exact ⟨x, y, rfl, h.1, h.2⟩

theorem map_one {xs : List Ev} {a : Sax.Event} (h : xs.map erase = [a]) : ∃ x, xs = [x] ∧ erase x = a := by
  rcases xs with _ | ⟨x, _ | ⟨y, xs⟩⟩ <;> simp at h
  exact ⟨x, rfl, h⟩

theorem map_cons' {xs : List Ev} {a : Sax.Event} {l : List Sax.Event} (h : xs.map erase = a :: l) : ∃ x ys, xs = x :: ys ∧ erase x = a ∧ ys.map erase = l := by
  rcases xs with _ | ⟨x, ys⟩ <;> simp at h
  exact ⟨x, ys, rfl, h.1, h.2⟩

theorem map_app {xs : List Ev} {l m : List Sax.Event} (h : xs.map erase = l ++ m) : ∃ ys zs, xs = ys ++ zs ∧ ys.map erase = l ∧ zs.map erase = m := by
  obtain ⟨ys, zs, h1, h2, h3⟩ := List.map_eq_append_iff.1 h
  exact ⟨ys, zs, h1, h2, h3⟩

theorem ev_eq {e : Ev} {t : JType} {d : List Byte} (h : erase e = ⟨t, d⟩) (hi : InText e) (h1 : t ≠ .number) (h2 : t ≠ .string) : e = ⟨t, d, []⟩ := by
  obtain ⟨t', d', x⟩ := e
  simp only [erase, Sax.Event.mk.injEq] at h
  obtain ⟨rfl, rfl⟩ := h
  have := hi.2.2 h1 h2
  simp only at this
  rw [this]

theorem elements_append (xs ys : List J) : Spec.Load.elements (xs ++ ys) = Spec.Load.elements xs ++ Spec.Load.elements ys := by
  induction xs with
  | nil => rfl
  | cons x xs ih => simp only [List.cons_append, Spec.Load.elements, ih, List.append_assoc]

theorem members_append (xs ys : List (List Byte × J)) : Spec.Load.members (xs ++ ys) = Spec.Load.members xs ++ Spec.Load.members ys := by
  induction xs with
  | nil => rfl
  | cons x xs ih => obtain ⟨k, v⟩ := x; simp only [List.cons_append, Spec.Load.members, ih, List.append_assoc]

theorem elementsInPlace_append {xs ys : List J} (h1 : elementsInPlace xs) (h2 : elementsInPlace ys) : elementsInPlace (xs ++ ys) := by
  induction xs with
  | nil => exact h2
  | cons x xs ih => exact ⟨h1.1, ih h1.2⟩

theorem membersInPlace_append {xs ys : List (List Byte × J)} (h1 : membersInPlace xs) (h2 : membersInPlace ys) : membersInPlace (xs ++ ys) := by
  induction xs with
  | nil => exact h2
  | cons x xs ih => obtain ⟨k, v⟩ := x; exact ⟨h1.1, ih h1.2⟩

mutual
theorem tree_value {cfg : Config} : ∀ {d : Nat} {t : List Byte} {evs : List Sax.Event}, Spec.Json.Value cfg d t evs → ∀ xs : List Ev, xs.map erase = evs → (∀ e ∈ xs, InText e) →
    ∃ j : J, j.InPlace ∧ j.events = xs
  | _, _, _, .null, xs, h, hi => by
    obtain ⟨x, rfl, h0⟩ := map_one h
    exact ⟨.null, trivial, by rw [ev_eq h0 (hi _ List.mem_cons_self) (by simp) (by simp)]; rfl⟩
  | _, _, _, .false, xs, h, hi => by
    obtain ⟨x, rfl, h0⟩ := map_one h
    exact ⟨.bool false, trivial, by rw [ev_eq h0 (hi _ List.mem_cons_self) (by simp) (by simp)]; rfl⟩
  | _, _, _, .true, xs, h, hi => by
    obtain ⟨x, rfl, h0⟩ := map_one h
    exact ⟨.bool true, trivial, by rw [ev_eq h0 (hi _ List.mem_cons_self) (by simp) (by simp)]; rfl⟩
  | _, _, _, .number h1 _, xs, h, hi => by
    obtain ⟨⟨t, d, x⟩, rfl, h0⟩ := map_one h
    simp only [erase, Sax.Event.mk.injEq] at h0
    obtain ⟨rfl, rfl⟩ := h0
    exact ⟨.num d x, ⟨h1, (hi _ List.mem_cons_self).1 rfl⟩, rfl⟩
  | _, _, _, .string _ _, xs, h, hi => by
    obtain ⟨⟨t, d, x⟩, rfl, h0⟩ := map_one h
    simp only [erase, Sax.Event.mk.injEq] at h0
    obtain ⟨rfl, rfl⟩ := h0
    exact ⟨.str _ x, (hi _ List.mem_cons_self).2.1 rfl, rfl⟩
  | _, _, _, .emptyArray _ _, xs, h, hi => by
    obtain ⟨x, y, rfl, h1, h2⟩ := map_two h
    refine ⟨.arr [], trivial, ?_⟩
    rw [ev_eq h1 (hi _ (by simp)) (by simp) (by simp), ev_eq h2 (hi _ (by simp)) (by simp) (by simp)]; rfl
  | _, _, _, .emptyObject _ _, xs, h, hi => by
    obtain ⟨x, y, rfl, h1, h2⟩ := map_two h
    refine ⟨.obj [], trivial, ?_⟩
    rw [ev_eq h1 (hi _ (by simp)) (by simp) (by simp), ev_eq h2 (hi _ (by simp)) (by simp) (by simp)]; rfl
  | _, _, _, .array _ he, xs, h, hi => by
    obtain ⟨x, ys, rfl, h1, h2⟩ := map_cons' h
    obtain ⟨ys, zs, rfl, h3, h4⟩ := map_app h2
    obtain ⟨z, rfl, h5⟩ := map_one h4
    obtain ⟨vs, g1, g2⟩ := tree_elements he ys h3 (fun e he => hi e (by simp [he]))
    refine ⟨.arr vs, g1, ?_⟩
    rw [ev_eq h1 (hi _ (by simp)) (by simp) (by simp), ev_eq h5 (hi _ (by simp)) (by simp) (by simp), J.events, g2]
  | _, _, _, .object _ he, xs, h, hi => by
    obtain ⟨x, ys, rfl, h1, h2⟩ := map_cons' h
    obtain ⟨ys, zs, rfl, h3, h4⟩ := map_app h2
    obtain ⟨z, rfl, h5⟩ := map_one h4
    obtain ⟨vs, g1, g2⟩ := tree_members he ys h3 (fun e he => hi e (by simp [he]))
    refine ⟨.obj vs, g1, ?_⟩
    rw [ev_eq h1 (hi _ (by simp)) (by simp) (by simp), ev_eq h5 (hi _ (by simp)) (by simp) (by simp), J.events, g2]
theorem tree_elements {cfg : Config} : ∀ {d : Nat} {t : List Byte} {evs : List Sax.Event}, Spec.Json.Elements cfg d t evs → ∀ xs : List Ev, xs.map erase = evs → (∀ e ∈ xs, InText e) →
    ∃ vs : List J, elementsInPlace vs ∧ Spec.Load.elements vs = xs
  | _, _, _, .one _ hv _, xs, h, hi => by
    obtain ⟨j, h1, h2⟩ := tree_value hv xs h hi
    exact ⟨[j], ⟨h1, trivial⟩, by simp [Spec.Load.elements, h2]⟩
  | _, _, _, .more h0 _ hv _, xs, h, hi => by
    obtain ⟨ys, zs, rfl, h3, h4⟩ := map_app h
    obtain ⟨vs, g1, g2⟩ := tree_elements h0 ys h3 (fun e he => hi e (by simp [he]))
    obtain ⟨j, h1, h2⟩ := tree_value hv zs h4 (fun e he => hi e (by simp [he]))
    exact ⟨vs ++ [j], elementsInPlace_append g1 ⟨h1, trivial⟩, by rw [elements_append, g2]; simp [Spec.Load.elements, h2]⟩
theorem tree_members {cfg : Config} : ∀ {d : Nat} {t : List Byte} {evs : List Sax.Event}, Spec.Json.Members cfg d t evs → ∀ xs : List Ev, xs.map erase = evs → (∀ e ∈ xs, InText e) →
    ∃ vs : List (List Byte × J), membersInPlace vs ∧ Spec.Load.members vs = xs
  | _, _, _, .one hv, xs, h, hi => tree_member hv xs h hi
  | _, _, _, .more h0 hv, xs, h, hi => by
    obtain ⟨ys, zs, rfl, h3, h4⟩ := map_app h
    obtain ⟨vs, g1, g2⟩ := tree_members h0 ys h3 (fun e he => hi e (by simp [he]))
    obtain ⟨ws, h1, h2⟩ := tree_member hv zs h4 (fun e he => hi e (by simp [he]))
    exact ⟨vs ++ ws, membersInPlace_append g1 h1, by rw [members_append, g2, h2]⟩
theorem tree_member {cfg : Config} : ∀ {d : Nat} {t : List Byte} {evs : List Sax.Event}, Spec.Json.Member cfg d t evs → ∀ xs : List Ev, xs.map erase = evs → (∀ e ∈ xs, InText e) →
    ∃ vs : List (List Byte × J), membersInPlace vs ∧ Spec.Load.members vs = xs
  | _, _, _, .mk _ _ _ _ _ hv _, xs, h, hi => by
    obtain ⟨x, ys, rfl, h1, h2⟩ := map_cons' h
    obtain ⟨j, g1, g2⟩ := tree_value hv ys h2 (fun e he => hi e (by simp [he]))
    refine ⟨[(x.data, j)], ⟨g1, trivial⟩, ?_⟩
    rw [ev_eq h1 (hi _ (by simp)) (by simp) (by simp)]
    simp only [Spec.Load.members, g2, List.append_nil]
end

end WS.Conf
