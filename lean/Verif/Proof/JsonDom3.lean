import Verif.Proof.JsonDom2
import Verif.Proof.JsonAccept
/-
The parser in front of the tree: which texts have which value.
-/
namespace WS.Dom
open WS WS.Sax WS.Spec.Json WS.Spec.Dom WS.JNum WS.Props

variable {S : List Byte → Option (BitVec 64)} {pol : DupKey} {o : Bool}

theorem elements_append : ∀ a b : List T, Spec.Dom.elements (a ++ b) = Spec.Dom.elements a ++ Spec.Dom.elements b
  | [], _ => rfl
  | x :: a, b => by rw [List.cons_append, Spec.Dom.elements, elements_append a b, Spec.Dom.elements, List.append_assoc]

theorem members_append : ∀ a b : List (List Byte × T), Spec.Dom.members (a ++ b) = Spec.Dom.members a ++ Spec.Dom.members b
  | [], _ => rfl
  | (k, x) :: a, b => by
    rw [List.cons_append, Spec.Dom.members, members_append a b, Spec.Dom.members, List.cons_append, List.append_assoc]

mutual
theorem tree_value {cfg : Config} : ∀ {d : Nat} {t : List Byte} {evs : List Event}, Value cfg d t evs → ∃ j : T, j.events = evs
  | _, _, _, .null => ⟨.null, rfl⟩
  | _, _, _, .false => ⟨.bool false, rfl⟩
  | _, _, _, .true => ⟨.bool true, rfl⟩
  | _, _, _, .number _ _ => ⟨.num _, rfl⟩
  | _, _, _, .string _ _ => ⟨.str _, rfl⟩
  | _, _, _, .emptyArray _ _ => ⟨.arr [], rfl⟩
  | _, _, _, .emptyObject _ _ => ⟨.obj [], rfl⟩
  | _, _, _, .array _ he => by
    obtain ⟨vs, g⟩ := tree_elements he
    exact ⟨.arr vs, by rw [T.events, g]; rfl⟩
  | _, _, _, .object _ he => by
    obtain ⟨vs, g⟩ := tree_members he
    exact ⟨.obj vs, by rw [T.events, g]; rfl⟩
theorem tree_elements {cfg : Config} : ∀ {d : Nat} {t : List Byte} {evs : List Event}, Elements cfg d t evs →
    ∃ vs : List T, Spec.Dom.elements vs = evs
  | _, _, _, .one _ hv _ => by
    obtain ⟨j, h⟩ := tree_value hv
    exact ⟨[j], by simp [Spec.Dom.elements, h]⟩
  | _, _, _, .more h0 _ hv _ => by
    obtain ⟨vs, g⟩ := tree_elements h0
    obtain ⟨j, h⟩ := tree_value hv
    exact ⟨vs ++ [j], by rw [elements_append, g]; simp [Spec.Dom.elements, h]⟩
theorem tree_members {cfg : Config} : ∀ {d : Nat} {t : List Byte} {evs : List Event}, Members cfg d t evs →
    ∃ vs : List (List Byte × T), Spec.Dom.members vs = evs
  | _, _, _, .one hv => tree_member hv
  | _, _, _, .more h0 hv => by
    obtain ⟨vs, g⟩ := tree_members h0
    obtain ⟨ws, h⟩ := tree_member hv
    exact ⟨vs ++ ws, by rw [members_append, g, h]⟩
theorem tree_member {cfg : Config} : ∀ {d : Nat} {t : List Byte} {evs : List Event}, Member cfg d t evs →
    ∃ vs : List (List Byte × T), Spec.Dom.members vs = evs
  | _, _, _, .mk (s := s) _ _ _ _ _ hv _ => by
    obtain ⟨j, g⟩ := tree_value hv
    exact ⟨[(utf8s s, j)], by simp only [Spec.Dom.members, g, List.append_nil]⟩
end

def NumbersIn (evs : List Event) : Prop := ∀ e ∈ evs, e.type = .number → Number e.data

theorem numbersIn_append {a b : List Event} : NumbersIn (a ++ b) ↔ NumbersIn a ∧ NumbersIn b := by
  simp only [NumbersIn, List.mem_append]
  exact ⟨fun h => ⟨fun e he => h e (Or.inl he), fun e he => h e (Or.inr he)⟩, fun h e he => he.elim (h.1 e) (h.2 e)⟩

theorem numbersIn_cons {x : Event} {b : List Event} : NumbersIn (x :: b) ↔ (x.type = .number → Number x.data) ∧ NumbersIn b := by
  simp only [NumbersIn, List.mem_cons]
  exact ⟨fun h => ⟨h x (Or.inl rfl), fun e he => h e (Or.inr he)⟩, fun h e he => he.elim (fun hx => hx ▸ h.1) (h.2 e)⟩

theorem numbersIn_nil : NumbersIn [] := fun _ h => by cases h

mutual
theorem numbers_value {cfg : Config} : ∀ {d : Nat} {t : List Byte} {evs : List Event}, Value cfg d t evs → NumbersIn evs
  | _, _, _, .null => by simp [NumbersIn]
  | _, _, _, .false => by simp [NumbersIn]
  | _, _, _, .true => by simp [NumbersIn]
  | _, _, _, .number h _ => by simpa [NumbersIn] using h
  | _, _, _, .string _ _ => by simp [NumbersIn]
  | _, _, _, .emptyArray _ _ => by simp [NumbersIn]
  | _, _, _, .emptyObject _ _ => by simp [NumbersIn]
  | _, _, _, .array _ he => by
    rw [List.cons_append, numbersIn_cons, numbersIn_append]
    exact ⟨by simp, numbers_elements he, by simp [NumbersIn]⟩
  | _, _, _, .object _ he => by
    rw [List.cons_append, numbersIn_cons, numbersIn_append]
    exact ⟨by simp, numbers_members he, by simp [NumbersIn]⟩
theorem numbers_elements {cfg : Config} : ∀ {d : Nat} {t : List Byte} {evs : List Event}, Elements cfg d t evs → NumbersIn evs
  | _, _, _, .one _ hv _ => numbers_value hv
  | _, _, _, .more h0 _ hv _ => numbersIn_append.2 ⟨numbers_elements h0, numbers_value hv⟩
theorem numbers_members {cfg : Config} : ∀ {d : Nat} {t : List Byte} {evs : List Event}, Members cfg d t evs → NumbersIn evs
  | _, _, _, .one hv => numbers_member hv
  | _, _, _, .more h0 hv => numbersIn_append.2 ⟨numbers_members h0, numbers_member hv⟩
theorem numbers_member {cfg : Config} : ∀ {d : Nat} {t : List Byte} {evs : List Event}, Member cfg d t evs → NumbersIn evs
  | _, _, _, .mk _ _ _ _ _ hv _ => numbersIn_cons.2 ⟨by simp, numbers_value hv⟩
end

mutual
theorem numeric_value : ∀ t : T, NumbersIn t.events → t.Numeric
  | .null, _ => trivial
  | .bool _, _ => trivial
  | .str _, _ => trivial
  | .num t, h => by
    have := h ⟨.number, t⟩ (by simp [T.events]) rfl
    exact this
  | .arr ts, h => by
    rw [T.events, numbersIn_cons, numbersIn_append] at h
    exact numeric_elements ts h.2.1
  | .obj ts, h => by
    rw [T.events, numbersIn_cons, numbersIn_append] at h
    exact numeric_members ts h.2.1
theorem numeric_elements : ∀ ts : List T, NumbersIn (Spec.Dom.elements ts) → allNumeric ts
  | [], _ => trivial
  | t :: ts, h => by
    rw [Spec.Dom.elements, numbersIn_append] at h
    exact ⟨numeric_value t h.1, numeric_elements ts h.2⟩
theorem numeric_members : ∀ ts : List (List Byte × T), NumbersIn (Spec.Dom.members ts) → membersNumeric ts
  | [], _ => trivial
  | (k, t) :: ts, h => by
    rw [Spec.Dom.members, numbersIn_cons, numbersIn_append] at h
    exact ⟨numeric_value t h.2.1, numeric_members ts h.2.2⟩
end

/-! ### The callback -/

theorem callback_nonneg (u : Out) (e : Event) (vp p : Pos) :
    0 ≤ (callback S pol o u e vp p).2.1 → ∃ st st', u = .ok st ∧ process S pol o st e = .ok st' ∧ (callback S pol o u e vp p).1 = .ok st' := by
  intro h
  unfold callback at h ⊢
  rcases u with st | c | _
  · rcases hp : process S pol o st e with st' | c | _
    · exact ⟨st, st', rfl, hp, by simp only [hp]⟩
    · simp only [hp] at h
      exfalso
      have : c < 0 := by
        unfold process at hp
        split at hp
        · cases hp
        · split at hp
          · cases hp
          · split at hp
            · unfold create at hp
              split at hp <;> try (cases hp; done)
              · split at hp
                · cases hp
                · cases hp; decide
                · cases hp
              · cases hp; decide
            · cases hp
            · cases hp; decide
            · cases hp
      omega
    · simp only [hp] at h
      omega
  · simp only at h; omega
  · simp only at h; omega

theorem callback_ok {st st' : State} {e : Event} (h : process S pol o st e = .ok st') (vp p : Pos) :
    callback S pol o (.ok st) e vp p = (.ok st', 0, none) := by
  simp only [callback, h]

theorem run_snoc {st st1 st2 : State} {evs : List Event} {e : Event} (h : run S pol o st evs = .ok st1)
    (h2 : process S pol o st1 e = .ok st2) : run S pol o st (evs ++ [e]) = .ok st2 := by
  rw [run_append_ok _ h]
  simp only [run, h2]

theorem calls_run {st : State} {evs : List Event} {u : Out} (h : Calls (callback S pol o) (.ok st) evs u) :
    ∃ st', u = .ok st' ∧ run S pol o st evs = .ok st' := by
  generalize hu : Out.ok st = u0 at h
  induction h with
  | nil => subst hu; exact ⟨st, rfl, rfl⟩
  | snoc _ hnn ih =>
    obtain ⟨st1, rfl, h1⟩ := ih
    obtain ⟨st2, st3, g1, g2, g3⟩ := callback_nonneg _ _ _ _ hnn
    cases g1
    exact ⟨st3, g3, run_snoc h1 g2⟩

theorem calls_of_run {st st' : State} {evs : List Event} (h : run S pol o st evs = .ok st') :
    ∀ pre e suf, evs = pre ++ e :: suf → ∀ u', Calls (callback S pol o) (.ok st) pre u' → ∀ v q,
      0 ≤ (callback S pol o u' e v q).2.1 := by
  intro pre e suf hs u' hc v q
  obtain ⟨st1, rfl, h1⟩ := calls_run hc
  subst hs
  rw [run_append_ok _ h1] at h
  simp only [run] at h
  rcases hp : process S pol o st1 e with st2 | c | _
  · rw [callback_ok hp]; exact Int.le_refl 0
  · simp only [hp] at h; cases h
  · simp only [hp] at h; cases h

/-- The value of a tree from the initial state. -/
theorem run_tree (t : T) (hn : t.Numeric) (ht : pol = .useFirst → t.Tame) (st' : State) :
    run S pol o {} t.events = .ok st' ↔ ∃ v, Reads S pol o t v ∧ st' = { root := v } := by
  have hloc : locate pol {} = .at {} := rfl
  rcases value_out (S := S) (pol := pol) (o := o) t hn ht with ⟨v, h1, h2, h3⟩ | ⟨h1, h2⟩
  · rw [h3 _ _ hloc rfl]
    constructor
    · intro h; cases h; exact ⟨v, h1, rfl⟩
    · rintro ⟨v', g1, rfl⟩; rw [h2 _ g1]; rfl
  · obtain ⟨c, hc⟩ := h2 _ _ hloc rfl
    rw [hc]
    constructor
    · intro h; cases h
    · rintro ⟨v', g1, rfl⟩; exact absurd g1 (h1 _)

theorem document_numeric {cfg : Config} {text : List Byte} {t : T} (h : Document cfg text t.events) : t.Numeric := by
  obtain ⟨w1, x, w2, _, _, _, hv⟩ := h.1
  exact numeric_value t (numbers_value hv)

theorem document_tree {cfg : Config} {text : List Byte} {evs : List Event} (h : Document cfg text evs) : ∃ t : T, t.events = evs := by
  obtain ⟨w1, x, w2, _, _, _, hv⟩ := h.1
  exact tree_value hv

theorem parse_complete_value (S : List Byte → Option (BitVec 64)) (flags : BitVec 32) (cfg : Config) (hst : Strict cfg)
    (chunks : List (List Byte)) {t : T} (ht : dupKey flags = .useFirst → t.Tame) {v : V} (hd : Document cfg chunks.flatten t.events)
    (hv : Reads S (dupKey flags) (maintainOrder flags) t v) :
    0 ≤ (parse S flags cfg chunks).1 ∧ (parse S flags cfg chunks).2 = v := by
  generalize hr : Sax.parse cfg (callback S (dupKey flags) (maintainOrder flags)) (.ok {}) chunks = r
  have hp : parse S flags cfg chunks = if 0 ≤ r.ret then (r.ret, (match r.user with | .ok st => st.value | _ => .null)) else (r.ret, .null) := by
    unfold parse; rw [hr]; rfl
  rw [hp]
  have hrun := (run_tree t (document_numeric hd) ht _).2 ⟨v, hv, rfl⟩
  obtain ⟨h1, h2⟩ := parse_complete' cfg hst _ _ chunks (calls_of_run hrun) hd
  rw [hr] at h1 h2
  obtain ⟨st', hu, hrun'⟩ := calls_run h2
  rw [hrun] at hrun'
  cases hrun'
  rw [if_pos h1, hu]
  exact ⟨h1, rfl⟩

theorem parse_sound_value (S : List Byte → Option (BitVec 64)) (flags : BitVec 32) (cfg : Config) (hst : Strict cfg)
    (chunks : List (List Byte)) (hend : ¬ EndsInWord chunks.flatten)
    (ht : dupKey flags = .useFirst → ∀ t : T, Document cfg chunks.flatten t.events → t.Tame) (h : 0 ≤ (parse S flags cfg chunks).1) :
    ∃ t : T, Document cfg chunks.flatten t.events ∧ Reads S (dupKey flags) (maintainOrder flags) t (parse S flags cfg chunks).2 := by
  generalize hr : Sax.parse cfg (callback S (dupKey flags) (maintainOrder flags)) (.ok {}) chunks = r
  have hp : parse S flags cfg chunks = if 0 ≤ r.ret then (r.ret, (match r.user with | .ok st => st.value | _ => .null)) else (r.ret, .null) := by
    unfold parse; rw [hr]; rfl
  rw [hp] at h ⊢
  have h0 : 0 ≤ r.ret := by
    split at h
    · assumption
    · exact h
  obtain ⟨evs, hd, hc⟩ := parse_sound cfg hst _ _ chunks hend (hr ▸ h0)
  rw [hr] at hc
  obtain ⟨st', hu, hrun⟩ := calls_run hc
  obtain ⟨t, rfl⟩ := document_tree hd
  obtain ⟨v', h1, rfl⟩ := (run_tree t (document_numeric hd) (fun h => ht h t hd) _).1 hrun
  refine ⟨t, hd, ?_⟩
  rw [if_pos h0, hu]
  exact h1

theorem reads_det {t : T} {v w : V} (hn : t.Numeric) (ht : pol = .useFirst → t.Tame) (hv : Reads S pol o t v) (hw : Reads S pol o t w) : v = w := by
  rcases value_out (S := S) (pol := pol) (o := o) t hn ht with ⟨x, _, h, _⟩ | ⟨h, _⟩
  · rw [h _ hv, h _ hw]
  · exact absurd hv (h _)

end WS.Dom
