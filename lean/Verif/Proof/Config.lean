import Verif.Spec.Config
import Verif.Proof.ConfNum3
/-
Loader proofs, part 1: sequences of events, simulation of members and elements, scalars.
-/
namespace WS.Conf
open WS WS.Sax WS.Time WS.ConfNum WS.Spec.Load WS.Spec.Conf

variable {α : Type}

theorem run_append (E : Env α) : ∀ (xs ys : List Ev) (a : α) (s : State),
    run E a s (xs ++ ys) = andThen (run E a s xs) fun a s => run E a s ys
  | [], ys, a, s => rfl
  | x :: xs, ys, a, s => by
    simp only [List.cons_append, run]
    rcases step E a s x with ⟨a', r⟩
    cases r with
    | ok s' => simp only [andThen]; exact run_append E xs ys a' s'
    | err e => rfl
    | ub => rfl

theorem andThen_id (r : α × Res State) : andThen r (fun a s => (a, .ok s)) = r := by
  rcases r with ⟨a, r⟩
  cases r <;> rfl

theorem run_one (E : Env α) (a : α) (s : State) (e : Ev) : run E a s [e] = step E a s e := by
  show andThen _ _ = _
  exact andThen_id _

theorem andThen_ok {r : α × Res State} {f : α → State → α × Res State} {a' : α} {s' : State}
    : andThen r f = (a', .ok s') ↔ ∃ a1 s1, r = (a1, .ok s1) ∧ f a1 s1 = (a', .ok s') := by
  rcases r with ⟨a, r⟩
  cases r with
  | ok s =>
    simp only [andThen, Prod.mk.injEq, Res.ok.injEq]
    constructor
    · intro h; exact ⟨a, s, ⟨rfl, rfl⟩, h⟩
    · rintro ⟨_, _, ⟨rfl, rfl⟩, h⟩; exact h
  | err e => simp [andThen]
  | ub => simp [andThen]

theorem map_ok {β γ : Type} {f : β → γ} {r : Res β} {c : γ} : Res.map f r = .ok c ↔ ∃ b, r = .ok b ∧ f b = c := by
  cases r <;> simp [Res.map, Res.bind]

theorem bind_ok_iff {β γ : Type} {r : Res β} {f : β → Res γ} {c : γ} : r.bind f = .ok c ↔ ∃ b, r = .ok b ∧ f b = .ok c := by
  cases r <;> simp [Res.bind]

theorem invoke_ok {E : Env α} {a a' : α} {c : Call} {s s' : State} :
    invoke E a c s = (a', .ok s') ↔ Did E c a a' ∧ s' = s := by
  unfold invoke Did
  rcases E.call a c with ⟨b, o⟩
  cases o with
  | none => simp; intro _; exact eq_comm
  | some e => simp

/-- From states standing for `x` (by `A`), a successful run over the events does what `R` allows and ends in a state
standing for the result (by `B`), and everything `R` allows is done. -/
def Sim {σ τ : Type} (E : Env α) (A : State → σ → Prop) (B : State → τ → Prop) (evs : List Ev)
    (R : σ × α → τ × α → Prop) : Prop :=
  ∀ a s x, A s x →
    (∀ a' s', run E a s evs = (a', .ok s') → ∃ y, B s' y ∧ R (x, a) (y, a')) ∧
    (∀ a' y, R (x, a) (y, a') → ∃ s', run E a s evs = (a', .ok s') ∧ B s' y)

def Comp {ρ σ τ : Type} (R : ρ → σ → Prop) (S : σ → τ → Prop) (p : ρ) (q : τ) : Prop := ∃ m, R p m ∧ S m q

theorem Sim.append {ρ σ τ : Type} {E : Env α} {A : State → ρ → Prop} {B : State → σ → Prop} {C : State → τ → Prop}
    {xs ys : List Ev} {R : ρ × α → σ × α → Prop} {S : σ × α → τ × α → Prop}
    (h1 : Sim E A B xs R) (h2 : Sim E B C ys S) : Sim E A C (xs ++ ys) (Comp R S) := by
  intro a s x hA
  obtain ⟨f1, g1⟩ := h1 a s x hA
  constructor
  · intro a' s' h
    rw [run_append, andThen_ok] at h
    obtain ⟨a1, s1, h3, h4⟩ := h
    obtain ⟨y, hB, hR⟩ := f1 _ _ h3
    obtain ⟨z, hC, hS⟩ := (h2 a1 s1 y hB).1 _ _ h4
    exact ⟨z, hC, (y, a1), hR, hS⟩
  · rintro a' z ⟨⟨y, a1⟩, hR, hS⟩
    obtain ⟨s1, h3, hB⟩ := g1 _ _ hR
    obtain ⟨s', h4, hC⟩ := (h2 a1 s1 y hB).2 _ _ hS
    exact ⟨s', by rw [run_append, h3]; exact h4, hC⟩

theorem Sim.congr {σ τ : Type} {E : Env α} {A : State → σ → Prop} {B : State → τ → Prop} {evs : List Ev}
    {R S : σ × α → τ × α → Prop} (h : Sim E A B evs R) (hRS : ∀ p q, S p q ↔ R p q) : Sim E A B evs S := by
  intro a s x hA
  obtain ⟨f, g⟩ := h a s x hA
  exact ⟨fun a' s' hr => by obtain ⟨y, hB, hR⟩ := f a' s' hr; exact ⟨y, hB, (hRS _ _).2 hR⟩,
    fun a' y hS => g a' y ((hRS _ _).1 hS)⟩

theorem Sim.nil {σ : Type} {E : Env α} {A : State → σ → Prop} : Sim E A A [] (fun p q => q = p) := by
  intro a s x hA
  constructor
  · intro a' s' h
    simp only [run, Prod.mk.injEq, Res.ok.injEq] at h
    exact ⟨x, h.2 ▸ hA, by rw [← h.1]⟩
  · intro a' y h
    simp only [Prod.mk.injEq] at h
    exact ⟨s, by rw [h.2]; rfl, h.1 ▸ hA⟩

/-- A single event. -/
theorem Sim.one {σ τ : Type} {E : Env α} {A : State → σ → Prop} {B : State → τ → Prop} {e : Ev}
    {R : σ × α → τ × α → Prop}
    (h : ∀ a s x, A s x → (∀ a' s', step E a s e = (a', .ok s') → ∃ y, B s' y ∧ R (x, a) (y, a')) ∧
      (∀ a' y, R (x, a) (y, a') → ∃ s', step E a s e = (a', .ok s') ∧ B s' y)) : Sim E A B [e] R := by
  intro a s x hA
  rw [run_one]
  exact h a s x hA

/-- The first event is refused. -/
theorem Sim.refused {σ τ : Type} {E : Env α} {A : State → σ → Prop} {B : State → τ → Prop} {e : Ev} {evs : List Ev}
    {R : σ × α → τ × α → Prop} (h : ∀ a s x, A s x → ∀ a' s', step E a s e ≠ (a', .ok s'))
    (hR : ∀ p q, ¬ R p q) : Sim E A B (e :: evs) R := by
  intro a s x hA
  constructor
  · intro a' s' hr
    obtain ⟨a1, s1, h1, _⟩ := andThen_ok.1 hr
    exact absurd h1 (h a s x hA a1 s1)
  · intro a' y hy
    exact absurd hy (hR _ _)

/-! ### Members and elements -/

theorem cstr_name (k : List Byte) : cstr k = name k := by
  unfold cstr name
  congr 1
  funext c
  by_cases h : c = 0#8 <;> simp [h, bne]

theorem key_step (E : Env α) (a : α) (s : State) (k : List Byte) (hs : s.section_ ≠ .json) (a' : α) (s' : State) :
    step E a s ⟨.key, k, []⟩ = (a', .ok s') ↔
      k.length < 32 ∧ a' = a ∧ s' = { s with key := name k, keydepth := s.depth } := by
  unfold step handleKey
  simp only [if_true, if_neg hs]
  split
  · simp; omega
  · rw [cstr_name]
    simp only [Prod.mk.injEq, Res.ok.injEq]
    constructor
    · rintro ⟨rfl, rfl⟩; exact ⟨by omega, rfl, rfl⟩
    · rintro ⟨_, rfl, rfl⟩; exact ⟨rfl, rfl⟩

/-- A state with the given key just read at depth `d`. -/
def Keyed {σ : Type} (A : State → σ → Prop) (d : Int) (k : List Byte) (s : State) (x : σ) : Prop :=
  A s x ∧ s.key = k ∧ s.keydepth = d

/-- What `Sim.members` needs of an object level. -/
structure Level {σ : Type} (A : State → σ → Prop) (d : Int) : Prop where
  sect : ∀ s x, A s x → s.section_ ≠ .json
  depth : ∀ s x, A s x → s.depth = d
  key : ∀ s x k, A s x → A { s with key := k, keydepth := s.depth } x

theorem Sim.members {σ : Type} {E : Env α} {A : State → σ → Prop} {d : Int} (hl : Level A d)
    {R : List Byte → J → σ × α → σ × α → Prop} : ∀ (ms : List (List Byte × J)),
    (∀ k v, (k, v) ∈ ms → Sim E (Keyed A d (name k)) A v.events (R (name k) v)) →
    Sim E A A (Spec.Load.members ms) (Members R ms)
  | [], _ => by
    refine Sim.nil.congr ?_
    intro p q
    constructor
    · rintro ⟨⟩; rfl
    · rintro rfl; exact .nil _
  | (k, v) :: ms, h => by
    have ih := Sim.members hl ms (fun k' v' hm => h k' v' (List.mem_cons_of_mem _ hm))
    have hv := h k v (List.mem_cons_self ..)
    have hk : Sim E A (Keyed A d (name k)) [⟨.key, k, []⟩] (fun p q => k.length < 32 ∧ q = p) := by
      refine Sim.one ?_
      intro a s x hA
      constructor
      · intro a' s' hs
        obtain ⟨h1, rfl, rfl⟩ := (key_step E a s k (hl.sect s x hA) a' s').1 hs
        exact ⟨x, ⟨hl.key s x _ hA, rfl, hl.depth s x hA⟩, h1, rfl⟩
      · rintro a' y ⟨h1, h2⟩
        simp only [Prod.mk.injEq] at h2
        refine ⟨_, (key_step E a s k (hl.sect s x hA) a' _).2 ⟨h1, h2.2, rfl⟩, ?_⟩
        rw [h2.1]
        exact ⟨hl.key s x _ hA, rfl, hl.depth s x hA⟩
    refine ((hk.append hv).append ih).congr ?_
    · intro p q
      constructor
      · rintro ⟨⟩
        rename_i y h1 h2 h3
        exact ⟨y, ⟨p, ⟨h1, rfl⟩, h2⟩, h3⟩
      · rintro ⟨y, ⟨x, ⟨h1, rfl⟩, h2⟩, h3⟩
        exact .cons h1 h2 h3

theorem Sim.elements {σ : Type} {E : Env α} {A : State → σ → Prop}
    {R : J → σ × α → σ × α → Prop} : ∀ (vs : List J),
    (∀ v, v ∈ vs → Sim E A A v.events (R v)) → Sim E A A (Spec.Load.elements vs) (Elements R vs)
  | [], _ => by
    refine Sim.nil.congr ?_
    intro p q
    constructor
    · rintro ⟨⟩; rfl
    · rintro rfl; exact .nil _
  | v :: vs, h => by
    have ih := Sim.elements vs (fun v' hm => h v' (List.mem_cons_of_mem _ hm))
    have hv := h v (List.mem_cons_self ..)
    refine (hv.append ih).congr ?_
    intro p q
    constructor
    · rintro ⟨⟩
      rename_i y h1 h2
      exact ⟨y, h1, h2⟩
    · rintro ⟨y, h1, h2⟩
      exact .cons h1 h2

theorem inPlace_mem : ∀ {ms : List (List Byte × J)}, membersInPlace ms → ∀ k v, (k, v) ∈ ms → v.InPlace
  | (k', v') :: ms, h, k, v, hm => by
    rcases List.mem_cons.1 hm with h1 | h1
    · injection h1 with _ h2; rw [h2]; exact h.1
    · exact inPlace_mem h.2 k v h1

theorem inPlace_elem : ∀ {vs : List J}, elementsInPlace vs → ∀ v, v ∈ vs → v.InPlace
  | v' :: vs, h, v, hm => by
    rcases List.mem_cons.1 hm with h1 | h1
    · rw [h1]; exact h.1
    · exact inPlace_elem h.2 v h1

/-- Members that do not touch the library. -/
theorem members_pure {σ : Type} {R : List Byte → J → σ → σ → Prop} {ms : List (List Byte × J)} {x y : σ} {a b : α} :
    Members (fun k v (p q : σ × α) => R k v p.1 q.1 ∧ q.2 = p.2) ms (x, a) (y, b) ↔ Members R ms x y ∧ b = a := by
  constructor
  · intro h
    generalize hp : (x, a) = p at h
    generalize hq : (y, b) = q at h
    induction h generalizing x a with
    | nil p => cases hp; cases hq; exact ⟨.nil _, rfl⟩
    | cons h1 h2 h3 ih =>
      rename_i k v ms p m q
      subst hp
      obtain ⟨y', b'⟩ := m
      obtain ⟨i1, i2⟩ := ih (x := y') (a := b') rfl hq
      exact ⟨.cons h1 h2.1 i1, by rw [i2]; exact h2.2⟩
  · rintro ⟨h, rfl⟩
    induction h with
    | nil x => exact .nil _
    | cons h1 h2 h3 ih => exact .cons (y := (_, b)) h1 ⟨h2, rfl⟩ ih

/-- Members that touch only the library. -/
theorem members_lib {σ : Type} {R : List Byte → J → α → α → Prop} {ms : List (List Byte × J)} {x y : σ} {a b : α} :
    Members (fun k v (p q : σ × α) => R k v p.2 q.2 ∧ q.1 = p.1) ms (x, a) (y, b) ↔ Members R ms a b ∧ y = x := by
  constructor
  · intro h
    generalize hp : (x, a) = p at h
    generalize hq : (y, b) = q at h
    induction h generalizing x a with
    | nil p => cases hp; cases hq; exact ⟨.nil _, rfl⟩
    | cons h1 h2 h3 ih =>
      rename_i k v ms p m q
      subst hp
      obtain ⟨y', b'⟩ := m
      obtain ⟨i1, i2⟩ := ih (x := y') (a := b') rfl hq
      exact ⟨.cons h1 h2.1 i1, by rw [i2]; exact h2.2⟩
  · rintro ⟨h, rfl⟩
    induction h with
    | nil x => exact .nil _
    | cons h1 h2 h3 ih => exact .cons (y := (y, _)) h1 ⟨h2, rfl⟩ ih

theorem elements_lib {σ : Type} {R : J → α → α → Prop} {vs : List J} {x y : σ} {a b : α} :
    Elements (fun v (p q : σ × α) => R v p.2 q.2 ∧ q.1 = p.1) vs (x, a) (y, b) ↔ Elements R vs a b ∧ y = x := by
  constructor
  · intro h
    generalize hp : (x, a) = p at h
    generalize hq : (y, b) = q at h
    induction h generalizing x a with
    | nil p => cases hp; cases hq; exact ⟨.nil _, rfl⟩
    | cons h2 h3 ih =>
      rename_i v vs p m q
      subst hp
      obtain ⟨y', b'⟩ := m
      obtain ⟨i1, i2⟩ := ih (x := y') (a := b') rfl hq
      exact ⟨.cons h2.1 i1, by rw [i2]; exact h2.2⟩
  · rintro ⟨h, rfl⟩
    induction h with
    | nil x => exact .nil _
    | cons h2 h3 ih => exact .cons (y := (y, _)) ⟨h2, rfl⟩ ih

/-! ### Scalars -/

/-- The first event of a value. -/
def leafEv : J → Ev
  | .null => ⟨.null, [], []⟩
  | .bool false => ⟨.false, [], []⟩
  | .bool true => ⟨.true, [], []⟩
  | .num t after => ⟨.number, t, after⟩
  | .str s after => ⟨.string, s, after⟩
  | .arr _ => ⟨.arrayBeg, [], []⟩
  | .obj _ => ⟨.objectBeg, [], []⟩

def restEvs : J → List Ev
  | .arr xs => Spec.Load.elements xs ++ [⟨.arrayEnd, [], []⟩]
  | .obj ms => Spec.Load.members ms ++ [⟨.objectEnd, [], []⟩]
  | _ => []

theorem events_leaf (v : J) : v.events = leafEv v :: restEvs v := by
  cases v with
  | bool b => cases b <;> rfl
  | _ => rfl

/-- A value handled by its first event alone: arrays and objects are refused. -/
theorem Sim.leaf {σ τ : Type} {E : Env α} {A : State → σ → Prop} {B : State → τ → Prop} {v : J}
    {R : σ × α → τ × α → Prop}
    (h : ∀ a s x, A s x → ∃ f : τ → State, (∀ y, B (f y) y) ∧
      ∀ a' s', step E a s (leafEv v) = (a', .ok s') ↔ ∃ y, R (x, a) (y, a') ∧ s' = f y)
    (hR : restEvs v ≠ [] → ∀ p q, ¬ R p q) : Sim E A B v.events R := by
  rw [events_leaf]
  by_cases hv : restEvs v = []
  · rw [hv]
    refine Sim.one ?_
    intro a s x hA
    obtain ⟨f, hf, hs⟩ := h a s x hA
    constructor
    · intro a' s' h'
      obtain ⟨y, hy, rfl⟩ := (hs a' s').1 h'
      exact ⟨y, hf y, hy⟩
    · intro a' y hy
      exact ⟨f y, (hs a' _).2 ⟨y, hy, rfl⟩, hf y⟩
  · refine Sim.refused ?_ (hR hv)
    intro a s x hA a' s' h'
    obtain ⟨f, _, hs⟩ := h a s x hA
    obtain ⟨y, hy, _⟩ := (hs a' s').1 h'
    exact hR hv _ _ hy

theorem rest_arr (xs : List J) : restEvs (.arr xs) ≠ [] := by simp [restEvs]
theorem rest_obj (ms : List (List Byte × J)) : restEvs (.obj ms) ≠ [] := by simp [restEvs]

theorem text_leaf {v : J} {t : List Byte} (h : Text v t) : restEvs v = [] := by cases h <;> rfl

/-- The first event of a value is not the end of one. -/
theorem leaf_arrayEnd (v : J) : (leafEv v).type ≠ .arrayEnd := by
  cases v with
  | bool b => cases b <;> simp [leafEv]
  | _ => simp [leafEv]
theorem leaf_objectEnd (v : J) : (leafEv v).type ≠ .objectEnd := by
  cases v with
  | bool b => cases b <;> simp [leafEv]
  | _ => simp [leafEv]
theorem leaf_key (v : J) : (leafEv v).type ≠ .key := by
  cases v with
  | bool b => cases b <;> simp [leafEv]
  | _ => simp [leafEv]

theorem text_iff {v : J} {t : List Byte} :
    Text v t ↔ ((leafEv v).type = .number ∨ (leafEv v).type = .string) ∧ t = (leafEv v).data := by
  cases v with
  | bool b => cases b <;> simp [leafEv] <;> rintro ⟨⟩
  | num t' a => simp [leafEv]; constructor; (rintro ⟨⟩; rfl); (rintro rfl; exact .num ..)
  | str t' a => simp [leafEv]; constructor; (rintro ⟨⟩; rfl); (rintro rfl; exact .str ..)
  | null => simp [leafEv]; rintro ⟨⟩
  | arr _ => simp [leafEv]; rintro ⟨⟩
  | obj _ => simp [leafEv]; rintro ⟨⟩

theorem uint_conv {bits buf : Nat} {v : J} {n : Nat} :
    fitting bits (convertU buf (leafEv v).type (leafEv v).data) = .ok n ↔ UInt bits buf v n := by
  rw [fitting_ok, convertU_ok]
  unfold UInt
  simp only [text_iff]
  constructor
  · rintro ⟨⟨h1, h2, h3⟩, h4⟩
    exact ⟨_, ⟨h1, rfl⟩, h2, h4, h3⟩
  · rintro ⟨t, ⟨h1, rfl⟩, h2, h4, h3⟩
    exact ⟨⟨h1, h2, h3⟩, h4⟩

theorem u32_conv {v : J} {n : Nat} : convertU32 (leafEv v).type (leafEv v).data = .ok n ↔ UInt 32 16 v n := uint_conv
theorem u16_conv {v : J} {n : Nat} : convertU16 (leafEv v).type (leafEv v).data = .ok n ↔ UInt 16 8 v n := uint_conv
theorem u8_conv {v : J} {n : Nat} : convertU8 (leafEv v).type (leafEv v).data = .ok n ↔ UInt 8 4 v n := uint_conv

theorem u64_conv {v : J} {n : Nat} : convertU64 (leafEv v).type (leafEv v).data = .ok n ↔ UInt 64 24 v n := by
  rw [← uint_conv, fitting_ok]
  unfold convertU64
  constructor
  · intro h
    refine ⟨h, ?_⟩
    obtain ⟨_, _, h | ⟨i, _, _, _, h⟩⟩ := convertU_ok.1 h
    · omega
    · omega
  · exact fun h => h.1

theorem s64_conv {v : J} {i : Int} : convertS64 (leafEv v).type (leafEv v).data = .ok i ↔ SInt v i := by
  rw [convertS64_ok]
  unfold SInt
  simp only [text_iff]
  constructor
  · rintro ⟨h1, h2, h3⟩
    exact ⟨_, ⟨h1, rfl⟩, h2, h3⟩
  · rintro ⟨t, ⟨h1, rfl⟩, h2, h3⟩
    exact ⟨h1, h2, h3⟩

theorem double_conv {E : Env α} {v : J} {d : BitVec 64} :
    convertDouble E (leafEv v).type (leafEv v).data = .ok d ↔ Double E v d := by
  unfold convertDouble Double
  simp only [text_iff]
  constructor
  · intro h
    split at h
    · cases h
    split at h
    · cases h
    rename_i h1 h2
    split at h
    · cases h
    · rename_i x hx
      injection h with h
      refine ⟨_, ⟨?_, rfl⟩, by omega, by rw [hx, h]⟩
      generalize (leafEv v).type = ty at *
      cases ty <;> simp_all
  · rintro ⟨t, ⟨h1, rfl⟩, h2, h3⟩
    rw [if_neg (by rcases h1 with h | h <;> simp [h]), if_neg (by omega), h3]

theorem type_swap {data after : List Byte} : convertDuration .number data after = convertDuration .string data after := by
  unfold convertDuration
  simp

theorem number_unitless {t : List Byte} (h : Spec.Json.Number t) : ∀ c ∈ t, isUnit (some c) = false := by
  obtain ⟨sign, int, frac, exp, rfl, hs, hi, hf, he⟩ := h
  have hdig : ∀ c : Byte, Spec.Json.Digit c → isUnit (some c) = false := by
    intro c hc
    unfold Spec.Json.Digit at hc
    by_cases hq : isUnit (some c) = true
    · exfalso
      unfold isUnit at hq
      simp only [Bool.or_eq_true, beq_iff_eq, Option.some.injEq] at hq
      rcases hq with ((h | h) | h) | h <;> rw [h] at hc <;> revert hc <;> decide
    · simpa using hq
  have hds : ∀ ds, Spec.Json.Digits ds → ∀ c ∈ ds, isUnit (some c) = false := by
    intro ds h c hc
    exact hdig c (h.2 c hc)
  intro c hc
  simp only [List.mem_append] at hc
  rcases hc with ((hc | hc) | hc) | hc
  · rcases hs with rfl | rfl
    · cases hc
    · simp at hc; rw [hc]; decide
  · clear hf he hs
    induction hi with
    | zero => simp at hc; rw [hc]; decide
    | first h1 => simp at hc; rw [hc]; exact hdig _ h1
    | next _ _ h ih =>
      rcases List.mem_append.1 hc with hc | hc
      · exact ih hc
      · simp at hc; rw [hc]; exact hdig _ h
  · rcases hf with rfl | ⟨ds, rfl, hd⟩
    · cases hc
    · rcases List.mem_cons.1 hc with rfl | hc
      · decide
      · exact hds ds hd c hc
  · rcases he with rfl | ⟨e, sg, ds, rfl, h1, h2, hd⟩
    · cases hc
    · simp only [List.cons_append, List.mem_cons, List.mem_append] at hc
      rcases hc with hc | hc | hc
      · rw [hc]; rcases h1 with h1 | h1 <;> rw [h1] <;> decide
      · rcases h2 with rfl | rfl | rfl
        · cases hc
        · simp at hc; rw [hc]; decide
        · simp at hc; rw [hc]; decide
      · exact hds ds hd c hc

theorem duration_number {ty : JType} {data after : List Byte} {d : Int} (hd : Spec.Json.Number data) (hf : Followed after)
    (h : convertDuration ty data [Spec.Json.ch '"'] = .ok d) : convertDuration ty data after = .ok d := by
  obtain ⟨hty, x, n, hst, hn, hlen, hres⟩ := duration_inv h
  obtain ⟨c, r, rfl, hc⟩ := hf
  have hq : isUnit (some (Spec.Json.ch '"')) = false := by decide
  have hn2 : n ≤ data.length := by split at hlen <;> omega
  have hunit : isUnit ((data ++ [Spec.Json.ch '"'])[n]?) = false := by
    by_cases h1 : n < data.length
    · rw [List.getElem?_append_left h1, List.getElem?_eq_getElem h1]
      exact number_unitless hd _ (List.getElem_mem h1)
    · have : n = data.length := by omega
      subst this
      rw [List.getElem?_append_right (Nat.le_refl _)]
      simpa using hq
  rw [hunit] at hlen
  simp only [Bool.false_eq_true, if_false] at hlen
  subst hlen
  have hsl : (ConfNum.scan (data ++ [Spec.Json.ch '"'])).len = data.length := congrArg Prod.snd hst
  have hint : ∃ v, Spec.Json.Integer data v := by
    rcases (ConfNum.scan_spec (data ++ [Spec.Json.ch '"'])).2 with h0 | ⟨hne, w, s, b, h1, h2, h3, h4, h5⟩
    · rw [h0] at hsl
      exact absurd (List.length_eq_zero_iff.1 hsl.symm) (number_ne hd)
    · rw [hsl, List.take_left] at h1
      have hl : ∀ c ∈ w, c = Spec.Json.ch ' ' ∨ (9 ≤ c.toNat ∧ c.toNat ≤ 13) := fun c hc => isSpace_iff.1 (h2 c hc)
      rcases h4 with ⟨rfl, _⟩ | ⟨rfl, _⟩ | ⟨rfl, _⟩
      · exact ⟨_, number_literal hd ⟨w, _, b, _, h1, hl, h3, Or.inl ⟨rfl, rfl⟩⟩⟩
      · exact ⟨_, number_literal hd ⟨w, _, b, _, h1, hl, h3, Or.inr (Or.inl ⟨by decide, rfl⟩)⟩⟩
      · exact ⟨_, number_literal hd ⟨w, _, b, _, h1, hl, h3, Or.inr (Or.inr ⟨by decide, rfl⟩)⟩⟩
  obtain ⟨v, hv⟩ := hint
  obtain ⟨s, b, m, rfl, hb, hx, hs⟩ := integer_parts hv
  have hscan : ∀ y z, EndByte y → ConfNum.scan (s ++ b ++ y :: z) = ⟨decide (s = [0x2d#8]), m, s.length + b.length⟩ := by
    intro y z hy
    have := scan_literal (w := []) (s := s) (b := b) (m := m) (rest := y :: z) (by simp)
      (by rcases hs with ⟨h, _⟩ | ⟨h, _⟩ <;> simp [h]) hb
      (ends_decimal hx (by intro c' r' e; injection e with e1 e2; rw [← e1]; exact hy))
    simpa using this
  have hd1 : EndByte (Spec.Json.ch '"') := (delimiter_facts (Or.inl rfl)).1
  have hstr : strtol (s ++ b ++ c :: r) = strtol (s ++ b ++ [Spec.Json.ch '"']) := by
    unfold strtol
    rw [hscan _ _ (delimiter_facts hc).1, hscan _ _ hd1]
  have hu2 : isUnit (some c) = false := (delimiter_facts hc).2
  have hat : (s ++ b ++ c :: r)[(s ++ b).length]? = some c := by simp
  have hat1 : (s ++ b ++ [Spec.Json.ch '"'])[(s ++ b).length]? = some (Spec.Json.ch '"') := by simp
  rw [hat1] at hres
  have hsc : ∀ y z, isUnit (some y) = false → scale (some y) z = .ok z := by
    intro y z hy
    unfold isUnit at hy
    unfold scale
    simp only [Bool.or_eq_false_iff, beq_eq_false_iff_ne, ne_eq, Option.some.injEq] at hy
    simp [hy]
  rw [hsc _ _ hq] at hres
  unfold convertDuration
  rw [if_neg (by rintro ⟨a, b⟩; rcases hty with h | h <;> contradiction), hstr, hst]
  simp only
  rw [if_neg (by simp), hat, hsc _ _ hu2]
  simp only [Res.bind, hu2, Bool.false_eq_true, if_false, ne_eq, not_true_eq_false]
  exact hres

theorem dur_conv {v : J} {d : Int} (hv : v.InPlace) :
    convertDuration (leafEv v).type (leafEv v).data (leafEv v).after = .ok d ↔ Duration v d := by
  unfold Duration
  constructor
  · intro h
    obtain ⟨h1, _⟩ := duration_inv h
    have h2 := convertDuration_local h []
    refine ⟨(leafEv v).data, text_iff.2 ⟨h1.symm, rfl⟩, ?_⟩
    rcases h1 with h1 | h1 <;> rw [h1] at h2
    · exact h2
    · rw [type_swap] at h2; exact h2
  · rintro ⟨t, ht, h⟩
    cases ht with
    | num t after =>
      show convertDuration .number t after = _
      rw [type_swap]
      exact duration_number hv.1 hv.2 h
    | str t after =>
      obtain ⟨r, rfl⟩ := hv
      exact convertDuration_local h r

theorem flag_conv {v : J} {flags f g : Flags} :
    convertFlag (leafEv v).type flags f = .ok g ↔ ∃ b, v = .bool b ∧ g = setFlag b flags f := by
  unfold convertFlag setFlag
  cases v with
  | bool b => cases b <;> simp [leafEv] <;> exact eq_comm
  | _ => simp [leafEv]

theorem leaf_depth {v : J} (h : restEvs v = []) (d : Int) : newDepth (leafEv v).type d = d := by
  cases v with
  | bool b => cases b <;> rfl
  | arr xs => exact absurd h (rest_arr xs)
  | obj ms => exact absurd h (rest_obj ms)
  | _ => rfl

theorem leaf_depth_or (v : J) (d : Int) : newDepth (leafEv v).type d = d ∨ newDepth (leafEv v).type d = d + 1 := by
  cases v with
  | bool b => cases b <;> exact .inl rfl
  | arr xs => exact .inr rfl
  | obj ms => exact .inr rfl
  | _ => exact .inl rfl

/-- A value below the top level goes to the handler of the table. -/
theorem step_leaf {E : Env α} {a : α} {s : State} {v : J} (hd : 1 ≤ s.depth) :
    step E a s (leafEv v) = (match s.table with
      | .none => handleTop a { s with depth := newDepth (leafEv v).type s.depth } (leafEv v)
      | .topConfig => handleConfig E a { s with depth := newDepth (leafEv v).type s.depth } (leafEv v) s.defaultConfig
          (fun c => { s with depth := newDepth (leafEv v).type s.depth, defaultConfig := c })
      | .defaultPolicies => handlePolicy E a { s with depth := newDepth (leafEv v).type s.depth } (leafEv v)
      | .routes => handleRoute E a { s with depth := newDepth (leafEv v).type s.depth } (leafEv v)
      | .events => handleEvent E a { s with depth := newDepth (leafEv v).type s.depth } (leafEv v)
      | .userValues => handleUserValue E a { s with depth := newDepth (leafEv v).type s.depth } (leafEv v)) := by
  have h1 : ¬ ((leafEv v).type = .objectBeg ∧ newDepth (leafEv v).type s.depth = 1) := by
    rintro ⟨h1, h2⟩
    rw [h1] at h2
    simp only [newDepth] at h2
    omega
  unfold step dispatch
  rw [if_neg (leaf_key v)]
  simp only [h1, leaf_objectEnd v, leaf_arrayEnd v, false_and, and_false, if_false]
  cases s.table <;> rfl

theorem uint_leaf {bits room : Nat} {v : J} {n : Nat} (h : UInt bits room v n) : restEvs v = [] := by
  obtain ⟨t, h, _⟩ := h
  exact text_leaf h
theorem duration_leaf {v : J} {d : Int} (h : Duration v d) : restEvs v = [] := by
  obtain ⟨t, h, _⟩ := h
  exact text_leaf h

/-! ### Invariants of whole values -/

/-- An invariant of the events below depth `d`: `I` is kept, so is `T`, and `T` holds after the end of an object. -/
structure Inv (E : Env α) (d : Int) (I T : State → Prop) : Prop where
  key : ∀ a s e a' s', I s → d ≤ s.depth → e.type = .key → step E a s e = (a', .ok s') → I s' ∧ s'.depth = s.depth ∧ (T s → T s')
  other : ∀ a s e a' s', I s → e.type ≠ .key → d ≤ newDepth e.type s.depth → step E a s e = (a', .ok s') →
    I s' ∧ s'.depth = newDepth e.type s.depth ∧ (T s → T s') ∧ (e.type = .objectEnd → T s')

theorem run_cons {E : Env α} {a a' : α} {s s' : State} {e : Ev} {evs : List Ev} (h : run E a s (e :: evs) = (a', .ok s')) :
    ∃ a1 s1, step E a s e = (a1, .ok s1) ∧ run E a1 s1 evs = (a', .ok s') := andThen_ok.1 h

theorem run_app {E : Env α} {a a' : α} {s s' : State} {xs ys : List Ev} (h : run E a s (xs ++ ys) = (a', .ok s')) :
    ∃ a1 s1, run E a s xs = (a1, .ok s1) ∧ run E a1 s1 ys = (a', .ok s') := by
  rw [run_append] at h
  exact andThen_ok.1 h

theorem leaf_other {E : Env α} {d : Int} {I T : State → Prop} (hI : Inv E d I T) {a a' : α} {s s' : State} {e : Ev}
    (h : I s) (hk : e.type ≠ .key) (hd : d ≤ s.depth) (hn : newDepth e.type s.depth = s.depth)
    (hr : run E a s [e] = (a', .ok s')) : I s' ∧ s'.depth = s.depth ∧ (T s → T s') := by
  rw [run_one] at hr
  obtain ⟨h1, h2, h3, _⟩ := hI.other a s e a' s' h hk (by rw [hn]; exact hd) hr
  exact ⟨h1, by rw [h2, hn], h3⟩

mutual
theorem value_inv {E : Env α} {d : Int} {I T : State → Prop} (hI : Inv E d I T) : ∀ (v : J) (a : α) (s : State) (a' : α) (s' : State),
    I s → d ≤ s.depth → run E a s v.events = (a', .ok s') →
    I s' ∧ s'.depth = s.depth ∧ (T s → T s') ∧ (¬ v.ObjectFree → T s')
  | .null, a, s, a', s', h, hd, hr => by
    obtain ⟨h1, h2, h3⟩ := leaf_other hI h (by simp) hd rfl hr
    exact ⟨h1, h2, h3, fun h => absurd trivial h⟩
  | .bool false, a, s, a', s', h, hd, hr => by
    obtain ⟨h1, h2, h3⟩ := leaf_other hI h (by simp) hd rfl hr
    exact ⟨h1, h2, h3, fun h => absurd trivial h⟩
  | .bool true, a, s, a', s', h, hd, hr => by
    obtain ⟨h1, h2, h3⟩ := leaf_other hI h (by simp) hd rfl hr
    exact ⟨h1, h2, h3, fun h => absurd trivial h⟩
  | .num t r, a, s, a', s', h, hd, hr => by
    obtain ⟨h1, h2, h3⟩ := leaf_other hI h (by simp) hd rfl hr
    exact ⟨h1, h2, h3, fun h => absurd trivial h⟩
  | .str t r, a, s, a', s', h, hd, hr => by
    obtain ⟨h1, h2, h3⟩ := leaf_other hI h (by simp) hd rfl hr
    exact ⟨h1, h2, h3, fun h => absurd trivial h⟩
  | .arr xs, a, s, a', s', h, hd, hr => by
    obtain ⟨a1, s1, hr1, hr⟩ := run_cons hr
    obtain ⟨a2, s2, hr2, hr⟩ := run_app hr
    rw [run_one] at hr
    obtain ⟨i1, d1, t1, _⟩ := hI.other _ _ _ _ _ h (by simp) (by show d ≤ s.depth + 1; omega) hr1
    have d1 : s1.depth = s.depth + 1 := d1
    obtain ⟨i2, d2, t2, o2⟩ := elements_inv hI xs _ _ _ _ i1 (by omega) hr2
    obtain ⟨i3, d3, t3, _⟩ := hI.other _ _ _ _ _ i2 (by simp) (by show d ≤ s2.depth - 1; omega) hr
    have d3 : s'.depth = s2.depth - 1 := d3
    exact ⟨i3, by omega, fun h => t3 (t2 (t1 h)), fun h => t3 (o2 h)⟩
  | .obj ms, a, s, a', s', h, hd, hr => by
    obtain ⟨a1, s1, hr1, hr⟩ := run_cons hr
    obtain ⟨a2, s2, hr2, hr⟩ := run_app hr
    rw [run_one] at hr
    obtain ⟨i1, d1, t1, _⟩ := hI.other _ _ _ _ _ h (by simp) (by show d ≤ s.depth + 1; omega) hr1
    have d1 : s1.depth = s.depth + 1 := d1
    obtain ⟨i2, d2, t2⟩ := members_inv hI ms _ _ _ _ i1 (by omega) hr2
    obtain ⟨i3, d3, t3, o3⟩ := hI.other _ _ _ _ _ i2 (by simp) (by show d ≤ s2.depth - 1; omega) hr
    have d3 : s'.depth = s2.depth - 1 := d3
    exact ⟨i3, by omega, fun h => t3 (t2 (t1 h)), fun _ => o3 rfl⟩
theorem elements_inv {E : Env α} {d : Int} {I T : State → Prop} (hI : Inv E d I T) : ∀ (vs : List J) (a : α) (s : State) (a' : α) (s' : State),
    I s → d ≤ s.depth → run E a s (Spec.Load.elements vs) = (a', .ok s') →
    I s' ∧ s'.depth = s.depth ∧ (T s → T s') ∧ (¬ elementsObjectFree vs → T s')
  | [], a, s, a', s', h, hd, hr => by
    simp only [Spec.Load.elements, run, Prod.mk.injEq, Res.ok.injEq] at hr
    obtain ⟨_, rfl⟩ := hr
    exact ⟨h, rfl, id, fun h => absurd trivial h⟩
  | v :: vs, a, s, a', s', h, hd, hr => by
    obtain ⟨a1, s1, hr1, hr⟩ := run_app hr
    obtain ⟨i1, d1, t1, o1⟩ := value_inv hI v _ _ _ _ h hd hr1
    obtain ⟨i2, d2, t2, o2⟩ := elements_inv hI vs _ _ _ _ i1 (by omega) hr
    refine ⟨i2, by omega, fun h => t2 (t1 h), fun h => ?_⟩
    by_cases hf : v.ObjectFree
    · exact o2 (fun h2 => h ⟨hf, h2⟩)
    · exact t2 (o1 hf)
theorem members_inv {E : Env α} {d : Int} {I T : State → Prop} (hI : Inv E d I T) : ∀ (ms : List (List Byte × J)) (a : α) (s : State) (a' : α) (s' : State),
    I s → d ≤ s.depth → run E a s (Spec.Load.members ms) = (a', .ok s') →
    I s' ∧ s'.depth = s.depth ∧ (T s → T s')
  | [], a, s, a', s', h, hd, hr => by
    simp only [Spec.Load.members, run, Prod.mk.injEq, Res.ok.injEq] at hr
    obtain ⟨_, rfl⟩ := hr
    exact ⟨h, rfl, id⟩
  | (k, v) :: ms, a, s, a', s', h, hd, hr => by
    obtain ⟨a0, s0, hr0, hr⟩ := run_cons hr
    obtain ⟨a1, s1, hr1, hr⟩ := run_app hr
    obtain ⟨i0, d0, t0⟩ := hI.key _ _ _ _ _ h hd rfl hr0
    obtain ⟨i1, d1, t1, _⟩ := value_inv hI v _ _ _ _ i0 (by omega) hr1
    obtain ⟨i2, d2, t2⟩ := members_inv hI ms _ _ _ _ i1 (by omega) hr
    exact ⟨i2, by omega, fun h => t2 (t1 (t0 h))⟩
end

/-! ### Members with dead ends -/

/-- As `Sim`, but a run may also end in a state from which no document is accepted. -/
def SimD {σ τ : Type} (E : Env α) (D : State → Prop) (A : State → σ → Prop) (B : State → τ → Prop) (evs : List Ev)
    (R : σ × α → τ × α → Prop) : Prop :=
  ∀ a s x, A s x →
    (∀ a' s', run E a s evs = (a', .ok s') → D s' ∨ ∃ y, B s' y ∧ R (x, a) (y, a')) ∧
    (∀ a' y, R (x, a) (y, a') → ∃ s', run E a s evs = (a', .ok s') ∧ B s' y)

theorem Sim.simD {σ τ : Type} {E : Env α} {D : State → Prop} {A : State → σ → Prop} {B : State → τ → Prop} {evs : List Ev}
    {R : σ × α → τ × α → Prop} (h : Sim E A B evs R) : SimD E D A B evs R :=
  fun a s x hA => ⟨fun a' s' hr => .inr ((h a s x hA).1 a' s' hr), (h a s x hA).2⟩

theorem Sim.members_end {σ τ : Type} {E : Env α} {D : State → Prop} {A : State → σ → Prop} {B : State → τ → Prop} {d : Int} {e : Ev}
    (hl : Level A d) {R : List Byte → J → σ × α → σ × α → Prop} {S : σ × α → τ × α → Prop} (he : Sim E A B [e] S)
    (hD : ∀ ms a s a' s', D s → run E a s (Spec.Load.members ms ++ [e]) ≠ (a', .ok s')) : ∀ (ms : List (List Byte × J)),
    (∀ k v, (k, v) ∈ ms → SimD E D (Keyed A d (name k)) A v.events (R (name k) v)) →
    Sim E A B (Spec.Load.members ms ++ [e]) (Comp (Members R ms) S)
  | [], _ => by
    refine he.congr ?_
    intro p q
    constructor
    · rintro ⟨m, h1, h2⟩; cases h1; exact h2
    · intro h; exact ⟨p, .nil _, h⟩
  | (k, v) :: ms, h => by
    have ih := Sim.members_end hl he hD ms (fun k' v' hm => h k' v' (List.mem_cons_of_mem _ hm))
    have hv := h k v (List.mem_cons_self ..)
    intro a s x hA
    have hshape : Spec.Load.members ((k, v) :: ms) ++ [e] = ⟨.key, k, []⟩ :: (v.events ++ (Spec.Load.members ms ++ [e])) := by
      simp [Spec.Load.members]
    rw [hshape]
    constructor
    · intro a' s' hr
      obtain ⟨a1, s1, h1, hr⟩ := run_cons hr
      obtain ⟨a2, s2, h2, hr2⟩ := run_app hr
      obtain ⟨h3, rfl, rfl⟩ := (key_step E a s k (hl.sect s x hA) a1 s1).1 h1
      have hA1 : Keyed A d (name k) { s with key := name k, keydepth := s.depth } x :=
        ⟨hl.key s x _ hA, rfl, hl.depth s x hA⟩
      rcases (hv a1 _ x hA1).1 a2 s2 h2 with hd | ⟨y, hy, hR⟩
      · exact absurd hr2 (hD ms _ _ _ _ hd)
      · obtain ⟨z, hB, m, hm1, hm2⟩ := (ih a2 s2 y hy).1 a' s' hr2
        exact ⟨z, hB, m, .cons h3 hR hm1, hm2⟩
    · rintro a' z ⟨m, hm1, hm2⟩
      cases hm1 with
      | @cons _ _ _ _ w _ h3 hR hm1 =>
        obtain ⟨y, a2⟩ := w
        have hA1 : Keyed A d (name k) { s with key := name k, keydepth := s.depth } x :=
          ⟨hl.key s x _ hA, rfl, hl.depth s x hA⟩
        obtain ⟨s2, h2, hy⟩ := (hv a _ x hA1).2 a2 y hR
        obtain ⟨s', h4, hB⟩ := (ih a2 s2 y hy).2 a' z ⟨m, hm1, hm2⟩
        refine ⟨s', ?_, hB⟩
        show andThen _ _ = _
        rw [(key_step E a s k (hl.sect s x hA) a _).2 ⟨h3, rfl, rfl⟩]
        show run _ _ _ _ = _
        rw [run_append, h2]
        exact h4

/-- Members that touch part of the state. -/
theorem members_lens {ρ σ : Type} (get : ρ → σ) (set : ρ → σ → ρ) (h1 : ∀ x c, get (set x c) = c) (h2 : ∀ x, set x (get x) = x)
    (h3 : ∀ x c d, set (set x c) d = set x d) {R : List Byte → J → σ × α → σ × α → Prop} {ms : List (List Byte × J)} {x y : ρ} {a b : α} :
    Members (fun k v (p q : ρ × α) => ∃ c, q.1 = set p.1 c ∧ R k v (get p.1, p.2) (c, q.2)) ms (x, a) (y, b) ↔
      ∃ c, y = set x c ∧ Members R ms (get x, a) (c, b) := by
  constructor
  · intro h
    generalize hp : (x, a) = p at h
    generalize hq : (y, b) = q at h
    induction h generalizing x a with
    | nil p =>
      subst hp
      simp only [Prod.mk.injEq] at hq
      obtain ⟨rfl, rfl⟩ := hq
      exact ⟨get y, (h2 y).symm, .nil _⟩
    | cons g1 g2 g3 ih =>
      rename_i k v ms p m q
      subst hp
      obtain ⟨y', b'⟩ := m
      obtain ⟨c, e, g2⟩ := g2
      simp only at e g2
      subst e
      obtain ⟨c', i1, i2⟩ := ih (x := set x c) (a := b') rfl hq
      rw [h1] at i2
      exact ⟨c', by rw [i1, h3], .cons g1 g2 i2⟩
  · rintro ⟨c, rfl, h⟩
    generalize hp : (get x, a) = p at h
    generalize hq : (c, b) = q at h
    induction h generalizing x a with
    | nil p =>
      subst hp
      simp only [Prod.mk.injEq] at hq
      obtain ⟨rfl, rfl⟩ := hq
      rw [h2]; exact .nil _
    | cons g1 g2 g3 ih =>
      rename_i k v ms p m q
      subst hp
      obtain ⟨y', b'⟩ := m
      have := ih (x := set x y') (a := b') (by rw [h1]) hq
      rw [h3] at this
      exact .cons (y := (set x y', b')) g1 ⟨y', rfl, g2⟩ this

end WS.Conf
