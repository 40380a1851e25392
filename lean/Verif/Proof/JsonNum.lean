import Verif.Spec.JsonSax
/-
The number automaton against the grammar of numbers.
-/
namespace WS.Sax
open WS WS.Spec.Json

/-- A number read so far: the substate and the text. -/
inductive NumPart : Nat → List Byte → Prop
  | fresh : NumPart 0x0003 []
  | minus : NumPart 0x0002 [ch '-']
  | zero {sg : List Byte} : (sg = [] ∨ sg = [ch '-']) → NumPart 0x1110 (sg ++ [ch '0'])
  | int {sg t : List Byte} : (sg = [] ∨ sg = [ch '-']) → IntPart t → t ≠ [ch '0'] → NumPart 0x1114 (sg ++ t)
  | point {sg t : List Byte} : (sg = [] ∨ sg = [ch '-']) → IntPart t → NumPart 0x0020 (sg ++ t ++ [ch '.'])
  | frac {sg t ds : List Byte} : (sg = [] ∨ sg = [ch '-']) → IntPart t → Digits ds →
      NumPart 0x1120 (sg ++ t ++ ch '.' :: ds)
  | e {sg t fr : List Byte} {e : Byte} : (sg = [] ∨ sg = [ch '-']) → IntPart t →
      (fr = [] ∨ ∃ ds, fr = ch '.' :: ds ∧ Digits ds) → (e = ch 'e' ∨ e = ch 'E') →
      NumPart 0x0600 (sg ++ t ++ fr ++ [e])
  | es {sg t fr : List Byte} {e s : Byte} : (sg = [] ∨ sg = [ch '-']) → IntPart t →
      (fr = [] ∨ ∃ ds, fr = ch '.' :: ds ∧ Digits ds) → (e = ch 'e' ∨ e = ch 'E') → (s = ch '+' ∨ s = ch '-') →
      NumPart 0x0400 (sg ++ t ++ fr ++ [e, s])
  | exp {sg t fr es ds : List Byte} {e : Byte} : (sg = [] ∨ sg = [ch '-']) → IntPart t →
      (fr = [] ∨ ∃ ds, fr = ch '.' :: ds ∧ Digits ds) → (e = ch 'e' ∨ e = ch 'E') →
      (es = [] ∨ es = [ch '+'] ∨ es = [ch '-']) → Digits ds → NumPart 0x1400 (sg ++ t ++ fr ++ (e :: es ++ ds))

/-- What `numChar` says of the next byte. -/
def nextIs (s : NumStep) (f : Nat → Prop) : Prop :=
  match s with
  | .next k => f k
  | _ => True

instance (s : NumStep) (f : Nat → Prop) [DecidablePred f] : Decidable (nextIs s f) := by
  unfold nextIs; split <;> infer_instance

instance (c : Byte) : Decidable (Digit c) := by unfold Digit; infer_instance

theorem digits_snoc {ds : List Byte} {c : Byte} (h : Digits ds) (hc : Digit c) : Digits (ds ++ [c]) := by
  refine ⟨by simp, ?_⟩
  intro x hx
  rw [List.mem_append] at hx
  rcases hx with hx | hx
  · exact h.2 x hx
  · rw [List.mem_singleton] at hx; rw [hx]; exact hc

theorem digits_one {c : Byte} (hc : Digit c) : Digits [c] := by
  refine ⟨by simp, ?_⟩
  intro x hx
  rw [List.mem_singleton] at hx; rw [hx]; exact hc

theorem int_len {t : List Byte} (h : IntPart t) (c : Byte) : t ++ [c] ≠ [ch '0'] := by
  intro e
  have h1 : (t ++ [c]).length = 1 := by rw [e]; rfl
  have h2 : t ≠ [] := by
    cases h with
    | zero => simp
    | first => simp
    | next => simp
  have : 0 < t.length := List.length_pos_iff.2 h2
  rw [List.length_append, List.length_singleton] at h1
  omega

set_option maxRecDepth 10000 in
theorem numPart_next {sub s : Nat} {t : List Byte} {c : Byte} (h : NumPart sub t) (hn : numChar sub c = .next s) :
    NumPart s (t ++ [c]) := by
  have use : ∀ {f : Nat → Prop}, nextIs (numChar sub c) f → f s := by
    intro f hf; rw [hn] at hf; exact hf
  cases h with
  | fresh =>
    have hd : ∀ c : Byte, nextIs (numChar 0x0003 c) (fun s => (s = 0x0002 ∧ c = ch '-') ∨ (s = 0x1110 ∧ c = ch '0') ∨
      (s = 0x1114 ∧ Digit c ∧ c ≠ ch '0')) := by decide +kernel
    rcases use (hd c) with ⟨h1, h2⟩ | ⟨h1, h2⟩ | ⟨h1, h2, h3⟩
    · subst h1; subst h2; exact .minus
    · subst h1; subst h2; exact .zero (sg := []) (Or.inl rfl)
    · subst h1; exact .int (sg := []) (t := [c]) (Or.inl rfl) (.first h2 h3) (by intro e; injection e with e; exact h3 e)
  | minus =>
    have hd : ∀ c : Byte, nextIs (numChar 0x0002 c) (fun s => (s = 0x1110 ∧ c = ch '0') ∨
      (s = 0x1114 ∧ Digit c ∧ c ≠ ch '0')) := by decide +kernel
    rcases use (hd c) with ⟨h1, h2⟩ | ⟨h1, h2, h3⟩
    · subst h1; subst h2; exact .zero (sg := [ch '-']) (Or.inr rfl)
    · subst h1; exact .int (sg := [ch '-']) (t := [c]) (Or.inr rfl) (.first h2 h3) (by intro e; injection e with e; exact h3 e)
  | zero hs =>
    have hd : ∀ c : Byte, nextIs (numChar 0x1110 c) (fun s => (s = 0x0020 ∧ c = ch '.') ∨
      (s = 0x0600 ∧ (c = ch 'e' ∨ c = ch 'E'))) := by decide +kernel
    rcases use (hd c) with ⟨h1, h2⟩ | ⟨h1, h2⟩
    · subst h1; subst h2; exact .point hs .zero
    · subst h1
      have := NumPart.e (fr := []) hs .zero (Or.inl rfl) h2
      rwa [List.append_nil] at this
  | int hs hi hz =>
    have hd : ∀ c : Byte, nextIs (numChar 0x1114 c) (fun s => (s = 0x1114 ∧ Digit c) ∨ (s = 0x0020 ∧ c = ch '.') ∨
      (s = 0x0600 ∧ (c = ch 'e' ∨ c = ch 'E'))) := by decide +kernel
    rcases use (hd c) with ⟨h1, h2⟩ | ⟨h1, h2⟩ | ⟨h1, h2⟩
    · subst h1
      rw [List.append_assoc]
      refine .int hs (.next hi hz h2) ?_
      intro e
      exact int_len hi c e
    · subst h1; subst h2; exact .point hs hi
    · subst h1
      have := NumPart.e (fr := []) hs hi (Or.inl rfl) h2
      rwa [List.append_nil] at this
  | point hs hi =>
    have hd : ∀ c : Byte, nextIs (numChar 0x0020 c) (fun s => (s = 0x1120 ∧ Digit c)) := by decide +kernel
    obtain ⟨h1, h2⟩ := use (hd c)
    subst h1
    rw [List.append_assoc]
    exact .frac hs hi (digits_one h2)
  | frac hs hi hds =>
    have hd : ∀ c : Byte, nextIs (numChar 0x1120 c) (fun s => (s = 0x1120 ∧ Digit c) ∨
      (s = 0x0600 ∧ (c = ch 'e' ∨ c = ch 'E'))) := by decide +kernel
    rcases use (hd c) with ⟨h1, h2⟩ | ⟨h1, h2⟩
    · subst h1
      rw [List.append_assoc]
      exact .frac hs hi (digits_snoc hds h2)
    · subst h1
      exact NumPart.e hs hi (Or.inr ⟨_, rfl, hds⟩) h2
  | e hs hi hf he =>
    have hd : ∀ c : Byte, nextIs (numChar 0x0600 c) (fun s => (s = 0x0400 ∧ (c = ch '+' ∨ c = ch '-')) ∨
      (s = 0x1400 ∧ Digit c)) := by decide +kernel
    rcases use (hd c) with ⟨h1, h2⟩ | ⟨h1, h2⟩
    · subst h1
      rw [List.append_assoc]
      exact .es hs hi hf he h2
    · subst h1
      rw [List.append_assoc]
      exact .exp hs hi hf he (Or.inl rfl) (digits_one h2)
  | @es sg t fr e s' hs hi hf he hsg =>
    have hd : ∀ c : Byte, nextIs (numChar 0x0400 c) (fun s => (s = 0x1400 ∧ Digit c)) := by decide +kernel
    obtain ⟨h1, h2⟩ := use (hd c)
    subst h1
    rw [List.append_assoc]
    refine NumPart.exp (es := [s']) hs hi hf he ?_ (digits_one h2)
    rcases hsg with h | h
    · rw [h]; exact Or.inr (Or.inl rfl)
    · rw [h]; exact Or.inr (Or.inr rfl)
  | exp hs hi hf he hes hds =>
    have hd : ∀ c : Byte, nextIs (numChar 0x1400 c) (fun s => (s = 0x1400 ∧ Digit c)) := by decide +kernel
    obtain ⟨h1, h2⟩ := use (hd c)
    subst h1
    rw [List.append_assoc _ _ [c], List.append_assoc (_ :: _) _ [c]]
    exact .exp hs hi hf he hes (digits_snoc hds h2)

theorem numPart_done {sub : Nat} {t : List Byte} (h : NumPart sub t) (hb : sub.testBit 12 = true) : Number t := by
  cases h with
  | fresh => exact absurd hb (by decide)
  | minus => exact absurd hb (by decide)
  | @zero sg hs => exact ⟨sg, [ch '0'], [], [], by simp, hs, .zero, Or.inl rfl, Or.inl rfl⟩
  | @int sg t hs hi _ => exact ⟨sg, t, [], [], by simp, hs, hi, Or.inl rfl, Or.inl rfl⟩
  | point => exact absurd hb (by decide)
  | @frac sg t ds hs hi hd => exact ⟨sg, t, _, [], by simp, hs, hi, Or.inr ⟨ds, rfl, hd⟩, Or.inl rfl⟩
  | e => exact absurd hb (by decide)
  | es => exact absurd hb (by decide)
  | @exp sg t fr es ds e hs hi hf he hes hds =>
    exact ⟨sg, t, fr, _, rfl, hs, hi, hf, Or.inr ⟨e, es, ds, rfl, he, hes, hds⟩⟩

/-- A finished number ends in a digit. -/
theorem numPart_last {sub : Nat} {t : List Byte} (h : NumPart sub t) (hb : sub.testBit 12 = true) :
    ∃ t' c, t = t' ++ [c] ∧ Digit c := by
  have ofDigits : ∀ (a ds : List Byte), Digits ds → ∃ t' c, a ++ ds = t' ++ [c] ∧ Digit c := by
    intro a ds hd
    obtain ⟨h1, h2⟩ := hd
    refine ⟨a ++ ds.dropLast, ds.getLast h1, ?_, h2 _ (List.getLast_mem h1)⟩
    rw [List.append_assoc, List.dropLast_concat_getLast]
  have ofInt : ∀ (a t : List Byte), IntPart t → ∃ t' c, a ++ t = t' ++ [c] ∧ Digit c := by
    intro a t hi
    cases hi with
    | zero => exact ⟨a, _, rfl, by decide⟩
    | first h => exact ⟨a, _, rfl, h⟩
    | @next t c _ _ h => exact ⟨a ++ t, c, by simp, h⟩
  cases h with
  | fresh => exact absurd hb (by decide)
  | minus => exact absurd hb (by decide)
  | @zero sg hs => exact ⟨sg, _, rfl, by decide⟩
  | @int sg t hs hi _ => exact ofInt sg t hi
  | point => exact absurd hb (by decide)
  | @frac sg t ds hs hi hd =>
    have := ofDigits (sg ++ t ++ [ch '.']) ds hd
    rw [List.append_assoc] at this
    exact this
  | e => exact absurd hb (by decide)
  | es => exact absurd hb (by decide)
  | @exp sg t fr es ds e hs hi hf he hes hds =>
    have := ofDigits (sg ++ t ++ fr ++ (e :: es)) ds hds
    rw [List.append_assoc] at this
    exact this

/-! ### Every number of the grammar -/

/-- The substates along a text. -/
def numFold : Nat → List Byte → Option Nat
  | sub, [] => some sub
  | sub, c :: cs =>
    match numChar sub c with
    | .next s => numFold s cs
    | _ => none

theorem numFold_append : ∀ (a b : List Byte) (sub s : Nat), numFold sub a = some s → numFold sub (a ++ b) = numFold s b
  | [], b, sub, s, h => by injection h with h; rw [h]; rfl
  | c :: cs, b, sub, s, h => by
    simp only [numFold, List.cons_append] at h ⊢
    cases hn : numChar sub c with
    | next k => rw [hn] at h; exact numFold_append cs b k s h
    | finish => rw [hn] at h; cases h
    | bad => rw [hn] at h; cases h

theorem numFold_digits (sub : Nat) (hd : ∀ c : Byte, Digit c → numChar sub c = .next sub) :
    ∀ ds : List Byte, (∀ c ∈ ds, Digit c) → numFold sub ds = some sub
  | [], _ => rfl
  | c :: cs, h => by
    simp only [numFold]
    rw [hd c (h c (List.mem_cons_self ..))]
    exact numFold_digits sub hd cs (fun x hx => h x (List.mem_cons_of_mem _ hx))

theorem numFold_digits1 (sub0 sub : Nat) (h0 : ∀ c : Byte, Digit c → numChar sub0 c = .next sub)
    (hd : ∀ c : Byte, Digit c → numChar sub c = .next sub) (ds : List Byte) (h : Digits ds) :
    numFold sub0 ds = some sub := by
  cases ds with
  | nil => exact absurd rfl h.1
  | cons c cs =>
    simp only [numFold]
    rw [h0 c (h.2 c (List.mem_cons_self ..))]
    exact numFold_digits sub hd cs (fun x hx => h.2 x (List.mem_cons_of_mem _ hx))

set_option maxRecDepth 10000 in
theorem numFold_int (sub : Nat) (h0 : numChar sub (ch '0') = .next 0x1110)
    (h1 : ∀ c : Byte, Digit c → c ≠ ch '0' → numChar sub c = .next 0x1114) {t : List Byte} (hi : IntPart t) :
    (t = [ch '0'] ∧ numFold sub t = some 0x1110) ∨ (t ≠ [ch '0'] ∧ numFold sub t = some 0x1114) := by
  induction hi with
  | zero => left; refine ⟨rfl, ?_⟩; simp only [numFold]; rw [h0]
  | @first c hd hc =>
    right
    refine ⟨by intro e; injection e with e; exact hc e, ?_⟩
    simp only [numFold]; rw [h1 c hd hc]
  | @next t c hi hz hd ih =>
    right
    refine ⟨int_len hi c, ?_⟩
    rcases ih with ⟨e, _⟩ | ⟨_, e⟩
    · exact absurd e hz
    · rw [numFold_append _ _ _ _ e]
      have hd2 : ∀ c : Byte, Digit c → numChar 0x1114 c = .next 0x1114 := by decide +kernel
      simp only [numFold]; rw [hd2 c hd]

set_option maxRecDepth 10000 in
theorem numFold_number {t : List Byte} (h : Number t) : ∃ s, numFold 0x0003 t = some s ∧ s.testBit 12 = true := by
  obtain ⟨sign, int, frac, exp, e, hs, hi, hf, he⟩ := h
  -- the sign and the integer part
  have hA : ∃ s, numFold 0x0003 (sign ++ int) = some s ∧ (s = 0x1110 ∨ s = 0x1114) := by
    rcases hs with hs | hs
    · rw [hs, List.nil_append]
      rcases numFold_int 0x0003 (by decide +kernel) (by decide +kernel) hi with h | h
      · exact ⟨_, h.2, Or.inl rfl⟩
      · exact ⟨_, h.2, Or.inr rfl⟩
    · rw [hs]
      have e0 : numFold 0x0003 [ch '-'] = some 0x0002 := by decide +kernel
      rw [numFold_append _ _ _ _ e0]
      rcases numFold_int 0x0002 (by decide +kernel) (by decide +kernel) hi with h | h
      · exact ⟨_, h.2, Or.inl rfl⟩
      · exact ⟨_, h.2, Or.inr rfl⟩
  obtain ⟨s1, a1, a2⟩ := hA
  have hB : ∃ s, numFold 0x0003 (sign ++ int ++ frac) = some s ∧ (s = 0x1110 ∨ s = 0x1114 ∨ s = 0x1120) := by
    rcases hf with hf | ⟨ds, hf, hd⟩
    · rw [hf, List.append_nil]
      exact ⟨s1, a1, by omega⟩
    · refine ⟨0x1120, ?_, by omega⟩
      rw [numFold_append _ _ _ _ a1, hf]
      have e1 : numChar s1 (ch '.') = .next 0x0020 := by rcases a2 with h | h <;> (rw [h]; decide +kernel)
      simp only [numFold]
      rw [e1]
      exact numFold_digits1 0x0020 0x1120 (by decide +kernel) (by decide +kernel) ds hd
  obtain ⟨s2, b1, b2⟩ := hB
  rw [e]
  rcases he with he | ⟨ec, sg, ds, he, hec, hsg, hd⟩
  · rw [he, List.append_nil]
    refine ⟨s2, b1, ?_⟩
    rcases b2 with h | h | h <;> (rw [h]; decide)
  · refine ⟨0x1400, ?_, by decide⟩
    rw [numFold_append _ _ _ _ b1, he]
    have e1 : numChar s2 ec = .next 0x0600 := by
      rcases b2 with h | h | h <;> rcases hec with g | g <;> (rw [h, g]; decide +kernel)
    simp only [numFold, List.cons_append]
    rw [e1]
    rcases hsg with hsg | hsg | hsg
    · rw [hsg]
      exact numFold_digits1 0x0600 0x1400 (by decide +kernel) (by decide +kernel) ds hd
    · rw [hsg]
      have e2 : numChar 0x0600 (ch '+') = .next 0x0400 := by decide +kernel
      simp only [numFold, List.cons_append, List.nil_append]
      rw [e2]
      exact numFold_digits1 0x0400 0x1400 (by decide +kernel) (by decide +kernel) ds hd
    · rw [hsg]
      have e2 : numChar 0x0600 (ch '-') = .next 0x0400 := by decide +kernel
      simp only [numFold, List.cons_append, List.nil_append]
      rw [e2]
      exact numFold_digits1 0x0400 0x1400 (by decide +kernel) (by decide +kernel) ds hd

end WS.Sax
