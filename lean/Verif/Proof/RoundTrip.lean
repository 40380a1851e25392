import Verif.Spec.RoundTrip
import Verif.Proof.Config11
/-
Auxiliary lemmas for C57: the JSON text of an exported rule is a text of the grammar in Spec/JsonSax.
-/
namespace WS.RoundTrip
open WS WS.Sax WS.Conf WS.Spec WS.Spec.Load WS.Spec.RoundTrip

/-- The text is a JSON value nested `d` deep, and `j` its tree. -/
def Tx (d : Nat) (t : List Byte) (j : J) : Prop := Spec.Json.Value loaderConfig d t (j.events.map erase)

theorem utf8s_append (a b : List Nat) : Spec.Json.utf8s (a ++ b) = Spec.Json.utf8s a ++ Spec.Json.utf8s b := by
  simp [Spec.Json.utf8s]

theorem plain_body {s : List Nat} : (∀ n ∈ s, Spec.Json.Scalar n ∧ 0x20 ≤ n ∧ n ≠ 0x22 ∧ n ≠ 0x5c) →
    Spec.Json.Body (Spec.Json.utf8s s) s := by
  generalize hk : s.length = k
  induction k generalizing s with
  | zero => intro _; rw [List.eq_nil_of_length_eq_zero hk]; exact .nil
  | succ k ih =>
    intro h
    obtain ⟨s0, n, rfl⟩ : ∃ s0 n, s = s0 ++ [n] := ⟨s.dropLast, s.getLast (by rintro rfl; cases hk), (List.dropLast_concat_getLast _).symm⟩
    rw [List.length_append, List.length_singleton] at hk
    have hn := h n (by simp)
    rw [utf8s_append]
    have e : Spec.Json.utf8s [n] = Spec.Json.utf8 n := by simp [Spec.Json.utf8s]
    rw [e]
    exact .raw (ih (by omega) fun m hm => h m (by simp [hm])) hn.1 hn.2.1 hn.2.2.1 hn.2.2.2

theorem plain_append {a b : List Byte} (ha : Plain a) (hb : Plain b) : Plain (a ++ b) := by
  obtain ⟨s, rfl, hs⟩ := ha
  obtain ⟨t, rfl, ht⟩ := hb
  exact ⟨s ++ t, (utf8s_append s t).symm, fun n hn => (List.mem_append.1 hn).elim (hs n) (ht n)⟩

theorem plain_nil : Plain [] := ⟨[], rfl, by simp⟩

/-- A character that stands for itself. -/
def PlainByte (b : Byte) : Prop := 0x20 ≤ b.toNat ∧ b.toNat < 0x80 ∧ b.toNat ≠ 0x22 ∧ b.toNat ≠ 0x5c
instance (b : Byte) : Decidable (PlainByte b) := by unfold PlainByte; infer_instance

theorem plain_bytes : ∀ {t : List Byte}, (∀ b ∈ t, PlainByte b) → Plain t
  | [], _ => plain_nil
  | b :: t, h => by
    have hb := h b (by simp)
    unfold PlainByte at hb
    have h1 : Plain [b] := by
      refine ⟨[b.toNat], ?_, ?_⟩
      · simp [Spec.Json.utf8s, Spec.Json.utf8, hb.2.1]
      · intro n hn
        rw [List.mem_singleton.1 hn]
        exact ⟨Or.inl (by omega), hb.1, hb.2.2⟩
    exact plain_append (a := [b]) h1 (plain_bytes fun c hc => h c (by simp [hc]))

/-! ### Scalars -/

theorem tx_string {d : Nat} {t : List Byte} (h : Plain t) (hl : t.length ≤ 16384) (q : List Byte) : Tx d (jString t) (.str t q) := by
  obtain ⟨s, rfl, hs⟩ := h
  have := Spec.Json.Value.string (cfg := loaderConfig) (d := d) (plain_body hs) (Or.inr hl)
  have e : jString (Spec.Json.utf8s s) = Spec.Json.ch '"' :: Spec.Json.utf8s s ++ [Spec.Json.ch '"'] := by
    show ascii "\"" ++ _ ++ ascii "\"" = _
    have : ascii "\"" = [Spec.Json.ch '"'] := by decide
    rw [this]; rfl
  unfold Tx
  rw [e]
  exact this

theorem tx_bool {d : Nat} (b : Bool) : Tx d (jBool b) (.bool b) := by
  cases b
  · exact Spec.Json.Value.false
  · exact Spec.Json.Value.true

/-! ### Decimal numbers -/

theorem decDigit_eq {d : Nat} (h : d < 10) : decDigit d = BitVec.ofNat 8 (48 + d) := by
  rcases d with _ | _ | _ | _ | _ | _ | _ | _ | _ | _ | d <;> first | decide | omega

theorem decDigit_nat {d : Nat} (h : d < 10) : (decDigit d).toNat = 48 + d := by
  rw [decDigit_eq h, BitVec.toNat_ofNat]; omega

theorem decDigit_digit {d : Nat} (h : d < 10) : Spec.Json.Digit (decDigit d) := by
  rw [decDigit_eq h]
  rcases d with _ | _ | _ | _ | _ | _ | _ | _ | _ | _ | d <;> first | (unfold Spec.Json.Digit; decide) | omega

theorem decDigit_zero {d : Nat} (h : d < 10) (h0 : 1 ≤ d) : decDigit d ≠ Spec.Json.ch '0' := by
  intro e
  have := decDigit_nat h
  rw [e] at this
  have h2 : (Spec.Json.ch '0').toNat = 48 := by decide
  omega

/-- What there is to know about the decimal text of a positive number. -/
theorem decimal_pos : ∀ (n : Nat), 1 ≤ n → Spec.Json.IntPart (decimal n) ∧ (decimal n).head? ≠ some (Spec.Json.ch '0') ∧
    Spec.Conf.Positional 10 (decimal n) n ∧ decimal n ≠ [] := by
  intro n
  induction n using Nat.strongRecOn with
  | ind n ih =>
    intro hn
    rw [decimal]
    by_cases h : n < 10
    · simp only [h, if_true]
      refine ⟨.first (decDigit_digit h) (decDigit_zero h hn), ?_, ?_, by simp⟩
      · simp only [List.head?_cons, ne_eq, Option.some.injEq]; exact decDigit_zero h hn
      · have := Spec.Conf.Positional.snoc (base := 10) .nil (c := decDigit n) (k := n) (Or.inl ⟨h, decDigit_nat h⟩) h
        simpa using this
    · simp only [h, if_false]
      obtain ⟨h1, h2, h3, h4⟩ := ih (n / 10) (by omega) (by omega)
      have hd : n % 10 < 10 := by omega
      refine ⟨.next h1 ?_ (decDigit_digit hd), ?_, ?_, by simp⟩
      · intro e; rw [e] at h2; exact h2 rfl
      · cases hh : decimal (n / 10) with
        | nil => exact absurd hh h4
        | cons x xs => rw [hh] at h2; simpa using h2
      · have := Spec.Conf.Positional.snoc h3 (c := decDigit (n % 10)) (k := n % 10) (Or.inl ⟨hd, decDigit_nat hd⟩) hd
        have e : n / 10 * 10 + n % 10 = n := by omega
        rw [e] at this
        exact this

theorem decimal_zero : decimal 0 = [Spec.Json.ch '0'] := by rw [decimal]; decide

theorem decimal_intPart (n : Nat) : Spec.Json.IntPart (decimal n) := by
  rcases Nat.eq_zero_or_pos n with rfl | h
  · rw [decimal_zero]; exact .zero
  · exact (decimal_pos n h).1

theorem decimal_number (n : Nat) : Spec.Json.Number (decimal n) :=
  ⟨[], decimal n, [], [], by simp, Or.inl rfl, decimal_intPart n, Or.inl rfl, Or.inl rfl⟩

theorem decimal_literal (n : Nat) : Spec.Conf.Literal (decimal n) n := by
  refine ⟨[], [], decimal n, n, by simp, by simp, ?_, Or.inl ⟨rfl, rfl⟩⟩
  rcases Nat.eq_zero_or_pos n with rfl | h
  · rw [decimal_zero]; exact .octal .nil
  · obtain ⟨_, h2, h3, h4⟩ := decimal_pos n h
    exact .decimal h3 h4 h2

theorem decimal_length : ∀ (k n : Nat), 1 ≤ k → n < 10 ^ k → (decimal n).length ≤ k := by
  intro k
  induction k with
  | zero => intro n h; omega
  | succ k ih =>
    intro n _ h
    rw [decimal]
    by_cases h9 : n < 10
    · simp [h9]
    · simp only [h9, if_false, List.length_append, List.length_singleton]
      have hk : 1 ≤ k := by
        rcases Nat.eq_zero_or_pos k with rfl | hk
        · simp at h; omega
        · exact hk
      have : n / 10 < 10 ^ k := by
        rw [Nat.pow_succ] at h
        exact Nat.div_lt_of_lt_mul (by omega)
      have := ih (n / 10) hk this
      omega

theorem tx_decimal {d n : Nat} (h : n < 65536) (a : List Byte) : Tx d (decimal n) (.num (decimal n) a) := by
  have := decimal_length 5 n (by omega) (by omega)
  exact .number (decimal_number n) (Or.inr (Nat.le_trans this (by decide)))

theorem uint_decimal {bits room k n : Nat} (hb : n < 2 ^ bits) (hb64 : bits ≤ 63) (hk : 1 ≤ k) (h : n < 10 ^ k) (hr : k < room) (a : List Byte) :
    UInt bits room (.num (decimal n) a) n := by
  have hl := decimal_length k n hk h
  have : n < 2 ^ 63 := Nat.lt_of_lt_of_le hb (Nat.pow_le_pow_right (by decide) hb64)
  refine ⟨_, .num _ _, by omega, hb, Or.inr ⟨n, decimal_literal n, ?_, ?_, ?_⟩⟩ <;> omega

/-! ### Objects -/

theorem joined_snoc (sep : List Byte) (y : List Byte) : ∀ (xs : List (List Byte)), xs ≠ [] → joined sep (xs ++ [y]) = joined sep xs ++ sep ++ y
  | [], h => absurd rfl h
  | [x], _ => by simp [joined]
  | x :: x' :: xs, _ => by
    have ih := joined_snoc sep y (x' :: xs) (by simp)
    simp only [List.cons_append, joined] at ih ⊢
    rw [ih]; simp [List.append_assoc]

/-- A member of an object: key, text and tree. -/
structure Entry where
  key : String
  text : List Byte
  tree : J

def Entry.member (e : Entry) : List Byte := jMember e.key e.text
def Entry.pair (e : Entry) : List Byte × J := (ascii e.key, e.tree)

def Entry.Good (d : Nat) (e : Entry) : Prop := (∀ b ∈ ascii e.key, PlainByte b) ∧ (ascii e.key).length ≤ 32 ∧ Tx d e.text e.tree

theorem tx_member {d : Nat} {e : Entry} (h : e.Good d) :
    Spec.Json.Member loaderConfig d e.member ((Spec.Load.members [e.pair]).map erase) := by
  obtain ⟨h1, h2, h3⟩ := h
  obtain ⟨s, hs, hp⟩ := plain_bytes h1
  have hw : Spec.Json.WS ([] : List Byte) := by intro c hc; cases hc
  have := Spec.Json.Member.mk (cfg := loaderConfig) (d := d) hw (plain_body hp) (Or.inr (by rw [← hs]; exact h2)) hw hw h3 hw
  have e1 : ascii "\"" = [Spec.Json.ch '"'] := by decide
  have e2 : ascii "\":" = [Spec.Json.ch '"', Spec.Json.ch ':'] := by decide
  have e3 : (Spec.Load.members [e.pair]).map erase = ⟨.key, Spec.Json.utf8s s⟩ :: e.tree.events.map erase := by
    rw [← hs]
    simp [Spec.Load.members, Entry.pair, erase]
  rw [e3]
  unfold Entry.member jMember
  rw [e1, e2, hs]
  simpa using this

theorem tx_members {d : Nat} {es : List Entry} : es ≠ [] → (∀ e ∈ es, e.Good d) →
    Spec.Json.Members loaderConfig d (joined (ascii ",") (es.map Entry.member)) ((Spec.Load.members (es.map Entry.pair)).map erase) := by
  generalize hk : es.length = k
  induction k generalizing es with
  | zero => intro h; exact absurd (List.eq_nil_of_length_eq_zero hk) h
  | succ k ih =>
    intro _ h
    obtain ⟨s0, e, rfl⟩ : ∃ s0 n, es = s0 ++ [n] := ⟨es.dropLast, es.getLast (by rintro rfl; cases hk), (List.dropLast_concat_getLast _).symm⟩
    rw [List.length_append, List.length_singleton] at hk
    by_cases h0 : s0 = []
    · subst h0
      exact .one (tx_member (h e (by simp)))
    · have h1 := ih (es := s0) (by omega) h0 (fun e he => h e (by simp [he]))
      have h2 := tx_member (h e (by simp))
      rw [List.map_append, List.map_append, members_append, List.map_append, List.map_cons, List.map_nil, List.map_cons, List.map_nil,
        joined_snoc _ _ _ (by simpa using h0)]
      exact .more h1 h2

theorem tx_object {d : Nat} {es : List Entry} (hd : d + 1 ≤ 16) (h0 : es ≠ []) (h : ∀ e ∈ es, e.Good (d + 1)) :
    Tx d (jObject (es.map Entry.member)) (.obj (es.map Entry.pair)) := by
  have := Spec.Json.Value.object (cfg := loaderConfig) (d := d) (Or.inr hd) (tx_members h0 h)
  have e1 : ascii "{" = [Spec.Json.ch '{'] := by decide
  have e2 : ascii "}" = [Spec.Json.ch '}'] := by decide
  have e3 : (J.obj (es.map Entry.pair)).events.map erase =
      ⟨.objectBeg, []⟩ :: (Spec.Load.members (es.map Entry.pair)).map erase ++ [⟨.objectEnd, []⟩] := by
    simp [J.events, erase]
  unfold Tx
  rw [e3]
  unfold jObject
  rw [e1, e2]
  simpa using this

/-- The document with one rule. -/
theorem tx_document {t : List Byte} {j : J} (h : Tx 2 t j) (f : List Byte) :
    Spec.Json.Document loaderConfig (configText t)
      ((J.obj [(ascii "wolfsentry-config-version", .num [0x31#8] f), (ascii "routes", .arr [j])]).events.map erase) := by
  have h1 : Tx 1 (decimal 1) (.num (decimal 1) f) := tx_decimal (by decide) f
  have e1 : decimal 1 = [0x31#8] := by rw [decimal]; decide
  have hw : Spec.Json.WS ([] : List Byte) := by intro c hc; cases hc
  have h2 : Tx 1 (Spec.Json.ch '[' :: t ++ [Spec.Json.ch ']']) (.arr [j]) := by
    have := Spec.Json.Value.array (cfg := loaderConfig) (d := 1) (Or.inr (by decide)) (.one hw h hw)
    simpa [Tx, J.events, Spec.Load.elements, erase] using this
  have hg : ∀ e ∈ [Entry.mk "wolfsentry-config-version" (decimal 1) (.num (decimal 1) f), Entry.mk "routes" (Spec.Json.ch '[' :: t ++ [Spec.Json.ch ']']) (.arr [j])],
      e.Good (0 + 1) := by
    intro e he
    rcases List.mem_cons.1 he with rfl | he
    · exact ⟨by show ∀ b ∈ ascii "wolfsentry-config-version", _; decide, by show (ascii "wolfsentry-config-version").length ≤ 32; decide, h1⟩
    · rw [List.mem_singleton.1 he]
      exact ⟨by show ∀ b ∈ ascii "routes", _; decide, by show (ascii "routes").length ≤ 32; decide, h2⟩
  have h3 := tx_object (d := 0) (by decide) (by simp) hg
  have e2 : configText t = jObject ([Entry.mk "wolfsentry-config-version" (decimal 1) (.num (decimal 1) f),
      Entry.mk "routes" (Spec.Json.ch '[' :: t ++ [Spec.Json.ch ']']) (.arr [j])].map Entry.member) := by
    have a1 : ascii "{\"wolfsentry-config-version\":1,\"routes\":[" =
        ascii "{" ++ (ascii "\"" ++ ascii "wolfsentry-config-version" ++ ascii "\":" ++ decimal 1) ++ ascii "," ++
          (ascii "\"" ++ ascii "routes" ++ ascii "\":") ++ [Spec.Json.ch '['] := by rw [e1]; decide
    have a2 : ascii "]}" = Spec.Json.ch ']' :: ascii "}" := by decide
    unfold configText
    rw [a1, a2]
    simp [jObject, joined, Entry.member, jMember, List.append_assoc]
  refine ⟨⟨[], configText t, [], by simp, hw, hw, ?_⟩, Or.inl rfl, Or.inl rfl, ?_⟩
  · rw [e2]
    simpa [Tx, e1, Entry.pair] using h3
  · intro e he
    simp [J.events, erase] at he
    subst he
    show ¬ (loaderConfig.flags.getLsbD 5 = true)
    decide

end WS.RoundTrip
