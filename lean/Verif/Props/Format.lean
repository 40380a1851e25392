import Verif.Proof.Format
/-
C47: rendering of numbers, addresses and rules.
-/
namespace WS.Props
open WS WS.Spec WS.Fmt

/-! ### numbers -/

/-- Every `int` but the most negative one is rendered as its decimal text, or nothing is written and
BUFFER_TOO_SMALL is returned; the latter exactly when the text does not fit. -/
theorem C47_integer_text (i : Int) (s : Out) (hlo : -2147483648 < i) (hhi : i < 2147483648) :
    (((decimalInt i).length ≤ s.left) →
      wsItoa i s = .ok { text := s.text ++ decimalInt i, left := s.left - (decimalInt i).length,
                         high := max s.high (s.text.length + (decimalInt i).length) }) ∧
    (s.left < (decimalInt i).length → wsItoa i s = .fail .bufferTooSmall s) := by
  rw [wsItoa_spec i s hlo hhi]
  exact ⟨fun h => by rw [if_neg (by omega)]; rfl, fun h => by rw [if_pos h]⟩

/-- The value denoted by a digit string. -/
def digitsValue (l : List Byte) : Nat := l.foldl (fun v b => 10 * v + (b.toNat - 48)) 0

theorem decDigit_val (d : Nat) (h : d < 10) : (decDigit d).toNat = 48 + d := by
  have : ∀ d : Fin 10, (decDigit d.val).toNat = 48 + d.val := by decide
  exact this ⟨d, h⟩

/-- The decimal text of the specification denotes the number, consists of digits, and has no leading
zero: no other text would do. -/
theorem C47_decimal_meaning (n : Nat) :
    digitsValue (decimal n) = n ∧ (∀ b, b ∈ decimal n → 48 ≤ b.toNat ∧ b.toNat ≤ 57) ∧
    (10 ≤ n → (decimal n).head? ≠ some 48#8) ∧ decimal n ≠ [] := by
  induction n using Nat.strongRecOn with
  | ind n ih =>
    rw [decimal]
    by_cases h : n < 10
    · rw [if_pos h]
      refine ⟨?_, ?_, fun h' => by omega, by simp⟩
      · simp only [digitsValue, List.foldl_cons, List.foldl_nil, decDigit_val n h]; omega
      · intro b hb
        simp only [List.mem_singleton] at hb
        rw [hb, decDigit_val n h]; omega
    · rw [if_neg h]
      obtain ⟨h1, h2, h3, h4⟩ := ih (n / 10) (by omega)
      have hd := decDigit_val (n % 10) (by omega)
      refine ⟨?_, ?_, ?_, by simp⟩
      · unfold digitsValue at h1 ⊢
        rw [List.foldl_append, h1]
        simp only [List.foldl_cons, List.foldl_nil, hd]; omega
      · intro b hb
        rcases List.mem_append.1 hb with hb | hb
        · exact h2 b hb
        · simp only [List.mem_singleton] at hb
          rw [hb, hd]; omega
      · intro _
        have hh : (decimal (n / 10) ++ [decDigit (n % 10)]).head? = (decimal (n / 10)).head? := by
          cases hc : decimal (n / 10) with
          | nil => exact absurd hc h4
          | cons x l => rfl
        rw [hh]
        by_cases h10 : 10 ≤ n / 10
        · exact h3 h10
        · rw [decimal, if_pos (by omega)]
          intro hc
          have : decDigit (n / 10) = 48#8 := by simpa using hc
          have h5 := decDigit_val (n / 10) (by omega)
          rw [this] at h5
          have : (48#8 : Byte).toNat = 48 := rfl
          omega

/-- Finding: the most negative `int` overflows in the negation (undefined behaviour). -/
theorem C47_int_min_undefined (s : Out) : wsItoa (-2147483648) s = .ub := rfl

example : wsItoa (-407) { left := 4 } = .ok { text := ascii "-407", left := 0, high := 4 } := by
  rw [wsItoa_spec _ _ (by decide) (by decide)]
  simp [decimalInt, decimal, Out.put]
  decide

/-! ### addresses -/

/-- Registered formatters respect the length they are given. -/
def FormattersFit (E : FmtEnv) : Prop :=
  ∀ fam f a bits len t, E.formatter fam = some f → f a bits len = .ok t → t.length ≤ len

/-- An address that can be rendered is rendered as its text whenever text and terminator fit, storing no
more than those bytes. -/
theorem C47_address_text (E : FmtEnv) (family : Nat) (a t : List Byte) (bits buflen : Nat)
    (ht : AddrText E family a bits t) (ha : (bits + 7) / 8 ≤ a.length) (hl : t.length + 1 ≤ buflen) :
    ∃ stored, formatAddress E family a bits buflen buflen = .ok t stored ∧ stored ≤ t.length + 1 :=
  formatAddress_ok E family a t bits buflen ht ha hl

theorem fmtLink_len (l : List Byte) : (fmtLinkBytes l true).length + 1 ≤ max 1 (3 * l.length) := by
  rw [fmtLink_joined]
  cases l with
  | nil => decide
  | cons b l =>
    have := joined_hex_len (b :: l) (by simp)
    omega

/-- Whatever the address, a successful rendering stores at most the stated number of bytes, provided that
number is not zero. -/
theorem C47_address_bounded_partial (E : FmtEnv) (hE : FormattersFit E) (family : Nat) (a : List Byte) (bits buflen : Nat)
    (hb : 0 < buflen) (t : List Byte) (stored : Nat)
    (h : formatAddress E family a bits buflen buflen = .ok t stored) : stored ≤ buflen ∧ t.length ≤ buflen := by
  unfold formatAddress at h
  cases hf : E.formatter family with
  | some f =>
    rw [hf] at h
    simp only at h
    cases hr : f a bits buflen with
    | error e => rw [hr] at h; cases h
    | ok t' =>
      rw [hr] at h
      have := hE family f a bits buflen t' hf hr
      cases h
      exact ⟨this, this⟩
  | none =>
    rw [hf] at h
    simp only at h
    by_cases h1 : family = AF_LINK48
    · rw [if_pos h1] at h
      by_cases h2 : bits >>> 3 * 3 > buflen
      · rw [if_pos h2] at h; cases h
      · rw [if_neg h2] at h
        have hlen := fmtLink_len (a.take (bits >>> 3))
        rw [List.length_take] at hlen
        cases h
        omega
    rw [if_neg h1] at h
    by_cases h2 : family = AF_INET
    · rw [if_pos h2] at h
      cases hp : padCopy 4 a (bitsToBytes bits) with
      | none => rw [hp] at h; cases h
      | some b =>
        rw [hp] at h
        simp only at h
        by_cases h3 : buflen < (E.ntop4 b).length + 1
        · rw [if_pos h3] at h; cases h
        · rw [if_neg h3] at h; cases h; omega
    rw [if_neg h2] at h
    by_cases h3 : family = AF_INET6
    · rw [if_pos h3] at h
      cases hp : padCopy 16 a (bitsToBytes bits) with
      | none => rw [hp] at h; cases h
      | some b =>
        rw [hp] at h
        simp only at h
        by_cases h4 : buflen < (E.ntop6 b).length + 1
        · rw [if_pos h4] at h; cases h
        · rw [if_neg h4] at h; cases h; omega
    rw [if_neg h3] at h
    by_cases h4 : family = AF_LOCAL
    · rw [if_pos h4] at h
      by_cases h5 : bitsToBytes bits ≥ buflen
      · rw [if_pos h5] at h; cases h
      · rw [if_neg h5] at h
        cases h
        rw [List.length_take]
        omega
    rw [if_neg h4] at h
    by_cases h5 : family = AF_CAN
    · rw [if_pos h5] at h
      by_cases h6 : 2 + 4 * 2 + 1 > buflen
      · rw [if_pos h6] at h; cases h
      · rw [if_neg h6] at h
        cases h
        have hl : (ascii "0x" ++ fmtCanBytes a (bits >>> 3)).length = 10 := by
          have h7 : ∀ i, (if i < bits >>> 3 then [hexdigitNtoa ((byteAt a i).toNat >>> 4), hexdigitNtoa (byteAt a i).toNat]
              else [48#8, 48#8]).length = 2 := by intro i; split <;> rfl
          have h8 : (fmtCanBytes a (bits >>> 3)).length = 8 := by
            unfold fmtCanBytes
            show (List.flatMap _ [0, 1, 2, 3]).length = 8
            simp only [List.flatMap_cons, List.flatMap_nil, List.length_append, h7, List.length_nil]
          rw [List.length_append, h8]
          rfl
        rw [hl]
        omega
    rw [if_neg h5] at h
    cases h

/-- Finding: with a zero-length buffer, a link-layer address of less than a byte stores its terminator past
the end of the buffer. -/
theorem C47_zero_length_buffer_overrun (E : FmtEnv) (h : E.formatter 118 = none) (a : List Byte) :
    ∃ stored, formatAddress E 118 a 0 0 0 = .ok [] stored ∧ stored = 1 := by
  refine ⟨1, ?_, rfl⟩
  unfold formatAddress
  rw [h]
  rfl

/-- Finding: an IPv4 rule may carry more than 32 address bits (nothing refuses it, see C13); rendering it
overflows a local buffer. -/
theorem C47_long_ipv4_address_undefined (E : FmtEnv) (h : E.formatter 2 = none) (a : List Byte) (bits len : Nat)
    (hb : 32 < bits) : formatAddress E 2 a bits len len = .ub := by
  unfold formatAddress
  rw [h]
  have : bitsToBytes bits = (bits + 7) / 8 := by unfold bitsToBytes; exact Nat.shiftRight_eq_div_pow _ 3
  have h5 : padCopy 4 a (bitsToBytes bits) = none := by unfold padCopy; rw [if_pos (by omega)]
  simp only [if_neg (show ¬ (2 = AF_LINK48) by decide), if_true, h5]

/-- Finding: 64-bit link-layer addresses (family 119) have no renderer. -/
theorem C47_link64_unsupported (E : FmtEnv) (h : E.formatter 119 = none) (a : List Byte) (bits len : Nat) :
    formatAddress E 119 a bits len len = .fail .opNotSuppForProto := by
  unfold formatAddress
  rw [h]
  rfl

/-- An environment with IPv4/IPv6 texts of a fixed form, for examples. -/
def fmtEnv : FmtEnv :=
  { formatter := fun _ => none, famName := fun _ => none, proto := fun n => if n = 6 then .found (ascii "tcp") else .unknown,
    ntop4 := fun _ => ascii "127.0.0.1", ntop6 := fun _ => ascii "::1" }

example : FormattersFit fmtEnv := by
  intro fam f a bits len t h
  exact absurd h (by simp [fmtEnv])

example : AddrText fmtEnv 118 [0x0a#8, 0xff#8] 16 (ascii "0a:ff") := by
  show (_ ∧ _) ∨ _
  left; decide
example : formatAddress fmtEnv 29 [1#8, 0x2c#8, 3#8, 4#8] 32 11 11 = .ok (ascii "0x012c0304") 11 := by decide

/-! ### the JSON form of a rule -/

theorem joined_dropLast (x : List Byte) : ∀ ms : List (List Byte), ms ≠ [] →
    (x ++ ms.flatMap (fun m => m ++ ascii ",")).dropLast = x ++ joined (ascii ",") ms
  | [], h => absurd rfl h
  | [m], _ => by
    simp only [List.flatMap_cons, List.flatMap_nil, List.append_nil, joined]
    rw [← List.append_assoc, show ascii "," = [44#8] from by decide, List.dropLast_concat]
  | m :: m' :: rest, _ => by
    have ih := joined_dropLast (x ++ m ++ ascii ",") (m' :: rest) (by simp)
    rw [List.flatMap_cons, joined]
    rw [show x ++ (m ++ ascii "," ++ List.flatMap (fun m => m ++ ascii ",") (m' :: rest))
      = (x ++ m ++ ascii ",") ++ List.flatMap (fun m => m ++ ascii ",") (m' :: rest) from by simp only [List.append_assoc]]
    rw [ih]
    simp only [List.append_assoc]

theorem opsText_append (at_ : List Byte → Nat → List Byte) (a b : List WOp) (acc : List Byte) :
    opsText at_ (a ++ b) acc = opsText at_ b (opsText at_ a acc) := List.foldl_append ..

theorem opsText_flatMap {α : Type} (at_ : List Byte → Nat → List Byte) (f : α → List WOp) (g : α → List Byte)
    (h : ∀ p acc, opsText at_ (f p) acc = acc ++ g p) : ∀ (l : List α) (acc : List Byte),
    opsText at_ (l.flatMap f) acc = acc ++ l.flatMap g
  | [], acc => by simp [opsText]
  | p :: l, acc => by
    rw [List.flatMap_cons, opsText_append, h, opsText_flatMap at_ f g h l, List.flatMap_cons, List.append_assoc]

theorem flag_names_eq : flagNames.map (fun p => (p.1, p.2)) = flagTable.map (fun p => (bit p.1, p.2)) := by decide

theorem flagTable_lt : ∀ p, p ∈ flagTable → p.1 < 32 := by decide

/-- Text of one endpoint section: nothing, or the member followed by a comma. -/
theorem endpoint_text (at_ : List Byte → Nat → List Byte) (r : Route) (e : Endpoint) (key : String) (aw pw iw bm : Nat)
    (ha : aw < 32) (hp : pw < 32) (hi : iw < 32) (hb : bm < 32)
    (acc : List Byte) :
    opsText at_ (endpointOps r e ("\"" ++ key ++ "\":{") (bit aw) (bit pw) (bit iw) (bit bm)) acc =
      acc ++ (if endpointMembers r e aw pw iw bm at_ = [] then []
        else [jMember key (jObject (endpointMembers r e aw pw iw bm at_))]).flatMap (fun m => m ++ ascii ",") := by
  have h3 : e.bits >>> 1 = e.bits / 2 := Nat.shiftRight_eq_div_pow _ 1
  have h4 : bitsToBytes (e.bits / 2) = (e.bits / 2 + 7) / 8 := by unfold bitsToBytes; exact Nat.shiftRight_eq_div_pow _ 3
  have hmem : ∀ acc, opsText at_ (
      (if (!(r.flags.has (bit aw))) = true then
          if r.flags.has (bit bm) = true then
            [WOp.addr true (ascii "\"address\":\"") e.addr (e.bits >>> 1) (ascii "\",\"bitmask\":\""),
             .addr false [] (e.addr.drop (bitsToBytes (e.bits >>> 1))) (e.bits >>> 1) (ascii "\",")]
          else
            [.addr true (ascii "\"address\":\"") e.addr e.bits (ascii "\",\"prefix-bits\":"),
             .num e.bits, .str (ascii ",")]
        else [])
      ++ (if (!(r.flags.has (bit pw))) = true then [.str (ascii "\"port\":"), .num e.port, .str (ascii ",")] else [])
      ++ (if (!(r.flags.has (bit iw))) = true then [.str (ascii "\"interface\":"), .num e.iface, .str (ascii ",")] else [])) acc
      = acc ++ (endpointMembers r e aw pw iw bm at_).flatMap (fun m => m ++ ascii ",") := by
    intro acc
    rw [opsText_append, opsText_append, Flags.has_bit _ _ ha, Flags.has_bit _ _ hp, Flags.has_bit _ _ hi, Flags.has_bit _ _ hb]
    unfold endpointMembers
    rw [List.flatMap_append, List.flatMap_append, ← List.append_assoc, ← List.append_assoc]
    have e1 : ∀ acc, opsText at_ (if (!(r.flags.getLsbD iw)) = true then
        [.str (ascii "\"interface\":"), .num e.iface, .str (ascii ",")] else []) acc = acc ++
        (if r.flags.getLsbD iw = true then [] else [jMember "interface" (decimal e.iface)]).flatMap (fun m => m ++ ascii ",") := by
      intro acc
      cases r.flags.getLsbD iw
      · simp only [Bool.not_false, if_true, Bool.false_eq_true, if_false, opsText, List.foldl_cons, List.foldl_nil, opText,
          List.flatMap_cons, List.flatMap_nil, List.append_nil, jMember, List.append_assoc]
        congr 1
      · simp [opsText]
    have e2 : ∀ acc, opsText at_ (if (!(r.flags.getLsbD pw)) = true then
        [.str (ascii "\"port\":"), .num e.port, .str (ascii ",")] else []) acc = acc ++
        (if r.flags.getLsbD pw = true then [] else [jMember "port" (decimal e.port)]).flatMap (fun m => m ++ ascii ",") := by
      intro acc
      cases r.flags.getLsbD pw
      · simp only [Bool.not_false, if_true, Bool.false_eq_true, if_false, opsText, List.foldl_cons, List.foldl_nil, opText,
          List.flatMap_cons, List.flatMap_nil, List.append_nil, jMember, List.append_assoc]
        congr 1
      · simp [opsText]
    rw [e1, e2]
    congr 2
    cases r.flags.getLsbD aw
    · cases r.flags.getLsbD bm
      · simp only [Bool.not_false, if_true, Bool.false_eq_true, if_false, opsText, List.foldl_cons, List.foldl_nil, opText,
          List.flatMap_cons, List.flatMap_nil, List.append_nil, jMember, jString, List.append_assoc]
        congr 1
      · simp only [Bool.not_false, if_true, Bool.false_eq_true, if_false, opsText, List.foldl_cons, List.foldl_nil, opText,
          List.flatMap_cons, List.flatMap_nil, List.append_nil, jMember, jString, List.append_assoc, h3, h4, List.nil_append]
        congr 1
    · simp [opsText]
  have hkey : ascii ("\"" ++ key ++ "\":{") = ascii "\"" ++ ascii key ++ ascii "\":" ++ ascii "{" := by
    unfold ascii
    rw [String.toList_append, String.toList_append, List.map_append, List.map_append]
    simp only [List.append_assoc]
    congr 1
  have hempty : endpointMembers r e aw pw iw bm at_ = [] ↔
      (r.flags.getLsbD aw = true ∧ r.flags.getLsbD pw = true ∧ r.flags.getLsbD iw = true) := by
    unfold endpointMembers
    cases r.flags.getLsbD aw <;> cases r.flags.getLsbD pw <;> cases r.flags.getLsbD iw <;> cases r.flags.getLsbD bm <;> simp
  have hc2 : ((!(r.flags.has (bit aw)) || !(r.flags.has (bit pw)) || !(r.flags.has (bit iw))) = true) ↔
      ¬ (endpointMembers r e aw pw iw bm at_ = []) := by
    rw [hempty, Flags.has_bit _ _ ha, Flags.has_bit _ _ hp, Flags.has_bit _ _ hi]
    cases r.flags.getLsbD aw <;> cases r.flags.getLsbD pw <;> cases r.flags.getLsbD iw <;> decide
  unfold endpointOps
  simp only
  by_cases he : endpointMembers r e aw pw iw bm at_ = []
  · rw [if_neg (fun h => hc2.1 h he), if_pos he]
    simp [opsText]
  · rw [if_pos (hc2.2 he), if_neg he]
    have hsplit : ∀ (a b c d f : List WOp), a ++ b ++ c ++ d ++ f = a ++ ((b ++ c ++ d) ++ f) := by
      intro a b c d f; simp only [List.append_assoc]
    rw [hsplit, opsText_append, opsText_append, hmem]
    show (((acc ++ ascii ("\"" ++ key ++ "\":{")) ++ _).dropLast ++ ascii "},") = _
    rw [joined_dropLast _ _ he, hkey]
    simp only [List.flatMap_cons, List.flatMap_nil, List.append_nil, jMember, jObject, List.append_assoc]
    congr 1

theorem if_nil_flatMap (c : Prop) [Decidable c] (m : List Byte) :
    (if c then [] else [m]).flatMap (fun m => m ++ ascii ",") = if c then [] else m ++ ascii "," := by
  split <;> simp

/-- The steps of the export produce exactly the JSON object of the rule. -/
theorem formatJson_text (E : FmtEnv) (r : Route) (numeric : Bool) (at_ : List Byte → Nat → List Byte)
    (hproto : r.flags.getLsbD 2 = true ∨ numeric = true ∨ (r.family ≠ 2 ∧ r.family ≠ 10) ∨ E.proto r.proto ≠ .unknown) :
    opsText at_ (formatJsonOps E r numeric) [] =
      ruleJson r at_ (familyText E r numeric) (protoText E r numeric) := by
  have hrem := endpoint_text at_ r r.remote "remote" 1 5 6 12 (by decide) (by decide) (by decide) (by decide)
  have hloc := endpoint_text at_ r r.loc "local" 4 3 7 13 (by decide) (by decide) (by decide) (by decide)
  have hf : ∀ acc, opsText at_ (flagOps r) acc =
      acc ++ (flagTable.map (fun p => jMember p.2 (jBool (r.flags.getLsbD p.1)))).flatMap (fun m => m ++ ascii ",") := by
    intro acc
    unfold flagOps
    rw [opsText_flatMap at_ _ (fun p => jMember p.2 (jBool (r.flags.has p.1)) ++ ascii ",")]
    · congr 1
      have h1 : flagNames.flatMap (fun p => jMember p.2 (jBool (r.flags.has p.1)) ++ ascii ",") =
          (flagNames.map (fun p => (p.1, p.2))).flatMap (fun p => jMember p.2 (jBool (r.flags.has p.1)) ++ ascii ",") := by
        rw [List.flatMap_map]
      rw [h1, flag_names_eq, List.flatMap_map, List.flatMap_map]
      have : ∀ l : List (Nat × String), (∀ p, p ∈ l → p.1 < 32) →
          l.flatMap (fun p => jMember p.2 (jBool (r.flags.has (bit p.1))) ++ ascii ",") =
          l.flatMap (fun p => jMember p.2 (jBool (r.flags.getLsbD p.1)) ++ ascii ",") := by
        intro l hl
        induction l with
        | nil => rfl
        | cons p l ih =>
          rw [List.flatMap_cons, List.flatMap_cons, ih (fun q hq => hl q (by simp [hq])), Flags.has_bit _ _ (hl p (by simp))]
      exact this flagTable flagTable_lt
    · intro p acc
      simp only [opsText, List.foldl_cons, List.foldl_nil, opText, jMember, jBool, List.append_assoc]
  have hev : ∀ acc, opsText at_ (parentEventOps r) acc = acc ++ (match r.event with
      | some e => [jMember "parent-event" (jString e.label)]
      | none => []).flatMap (fun m => m ++ ascii ",") := by
    intro acc
    unfold parentEventOps
    cases r.event with
    | none => simp [opsText]
    | some e =>
      simp only [opsText, List.foldl_cons, List.foldl_nil, opText, List.flatMap_cons, List.flatMap_nil, List.append_nil,
        jMember, jString, List.append_assoc]
      congr 1
  have hfam : ∀ acc, opsText at_ (familyOps E r numeric) acc = acc ++
      (if r.flags.getLsbD 0 = true then [] else [jMember "family" (familyText E r numeric)]).flatMap (fun m => m ++ ascii ",") := by
    intro acc
    unfold familyOps
    rw [show RF.SA_FAMILY_WILDCARD = bit 0 from rfl, Flags.has_bit _ _ (by decide)]
    by_cases h : r.flags.getLsbD 0 = true
    · rw [if_pos h, if_pos h]; simp [opsText]
    · rw [if_neg h, if_neg h]
      unfold familyText
      cases (if numeric = true then none else E.famName r.family) with
      | none =>
        simp only [opsText, List.foldl_cons, List.foldl_nil, opText, List.flatMap_cons, List.flatMap_nil, List.append_nil,
          jMember, List.append_assoc]
        congr 1
      | some nm =>
        simp only [opsText, List.foldl_cons, List.foldl_nil, opText, List.flatMap_cons, List.flatMap_nil, List.append_nil,
          jMember, List.append_assoc]
        congr 1
  have hpro : ∀ acc, opsText at_ (protoOps E r numeric) acc = acc ++
      (if r.flags.getLsbD 2 = true then [] else [jMember "protocol" (protoText E r numeric)]).flatMap (fun m => m ++ ascii ",") := by
    intro acc
    unfold protoOps
    rw [show RF.SA_PROTO_WILDCARD = bit 2 from rfl, Flags.has_bit _ _ (by decide)]
    by_cases h : r.flags.getLsbD 2 = true
    · rw [if_pos h, if_pos h]; simp [opsText]
    · rw [if_neg h, if_neg h]
      have hbody : ∀ acc, opsText at_ (protoValueOps E r numeric) acc = acc ++ protoText E r numeric := by
        intro acc
        unfold protoText protoValueOps
        by_cases hn : numeric = true
        · rw [if_pos (by simp [hn]), if_pos hn]; rfl
        · rw [if_neg hn]
          by_cases hfm : r.family = 2 ∨ r.family = 10
          · have hcond : ¬ ((numeric || !(r.family == AF_INET || r.family == AF_INET6)) = true) := by
              have hn' : numeric = false := by simpa using hn
              rcases hfm with hfm | hfm <;> rw [hfm, hn'] <;> decide
            rw [if_neg hcond, if_pos hfm]
            cases hpr : E.proto r.proto with
            | found nm => simp only [opsText, List.foldl_cons, List.foldl_nil, opText, jString, List.append_assoc]
            | error => rfl
            | unknown =>
              rcases hproto with h' | h' | h' | h'
              · exact absurd h' h
              · exact absurd h' hn
              · exact absurd hfm (fun hc => hc.elim h'.1 h'.2)
              · exact absurd hpr h'
          · rw [if_neg hfm, if_pos (by
              have h2 : (r.family == AF_INET) = false := by
                simp only [beq_eq_false_iff_ne]; exact fun hc => hfm (Or.inl hc)
              have h10 : (r.family == AF_INET6) = false := by
                simp only [beq_eq_false_iff_ne]; exact fun hc => hfm (Or.inr hc)
              rw [h2, h10]; simp)]
            rfl
      rw [opsText_append, opsText_append, hbody]
      simp only [opsText, List.foldl_cons, List.foldl_nil, opText, List.flatMap_cons, List.flatMap_nil, List.append_nil,
        jMember, List.append_assoc]
      congr 1
  unfold formatJsonOps
  rw [opsText_append, opsText_append, opsText_append, opsText_append, opsText_append, opsText_append, opsText_append]
  rw [hev, hf, hfam, hpro]
  rw [show ("\"remote\":{" : String) = "\"" ++ "remote" ++ "\":{" from by decide,
    show ("\"local\":{" : String) = "\"" ++ "local" ++ "\":{" from by decide]
  rw [show endpointOps r r.remote ("\"" ++ "remote" ++ "\":{") RF.SA_REMOTE_ADDR_WILDCARD RF.SA_REMOTE_PORT_WILDCARD
      RF.REMOTE_INTERFACE_WILDCARD RF.REMOTE_ADDR_BITMASK =
      endpointOps r r.remote ("\"" ++ "remote" ++ "\":{") (bit 1) (bit 5) (bit 6) (bit 12) from rfl, hrem]
  rw [show endpointOps r r.loc ("\"" ++ "local" ++ "\":{") RF.SA_LOCAL_ADDR_WILDCARD RF.SA_LOCAL_PORT_WILDCARD
      RF.LOCAL_INTERFACE_WILDCARD RF.LOCAL_ADDR_BITMASK =
      endpointOps r r.loc ("\"" ++ "local" ++ "\":{") (bit 4) (bit 3) (bit 7) (bit 13) from rfl, hloc]
  show (List.dropLast _ ++ ascii "}") = _
  unfold ruleJson jObject
  simp only
  have hne : ∀ a b c d e : List (List Byte), a ++ flagTable.map (fun p => jMember p.2 (jBool (r.flags.getLsbD p.1))) ++ b ++ c ++ d ++ e ≠ [] := by
    intro a b c d e hc
    have := congrArg List.length hc
    simp [flagTable] at this
  rw [← joined_dropLast (ascii "{") _ (hne _ _ _ _ _)]
  simp only [List.flatMap_append, List.append_assoc]
  rfl

/-- The arguments of every step are renderable. -/
theorem formatJson_ok (E : FmtEnv) (r : Route) (numeric : Bool) (at_ : List Byte → Nat → List Byte)
    (hproto : r.flags.getLsbD 2 = true ∨ numeric = true ∨ (r.family ≠ 2 ∧ r.family ≠ 10) ∨ E.proto r.proto ≠ .unknown)
    (hnum : r.family < 65536 ∧ r.proto < 65536 ∧ r.remote.bits < 65536 ∧ r.remote.port < 65536 ∧ r.remote.iface < 256 ∧
      r.loc.bits < 65536 ∧ r.loc.port < 65536 ∧ r.loc.iface < 256)
    (haddr : ∀ p, p ∈ renderedAddrs r → AddrText E r.family p.1 p.2 (at_ p.1 p.2) ∧ (p.2 + 7) / 8 ≤ p.1.length) :
    ∀ o, o ∈ formatJsonOps E r numeric → OpOK E r.family at_ o ∧
      (renderedAddrs r = [] → NoAddr o) := by
  obtain ⟨n1, n2, n3, n4, n5, n6, n7, n8⟩ := hnum
  have hep : ∀ (e : Endpoint) (key : String) (aw pw iw bm : Nat), aw < 32 → bm < 32 → e.bits < 65536 → e.port < 65536 → e.iface < 256 →
      (∀ p, p ∈ (if r.flags.getLsbD aw then []
        else if r.flags.getLsbD bm then [(e.addr, e.bits / 2), (e.addr.drop ((e.bits / 2 + 7) / 8), e.bits / 2)]
        else [(e.addr, e.bits)]) → p ∈ renderedAddrs r) →
      ∀ o, o ∈ endpointOps r e key (bit aw) (bit pw) (bit iw) (bit bm) → OpOK E r.family at_ o ∧ (renderedAddrs r = [] → NoAddr o) := by
    intro e key aw pw iw bm ha hb hbits hport hif hsub o ho
    have h3 : e.bits >>> 1 = e.bits / 2 := Nat.shiftRight_eq_div_pow _ 1
    have h4 : bitsToBytes (e.bits / 2) = (e.bits / 2 + 7) / 8 := by unfold bitsToBytes; exact Nat.shiftRight_eq_div_pow _ 3
    unfold endpointOps at ho
    simp only at ho
    simp only [Flags.has_bit _ _ ha, Flags.has_bit _ _ hb, h3, h4] at ho
    have hstr : ∀ b, OpOK E r.family at_ (.str b) ∧ (renderedAddrs r = [] → NoAddr (.str b)) := fun b => ⟨trivial, fun _ => trivial⟩
    have hnumo : ∀ n, n < 65536 → OpOK E r.family at_ (.num n) ∧ (renderedAddrs r = [] → NoAddr (.num n)) :=
      fun n hn => ⟨by show n < 2147483648; omega, fun _ => trivial⟩
    have haddr' : ∀ st lead a bits trail, (a, bits) ∈ renderedAddrs r → trail ≠ [] →
        OpOK E r.family at_ (.addr st lead a bits trail) ∧ (renderedAddrs r = [] → NoAddr (.addr st lead a bits trail)) := by
      intro st lead a bits trail hm htr
      refine ⟨⟨(haddr _ hm).1, (haddr _ hm).2, htr⟩, fun hc => ?_⟩
      rw [hc] at hm
      exact absurd hm List.not_mem_nil
    split at ho
    · simp only [List.append_assoc, List.mem_append, List.mem_singleton] at ho
      rcases ho with rfl | ho | ho | ho | rfl
      · exact hstr _
      · cases haw : r.flags.getLsbD aw with
        | true => rw [haw] at ho; simp at ho
        | false =>
          rw [haw] at ho hsub
          cases hbm : r.flags.getLsbD bm with
          | true =>
            rw [hbm] at ho hsub
            simp only [Bool.not_false, if_true, List.mem_cons, List.not_mem_nil, or_false] at ho
            rcases ho with rfl | rfl
            · exact haddr' _ _ _ _ _ (hsub _ (by simp)) (by decide)
            · exact haddr' _ _ _ _ _ (hsub _ (by simp)) (by decide)
          | false =>
            rw [hbm] at ho hsub
            simp only [Bool.not_false, if_true, Bool.false_eq_true, if_false, List.mem_cons, List.not_mem_nil, or_false] at ho
            rcases ho with rfl | rfl | rfl
            · exact haddr' _ _ _ _ _ (hsub _ (by simp)) (by decide)
            · exact hnumo _ hbits
            · exact hstr _
      · split at ho
        · simp only [List.mem_cons, List.not_mem_nil, or_false] at ho
          rcases ho with rfl | rfl | rfl
          · exact hstr _
          · exact hnumo _ hport
          · exact hstr _
        · simp at ho
      · split at ho
        · simp only [List.mem_cons, List.not_mem_nil, or_false] at ho
          rcases ho with rfl | rfl | rfl
          · exact hstr _
          · exact hnumo _ (by omega)
          · exact hstr _
        · simp at ho
      · exact ⟨by show ascii "}," ≠ []; decide, fun _ => trivial⟩
    · simp at ho
  intro o ho
  unfold formatJsonOps at ho
  simp only [List.append_assoc, List.mem_append, List.mem_singleton] at ho
  rcases ho with rfl | ho | ho | ho | ho | ho | ho | rfl
  · exact ⟨trivial, fun _ => trivial⟩
  · unfold parentEventOps at ho
    cases he : r.event with
    | none => rw [he] at ho; simp at ho
    | some e =>
      rw [he] at ho
      simp only [List.mem_cons, List.not_mem_nil, or_false] at ho
      rcases ho with rfl | rfl | rfl <;> exact ⟨trivial, fun _ => trivial⟩
  · unfold flagOps at ho
    obtain ⟨p, _, hp⟩ := List.mem_flatMap.1 ho
    simp only [List.mem_cons, List.not_mem_nil, or_false] at hp
    rcases hp with rfl | rfl | rfl | rfl | rfl <;> exact ⟨trivial, fun _ => trivial⟩
  · unfold familyOps at ho
    split at ho
    · simp at ho
    · simp only [List.mem_cons, List.not_mem_nil, or_false] at ho
      rcases ho with rfl | rfl | rfl
      · exact ⟨trivial, fun _ => trivial⟩
      · split
        · exact ⟨trivial, fun _ => trivial⟩
        · exact ⟨by show r.family < 2147483648; omega, fun _ => trivial⟩
      · exact ⟨trivial, fun _ => trivial⟩
  · unfold protoOps protoValueOps at ho
    by_cases h2 : r.flags.has RF.SA_PROTO_WILDCARD = true
    · rw [if_pos h2] at ho; simp at ho
    · rw [if_neg h2] at ho
      have h2' : ¬ r.flags.getLsbD 2 = true := by
        rw [show RF.SA_PROTO_WILDCARD = bit 2 from rfl, Flags.has_bit _ _ (by decide)] at h2; exact h2
      simp only [List.append_assoc, List.mem_append, List.mem_singleton] at ho
      rcases ho with rfl | ho | rfl
      · exact ⟨trivial, fun _ => trivial⟩
      · by_cases hc : (numeric || !(r.family == AF_INET || r.family == AF_INET6)) = true
        · rw [if_pos hc] at ho
          simp only [List.mem_singleton] at ho
          subst ho
          exact ⟨by show r.proto < 2147483648; omega, fun _ => trivial⟩
        · rw [if_neg hc] at ho
          cases hp : E.proto r.proto with
          | found nm =>
            rw [hp] at ho
            simp only [List.mem_cons, List.not_mem_nil, or_false] at ho
            rcases ho with rfl | rfl | rfl <;> exact ⟨trivial, fun _ => trivial⟩
          | error =>
            rw [hp] at ho
            simp only [List.mem_singleton] at ho
            subst ho
            exact ⟨by show r.proto < 2147483648; omega, fun _ => trivial⟩
          | unknown =>
            simp only [Bool.or_eq_true, Bool.not_eq_true', Bool.or_eq_false_iff, beq_eq_false_iff_ne, not_or] at hc
            rcases hproto with h' | h' | h' | h'
            · exact absurd h' h2'
            · exact absurd h' hc.1
            · exact absurd h' hc.2
            · exact absurd hp h'
      · exact ⟨trivial, fun _ => trivial⟩
  · exact hep r.remote _ 1 5 6 12 (by decide) (by decide) n3 n4 n5
      (fun p hp => List.mem_append.2 (Or.inl hp)) o ho
  · exact hep r.loc _ 4 3 7 13 (by decide) (by decide) n6 n7 n8
      (fun p hp => List.mem_append.2 (Or.inr hp)) o ho
  · exact ⟨by show ascii "}" ≠ []; decide, fun _ => trivial⟩

/-- The fields have the sizes of their C types. -/
def FieldsInRange (r : Route) : Prop :=
  r.family < 65536 ∧ r.proto < 65536 ∧ r.remote.bits < 65536 ∧ r.remote.port < 65536 ∧ r.remote.iface < 256 ∧
  r.loc.bits < 65536 ∧ r.loc.port < 65536 ∧ r.loc.iface < 256

/-- A rule whose addresses and protocol can be rendered. -/
structure Renderable (E : FmtEnv) (r : Route) (numeric : Bool) (at_ : List Byte → Nat → List Byte) : Prop where
  fields : FieldsInRange r
  proto : r.flags.getLsbD 2 = true ∨ numeric = true ∨ (r.family ≠ 2 ∧ r.family ≠ 10) ∨ E.proto r.proto ≠ .unknown
  addrs : ∀ p, p ∈ renderedAddrs r → AddrText E r.family p.1 p.2 (at_ p.1 p.2) ∧ (p.2 + 7) / 8 ≤ p.1.length

/-- A rule is exported as exactly its JSON object, and nothing is stored outside the buffer, whenever the
buffer (of less than 2 GiB) has room for that object. -/
theorem C47_export_exact (E : FmtEnv) (r : Route) (numeric : Bool) (at_ : List Byte → Nat → List Byte) (cap : Nat)
    (hr : Renderable E r numeric at_) (hcap : cap < 2147483648)
    (hfit : (ruleJson r at_ (familyText E r numeric) (protoText E r numeric)).length ≤ cap) :
    ∃ s, formatJson E r numeric cap = .ok s ∧ s.text = ruleJson r at_ (familyText E r numeric) (protoText E r numeric) ∧
      s.left = cap - s.text.length ∧ s.high ≤ cap := by
  have htext := formatJson_text E r numeric at_ hr.proto
  have hok := formatJson_ok E r numeric at_ hr.proto hr.fields hr.addrs
  rw [← htext] at hfit ⊢
  have hcons : ∃ rest, formatJsonOps E r numeric = .str (ascii "{") :: rest := ⟨_, rfl⟩
  obtain ⟨rest, hrest⟩ := hcons
  unfold formatJson
  rw [hrest] at hok hfit ⊢
  have g0 : Good cap { left := cap } := ⟨rfl, Nat.zero_le _⟩
  have hmono := opsText_len at_ E r.family rest (opText at_ (.str (ascii "{")) []) (fun o h => (hok o (by simp [h])).1)
  have h1len : (opText at_ (.str (ascii "{")) []).length = 1 := by show (ascii "{").length = 1; decide
  obtain ⟨s1, h1, h2, g1⟩ := runOp_ok E r.family at_ cap hcap (.str (ascii "{")) { left := cap } g0 trivial
    (Or.inr (fun b h => by cases h)) (Nat.le_trans hmono hfit)
  obtain ⟨s2, h3, h4, g2⟩ := runOps_ok E r.family at_ cap hcap rest s1 g1 (fun o h => (hok o (by simp [h])).1)
    (by rw [h2]; show ascii "{" ≠ []; decide) (by rw [h2]; exact hfit)
  refine ⟨s2, by rw [runOps, h1]; exact h3, by rw [h4, h2]; rfl, ?_, g2.high⟩
  have := g2.left
  omega

/-- Rules without addresses: a buffer that is too small is reported as such, and nothing is stored outside
it. -/
theorem C47_export_too_small_partial (E : FmtEnv) (r : Route) (numeric : Bool) (at_ : List Byte → Nat → List Byte) (cap : Nat)
    (hr : Renderable E r numeric at_) (hcap : cap < 2147483648) (hno : renderedAddrs r = [])
    (hfit : cap < (ruleJson r at_ (familyText E r numeric) (protoText E r numeric)).length) :
    ∃ s, formatJson E r numeric cap = .fail .bufferTooSmall s ∧ s.high ≤ cap := by
  have htext := formatJson_text E r numeric at_ hr.proto
  have hok := formatJson_ok E r numeric at_ hr.proto hr.fields hr.addrs
  rw [← htext] at hfit
  have hcons : ∃ rest, formatJsonOps E r numeric = .str (ascii "{") :: rest := ⟨_, rfl⟩
  obtain ⟨rest, hrest⟩ := hcons
  unfold formatJson
  rw [hrest] at hok hfit ⊢
  have g0 : Good cap { left := cap } := ⟨rfl, Nat.zero_le _⟩
  have h1len : (opText at_ (.str (ascii "{")) []).length = 1 := by show (ascii "{").length = 1; decide
  by_cases hc : 1 ≤ cap
  · obtain ⟨s1, h1, h2, g1⟩ := runOp_ok E r.family at_ cap hcap (.str (ascii "{")) { left := cap } g0 trivial
      (Or.inr (fun b h => by cases h)) (by show (opText at_ (.str (ascii "{")) []).length ≤ cap; omega)
    obtain ⟨s2, h3, h4⟩ := runOps_small E r.family at_ cap hcap rest s1 g1
      (fun o h => ⟨(hok o (by simp [h])).1, (hok o (by simp [h])).2 hno⟩)
      (by rw [h2]; show ascii "{" ≠ []; decide) (by rw [h2]; exact hfit)
    exact ⟨s2, by rw [runOps, h1]; exact h3, h4⟩
  · have hcap0 : cap = 0 := by omega
    subst hcap0
    refine ⟨{ left := 0 }, ?_, Nat.le_refl _⟩
    rw [runOps]
    have : runOp E r.family (.str (ascii "{")) { left := 0 } = .fail .bufferTooSmall { left := 0 } := by
      show writeBytes (ascii "{") { left := 0 } = _
      unfold writeBytes
      rw [if_pos (by show 0 < (ascii "{").length; decide)]
    rw [this]; rfl

/-! ### examples and findings -/

/-- An incoming TCP/IPv4 rule for 127.0.0.1/32, any remote port and interface, local side unspecified. -/
def fmtRule : Route :=
  { flags := bit 10 ||| bit 5 ||| bit 6 ||| bit 4 ||| bit 3 ||| bit 7, family := 2, proto := 6,
    remote := { bits := 32, addr := [127#8, 0, 0, 1] } }

def fmtAt (_ : List Byte) (_ : Nat) : List Byte := ascii "127.0.0.1"

theorem fmt_renderable (numeric : Bool) : Renderable fmtEnv fmtRule numeric fmtAt := by
  refine ⟨by unfold FieldsInRange; decide, Or.inr (Or.inr (Or.inr (by decide))), ?_⟩
  intro p hp
  have : p = ([127#8, 0, 0, 1], 32) := by
    have h : renderedAddrs fmtRule = [([127#8, 0, 0, 1], 32)] := by decide
    rw [h] at hp; simpa using hp
  subst this
  refine ⟨?_, by decide⟩
  show (_ ∧ _) ∨ (_ ∧ _) ∨ _
  right; left
  exact ⟨rfl, by decide, rfl⟩

/-- A CAN rule with address and bitmask; everything else is a wildcard. -/
def fmtOverRule : Route :=
  { flags := bit 0 ||| bit 2 ||| bit 10 ||| bit 12 ||| bit 5 ||| bit 6 ||| bit 4 ||| bit 3 ||| bit 7, family := 29,
    remote := { bits := 64, addr := [0#8, 0, 1, 2, 255, 255, 255, 255] } }

def fmtOverAt (a : List Byte) (bits : Nat) : List Byte :=
  ascii "0x" ++ ((a.take (bits / 8)).flatMap hexByte ++ List.replicate (2 * (4 - bits / 8)) 48#8)

/-- What a call reports: the code (0 for success), the number of bytes of text, and the highest index
stored to. -/
def callSummary : WRes → Option (Bool × Nat × Nat)
  | .ok s => some (true, s.text.length, s.high)
  | .fail _ s => some (false, s.text.length, s.high)
  | .ub => none

/-- Finding: the address length is checked against the space that was left *before* the key
`"address":"` was written.  With a buffer in which the key fits but the address does not, the export of
an ordinary rule stores past the end of the buffer, the remaining length wraps around, and the call
reports success: here 380 bytes of text in a buffer of 350. -/
theorem C47_export_overruns : callSummary (formatJson fmtEnv fmtOverRule true 350) = some (true, 380, 380) ∧
    FieldsInRange fmtOverRule := by
  refine ⟨by decide +kernel, by unfold FieldsInRange; decide⟩

/-- Finding: when the text fits but its terminator does not, a byte is stored past the end even though the
call reports that the buffer is too small. -/
theorem C47_export_overruns_by_one : callSummary (formatJson fmtEnv fmtOverRule true 354) = some (false, 354, 355) := by
  decide +kernel

/-- The text for the example. -/
example : (ruleJson fmtOverRule fmtOverAt [] []).drop 323 =
    ascii "\"remote\":{\"address\":\"0x00000102\",\"bitmask\":\"0xffffffff\"}}" := by
  decide +kernel

/-- The hypotheses of `C47_export_exact` are met by an ordinary rule; and those of
`C47_export_too_small_partial` by a rule without addresses. -/
example : Renderable fmtEnv fmtOverRule true fmtOverAt ∧ (ruleJson fmtOverRule fmtOverAt [] []).length = 380 := by
  refine ⟨⟨by unfold FieldsInRange; decide, Or.inl (by decide), ?_⟩, by decide +kernel⟩
  intro p hp
  have h : renderedAddrs fmtOverRule = [([0#8, 0, 1, 2, 255, 255, 255, 255], 32), ([255#8, 255, 255, 255], 32)] := by decide
  rw [h] at hp
  simp only [List.mem_cons, List.not_mem_nil, or_false] at hp
  rcases hp with rfl | rfl
  · exact ⟨Or.inr (Or.inr (Or.inr (Or.inr ⟨rfl, by decide⟩))), by decide⟩
  · exact ⟨Or.inr (Or.inr (Or.inr (Or.inr ⟨rfl, by decide⟩))), by decide⟩

example : Renderable fmtEnv { fmtOverRule with flags := fmtOverRule.flags ||| bit 1 } true fmtOverAt ∧
    renderedAddrs { fmtOverRule with flags := fmtOverRule.flags ||| bit 1 } = [] := by
  have h : renderedAddrs { fmtOverRule with flags := fmtOverRule.flags ||| bit 1 } = [] := by decide
  refine ⟨⟨by unfold FieldsInRange; decide, Or.inl (by decide), ?_⟩, h⟩
  intro p hp
  rw [h] at hp
  exact absurd hp List.not_mem_nil

/-- Finding: an IPv4 rule whose protocol number has no name is exported by reading an uninitialised
pointer. -/
theorem C47_unknown_protocol_undefined : ∃ (E : FmtEnv) (r : Route), FieldsInRange r ∧ r.flags.getLsbD 2 = false ∧ r.family = 2 ∧
    E.proto r.proto = .unknown ∧ formatJson E r false 4096 = .ub :=
  ⟨{ fmtEnv with proto := fun _ => .unknown }, { fmtRule with proto := 200, flags := bit 0 ||| fmtRule.flags },
    by unfold FieldsInRange; decide, by decide, rfl, rfl, by
      have h : callSummary (formatJson { fmtEnv with proto := fun _ => .unknown }
        { fmtRule with proto := 200, flags := bit 0 ||| fmtRule.flags } false 4096) = none := by decide +kernel
      revert h
      cases formatJson { fmtEnv with proto := fun _ => .unknown }
        { fmtRule with proto := 200, flags := bit 0 ||| fmtRule.flags } false 4096 with
      | ub => exact fun _ => rfl
      | fail e s => exact fun h => by cases h
      | ok s => exact fun h => by cases h⟩

/-- Rule flags and their names correspond one to one: looking a name up and looking the flag up again
gives the same flag, and conversely. -/
theorem C47_flag_names_round_trip (f : Flags) (nm : List Byte) :
    flagAssocByFlag f = .ok nm ↔ flagAssocByName nm = .ok f := by
  have hinj1 : ∀ p ∈ flagNames, ∀ q ∈ flagNames, p.1 = q.1 → p = q := by decide +kernel
  have hinj2 : ∀ p ∈ flagNames, ∀ q ∈ flagNames, ascii p.2 = ascii q.2 → p = q := by decide +kernel
  have h1 : flagAssocByFlag f = .ok nm ↔ ∃ p ∈ flagNames, p.1 = f ∧ ascii p.2 = nm := by
    unfold flagAssocByFlag
    cases h : flagNames.find? (fun p => p.1 == f) with
    | none =>
      simp only [reduceCtorEq, false_iff, not_exists, not_and]
      intro p hp hpf
      have := List.find?_eq_none.1 h p hp
      simp [hpf] at this
    | some q =>
      have hq := List.mem_of_find?_eq_some h
      have hqf : q.1 = f := by simpa using List.find?_some h
      constructor
      · intro he
        exact ⟨q, hq, hqf, by simpa using he⟩
      · rintro ⟨p, hp, hpf, hpn⟩
        have := hinj1 p hp q hq (hpf.trans hqf.symm)
        subst this
        rw [← hpn]
  have h2 : flagAssocByName nm = .ok f ↔ ∃ p ∈ flagNames, p.1 = f ∧ ascii p.2 = nm := by
    unfold flagAssocByName
    cases h : flagNames.find? (fun p => ascii p.2 == nm) with
    | none =>
      simp only [reduceCtorEq, false_iff, not_exists, not_and]
      intro p hp hpf hpn
      have := List.find?_eq_none.1 h p hp
      simp [hpn] at this
    | some q =>
      have hq := List.mem_of_find?_eq_some h
      have hqf : ascii q.2 = nm := by simpa using List.find?_some h
      constructor
      · intro he
        exact ⟨q, hq, by simpa using he, hqf⟩
      · rintro ⟨p, hp, hpf, hpn⟩
        have := hinj2 p hp q hq (hpn.trans hqf.symm)
        subst this
        rw [← hpf]
  rw [h1, h2]

example : flagAssocByName (ascii "port-reset") = .ok RF.PORT_RESET ∧ flagAssocByFlag RF.PORT_RESET = .ok (ascii "port-reset") := by
  decide +kernel

end WS.Props
