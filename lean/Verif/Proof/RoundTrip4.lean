import Verif.Proof.RoundTrip3
/-
Auxiliary lemmas for C57: the object of a rule is read back.
-/
namespace WS.RoundTrip
open WS WS.Sax WS.Conf WS.Spec WS.Spec.Load WS.Spec.RoundTrip

variable {α : Type}

abbrev quote : List Byte := [0x22#8]
abbrev comma : List Byte := [0x2c#8]

def familyTree (F : FmtEnv) (r : Route) (numeric : Bool) : J :=
  match (if numeric then none else F.famName r.family) with
  | some nm => .str nm quote
  | none => .num (decimal r.family) comma

def protoTree (F : FmtEnv) (r : Route) (numeric : Bool) : J :=
  if numeric then .num (decimal r.proto) comma
  else if r.family = 2 ∨ r.family = 10 then
    match F.proto r.proto with
    | .found nm => .str nm quote
    | _ => .num (decimal r.proto) comma
  else .num (decimal r.proto) comma

abbrev remEntries (r : Route) (at_ : List Byte → Nat → List Byte) : List Entry := endEntries r r.remote 1 5 6 12 at_ quote comma
abbrev locEntries (r : Route) (at_ : List Byte → Nat → List Byte) : List Entry := endEntries r r.loc 4 3 7 13 at_ quote comma

def parentEntry (r : Route) : List Entry :=
  match r.event with
  | some e => [⟨"parent-event", jString e.label, .str e.label quote⟩]
  | none => []

def flagEntry (r : Route) (p : Nat × String) : Entry := ⟨p.2, jBool (r.flags.getLsbD p.1), .bool (r.flags.getLsbD p.1)⟩

def objEntry (k : String) (es : List Entry) : List Entry :=
  if es.map Entry.member = [] then [] else [⟨k, jObject (es.map Entry.member), .obj (es.map Entry.pair)⟩]

/-- The members of an exported rule, with their trees. -/
def ruleEntries (F : FmtEnv) (r : Route) (numeric : Bool) (at_ : List Byte → Nat → List Byte) : List Entry :=
  parentEntry r ++ flagTable.map (flagEntry r) ++
    (if r.flags.getLsbD 0 then [] else [⟨"family", familyText F r numeric, familyTree F r numeric⟩]) ++
    (if r.flags.getLsbD 2 then [] else [⟨"protocol", protoText F r numeric, protoTree F r numeric⟩]) ++
    objEntry "remote" (remEntries r at_) ++ objEntry "local" (locEntries r at_)

theorem ruleEntries_text (F : FmtEnv) (r : Route) (numeric : Bool) (at_ : List Byte → Nat → List Byte) :
    jObject ((ruleEntries F r numeric at_).map Entry.member) = ruleJson r at_ (familyText F r numeric) (protoText F r numeric) := by
  unfold ruleEntries ruleJson objEntry
  simp only [List.map_append]
  rw [endEntries_text, endEntries_text]
  congr 1
  congr 1
  · congr 1
    · congr 1
      · congr 1
        · congr 1
          unfold parentEntry; cases r.event <;> rfl
        · split <;> rfl
      · split <;> rfl
    · split <;> rfl
  · split <;> rfl

/-! ### The text -/

theorem ends_text {F : FmtEnv} {r : Route} {e : Endpoint} {aw bm : Nat} {at_ : List Byte → Nat → List Byte}
    (h : ∀ p, p ∈ (if r.flags.getLsbD aw then ([] : List (List Byte × Nat))
      else if r.flags.getLsbD bm then [(e.addr, e.bits / 2), (e.addr.drop ((e.bits / 2 + 7) / 8), e.bits / 2)]
      else [(e.addr, e.bits)]) → AddrText F r.family p.1 p.2 (at_ p.1 p.2)) : EndText F r e aw bm at_ := by
  intro ha
  rw [ha] at h
  cases hm : r.flags.getLsbD bm with
  | true =>
    simp only [hm, Bool.false_eq_true, if_false, if_true] at h
    exact ⟨h (e.addr, e.bits / 2) (by simp), h (e.addr.drop ((e.bits / 2 + 7) / 8), e.bits / 2) (by simp)⟩
  | false =>
    simp only [hm, Bool.false_eq_true, if_false] at h
    exact h (e.addr, e.bits) (by simp)

theorem remote_text {F : FmtEnv} {r : Route} {at_ : List Byte → Nat → List Byte}
    (h : ∀ p, p ∈ renderedAddrs r → AddrText F r.family p.1 p.2 (at_ p.1 p.2)) : EndText F r r.remote 1 12 at_ :=
  ends_text fun p hp => h p (List.mem_append.2 (Or.inl hp))

theorem local_text {F : FmtEnv} {r : Route} {at_ : List Byte → Nat → List Byte}
    (h : ∀ p, p ∈ renderedAddrs r → AddrText F r.family p.1 p.2 (at_ p.1 p.2)) : EndText F r r.loc 4 13 at_ :=
  ends_text fun p hp => h p (List.mem_append.2 (Or.inr hp))

/-- The sizes of the fields. -/
structure Sizes (r : Route) : Prop where
  family : r.family < 65536
  proto : r.proto < 65536
  rbits : r.remote.bits < 65536
  rport : r.remote.port < 65536
  riface : r.remote.iface < 256
  lbits : r.loc.bits < 65536
  lport : r.loc.port < 65536
  liface : r.loc.iface < 256

theorem family_good {F : FmtEnv} {E : Env α} (hb : ReadsBack F E) {r : Route} (hs : r.family < 65536) (numeric : Bool) (d : Nat) :
    Tx d (familyText F r numeric) (familyTree F r numeric) := by
  unfold familyText familyTree
  cases h : (if numeric then none else F.famName r.family) with
  | none => exact tx_decimal hs _
  | some nm =>
    have : F.famName r.family = some nm := by
      cases numeric with
      | true => simp at h
      | false => simpa using h
    obtain ⟨h1, h2, _⟩ := hb.family _ _ this
    exact tx_string h1 h2 _

theorem proto_good {F : FmtEnv} {E : Env α} (hb : ReadsBack F E) {r : Route} (hs : r.proto < 65536) (numeric : Bool) (d : Nat) :
    Tx d (protoText F r numeric) (protoTree F r numeric) := by
  unfold protoText protoTree
  cases numeric with
  | true => exact tx_decimal hs _
  | false =>
    simp only [Bool.false_eq_true, if_false]
    split
    · cases h : F.proto r.proto with
      | found nm =>
        obtain ⟨h1, h2, _⟩ := hb.proto _ _ h
        exact tx_string h1 (by omega) _
      | unknown => exact tx_decimal hs _
      | error => exact tx_decimal hs _
    · exact tx_decimal hs _

theorem objEntry_good {k : String} {es : List Entry} {d : Nat} (hk : ∀ b ∈ ascii k, PlainByte b) (hk2 : (ascii k).length ≤ 32) (hd : d + 1 ≤ 16)
    (h : ∀ e ∈ es, e.Good (d + 1)) : ∀ e ∈ objEntry k es, e.Good d := by
  intro e he
  unfold objEntry at he
  split at he
  · cases he
  · rename_i hne
    rw [List.mem_singleton.1 he]
    exact ⟨hk, hk2, tx_object hd (by rintro rfl; exact hne rfl) h⟩

theorem flagTable_good : ∀ p ∈ flagTable, (∀ b ∈ ascii p.2, PlainByte b) ∧ (ascii p.2).length < 32 ∧ name (ascii p.2) = ascii p.2 ∧ p.1 < 32 ∧
    (bit p.1, p.2) ∈ flagNames := by
  decide

theorem rule_good {F : FmtEnv} {E : Env α} (hb : ReadsBack F E) {r : Route} (hr : Reloadable F E r) (hs : Sizes r) {numeric : Bool}
    {at_ : List Byte → Nat → List Byte} (ht : ∀ p, p ∈ renderedAddrs r → AddrText F r.family p.1 p.2 (at_ p.1 p.2)) :
    ∀ e ∈ ruleEntries F r numeric at_, e.Good 3 := by
  intro e he
  unfold ruleEntries at he
  rcases List.mem_append.1 he with he | he
  · rcases List.mem_append.1 he with he | he
    · rcases List.mem_append.1 he with he | he
      · rcases List.mem_append.1 he with he | he
        · rcases List.mem_append.1 he with he | he
          · unfold parentEntry at he
            cases hev : r.event with
            | none => rw [hev] at he; cases he
            | some ev =>
              rw [hev] at he
              rw [List.mem_singleton.1 he]
              obtain ⟨h1, h2⟩ := hr.label ev hev
              exact ⟨by show ∀ b ∈ ascii "parent-event", PlainByte b; decide, by show (ascii "parent-event").length ≤ 32; decide, tx_string h1 (by omega) _⟩
          · obtain ⟨p, hp, rfl⟩ := List.mem_map.1 he
            obtain ⟨h1, h2, _⟩ := flagTable_good p hp
            exact ⟨h1, by exact Nat.le_of_lt h2, tx_bool _⟩
        · split at he
          · cases he
          · rw [List.mem_singleton.1 he]
            exact ⟨by show ∀ b ∈ ascii "family", PlainByte b; decide, by show (ascii "family").length ≤ 32; decide, family_good hb hs.family numeric 3⟩
      · split at he
        · cases he
        · rw [List.mem_singleton.1 he]
          exact ⟨by show ∀ b ∈ ascii "protocol", PlainByte b; decide, by show (ascii "protocol").length ≤ 32; decide, proto_good hb hs.proto numeric 3⟩
    · exact objEntry_good (by decide) (by decide) (by decide)
        (end_good hb hr.remote (remote_text ht) _ _ hs.rbits hs.rport hs.riface 4) e he
  · exact objEntry_good (by decide) (by decide) (by decide)
      (end_good hb hr.loc (local_text ht) _ _ hs.lbits hs.lport hs.liface 4) e he

/-- The exported text is the text of the tree. -/
theorem rule_text {F : FmtEnv} {E : Env α} (hb : ReadsBack F E) {r : Route} (hr : Reloadable F E r) (hs : Sizes r) {numeric : Bool}
    {at_ : List Byte → Nat → List Byte} (ht : ∀ p, p ∈ renderedAddrs r → AddrText F r.family p.1 p.2 (at_ p.1 p.2)) :
    Tx 2 (ruleJson r at_ (familyText F r numeric) (protoText F r numeric)) (.obj ((ruleEntries F r numeric at_).map Entry.pair)) := by
  rw [← ruleEntries_text]
  refine tx_object (by decide) ?_ (rule_good hb hr hs ht)
  unfold ruleEntries
  intro h
  simp [flagTable] at h

/-! ### In place -/

theorem inPlace_all : ∀ {es : List Entry}, (∀ e ∈ es, e.tree.InPlace) → membersInPlace (es.map Entry.pair)
  | [], _ => trivial
  | e :: es, h => ⟨h e (by simp), inPlace_all fun x hx => h x (by simp [hx])⟩

theorem num_inPlace (n : Nat) : (J.num (decimal n) comma).InPlace :=
  ⟨decimal_number n, 0x2c#8, [], rfl, by unfold Spec.Conf.Delimiter; decide⟩

theorem str_inPlace (t : List Byte) : (J.str t quote).InPlace := ⟨[], rfl⟩

theorem end_inPlace (r : Route) (e : Endpoint) (aw pw iw bm : Nat) (at_ : List Byte → Nat → List Byte) :
    ∀ x ∈ endEntries r e aw pw iw bm at_ quote comma, x.tree.InPlace := by
  intro x hx
  unfold endEntries at hx
  rcases List.mem_append.1 hx with hx | hx
  · rcases List.mem_append.1 hx with hx | hx
    · split at hx
      · cases hx
      · split at hx <;>
        · simp only [List.mem_cons, List.not_mem_nil, or_false] at hx
          rcases hx with rfl | rfl <;> first | exact str_inPlace _ | exact num_inPlace _
    · split at hx
      · cases hx
      · rw [List.mem_singleton.1 hx]; exact num_inPlace _
  · split at hx
    · cases hx
    · rw [List.mem_singleton.1 hx]; exact num_inPlace _

theorem obj_inPlace {k : String} {es : List Entry} (h : ∀ e ∈ es, e.tree.InPlace) : ∀ e ∈ objEntry k es, e.tree.InPlace := by
  intro e he
  unfold objEntry at he
  split at he
  · cases he
  · rw [List.mem_singleton.1 he]; exact inPlace_all h

theorem rule_inPlace (F : FmtEnv) (r : Route) (numeric : Bool) (at_ : List Byte → Nat → List Byte) :
    (J.obj ((ruleEntries F r numeric at_).map Entry.pair)).InPlace := by
  refine inPlace_all fun e he => ?_
  unfold ruleEntries at he
  rcases List.mem_append.1 he with he | he
  · rcases List.mem_append.1 he with he | he
    · rcases List.mem_append.1 he with he | he
      · rcases List.mem_append.1 he with he | he
        · rcases List.mem_append.1 he with he | he
          · unfold parentEntry at he
            split at he
            · rw [List.mem_singleton.1 he]; exact str_inPlace _
            · cases he
          · obtain ⟨p, hp, rfl⟩ := List.mem_map.1 he
            trivial
        · split at he
          · cases he
          · rw [List.mem_singleton.1 he]
            show (familyTree F r numeric).InPlace
            unfold familyTree
            split
            · exact str_inPlace _
            · exact num_inPlace _
      · split at he
        · cases he
        · rw [List.mem_singleton.1 he]
          show (protoTree F r numeric).InPlace
          unfold protoTree
          split
          · exact num_inPlace _
          · split
            · split
              · exact str_inPlace _
              · exact num_inPlace _
            · exact num_inPlace _
    · exact obj_inPlace (end_inPlace r r.remote 1 5 6 12 at_) e he
  · exact obj_inPlace (end_inPlace r r.loc 4 3 7 13 at_) e he

end WS.RoundTrip
