import Verif.Model.Format
/-
What rendered text should be (C47): decimal numbers, hexadecimal bytes, addresses, and the JSON form of a
rule.  From the model only data types, the external functions `FmtEnv` and string literals
(`ascii`) are used.
-/
namespace WS.Spec
open WS

/-- The character of a decimal digit. -/
def decDigit (d : Nat) : Byte := (ascii "0123456789").getD d 0

/-- Decimal text: no leading zeros. -/
def decimal (n : Nat) : List Byte :=
  if n < 10 then [decDigit n] else decimal (n / 10) ++ [decDigit (n % 10)]

/-- Decimal text of an integer. -/
def decimalInt (i : Int) : List Byte := if i < 0 then ascii "-" ++ decimal i.natAbs else decimal i.natAbs

/-- Two lower-case hexadecimal digits. -/
def hexByte (b : Byte) : List Byte :=
  [(ascii "0123456789abcdef").getD (b.toNat / 16) 0, (ascii "0123456789abcdef").getD (b.toNat % 16) 0]

/-- Texts separated by a separator. -/
def joined (sep : List Byte) : List (List Byte) → List Byte
  | [] => []
  | [x] => x
  | x :: y :: rest => x ++ sep ++ joined sep (y :: rest)

/-- Zero-extension to `n` bytes. -/
def padded (n : Nat) (a : List Byte) : List Byte := a ++ List.replicate (n - a.length) 0

/-- `t` is the text of the address in the first `bits` bits of `a`, of the given family.  Link-layer
addresses are rendered to whole bytes; IP addresses by the system; CAN identifiers as eight hexadecimal
digits; local addresses are file names. -/
def AddrText (E : FmtEnv) (family : Nat) (a : List Byte) (bits : Nat) (t : List Byte) : Prop :=
  match E.formatter family with
  | some f => ∀ len, t.length ≤ len → f a bits len = .ok t
  | none =>
    (family = 118 ∧ t = joined (ascii ":") ((a.take (bits / 8)).map hexByte)) ∨
    (family = 2 ∧ bits ≤ 32 ∧ t = E.ntop4 (padded 4 (a.take ((bits + 7) / 8)))) ∨
    (family = 10 ∧ bits ≤ 128 ∧ t = E.ntop6 (padded 16 (a.take ((bits + 7) / 8)))) ∨
    (family = 1 ∧ t = a.take ((bits + 7) / 8)) ∨
    (family = 29 ∧ t = ascii "0x" ++ ((padded 4 (a.take (bits / 8))).take 4).flatMap hexByte)

/-! ### JSON text -/

def jString (s : List Byte) : List Byte := ascii "\"" ++ s ++ ascii "\""
def jMember (k : String) (v : List Byte) : List Byte := ascii "\"" ++ ascii k ++ ascii "\":" ++ v
def jObject (ms : List (List Byte)) : List Byte := ascii "{" ++ joined (ascii ",") ms ++ ascii "}"
def jBool (b : Bool) : List Byte := if b then ascii "true" else ascii "false"

/-- The exported flags: bit number and name (wolfsentry/wolfsentry.h:1005-1065). -/
def flagTable : List (Nat × String) := [
  (0, "af-wild"), (1, "raddr-wild"), (5, "rport-wild"), (4, "laddr-wild"), (3, "lport-wild"),
  (6, "riface-wild"), (7, "liface-wild"), (9, "tcplike-port-numbers"), (10, "direction-in"),
  (11, "direction-out"), (20, "penalty-boxed"), (21, "green-listed"), (22, "dont-count-hits"),
  (23, "dont-count-current-connections"), (24, "port-reset")]

/-- The members of one endpoint object; bits `aw`, `pw`, `iw` mark address, port and interface as
wildcards, bit `bm` the address as address plus mask. -/
def endpointMembers (r : Route) (e : Endpoint) (aw pw iw bm : Nat) (at_ : List Byte → Nat → List Byte) :
    List (List Byte) :=
  (if r.flags.getLsbD aw then []
   else if r.flags.getLsbD bm then
     [jMember "address" (jString (at_ e.addr (e.bits / 2))),
      jMember "bitmask" (jString (at_ (e.addr.drop ((e.bits / 2 + 7) / 8)) (e.bits / 2)))]
   else [jMember "address" (jString (at_ e.addr e.bits)), jMember "prefix-bits" (decimal e.bits)]) ++
  (if r.flags.getLsbD pw then [] else [jMember "port" (decimal e.port)]) ++
  (if r.flags.getLsbD iw then [] else [jMember "interface" (decimal e.iface)])

/-- The JSON object for a rule.  `at_` gives the texts of its addresses; `family` and `proto` are the
rendered family and protocol. -/
def ruleJson (r : Route) (at_ : List Byte → Nat → List Byte) (family proto : List Byte) : List Byte :=
  let rem := endpointMembers r r.remote 1 5 6 12 at_
  let loc := endpointMembers r r.loc 4 3 7 13 at_
  jObject (
    (match r.event with
     | some e => [jMember "parent-event" (jString e.label)]
     | none => []) ++
    flagTable.map (fun p => jMember p.2 (jBool (r.flags.getLsbD p.1))) ++
    (if r.flags.getLsbD 0 then [] else [jMember "family" family]) ++
    (if r.flags.getLsbD 2 then [] else [jMember "protocol" proto]) ++
    (if rem = [] then [] else [jMember "remote" (jObject rem)]) ++
    (if loc = [] then [] else [jMember "local" (jObject loc)]))

/-- A family is written by name if it has one, unless numbers are asked for. -/
def familyText (E : FmtEnv) (r : Route) (numeric : Bool) : List Byte :=
  match (if numeric then none else E.famName r.family) with
  | some nm => jString nm
  | none => decimal r.family

/-- A protocol of an IP rule is written by name if it has one, unless numbers are asked for. -/
def protoText (E : FmtEnv) (r : Route) (numeric : Bool) : List Byte :=
  if numeric then decimal r.proto
  else if r.family = 2 ∨ r.family = 10 then
    match E.proto r.proto with
    | .found nm => jString nm
    | _ => decimal r.proto
  else decimal r.proto

/-- The addresses a rule's export renders, with their bit lengths. -/
def renderedAddrs (r : Route) : List (List Byte × Nat) :=
  let ends (e : Endpoint) (aw bm : Nat) : List (List Byte × Nat) :=
    if r.flags.getLsbD aw then []
    else if r.flags.getLsbD bm then [(e.addr, e.bits / 2), (e.addr.drop ((e.bits / 2 + 7) / 8), e.bits / 2)]
    else [(e.addr, e.bits)]
  ends r.remote 1 12 ++ ends r.loc 4 13

end WS.Spec
