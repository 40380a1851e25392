import Verif.Spec.Format
import Verif.Spec.Config
import Verif.Model.RouteOps
/-
What it means to load an exported rule back (property C57).  From the models only data types are used, and
`bitsToBytes` (the number of bytes that hold a number of bits).
-/
namespace WS.Spec.RoundTrip
open WS WS.Conf WS.Spec.Load

/-- Text that stands for itself between the quotes of a JSON string: UTF-8, without control characters, quotes and
backslashes. -/
def Plain (t : List Byte) : Prop :=
  ∃ s : List Nat, t = Spec.Json.utf8s s ∧ ∀ n ∈ s, Spec.Json.Scalar n ∧ 0x20 ≤ n ∧ n ≠ 0x22 ∧ n ≠ 0x5c

/-- The names and address texts that are written are read back: what `inet_pton`, `getprotobyname` and the family table
make of a text written by `inet_ntop`, `getprotobynumber` and the family table. -/
structure ReadsBack {α : Type} (F : FmtEnv) (E : Env α) : Prop where
  ntop4 : ∀ a, a.length = 4 → Plain (F.ntop4 a) ∧ (F.ntop4 a).length < 16 ∧ E.pton4 (F.ntop4 a) = some a
  ntop6 : ∀ a, a.length = 16 → Plain (F.ntop6 a) ∧ (F.ntop6 a).length < 64 ∧ E.pton6 (F.ntop6 a) = some a
  family : ∀ n nm, F.famName n = some nm → Plain nm ∧ nm.length ≤ 16384 ∧ E.famByName nm = .ok n
  proto : ∀ n nm, F.proto n = .found nm → Plain nm ∧ nm.length < 64 ∧ E.protoByName nm = .found n

/-- Addresses that can be read back: whole IP prefixes, CAN identifiers and prefixes of whole bytes, Ethernet addresses. -/
def AddrOk (F : FmtEnv) (family bits : Nat) : Prop :=
  F.formatter family = none ∧
    ((family = 2 ∧ bits ≤ 32) ∨ (family = 10 ∧ bits ≤ 128) ∨ (family = 29 ∧ bits % 8 = 0 ∧ bits ≤ 32) ∨ (family = 118 ∧ bits = 48))

/-- Addresses with mask that can be read back: those of the full size of the family, if that is at most 64 bits. -/
def MaskOk {α : Type} (F : FmtEnv) (E : Env α) (family bits : Nat) : Prop :=
  F.formatter family = none ∧ ((family = 2 ∧ bits = 64) ∨ (family = 29 ∧ bits = 64) ∨ (family = 118 ∧ bits = 96)) ∧
    E.famMaxBits family = .ok (bits / 2)

/-- The address of an endpoint can be read back; bit `aw` marks the address as a wildcard, bit `bm` as address and
mask. -/
def EndOk {α : Type} (F : FmtEnv) (E : Env α) (r : Route) (e : Endpoint) (aw bm : Nat) : Prop :=
  e.addr.length = bitsToBytes e.bits ∧
    (r.flags.getLsbD aw = false →
      if r.flags.getLsbD bm then MaskOk F E r.family e.bits else AddrOk F r.family e.bits)

/-- A rule that can be loaded back. -/
structure Reloadable {α : Type} (F : FmtEnv) (E : Env α) (r : Route) : Prop where
  -- the name of its event is written as it is
  label : ∀ e, r.event = some e → Plain e.label ∧ e.label.length ≤ 32
  -- only the family wildcard stands for "no family"
  family : r.flags.getLsbD 0 = false → r.family ≠ 0
  -- rules for TCP and UDP over IP are marked as such
  tcp : r.flags.getLsbD 2 = false → (r.family = 2 ∨ r.family = 10) → (r.proto = 6 ∨ r.proto = 17) → r.flags.getLsbD 9 = true
  -- the addresses can be read back
  remote : EndOk F E r r.remote 1 12
  loc : EndOk F E r r.loc 4 13

/-- The flags a rule is created with (wolfsentry/wolfsentry.h:1005-1065): all but the internal ones, the wildcard for
the parent event, and the marks for a mask on an address that is a wildcard. -/
def givenFlags (f : Flags) : Flags :=
  let f := f &&& 0x1f03eff#32
  let f := if f.getLsbD 1 then f &&& ~~~0x1000#32 else f
  if f.getLsbD 4 then f &&& ~~~0x2000#32 else f

/-- An endpoint without the fields under a wildcard. -/
def clearedEnd (e : Endpoint) (aw pw iw : Bool) : Endpoint :=
  { port := if pw then 0 else e.port, bits := if aw then 0 else e.bits, iface := if iw then 0 else e.iface,
    addr := if aw then [] else e.addr }

/-- The rule as it was created, without the fields under a wildcard, which nothing depends on; `ev` is its event. -/
def asCreated (r : Route) (ev : Option Event) : Route :=
  { event := ev, flags := givenFlags r.flags
    family := if r.flags.getLsbD 0 then 0 else r.family
    proto := if r.flags.getLsbD 2 then 0 else r.proto
    remote := clearedEnd r.remote (r.flags.getLsbD 1) (r.flags.getLsbD 5) (r.flags.getLsbD 6)
    loc := clearedEnd r.loc (r.flags.getLsbD 4) (r.flags.getLsbD 3) (r.flags.getLsbD 7) }

/-- The rule `r` was created as `r0` (with the fields under a wildcard set to zero): same fields, and the same immutable
flags (the low 14, wolfsentry/wolfsentry.h:1072). -/
structure CreatedAs (r0 r : Route) : Prop where
  family : r.family = (if r0.flags.getLsbD 0 then 0 else r0.family)
  proto : r.proto = (if r0.flags.getLsbD 2 then 0 else r0.proto)
  remote : r.remote.bits = r0.remote.bits ∧ (r0.flags.getLsbD 1 = false → r.remote.addr = r0.remote.addr)
  loc : r.loc.bits = r0.loc.bits ∧ (r0.flags.getLsbD 4 = false → r.loc.addr = r0.loc.addr)
  flags : ∀ i < 14, r.flags.getLsbD i = r0.flags.getLsbD i

/-- The part of the loader's socket address that the insertion of a rule looks at. -/
def sockAddrOf (s : Sa) : SockAddr :=
  { family := s.family, proto := s.proto
    ep := { port := s.port, bits := s.addrLen, iface := s.iface, addr := s.addr.take (bitsToBytes s.addrLen) } }

/-- The label of a rule's event, if it has one. -/
def labelOf (r : Route) : List Byte := (r.event.map (·.label)).getD []

/-- A configuration with one rule. -/
def configText (rule : List Byte) : List Byte :=
  ascii "{\"wolfsentry-config-version\":1,\"routes\":[" ++ rule ++ ascii "]}"

end WS.Spec.RoundTrip
