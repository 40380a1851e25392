import Verif.Model.Config
import Verif.Spec.ConfNum
/-
What a configuration document means (property C56), as a relation over the JSON tree, member by member, and without
reference to the loader's handlers or its state machine.  From Model/Config only data types are used (`Env` with its
library calls, `Call`, `UserValue`, `Sa`, `RouteUC`, `Side`, and `Ev` for the parsing events of a tree), and the tables of
flag names.  The length of a duration is what `convertDuration` reads from its text alone; C54 says what that is.
-/
namespace WS.Spec.Load
open WS WS.Sax WS.Conf WS.Spec.Json WS.Spec.Conf

/-! ### JSON trees -/

/-- A JSON value.  Numbers carry their text and strings their decoded bytes; `after` is what follows them in memory when
they are handed over. -/
inductive J where
  | null
  | bool (b : Bool)
  | num (t after : List Byte)
  | str (s after : List Byte)
  | arr (xs : List J)
  | obj (ms : List (List Byte × J))

mutual
/-- The parsing events of a value. -/
def J.events : J → List Ev
  | .null => [⟨.null, [], []⟩]
  | .bool false => [⟨.false, [], []⟩]
  | .bool true => [⟨.true, [], []⟩]
  | .num t after => [⟨.number, t, after⟩]
  | .str s after => [⟨.string, s, after⟩]
  | .arr xs => ⟨.arrayBeg, [], []⟩ :: (elements xs ++ [⟨.arrayEnd, [], []⟩])
  | .obj ms => ⟨.objectBeg, [], []⟩ :: (members ms ++ [⟨.objectEnd, [], []⟩])
def elements : List J → List Ev
  | [] => []
  | v :: vs => v.events ++ elements vs
def members : List (List Byte × J) → List Ev
  | [] => []
  | (k, v) :: ms => ⟨.key, k, []⟩ :: (v.events ++ members ms)
end

/-- A number is followed in memory by a byte that can follow it in a JSON text, as it is when it is read in place from the
input. -/
def Followed (after : List Byte) : Prop := ∃ c r, after = c :: r ∧ Delimiter c

/-- A string is followed by its closing quote. -/
def Quoted (after : List Byte) : Prop := ∃ r, after = ch '"' :: r

mutual
/-- The tree is read in place from a JSON text: numbers are JSON numbers, and every number and string is followed by what
follows it in the text. -/
def J.InPlace : J → Prop
  | .num t after => Number t ∧ Followed after
  | .str _ after => Quoted after
  | .arr xs => elementsInPlace xs
  | .obj ms => membersInPlace ms
  | _ => True
def elementsInPlace : List J → Prop
  | [] => True
  | v :: vs => v.InPlace ∧ elementsInPlace vs
def membersInPlace : List (List Byte × J) → Prop
  | [] => True
  | (_, v) :: ms => v.InPlace ∧ membersInPlace ms
end

mutual
/-- No object anywhere in the value. -/
def J.ObjectFree : J → Prop
  | .arr xs => elementsObjectFree xs
  | .obj _ => False
  | _ => True
def elementsObjectFree : List J → Prop
  | [] => True
  | v :: vs => v.ObjectFree ∧ elementsObjectFree vs
end

/-- The text of a number or a string. -/
inductive Text : J → List Byte → Prop
  | num (t after : List Byte) : Text (.num t after) t
  | str (s after : List Byte) : Text (.str s after) s

/-- The text of a scalar; null, true and false have none. -/
inductive Scalar : J → List Byte → Prop
  | null : Scalar .null []
  | bool (b : Bool) : Scalar (.bool b) []
  | num (t after : List Byte) : Scalar (.num t after) t
  | str (s after : List Byte) : Scalar (.str s after) s

/-- A key, as far as it is looked at: up to the first NUL. -/
def name (k : List Byte) : List Byte := k.takeWhile (· ≠ 0#8)

/-- The members of an object, in order, each with a key of fewer than 32 bytes. -/
inductive Members {σ : Type} (R : List Byte → J → σ → σ → Prop) : List (List Byte × J) → σ → σ → Prop
  | nil (x : σ) : Members R [] x x
  | cons {k : List Byte} {v : J} {ms : List (List Byte × J)} {x y z : σ} : k.length < 32 → R (name k) v x y →
      Members R ms y z → Members R ((k, v) :: ms) x z

/-- The elements of an array, in order. -/
inductive Elements {σ : Type} (R : J → σ → σ → Prop) : List J → σ → σ → Prop
  | nil (x : σ) : Elements R [] x x
  | cons {v : J} {vs : List J} {x y z : σ} : R v x y → Elements R vs y z → Elements R (v :: vs) x z

/-! ### Scalars -/

/-- An unsigned setting of `bits` bits: a literal of fewer than `room` bytes.  The empty string is 0; a negative literal is
taken modulo 2^64 (and then hardly ever fits). -/
def UInt (bits room : Nat) (v : J) (n : Nat) : Prop :=
  ∃ t, Text v t ∧ t.length < room ∧ n < 2 ^ bits ∧
    ((t = [] ∧ n = 0) ∨ ∃ i, Literal t i ∧ -2 ^ 64 < i ∧ i < 2 ^ 64 ∧ (n : Int) = i % 2 ^ 64)

/-- A signed 64-bit setting. -/
def SInt (v : J) (i : Int) : Prop :=
  ∃ t, Text v t ∧ t.length < 24 ∧ ((t = [] ∧ i = 0) ∨ (Literal t i ∧ -2 ^ 63 ≤ i ∧ i < 2 ^ 63))

/-- A duration in microseconds. -/
def Duration (v : J) (d : Int) : Prop := ∃ t, Text v t ∧ ConfNum.convertDuration .string t [ch '"'] = .ok d

/-- A floating-point setting. -/
def Double {α : Type} (E : Env α) (v : J) (d : BitVec 64) : Prop := ∃ t, Text v t ∧ t.length < 24 ∧ E.strtod t = some d

/-- Setting or clearing a flag. -/
def setFlag (b : Bool) (flags f : Flags) : Flags := if b then flags ||| f else flags &&& ~~~f

/-! ### Library calls -/

/-- The library call succeeds and takes the library from `a` to `a'`. -/
def Did {α : Type} (E : Env α) (c : Call) (a a' : α) : Prop := E.call a c = (a', none)

/-- The same for calls about rules and events, which are left out with NO_ROUTES_OR_EVENTS. -/
def DidRule {α : Type} (E : Env α) (noRules : Bool) (c : Call) (a a' : α) : Prop :=
  if noRules then a' = a else Did E c a a'

/-! ### Event configurations -/

/-- The scalar settings of an event configuration. -/
inductive Setting : List Byte → J → EventConfig → EventConfig → Prop
  | maxConnections {v : J} {n : Nat} {c : EventConfig} : UInt 32 16 v n →
      Setting (ascii "max-connection-count") v c { c with maxConnectionCount := n }
  | penaltyBox {v : J} {d : Int} {c : EventConfig} : Duration v d →
      Setting (ascii "penalty-box-duration") v c { c with penaltyboxDuration := d }
  | idleTime {v : J} {d : Int} {c : EventConfig} : Duration v d →
      Setting (ascii "route-idle-time-for-purge") v c { c with routeIdleTimeForPurge := d }
  | derogatory {v : J} {n : Nat} {c : EventConfig} : UInt 32 16 v n →
      Setting (ascii "derog-thresh-for-penalty-boxing") v c { c with derogatoryThreshold := n }
  | ignoreCommendable {b : Bool} {c : EventConfig} :
      Setting (ascii "derog-thresh-ignore-commendable") (.bool b) c
        { c with flags := setFlag b c.flags EF.DEROGATORY_THRESHOLD_IGNORE_COMMENDABLE }
  | commendableClears {b : Bool} {c : EventConfig} :
      Setting (ascii "commendable-clears-derogatory") (.bool b) c
        { c with flags := setFlag b c.flags EF.COMMENDABLE_CLEARS_DEROGATORY }

/-- A string that is a name in the table. -/
def Named (table : List (Flags × String)) (v : J) (f : Flags) : Prop := ∃ n after, (f, n) ∈ table ∧ v = .str (ascii n) after

/-- An array of names: the union of their flags, on top of what there was. -/
inductive Names (table : List (Flags × String)) : List J → Flags → Flags → Prop
  | nil (f : Flags) : Names table [] f f
  | cons {v : J} {vs : List J} {f g h : Flags} : Named table v f → Names table vs (g ||| f) h → Names table (v :: vs) g h

/-- The members of an event's "config". -/
inductive EventSetting : List Byte → J → EventConfig → EventConfig → Prop
  | setting {k : List Byte} {v : J} {c c' : EventConfig} : Setting k v c c' → EventSetting k v c c'
  | add {xs : List J} {f : Flags} {c : EventConfig} : Names flagNames xs c.routeFlagsToAdd f →
      EventSetting (ascii "route-flags-to-add-on-insert") (.arr xs) c { c with routeFlagsToAdd := f }
  | clear {xs : List J} {f : Flags} {c : EventConfig} : Names flagNames xs c.routeFlagsToClear f →
      EventSetting (ascii "route-flags-to-clear-on-insert") (.arr xs) c { c with routeFlagsToClear := f }
  | filterSet {xs : List J} {f : Flags} {c : EventConfig} : Names actionResNames xs c.filterBitsSet f →
      EventSetting (ascii "action-res-filter-bits-set") (.arr xs) c { c with filterBitsSet := f }
  | filterUnset {xs : List J} {f : Flags} {c : EventConfig} : Names actionResNames xs c.filterBitsUnset f →
      EventSetting (ascii "action-res-filter-bits-unset") (.arr xs) c { c with filterBitsUnset := f }
  | resAdd {xs : List J} {f : Flags} {c : EventConfig} : Names actionResNames xs c.resBitsToAdd f →
      EventSetting (ascii "action-res-bits-to-add") (.arr xs) c { c with resBitsToAdd := f }
  | resClear {xs : List J} {f : Flags} {c : EventConfig} : Names actionResNames xs c.resBitsToClear f →
      EventSetting (ascii "action-res-bits-to-clear") (.arr xs) c { c with resBitsToClear := f }

/-- The members of "config-update". -/
inductive TopSetting {α : Type} (E : Env α) : List Byte → J → EventConfig × α → EventConfig × α → Prop
  | setting {k : List Byte} {v : J} {c c' : EventConfig} {a : α} : Setting k v c c' → TopSetting E k v (c, a) (c', a)
  | maxRoutes {v : J} {n : Nat} {c : EventConfig} {a a' : α} : UInt 32 16 v n → Did E (.maxPurgeableRoutes n) a a' →
      TopSetting E (ascii "max-purgeable-routes") v (c, a) (c, a')
  | maxIdle {v : J} {d : Int} {c : EventConfig} {a a' : α} : Duration v d → Did E (.maxPurgeableIdleTime d) a a' →
      TopSetting E (ascii "max-purgeable-idle-time") v (c, a) (c, a')

/-! ### Default policies -/

/-- "accept", "reject", "reset". -/
inductive Policy : J → Flags → Prop
  | accept {after : List Byte} : Policy (.str (ascii "accept") after) AR.ACCEPT
  | reject {after : List Byte} : Policy (.str (ascii "reject") after) AR.REJECT
  | reset {after : List Byte} : Policy (.str (ascii "reset") after) (AR.REJECT ||| AR.PORT_RESET)

/-- The members of "default-policies".  With NO_ROUTES_OR_EVENTS the default event is not looked at, except that an object
in its place is refused. -/
inductive PolicyMember {α : Type} (E : Env α) (noRules : Bool) : List Byte → J → Flags × α → Flags × α → Prop
  | policy {v : J} {p q : Flags} {a : α} : Policy v q → PolicyMember E noRules (ascii "default-policy") v (p, a) (q, a)
  | event {v : J} {t : List Byte} {p : Flags} {a a' : α} : noRules = false → Text v t → Did E (.setDefaultEvent t) a a' →
      PolicyMember E noRules (ascii "default-event") v (p, a) (p, a')
  | ignored {v : J} {p : Flags} {a : α} : noRules = true → v.ObjectFree →
      PolicyMember E noRules (ascii "default-event") v (p, a) (p, a)

/-- A policy, once given, is set. -/
def PolicySet {α : Type} (E : Env α) (p : Flags) (a a' : α) : Prop :=
  if p = 0 then a' = a else Did E (.defaultPolicySet p) a a'

/-! ### Rules -/

/-- A byte in hexadecimal, of one or two digits. -/
inductive HexByte : List Byte → Byte → Prop
  | one {x : Byte} {i : Nat} : Hex x i → HexByte [x] (BitVec.ofNat 8 i)
  | two {x y : Byte} {i j : Nat} : Hex x i → Hex y j → HexByte [x, y] (BitVec.ofNat 8 (i * 16 + j))

/-- Hexadecimal bytes separated by colons. -/
inductive HexBytes : List Byte → List Byte → Prop
  | last {s : List Byte} {b : Byte} : HexByte s b → HexBytes s [b]
  | more {s t : List Byte} {b : Byte} {c : List Byte} : HexByte s b → HexBytes t c → HexBytes (s ++ ch ':' :: t) (b :: c)

/-- An address of the given family: its bytes, its bit length, and the family it turns out to be (link-layer addresses
come in two sizes).  `len` is the bit length given so far, 0 for none; `masked` tells whether a mask was announced. -/
inductive Address {α : Type} (E : Env α) (len : Nat) (masked : Bool) : Nat → J → List Byte → Nat → Nat → Prop
  | link {fam : Nat} {s after b : List Byte} : fam = AF_LINK48 ∨ fam = AF_LINK64 → HexBytes s b → b.length = 6 ∨ b.length = 8 →
      Address E len masked fam (.str s after) b (b.length * 8) (if b.length = 6 then AF_LINK48 else AF_LINK64)
  | inet {s after b : List Byte} : s.length < 16 → E.pton4 s = some b → Address E len masked AF_INET (.str s after) b 32 AF_INET
  | inet6 {s after b : List Byte} : s.length < 64 → E.pton6 s = some b → Address E len masked AF_INET6 (.str s after) b 128 AF_INET6
  | can {v : J} {n : Nat} : UInt 32 13 v n → len ≤ (if masked then 64 else 32) →
      Address E len masked AF_CAN v [BitVec.ofNat 8 (n / 2 ^ 24), BitVec.ofNat 8 (n / 2 ^ 16), BitVec.ofNat 8 (n / 2 ^ 8), BitVec.ofNat 8 n]
        32 AF_CAN
  | other {fam : Nat} {v : J} {t b : List Byte} {p : List Byte → Nat → Except Err (List Byte × Nat)} {bits : Nat} :
      fam ∉ [0, AF_LINK48, AF_LINK64, AF_INET, AF_INET6, AF_CAN] → Text v t → E.famParser fam = some p →
      p t (if len = 0 then 128 else len) = .ok (b, bits) → Address E len masked fam v b bits fam

/-- `b` in place of the bytes of `addr` from position `off`, within bounds. -/
def Patched (addr : List Byte) (off : Nat) (b addr' : List Byte) : Prop :=
  ∃ p m s, addr = p ++ m ++ s ∧ p.length = off ∧ m.length = b.length ∧ addr' = p ++ b ++ s

/-- The port: a number, or the name of a service of the rule's protocol. -/
inductive Port {α : Type} (E : Env α) (flags : Flags) (proto : Nat) : J → Nat → Prop
  | number {t after : List Byte} {n : Nat} : UInt 16 8 (.num t after) n → Port E flags proto (.num t after) n
  | service {s after : List Byte} {p : Option (List Byte)} {n : Nat} : flags.has RF.TCPLIKE_PORT_NUMBERS = true → s.length < 64 →
      ((proto = 0 ∧ p = none) ∨ (proto ≠ 0 ∧ E.protoByNumber proto = .unknown ∧ p = none) ∨
        (∃ nm, proto ≠ 0 ∧ E.protoByNumber proto = .found nm ∧ nm.length < 16 ∧ p = some nm)) →
      E.servByName s p = .found n → Port E flags proto (.str s after) (n % 65536)

/-- The members of "remote" and "local".  Any of "port", "address" and "interface" takes away the wildcard of that
field. -/
inductive EndpointMember {α : Type} (E : Env α) (side : Side) : List Byte → J → RouteUC → RouteUC → Prop
  | port {v : J} {n : Nat} {r : RouteUC} : (r.sa side).family ≠ 0 → Port E r.flags (r.sa side).proto v n →
      EndpointMember E side (ascii "port") v r
        ({ r with flags := setFlag false r.flags side.portWild }.setSa side { r.sa side with port := n })
  | address {v : J} {b addr : List Byte} {bits fam : Nat} {r : RouteUC} :
      Address E (r.sa side).addrLen (r.flags.has side.bitmask) (r.sa side).family v b bits fam → Patched (r.sa side).addr 0 b addr →
      EndpointMember E side (ascii "address") v r
        ({ r with flags := setFlag false r.flags side.addrWild }.setSa side
          { r.sa side with addr := addr, family := fam, addrLen := if (r.sa side).addrLen = 0 then bits else (r.sa side).addrLen })
  | bitmask {v : J} {b addr0 addr : List Byte} {size bits fam : Nat} {r : RouteUC} : (r.sa side).family ≠ 0 →
      E.famMaxBits (r.sa side).family = .ok size → size % 8 = 0 → size ≤ 64 →
      -- an address of another length than the mask is moved by the difference
      (((r.sa side).addrLen = 0 ∨ (r.sa side).addrLen = size) ∧ addr0 = (r.sa side).addr ∨
        (∃ pad, (r.sa side).addrLen ≠ 0 ∧ (r.sa side).addrLen < size ∧ pad = (size - (r.sa side).addrLen + 7) / 8 ∧ pad + (r.sa side).addrLen ≤ 16 ∧
          addr0 = List.replicate pad 0 ++ (r.sa side).addr.take (r.sa side).addrLen ++ (r.sa side).addr.drop (pad + (r.sa side).addrLen))) →
      Address E (r.sa side).addrLen true (r.sa side).family v b bits fam → Patched addr0 (size / 8) b addr →
      EndpointMember E side (ascii "bitmask") v r
        ({ r with flags := setFlag true r.flags side.bitmask }.setSa side { r.sa side with addr := addr, family := fam, addrLen := size * 2 })
  | prefixBits {v : J} {n : Nat} {r : RouteUC} : (r.sa side).family ≠ 0 → r.flags.has side.bitmask = false → UInt 16 8 v n →
      EndpointMember E side (ascii "prefix-bits") v r (r.setSa side { r.sa side with addrLen := n })
  | interface {v : J} {n : Nat} {r : RouteUC} : UInt 8 4 v n →
      EndpointMember E side (ascii "interface") v r
        ({ r with flags := setFlag false r.flags side.ifaceWild }.setSa side { r.sa side with iface := n })

/-- Both endpoints of a rule have the same family and protocol. -/
def withFamily (r : RouteUC) (n : Nat) : RouteUC :=
  { r with remote := { r.remote with family := n }, loc := { r.loc with family := n },
           flags := setFlag false r.flags RF.SA_FAMILY_WILDCARD }

def withProto (r : RouteUC) (n : Nat) : RouteUC :=
  { r with remote := { r.remote with proto := n }, loc := { r.loc with proto := n },
           flags := if r.remote.family ∈ [AF_INET, AF_INET6] ∧ n ∈ [6, 17]
             then setFlag true (setFlag false r.flags RF.SA_PROTO_WILDCARD) RF.TCPLIKE_PORT_NUMBERS
             else setFlag false r.flags RF.SA_PROTO_WILDCARD }

/-- The members of a rule. -/
inductive RuleMember {α : Type} (E : Env α) : List Byte → J → RouteUC → RouteUC → Prop
  | parent {v : J} {t : List Byte} {r : RouteUC} : Scalar v t → t.length ≤ 32 →
      RuleMember E (ascii "parent-event") v r { r with label := t, flags := setFlag false r.flags RF.PARENT_EVENT_WILDCARD }
  | family {t after : List Byte} {n : Nat} {r : RouteUC} : UInt 16 8 (.num t after) n →
      RuleMember E (ascii "family") (.num t after) r (withFamily r n)
  | familyName {s after : List Byte} {n : Nat} {r : RouteUC} : E.famByName s = .ok n →
      RuleMember E (ascii "family") (.str s after) r (withFamily r n)
  | protocol {t after : List Byte} {n : Nat} {r : RouteUC} : UInt 16 8 (.num t after) n →
      RuleMember E (ascii "protocol") (.num t after) r (withProto r n)
  | protocolName {s after : List Byte} {n : Nat} {r : RouteUC} : r.remote.family ∈ [AF_INET, AF_INET6] → s.length < 64 →
      E.protoByName s = .found n → RuleMember E (ascii "protocol") (.str s after) r (withProto r (n % 65536))
  | flag {f : Flags} {n : String} {b : Bool} {r : RouteUC} : (f, n) ∈ flagNames →
      RuleMember E (ascii n) (.bool b) r { r with flags := setFlag b r.flags f }
  | remote {ms : List (List Byte × J)} {r r' : RouteUC} : Members (EndpointMember E .remote) ms r r' →
      RuleMember E (ascii "remote") (.obj ms) r r'
  | local {ms : List (List Byte × J)} {r r' : RouteUC} : Members (EndpointMember E .local) ms r r' →
      RuleMember E (ascii "local") (.obj ms) r r'

/-- A rule that matches everything: all fields zero, all eight wildcard flags. -/
def anyRule : RouteUC := { flags := RF.WILDCARD_FLAGS }

/-- A rule object: the fields it gives, starting from the rule that matches everything, then exactly one insertion. -/
inductive Rule {α : Type} (E : Env α) (noRules : Bool) : J → α → α → Prop
  | mk {ms : List (List Byte × J)} {r : RouteUC} {a a' : α} : Members (RuleMember E) ms anyRule r →
      (noRules = false → r.remote.addrLen ≤ 128 ∧ r.loc.addrLen ≤ 128) →
      DidRule E noRules (.routeInsert r.remote r.loc r.flags r.label) a a' → Rule E noRules (.obj ms) a a'

/-! ### Events -/

/-- An event as far as its object has been read. -/
structure EventSt where
  label : List Byte := []
  priority : Nat := 0
  config : Option EventConfig := none
  inserted : Bool := false

/-- The event is inserted, with what is known of it, unless it was before. -/
inductive Inserted {α : Type} (E : Env α) (noRules : Bool) : EventSt × α → EventSt × α → Prop
  | before {e : EventSt} {a : α} : e.inserted = true → Inserted E noRules (e, a) (e, a)
  | now {e : EventSt} {a a' : α} : e.inserted = false → DidRule E noRules (.eventInsert e.label e.priority e.config) a a' →
      Inserted E noRules (e, a) ({ e with inserted := true }, a')

/-- The keys of the action lists and of the legacy sub-events. -/
def listKeys : List (String × ActionType) :=
  [("actions", .post), ("post-actions", .post), ("insert-actions", .insert), ("match-actions", .match_),
   ("update-actions", .update), ("delete-actions", .delete), ("decision-actions", .decision)]
def subeventKeys : List (String × ActionType) :=
  [("insert-event", .insert), ("match-event", .match_), ("update-event", .update), ("delete-event", .delete),
   ("decision-event", .decision)]

/-- An action in a list. -/
inductive ListedAction {α : Type} (E : Env α) (noRules : Bool) (label : List Byte) (t : ActionType) : J → α → α → Prop
  | mk {s after : List Byte} {a a' : α} : s.length ≤ 32 → DidRule E noRules (.actionAppend label t s) a a' →
      ListedAction E noRules label t (.str s after) a a'

/-- The members of an event.  Priority and configuration have to come before anything that needs the event to exist;
`dc` is the default configuration the event's own starts from. -/
inductive EventMember {α : Type} (E : Env α) (noRules : Bool) (dc : EventConfig) :
    List Byte → J → EventSt × α → EventSt × α → Prop
  | label {s after : List Byte} {e : EventSt} {a : α} : s.length < 32 →
      EventMember E noRules dc (ascii "label") (.str s after) (e, a) ({ e with label := s }, a)
  | priority {t after : List Byte} {n : Nat} {e : EventSt} {a : α} : e.inserted = false → UInt 16 8 (.num t after) n →
      EventMember E noRules dc (ascii "priority") (.num t after) (e, a) ({ e with priority := n }, a)
  | config {ms : List (List Byte × J)} {c : EventConfig} {e : EventSt} {a : α} : e.inserted = false →
      Members EventSetting ms dc c →
      EventMember E noRules dc (ascii "config") (.obj ms) (e, a) ({ e with config := some c }, a)
  | aux {s after : List Byte} {e e1 : EventSt} {a a1 a2 : α} : Inserted E noRules (e, a) (e1, a1) →
      DidRule E noRules (.setAuxEvent e.label s) a1 a2 →
      EventMember E noRules dc (ascii "aux-parent-event") (.str s after) (e, a) (e1, a2)
  | subevent {k : String} {t : ActionType} {s after : List Byte} {e e1 : EventSt} {a a1 a2 : α} : (k, t) ∈ subeventKeys →
      Inserted E noRules (e, a) (e1, a1) → s.length ≤ 32 → DidRule E noRules (.copyActions e.label t s) a1 a2 →
      EventMember E noRules dc (ascii k) (.str s after) (e, a) (e1, a2)
  | list {k : String} {t : ActionType} {xs : List J} {e e1 : EventSt} {a a1 a2 : α} : (k, t) ∈ listKeys →
      Inserted E noRules (e, a) (e1, a1) → Elements (ListedAction E noRules e.label t) xs a1 a2 →
      EventMember E noRules dc (ascii k) (.arr xs) (e, a) (e1, a2)

/-- An event object. -/
inductive EventObj {α : Type} (E : Env α) (noRules : Bool) (dc : EventConfig) : J → α → α → Prop
  | mk {ms : List (List Byte × J)} {e e' : EventSt} {a a1 a2 : α} : Members (EventMember E noRules dc) ms ({}, a) (e, a1) →
      Inserted E noRules (e, a1) (e', a2) → EventObj E noRules dc (.obj ms) a a2

/-! ### User values -/

/-- A user value given as a plain scalar.  A number is stored as an integer, or as a double if it is not a 64-bit integer
or the library refuses the integer. -/
inductive PlainValue {α : Type} (E : Env α) (key : List Byte) : J → α → α → Prop
  | null {a a' : α} : Did E (.store key .null) a a' → PlainValue E key .null a a'
  | bool {b : Bool} {a a' : α} : Did E (.store key (.bool b)) a a' → PlainValue E key (.bool b) a a'
  | int {t after : List Byte} {i : Int} {a a' : α} : SInt (.num t after) i → Did E (.store key (.sint i)) a a' →
      PlainValue E key (.num t after) a a'
  | double {t after : List Byte} {d : BitVec 64} {a a' : α} : (∀ i, ¬ SInt (.num t after) i) → Double E (.num t after) d →
      Did E (.store key (.double d)) a a' → PlainValue E key (.num t after) a a'
  | retried {t after : List Byte} {i : Int} {d : BitVec 64} {e : Err} {a a1 a' : α} : SInt (.num t after) i →
      E.call a (.store key (.sint i)) = (a1, some e) → Double E (.num t after) d → Did E (.store key (.double d)) a1 a' →
      PlainValue E key (.num t after) a a'
  | string {s after : List Byte} {a a' : α} : s.length < 16384 → Did E (.store key (.string s)) a a' →
      PlainValue E key (.str s after) a a'

/-- A user value given with its type. -/
inductive TypedValue {α : Type} (E : Env α) (key : List Byte) : List Byte → J → α → α → Prop
  | uint {v : J} {n : Nat} {a a' : α} : UInt 64 24 v n → Did E (.store key (.uint n)) a a' → TypedValue E key (ascii "uint") v a a'
  | sint {v : J} {i : Int} {a a' : α} : SInt v i → Did E (.store key (.sint i)) a a' → TypedValue E key (ascii "sint") v a a'
  | float {v : J} {d : BitVec 64} {a a' : α} : Double E v d → Did E (.store key (.double d)) a a' →
      TypedValue E key (ascii "float") v a a'
  | string {v : J} {s : List Byte} {a a' : α} : Text v s → s.length < 16384 → Did E (.store key (.string s)) a a' →
      TypedValue E key (ascii "string") v a a'
  | base64 {v : J} {s : List Byte} {a a' : α} : Text v s → s.length < 16384 → Did E (.store key (.base64 s)) a a' →
      TypedValue E key (ascii "base64") v a a'
  | json {v : J} {evs : List (JType × List Byte)} {a a' : α} : evs = v.events.map (fun e => (e.type, e.data)) →
      (∀ p, p ≠ [] → p <+: evs → E.domRefuses p = none) → Did E (.store key (.json evs)) a a' → TypedValue E key (ascii "json") v a a'

/-- The members of "user-values". -/
inductive ValueMember {α : Type} (E : Env α) : List Byte → J → α → α → Prop
  | plain {k : List Byte} {v : J} {a a' : α} : PlainValue E k v a a' → ValueMember E k v a a'
  | typed {k : List Byte} {ms : List (List Byte × J)} {a a' : α} : Members (TypedValue E k) ms a a' → ValueMember E k (.obj ms) a a'

/-! ### The document -/

/-- What is remembered from section to section. -/
structure Ctx (α : Type) where
  versioned : Bool := false
  config : EventConfig
  policy : Flags := 0
  lib : α

/-- The sections of a document.  All but the version need the version before them. -/
inductive Section {α : Type} (E : Env α) (noRules : Bool) : List Byte → J → Ctx α → Ctx α → Prop
  | version {v : J} {x : Ctx α} : UInt 32 16 v 1 → Section E noRules (ascii "wolfsentry-config-version") v x { x with versioned := true }
  | config {ms : List (List Byte × J)} {x : Ctx α} {c : EventConfig} {a a1 a2 : α} : x.versioned = true →
      Members (TopSetting E) ms (x.config, x.lib) (c, a) → Did E (.defaultConfigUpdate c) a a1 → PolicySet E x.policy a1 a2 →
      Section E noRules (ascii "config-update") (.obj ms) x { x with config := c, lib := a2 }
  | policies {ms : List (List Byte × J)} {x : Ctx α} {p : Flags} {a a1 : α} : x.versioned = true →
      Members (PolicyMember E noRules) ms (x.policy, x.lib) (p, a) → PolicySet E p a a1 →
      Section E noRules (ascii "default-policies") (.obj ms) x { x with policy := p, lib := a1 }
  | events {k : String} {vs : List J} {x : Ctx α} {a : α} : k ∈ ["events", "events-insert"] → x.versioned = true →
      Elements (EventObj E noRules x.config) vs x.lib a → Section E noRules (ascii k) (.arr vs) x { x with lib := a }
  | routes {k : String} {vs : List J} {x : Ctx α} {a : α} : k ∈ ["routes", "static-routes-insert"] → x.versioned = true →
      Elements (Rule E noRules) vs x.lib a → Section E noRules (ascii k) (.arr vs) x { x with lib := a }
  | values {ms : List (List Byte × J)} {x : Ctx α} {a : α} : x.versioned = true → Members (ValueMember E) ms x.lib a →
      Section E noRules (ascii "user-values") (.obj ms) x { x with lib := a }

/-- Loading the document takes the library from `a` to `a'`; `c` is the default configuration it starts with. -/
inductive Loads {α : Type} (E : Env α) (noRules : Bool) (c : EventConfig) : J → α → α → Prop
  | mk {ms : List (List Byte × J)} {x : Ctx α} {a : α} : Members (Section E noRules) ms { config := c, lib := a } x →
      Loads E noRules c (.obj ms) a x.lib

end WS.Spec.Load
