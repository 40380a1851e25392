import Verif.Model.ConfNum
import Verif.Model.Format
import Verif.Model.Actions
/-
The configuration loader: the callback `json_process` (src/json/load_config.c:1505-1705) with the clause handlers it
dispatches to (406-1500), driven by parsing events.

Modelled: all clause handlers, the state they keep (load_config.c:47-130), the order and arguments of the library
calls they make.  The library itself is a parameter: `Env.call` takes an arbitrary state and one of the calls below and
answers with a new state and success or failure.  External functions (inet_pton, getprotobyname_r, getservbyname_r,
strtod, user-registered address parsers) are parameters as well.

Simplifications, repeated where they occur: the members of the union `o_u_c` are kept in separate fields (each is
zeroed by `reset_o_u_c`); error positions are left out; the state after an error is not modelled, as the parser stops
for good (C49); the copying of one event's actions to another (1183-1216) is one library call; the events of an embedded
JSON value are collected and handed over at its end (1343-1398), a parameter deciding whether the DOM builder refuses one.
-/
namespace WS.Conf
open WS WS.Sax WS.Time WS.ConfNum

/-- A parsing event as `json_process` gets it; `after` is what follows the data in memory. -/
structure Ev where
  type : JType
  data : List Byte := []
  after : List Byte := []
  deriving DecidableEq, Repr

/-- `T_U_C_*` (load_config.c:61). -/
inductive Table where
  | none | topConfig | events | defaultPolicies | routes | userValues
  deriving DecidableEq, Repr

/-- `O_U_C_*` (load_config.c:63). -/
inductive Obj where
  | none | route | event | userValue
  deriving DecidableEq, Repr

/-- `S_U_C_*` (load_config.c:65). -/
inductive Sect where
  | none | eventConfig | actionList | remote | local | json
  deriving DecidableEq, Repr

/-- `WOLFSENTRY_SOCKADDR(WOLFSENTRY_MAX_ADDR_BITS)`: a socket address with room for 128 address bits
(wolfsentry/wolfsentry.h:1133-1155). -/
structure Sa where
  family : Nat := 0
  proto : Nat := 0
  port : Nat := 0
  addrLen : Nat := 0
  iface : Nat := 0
  addr : List Byte := List.replicate 16 0#8
  deriving DecidableEq, Repr

/-- `o_u_c.route` (load_config.c:104-111). -/
structure RouteUC where
  label : List Byte := []
  remote : Sa := {}
  loc : Sa := {}
  flags : Flags := 0
  deriving DecidableEq, Repr

/-- `o_u_c.event` (load_config.c:112-120). -/
structure EventUC where
  label : List Byte := []
  priority : Nat := 0
  config : EventConfig := {}
  configed : Bool := false
  inserted : Bool := false
  list : Option ActionType := none
  deriving DecidableEq, Repr

/-- A user value as handed to one of the `wolfsentry_user_value_store_*` functions. -/
inductive UserValue where
  | null
  | bool (b : Bool)
  | uint (n : Nat)
  | sint (i : Int)
  | double (bits : BitVec 64)
  | string (s : List Byte)
  | base64 (s : List Byte)
  | json (evs : List (JType × List Byte))
  deriving DecidableEq, Repr

/-- The library calls the loader makes.  `routeInsert` has an empty label when the rule names no event. -/
inductive Call where
  | defaultConfigUpdate (c : EventConfig)
  | defaultPolicySet (p : Flags)
  | maxPurgeableRoutes (n : Nat)
  | maxPurgeableIdleTime (t : Int)
  | setDefaultEvent (label : List Byte)
  | routeInsert (remote loc : Sa) (flags : Flags) (label : List Byte)
  | eventInsert (label : List Byte) (priority : Nat) (config : Option EventConfig)
  | eventUpdateConfig (label : List Byte) (config : EventConfig)
  | setAuxEvent (label aux : List Byte)
  | actionAppend (label : List Byte) (list : ActionType) (action : List Byte)
  | copyActions (label : List Byte) (list : ActionType) (source : List Byte)
  | store (key : List Byte) (v : UserValue)
  deriving DecidableEq, Repr

/-- What `getprotobyname_r`, `getprotobynumber_r` and `getservbyname_r` report: an entry, success without an entry (glibc,
for an unknown name), or an error. -/
inductive Lookup (β : Type) where
  | found (b : β)
  | unknown
  | error (e : Err)

/-- The library and the external functions.  `famParser` is the registered parser of a family
(`wolfsentry_addr_family_get_parser`): text and capacity in bits to the bytes it stores and the bit length. -/
structure Env (α : Type) where
  call : α → Call → α × Option Err
  pton4 : List Byte → Option (List Byte)
  pton6 : List Byte → Option (List Byte)
  protoByName : List Byte → Lookup Nat
  protoByNumber : Nat → Lookup (List Byte)
  servByName : List Byte → Option (List Byte) → Lookup Nat
  famByName : List Byte → Except Err Nat
  famMaxBits : Nat → Except Err Nat
  famParser : Nat → Option (List Byte → Nat → Except Err (List Byte × Nat))
  strtod : List Byte → Option (BitVec 64)
  domRefuses : List (JType × List Byte) → Option Err

/-- `struct wolfsentry_json_process_state` (load_config.c:47-130), without the parser and the locks.  `noRules` is
`WOLFSENTRY_CONFIG_LOAD_FLAG_NO_ROUTES_OR_EVENTS`; `key` is the C string in `cur_keyname`; `dom` the events of the
embedded JSON value so far. -/
structure State where
  version : Nat := 0
  noRules : Bool := false
  table : Table := .none
  object : Obj := .none
  section_ : Sect := .none
  depth : Int := 0
  key : List Byte := []
  keydepth : Int := 0
  defaultConfig : EventConfig := {}
  defaultPolicy : Flags := 0
  route : RouteUC := {}
  event : EventUC := {}
  uvLabel : List Byte := []
  dom : List (JType × List Byte) := []
  deriving DecidableEq, Repr

/-- The bytes before the first NUL. -/
def cstr (b : List Byte) : List Byte := b.takeWhile (· != 0#8)

/-- `reset_o_u_c` (load_config.c:130-148). -/
def State.reset (st : State) : State :=
  match st.object with
  | .none => st
  | _ => { st with route := {}, event := {}, uvLabel := [], object := .none, section_ := .none }

def Res.map {β γ : Type} (f : β → γ) (r : Res β) : Res γ := r.bind fun b => .ok (f b)

/-- A library call: on success the loader goes on with the state `st`. -/
def invoke {α : Type} (E : Env α) (a : α) (c : Call) (st : State) : α × Res State :=
  match E.call a c with
  | (a', none) => (a', .ok st)
  | (a', some e) => (a', .err e)

/-- Go on after success. -/
def andThen {α : Type} (r : α × Res State) (f : α → State → α × Res State) : α × Res State :=
  match r with
  | (a, .ok st) => f a st
  | r => r

/-- Go on with a converted value. -/
def withValue {α β : Type} (a : α) (r : Res β) (f : β → α × Res State) : α × Res State :=
  match r with
  | .ok b => f b
  | .err e => (a, .err e)
  | .ub => (a, .ub)

/-! ### Values -/

/-- `convert_double` (load_config.c:320-351). -/
def convertDouble {α : Type} (E : Env α) (type : JType) (data : List Byte) : Res (BitVec 64) :=
  if type ≠ .number ∧ type ≠ .string then .err .configInvalidValue
  else if 24 ≤ data.length then .err .numericArgTooBig
  else
    match E.strtod data with
    | none => .err .configInvalidValue
    | some d => .ok d

/-- `convert_eventconfig_flag` and `handle_route_boolean_clause` (load_config.c:353-361, 892-901). -/
def convertFlag (type : JType) (flags bit : Flags) : Res Flags :=
  match type with
  | .false => .ok (flags &&& ~~~bit)
  | .true => .ok (flags ||| bit)
  | _ => .err .configInvalidValue

/-- `convert_default_policy` (load_config.c:406-421). -/
def convertPolicy (type : JType) (data : List Byte) : Res Flags :=
  if type ≠ .string then .err .configInvalidValue
  else if data = ascii "accept" then .ok AR.ACCEPT
  else if data = ascii "reject" then .ok AR.REJECT
  else if data = ascii "reset" then .ok (AR.REJECT ||| AR.PORT_RESET)
  else .err .configInvalidValue

/-- `wolfsentry_route_flag_assoc_by_name` (src/routes.c:3818-3832) on data that may hold a NUL: when the bytes before it
are a flag name, `i->name[len]` is read behind the end of that name. -/
def routeFlag (data : List Byte) : Res Flags :=
  match flagAssocByName (cstr data) with
  | .ok f => if cstr data = data then .ok f else .ub
  | .error e => .err e

/-- `action_res_bit_map` (src/wolfsentry_util.c:361-398; wolfsentry/wolfsentry.h:865-1000). -/
def actionResNames : List (Flags × String) := [
  (0, "none"), (AR.ACCEPT, "accept"), (AR.REJECT, "reject"), (AR.CONNECT, "connect"), (AR.DISCONNECT, "disconnect"),
  (AR.DEROGATORY, "derogatory"), (AR.COMMENDABLE, "commendable"), (AR.STOP, "stop"), (AR.DEALLOCATED, "deallocated"),
  (AR.INSERTED, "inserted"), (AR.ERROR, "error"), (AR.FALLTHROUGH, "fallthrough"), (AR.UPDATE, "update"),
  (AR.PORT_RESET, "port-reset"), (bit 13, "sending"), (bit 14, "received"), (bit 15, "binding"), (bit 16, "listening"),
  (bit 17, "stopped-listening"), (bit 18, "connecting-out"), (bit 19, "closed"), (bit 20, "unreachable"),
  (bit 21, "sock-error"), (bit 22, "close-wait"), (bit 23, "reserved-23"), (bit 24, "user+0"), (bit 25, "user+1"),
  (bit 26, "user+2"), (bit 27, "user+3"), (bit 28, "user+4"), (bit 29, "user+5"), (bit 30, "user+6"), (bit 31, "user+7")]

/-- `wolfsentry_action_res_assoc_by_name` (src/wolfsentry_util.c:417-431). -/
def actionResByName (data : List Byte) : Except Err Flags :=
  match actionResNames.find? (fun p => ascii p.2 == data) with
  | some p => .ok p.1
  | none => .error .itemNotFound

def actionRes (data : List Byte) : Res Flags :=
  match actionResByName data with
  | .ok f => .ok f
  | .error e => .err e

/-! ### Event configuration -/

/-- The lists in an event configuration (load_config.c:424-474). -/
def configList (key : List Byte) (type : JType) (data : List Byte) (c : EventConfig) : Res EventConfig :=
  if key = ascii "route-flags-to-add-on-insert" ∨ key = ascii "route-flags-to-clear-on-insert" then
    if type = .arrayBeg then .ok c
    else if type ≠ .string then .err .configInvalidValue
    else (routeFlag data).bind fun f =>
      .ok (if key = ascii "route-flags-to-add-on-insert" then { c with routeFlagsToAdd := c.routeFlagsToAdd ||| f }
        else { c with routeFlagsToClear := c.routeFlagsToClear ||| f })
  else if key = ascii "action-res-filter-bits-set" ∨ key = ascii "action-res-filter-bits-unset" ∨
      key = ascii "action-res-bits-to-add" ∨ key = ascii "action-res-bits-to-clear" then
    if type = .arrayBeg then .ok c
    else if type ≠ .string then .err .configInvalidValue
    else (actionRes data).bind fun f =>
      .ok (if key = ascii "action-res-filter-bits-set" then { c with filterBitsSet := c.filterBitsSet ||| f }
        else if key = ascii "action-res-filter-bits-unset" then { c with filterBitsUnset := c.filterBitsUnset ||| f }
        else if key = ascii "action-res-bits-to-add" then { c with resBitsToAdd := c.resBitsToAdd ||| f }
        else { c with resBitsToClear := c.resBitsToClear ||| f })
  else .err .configInvalidKey

/-- Setting the default policy if one was given (load_config.c:488-494 and 541-548). -/
def setPolicy {α : Type} (E : Env α) (a : α) (st : State) : α × Res State :=
  if st.defaultPolicy ≠ 0 then invoke E a (.defaultPolicySet st.defaultPolicy) st else (a, .ok st)

/-- `handle_eventconfig_clause` (load_config.c:423-536); `put` stores the configuration where the pointer argument
points. -/
def handleConfig {α : Type} (E : Env α) (a : α) (st : State) (ev : Ev) (c : EventConfig) (put : EventConfig → State) :
    α × Res State :=
  let ty := ev.type
  if st.depth = 5 then (a, Res.map put (configList st.key ty ev.data c))
  else if ty = .arrayEnd then (a, .ok st)
  else if ty = .objectEnd then
    if st.table ≠ .topConfig then (a, .err .internalCheckFatal)
    else andThen (invoke E a (.defaultConfigUpdate st.defaultConfig) { st with table := .none }) (setPolicy E)
  else if st.key = ascii "max-connection-count" then
    (a, Res.map (fun v => put { c with maxConnectionCount := v }) (convertU32 ty ev.data))
  else if st.key = ascii "penalty-box-duration" then
    (a, Res.map (fun v => put { c with penaltyboxDuration := v }) (convertDuration ty ev.data ev.after))
  else if st.key = ascii "route-idle-time-for-purge" then
    (a, Res.map (fun v => put { c with routeIdleTimeForPurge := v }) (convertDuration ty ev.data ev.after))
  else if st.key = ascii "derog-thresh-for-penalty-boxing" then
    (a, Res.map (fun v => put { c with derogatoryThreshold := v }) (convertU32 ty ev.data))
  else if st.key = ascii "derog-thresh-ignore-commendable" then
    (a, Res.map (fun v => put { c with flags := v }) (convertFlag ty c.flags EF.DEROGATORY_THRESHOLD_IGNORE_COMMENDABLE))
  else if st.key = ascii "commendable-clears-derogatory" then
    (a, Res.map (fun v => put { c with flags := v }) (convertFlag ty c.flags EF.COMMENDABLE_CLEARS_DEROGATORY))
  else if st.key = ascii "max-purgeable-routes" then
    if st.table ≠ .topConfig then (a, .err .configMisplacedKey)
    else withValue a (convertU32 ty ev.data) fun v => invoke E a (.maxPurgeableRoutes v) st
  else if st.key = ascii "max-purgeable-idle-time" then
    if st.table ≠ .topConfig then (a, .err .configMisplacedKey)
    else withValue a (convertDuration ty ev.data ev.after) fun v => invoke E a (.maxPurgeableIdleTime v) st
  else (a, .err .configInvalidKey)

/-- `handle_defaultpolicy_clause` (load_config.c:538-566). -/
def handlePolicy {α : Type} (E : Env α) (a : α) (st : State) (ev : Ev) : α × Res State :=
  if st.table ≠ .defaultPolicies then (a, .err .configInvalidKey)
  else if ev.type = .objectEnd then setPolicy E a { st with table := .none }
  else if st.key = ascii "default-policy" then
    (a, Res.map (fun p => { st with defaultPolicy := p }) (convertPolicy ev.type ev.data))
  else if st.key = ascii "default-event" then
    if st.noRules then (a, .ok st) else invoke E a (.setDefaultEvent ev.data) st
  else (a, .err .configInvalidKey)

/-! ### Rules -/

/-- `convert_hex_digit` (load_config.c:568-577). -/
def hexDigit (c : Byte) : Option Nat :=
  if 0x30#8 ≤ c ∧ c ≤ 0x39#8 then some (c.toNat - 0x30)
  else if 0x41#8 ≤ c ∧ c ≤ 0x46#8 then some (c.toNat - 0x41 + 10)
  else if 0x61#8 ≤ c ∧ c ≤ 0x66#8 then some (c.toNat - 0x61 + 10)
  else none

/-- `convert_hex_byte` (load_config.c:579-599) on the data left and what follows it: the byte and the data left.  The second
digit is looked for without a length check: at the end of the data it is looked for in `after`; a digit found there
wraps the length. -/
def hexByte (data after : List Byte) : Res (Byte × List Byte) :=
  match data with
  | [] => .err .configInvalidValue
  | c :: rest =>
    match hexDigit c with
    | none => .err .configInvalidValue
    | some d1 =>
      match rest with
      | [] =>
        match after with
        | [] => .ub
        | c2 :: _ => if (hexDigit c2).isSome then .ub else .ok (BitVec.ofNat 8 d1, [])
      | c2 :: rest2 =>
        match hexDigit c2 with
        | none => .ok (BitVec.ofNat 8 d1, rest)
        | some d2 => .ok (BitVec.ofNat 8 (d1 * 16 + d2), rest2)

/-- The loop of `convert_sockaddr_address` over a link-layer address (load_config.c:613-635), with the bytes so far. -/
def linkBytes (fuel : Nat) (acc data after : List Byte) : Res (List Byte) :=
  match fuel with
  | 0 => .err .configInvalidValue
  | fuel + 1 =>
    if acc.length = 8 then .err .configInvalidValue
    else (hexByte data after).bind fun (b, rest) =>
      match rest with
      | [] => if acc.length + 1 = 6 ∨ acc.length + 1 = 8 then .ok (acc ++ [b]) else .err .configInvalidValue
      | c :: rest => if c ≠ 0x3a#8 then .err .configInvalidValue else linkBytes fuel (acc ++ [b]) rest after

/-- Storing at an offset of the 16-byte address. -/
def overwrite (addr : List Byte) (off : Nat) (b : List Byte) : Res (List Byte) :=
  if off + b.length ≤ addr.length then .ok (addr.take off ++ b ++ addr.drop (off + b.length)) else .ub

/-- The four bytes of a CAN address (load_config.c:716-719). -/
def canBytes (n : Nat) : List Byte :=
  [BitVec.ofNat 8 (n >>> 24), BitVec.ofNat 8 (n >>> 16), BitVec.ofNat 8 (n >>> 8), BitVec.ofNat 8 n]

/-- `if (sa->addr_len == 0) sa->addr_len = bits`. -/
def Sa.lenIfUnset (sa : Sa) (bits : Nat) : Sa := if sa.addrLen = 0 then { sa with addrLen := bits } else sa

/-- `convert_sockaddr_address` (load_config.c:601-753), storing at offset `off` of the address.  `masked` tells whether
the bitmask flag of this endpoint is set. -/
def convertAddress {α : Type} (E : Env α) (ev : Ev) (masked : Bool) (sa : Sa) (off : Nat) : Res Sa :=
  if sa.family = AF_LINK48 ∨ sa.family = AF_LINK64 then
    if ev.type ≠ .string then .err .configInvalidValue
    else (linkBytes 9 [] ev.data ev.after).bind fun b => (overwrite sa.addr off b).bind fun addr =>
      .ok ({ sa with addr := addr, family := if b.length = 6 then AF_LINK48 else AF_LINK64 }.lenIfUnset (b.length * 8))
  else if sa.family = AF_INET then
    if ev.type ≠ .string then .err .configInvalidValue
    else if 16 ≤ ev.data.length then .err .stringArgTooLong
    else match E.pton4 ev.data with
      | none => .err .configInvalidValue
      | some b => (overwrite sa.addr off b).bind fun addr => .ok ({ sa with addr := addr }.lenIfUnset 32)
  else if sa.family = AF_INET6 then
    if ev.type ≠ .string then .err .configInvalidValue
    else if 64 ≤ ev.data.length then .err .stringArgTooLong
    else match E.pton6 ev.data with
      | none => .err .configInvalidValue
      | some b => (overwrite sa.addr off b).bind fun addr => .ok ({ sa with addr := addr }.lenIfUnset 128)
  else if sa.family = AF_CAN then
    if ev.type ≠ .string ∧ ev.type ≠ .number then .err .configInvalidValue
    else if 13 ≤ ev.data.length then .err .stringArgTooLong
    else if 32 < sa.addrLen ∧ (masked = false ∨ 64 < sa.addrLen) then .err .configInvalidValue
    else match strtoul ev.data with
      | (v, n) =>
        if n ≠ ev.data.length then .err .configInvalidValue
        else match v with
          | none => .err .configInvalidValue
          | some v =>
            if 4294967295 < v then .err .configInvalidValue
            else (overwrite sa.addr off (canBytes v)).bind fun addr => .ok ({ sa with addr := addr }.lenIfUnset 32)
  else if sa.family = 0 then .err .configOutOfSequence
  else
    if ev.type ≠ .string ∧ ev.type ≠ .number then .err .configInvalidValue
    else match E.famParser sa.family with
      | none => .err .configMissingHandler
      | some p =>
        match p ev.data (if sa.addrLen = 0 then 128 else sa.addrLen) with
        | .error e => .err e
        | .ok (b, bits) => (overwrite sa.addr off b).bind fun addr => .ok ({ sa with addr := addr }.lenIfUnset bits)

/-- `convert_sockaddr_port_name` (load_config.c:757-808).  An unknown service leaves a NULL pointer that is dereferenced. -/
def convertPortName {α : Type} (E : Env α) (flags : Flags) (data : List Byte) (sa : Sa) : Res Sa :=
  if ¬ flags.hasAll RF.TCPLIKE_PORT_NUMBERS then .err .configInvalidValue
  else if 64 ≤ data.length then .err .stringArgTooLong
  else
    let proto : Res (Option (List Byte)) :=
      if sa.proto = 0 then .ok none
      else match E.protoByNumber sa.proto with
        | .error e => .err e
        | .unknown => .ok none
        | .found nm => if nm.length + 1 ≤ 16 then .ok (some nm) else .err .bufferTooSmall
    proto.bind fun nm =>
      match E.servByName data nm with
      | .error e => .err e
      | .unknown => .ub
      | .found p => .ok { sa with port := p % 65536 }

/-- The remote or the local endpoint. -/
inductive Side where
  | remote | local
  deriving DecidableEq, Repr

def RouteUC.sa (r : RouteUC) : Side → Sa
  | .remote => r.remote
  | .local => r.loc

def RouteUC.setSa (r : RouteUC) (s : Side) (sa : Sa) : RouteUC :=
  match s with
  | .remote => { r with remote := sa }
  | .local => { r with loc := sa }

def Side.portWild : Side → Flags
  | .remote => RF.SA_REMOTE_PORT_WILDCARD
  | .local => RF.SA_LOCAL_PORT_WILDCARD

def Side.addrWild : Side → Flags
  | .remote => RF.SA_REMOTE_ADDR_WILDCARD
  | .local => RF.SA_LOCAL_ADDR_WILDCARD

def Side.ifaceWild : Side → Flags
  | .remote => RF.REMOTE_INTERFACE_WILDCARD
  | .local => RF.LOCAL_INTERFACE_WILDCARD

def Side.bitmask : Side → Flags
  | .remote => RF.REMOTE_ADDR_BITMASK
  | .local => RF.LOCAL_ADDR_BITMASK

/-- The move of an address that was given before its mask (load_config.c:849-853): `addr_len`, a number of bits, is used
as a number of bytes; a length above the size of the family wraps `pad_bytes`. -/
def justify (sa : Sa) (size : Nat) : Res Sa :=
  if sa.addrLen ≠ 0 ∧ sa.addrLen ≠ size then
    if size < sa.addrLen then .ub
    else
      let pad := bitsToBytes (size - sa.addrLen)
      if 16 < pad + sa.addrLen then .ub
      else .ok { sa with addr := List.replicate pad 0#8 ++ sa.addr.take sa.addrLen ++ sa.addr.drop (pad + sa.addrLen) }
  else .ok sa

/-- `handle_route_endpoint_clause` (load_config.c:812-890).  The section under construction is the side of `sa` whenever
this is called (1016-1019). -/
def endpointClause {α : Type} (E : Env α) (key : List Byte) (ev : Ev) (side : Side) (r : RouteUC) : Res RouteUC :=
  let sa := r.sa side
  if key = ascii "port" then
    if sa.family = 0 then .err .configOutOfSequence
    else
      let r := { r with flags := r.flags &&& ~~~side.portWild }
      if ev.type = .number then Res.map (fun v => r.setSa side { sa with port := v }) (convertU16 ev.type ev.data)
      else if ev.type = .string then Res.map (r.setSa side) (convertPortName E r.flags ev.data sa)
      else .err .configInvalidValue
  else if key = ascii "address" then
    if sa.family = 0 then .err .configOutOfSequence
    else
      let r := { r with flags := r.flags &&& ~~~side.addrWild }
      Res.map (r.setSa side) (convertAddress E ev (r.flags.has side.bitmask) sa 0)
  else if key = ascii "bitmask" then
    if sa.family = 0 then .err .configOutOfSequence
    else match E.famMaxBits sa.family with
      | .error e => .err e
      | .ok size =>
        if size % 8 ≠ 0 then .err .configInvalidValue
        else if 128 < size * 2 then .err .bufferTooSmall
        else
          let r := { r with flags := r.flags ||| side.bitmask }
          (justify sa size).bind fun sa =>
          (convertAddress E ev (r.flags.has side.bitmask) sa (bitsToBytes size)).bind fun sa =>
          .ok (r.setSa side { sa with addrLen := size * 2 })
  else if key = ascii "prefix-bits" then
    if sa.family = 0 then .err .configOutOfSequence
    else if r.flags.has side.bitmask then .err .configMisplacedKey
    else Res.map (fun v => r.setSa side { sa with addrLen := v }) (convertU16 ev.type ev.data)
  else if key = ascii "interface" then
    let r := { r with flags := r.flags &&& ~~~side.ifaceWild }
    Res.map (fun v => r.setSa side { sa with iface := v }) (convertU8 ev.type ev.data)
  else .err .configInvalidKey

/-- `handle_route_family_clause` (load_config.c:903-926). -/
def familyClause {α : Type} (E : Env α) (ev : Ev) (r : RouteUC) : Res RouteUC :=
  let r := { r with flags := r.flags &&& ~~~RF.SA_FAMILY_WILDCARD }
  let set (v : Nat) := { r with remote := { r.remote with family := v }, loc := { r.loc with family := v } }
  if ev.type = .number then Res.map set (convertU16 ev.type ev.data)
  else if ev.type = .string then
    match E.famByName ev.data with
    | .ok v => .ok (set v)
    | .error e => .err e
  else .err .configInvalidValue

/-- The protocol number (load_config.c:931-971); `IPPROTO_TCP` is 6 and `IPPROTO_UDP` 17.  An unknown name leaves a NULL
pointer that is dereferenced. -/
def protoNumber {α : Type} (E : Env α) (ev : Ev) (family : Nat) : Res Nat :=
  if ev.type = .number then convertU16 ev.type ev.data
  else if ev.type = .string then
    if family = 0 then .err .configOutOfSequence
    else if family ≠ AF_INET ∧ family ≠ AF_INET6 then .err .configInvalidValue
    else if 64 ≤ ev.data.length then .err .stringArgTooLong
    else match E.protoByName ev.data with
      | .found v => .ok (v % 65536)
      | .unknown => .ub
      | .error e => .err e
  else .err .configInvalidValue

/-- `handle_route_protocol_clause` (load_config.c:928-978). -/
def protocolClause {α : Type} (E : Env α) (ev : Ev) (r : RouteUC) : Res RouteUC :=
  Res.map (fun v =>
    let flags := r.flags &&& ~~~RF.SA_PROTO_WILDCARD
    { r with
        remote := { r.remote with proto := v }, loc := { r.loc with proto := v },
        flags :=
          if (r.remote.family = AF_INET ∨ r.remote.family = AF_INET6) ∧ (v = 6 ∨ v = 17) then flags ||| RF.TCPLIKE_PORT_NUMBERS
          else flags })
    (protoNumber E ev r.remote.family)

/-- The scalar members of a rule (load_config.c:1031-1057). -/
def routeClause {α : Type} (E : Env α) (key : List Byte) (ev : Ev) (r : RouteUC) : Res RouteUC :=
  if key = ascii "parent-event" then
    if 32 < ev.data.length then .err .configInvalidValue
    else .ok { r with label := ev.data, flags := r.flags &&& ~~~RF.PARENT_EVENT_WILDCARD }
  else if key = ascii "family" then familyClause E ev r
  else if key = ascii "protocol" then protocolClause E ev r
  else
    match flagAssocByName key with
    | .ok f => Res.map (fun v => { r with flags := v }) (convertFlag ev.type r.flags f)
    | .error _ => .err .configInvalidKey

/-- The flags of a fresh rule (load_config.c:1000-1008). -/
def freshRoute : RouteUC :=
  { flags := RF.REMOTE_INTERFACE_WILDCARD ||| RF.LOCAL_INTERFACE_WILDCARD ||| RF.SA_FAMILY_WILDCARD |||
      RF.SA_REMOTE_ADDR_WILDCARD ||| RF.SA_LOCAL_ADDR_WILDCARD ||| RF.SA_PROTO_WILDCARD ||| RF.SA_REMOTE_PORT_WILDCARD |||
      RF.SA_LOCAL_PORT_WILDCARD }

/-- `wolfsentry_route_insert` reads `BITS_TO_BYTES(addr_len)` address bytes (src/routes.c:712-715): more than the 16 there are
is undefined. -/
def Sa.readable (sa : Sa) : Bool := decide (bitsToBytes sa.addrLen ≤ 16)

/-- The end of a rule (load_config.c:982-998). -/
def routeEnd {α : Type} (E : Env α) (a : α) (st : State) : α × Res State :=
  if st.noRules then (a, .ok st.reset)
  else if ¬ (st.route.remote.readable ∧ st.route.loc.readable) then (a, .ub)
  else invoke E a (.routeInsert st.route.remote st.route.loc st.route.flags st.route.label) st.reset

/-- `handle_route_clause` (load_config.c:980-1058). -/
def handleRoute {α : Type} (E : Env α) (a : α) (st : State) (ev : Ev) : α × Res State :=
  if st.depth = 2 ∧ ev.type = .objectEnd then routeEnd E a st
  else if st.depth = 3 ∧ ev.type = .objectBeg then
    let st := st.reset
    (a, .ok { st with object := .route, route := { st.route with flags := st.route.flags ||| freshRoute.flags } })
  else if st.depth = 4 then
    if ev.type = .objectBeg then
      if st.key = ascii "remote" then (a, .ok { st with section_ := .remote })
      else if st.key = ascii "local" then (a, .ok { st with section_ := .local })
      else (a, .err .configInvalidKey)
    else if st.section_ = .remote then
      (a, Res.map (fun r => { st with route := r }) (endpointClause E st.key ev .remote st.route))
    else if st.section_ = .local then
      (a, Res.map (fun r => { st with route := r }) (endpointClause E st.key ev .local st.route))
    else (a, .err .configUnexpected)
  else if st.depth = 3 ∧ ev.type = .objectEnd then (a, .ok { st with section_ := .none })
  else if st.depth ≠ 3 then (a, .err .configUnexpected)
  else (a, Res.map (fun r => { st with route := r }) (routeClause E st.key ev st.route))

/-! ### Events -/

/-- The names of the legacy sub-events (load_config.c:1162-1171). -/
def subeventType (key : List Byte) : Option ActionType :=
  if key = ascii "insert-event" then some .insert
  else if key = ascii "match-event" then some .match_
  else if key = ascii "update-event" then some .update
  else if key = ascii "delete-event" then some .delete
  else if key = ascii "decision-event" then some .decision
  else none

/-- The names of the action lists (load_config.c:1221-1236). -/
def listType (key : List Byte) : Option ActionType :=
  if key = ascii "actions" ∨ key = ascii "post-actions" then some .post
  else if key = ascii "insert-actions" then some .insert
  else if key = ascii "match-actions" then some .match_
  else if key = ascii "update-actions" then some .update
  else if key = ascii "delete-actions" then some .delete
  else if key = ascii "decision-actions" then some .decision
  else none

/-- The insertion of the event once its configuration is complete (load_config.c:1113-1130). -/
def insertEvent {α : Type} (E : Env α) (a : α) (st : State) : α × Res State :=
  if st.event.inserted then (a, .ok st)
  else
    let done := { st with event := { st.event with inserted := true } }
    if st.noRules then (a, .ok done)
    else invoke E a (.eventInsert st.event.label st.event.priority (if st.event.configed then some st.event.config else none)) done

/-- The members of an event handled once it is inserted (load_config.c:1132-1269). -/
def eventTail {α : Type} (E : Env α) (ev : Ev) (a : α) (st : State) : α × Res State :=
  if st.depth = 2 ∧ ev.type = .objectEnd then (a, .ok st.reset)
  else if st.depth = 3 ∧ ev.type = .string then
    if st.key = ascii "aux-parent-event" then
      if st.noRules then (a, .ok st) else invoke E a (.setAuxEvent st.event.label ev.data) st
    else
      match subeventType st.key with
      | some t =>
        if 32 < ev.data.length then (a, .err .stringArgTooLong)
        else if st.noRules then (a, .ok st)
        else invoke E a (.copyActions st.event.label t ev.data) st
      | none => (a, .err .configInvalidKey)
  else if st.depth = 4 ∧ ev.type = .arrayBeg ∧ st.section_ = .none then
    match listType st.key with
    | some t => (a, .ok { st with section_ := .actionList, event := { st.event with list := some t } })
    | none => (a, .err .configInvalidKey)
  else if st.depth = 4 ∧ st.section_ = .actionList ∧ ev.type = .string then
    if 32 < ev.data.length then (a, .err .stringArgTooLong)
    else if st.noRules then (a, .ok st)
    else match st.event.list with
      | some t => invoke E a (.actionAppend st.event.label t ev.data) st
      | none => (a, .err .invalidArg)
  else if st.depth = 3 ∧ ev.type = .arrayEnd ∧ st.section_ = .actionList then (a, .ok { st with section_ := .none })
  else (a, .err .configUnexpected)

/-- `handle_event_clause` (load_config.c:1060-1272). -/
def handleEvent {α : Type} (E : Env α) (a : α) (st : State) (ev : Ev) : α × Res State :=
  if st.table ≠ .events then (a, .err .configUnexpected)
  else if st.depth = 1 ∧ ev.type = .arrayEnd then (a, .ok { st with table := .none })
  else if st.object ≠ .event then
    if st.depth = 3 ∧ ev.type = .objectBeg ∧ st.object = .none then (a, .ok { st with object := .event })
    else (a, .err .configUnexpected)
  else if st.depth = 3 ∧ ev.type = .string ∧ st.key = ascii "label" then
    if 32 ≤ ev.data.length then (a, .err .stringArgTooLong)
    else (a, .ok { st with event := { st.event with label := ev.data } })
  else if st.depth = 3 ∧ ev.type = .number then
    if st.key = ascii "priority" then
      if st.event.inserted then (a, .err .configOutOfSequence)
      else (a, Res.map (fun v => { st with event := { st.event with priority := v } }) (convertU16 ev.type ev.data))
    else (a, .err .configInvalidKey)
  else if st.depth = 4 ∧ ev.type = .objectBeg ∧ st.key = ascii "config" ∧ st.section_ = .none then
    if st.event.inserted then (a, .err .configOutOfSequence)
    else (a, .ok { st with section_ := .eventConfig, event := { st.event with config := st.defaultConfig, configed := true } })
  else if (st.depth = 4 ∨ st.depth = 5) ∧ st.section_ = .eventConfig then
    handleConfig E a st ev st.event.config (fun c => { st with event := { st.event with config := c } })
  else if st.depth = 3 ∧ ev.type = .objectEnd ∧ st.section_ = .eventConfig then
    let st' := { st with section_ := .none }
    if st.noRules then (a, .ok st')
    else if st.event.inserted then invoke E a (.eventUpdateConfig st.event.label st.event.config) st'
    else (a, .ok st')
  else andThen (insertEvent E a st) (eventTail E ev)

/-! ### User values -/

/-- A scalar user value (load_config.c:1295-1352).  A number the store refuses as an integer is tried as a double. -/
def plainValue {α : Type} (E : Env α) (a : α) (st : State) (ev : Ev) : α × Res State :=
  match ev.type with
  | .null => invoke E a (.store st.key .null) st
  | .false => invoke E a (.store st.key (.bool false)) st
  | .true => invoke E a (.store st.key (.bool true)) st
  | .number =>
    let dbl (a : α) : α × Res State :=
      withValue a (convertDouble E ev.type ev.data) fun d => invoke E a (.store st.key (.double d)) st
    match convertS64 ev.type ev.data with
    | .ok i =>
      match E.call a (.store st.key (.sint i)) with
      | (a, none) => (a, .ok st)
      | (a, some _) => dbl a
    | .err _ => dbl a
    | .ub => (a, .ub)
  | .string =>
    if 16384 ≤ ev.data.length then (a, .err .stringArgTooLong)
    else invoke E a (.store st.key (.string ev.data)) st
  | .objectBeg => (a, .ok { st with uvLabel := st.key })
  | .objectEnd => (a, .ok st)
  | _ => (a, .err .configUnexpected)

/-- A typed user value (load_config.c:1420-1497). -/
def typedValue {α : Type} (E : Env α) (a : α) (st : State) (ev : Ev) : α × Res State :=
  if st.keydepth ≠ 3 then (a, .err .configUnexpected)
  else if ev.type ≠ .number ∧ ev.type ≠ .string then (a, .err .configUnexpected)
  else if st.key = ascii "uint" then
    withValue a (convertU64 ev.type ev.data) fun v => invoke E a (.store st.uvLabel (.uint v)) st
  else if st.key = ascii "sint" then
    withValue a (convertS64 ev.type ev.data) fun v => invoke E a (.store st.uvLabel (.sint v)) st
  else if st.key = ascii "float" then
    withValue a (convertDouble E ev.type ev.data) fun v => invoke E a (.store st.uvLabel (.double v)) st
  else if st.key = ascii "string" then
    if 16384 ≤ ev.data.length then (a, .err .stringArgTooLong) else invoke E a (.store st.uvLabel (.string ev.data)) st
  else if st.key = ascii "base64" then
    if 16384 ≤ ev.data.length then (a, .err .stringArgTooLong) else invoke E a (.store st.uvLabel (.base64 ev.data)) st
  else (a, .err .configInvalidValue)

/-- One event of an embedded JSON value (load_config.c:1371-1416). -/
def jsonValue {α : Type} (E : Env α) (a : α) (st : State) (ev : Ev) : α × Res State :=
  let dom := st.dom ++ [(ev.type, ev.data)]
  match E.domRefuses dom with
  | some e => (a, .err e)
  | none =>
    if st.depth = 3 then invoke E a (.store st.uvLabel (.json dom)) { st with dom := dom, section_ := .none }
    else (a, .ok { st with dom := dom })

/-- The part of `handle_user_value_clause` after the plain values (load_config.c:1357-1500). -/
def userValueTail {α : Type} (E : Env α) (a : α) (st : State) (ev : Ev) : α × Res State :=
  let st :=
    if st.object = .userValue ∧ st.section_ ≠ .json ∧ st.key = ascii "json" then { st with section_ := .json, dom := [] } else st
  if 3 ≤ st.depth ∧ st.object = .userValue ∧ st.section_ = .json then jsonValue E a st ev
  else if st.depth = 3 ∧ st.object = .userValue then typedValue E a st ev
  else (a, .err .configUnexpected)

/-- `handle_user_value_clause` (load_config.c:1274-1501). -/
def handleUserValue {α : Type} (E : Env α) (a : α) (st : State) (ev : Ev) : α × Res State :=
  if st.table ≠ .userValues then (a, .err .configUnexpected)
  else if st.depth = 1 ∧ ev.type = .objectEnd then (a, .ok { st with table := .none })
  else if st.depth = 2 ∧ st.object = .userValue ∧ ev.type = .objectEnd then (a, .ok st.reset)
  else if st.depth = 3 ∧ st.keydepth = 2 ∧ st.object = .none then
    (a, .ok { st with uvLabel := st.key, object := .userValue })
  else if st.depth = 2 ∧ st.keydepth = 2 ∧ st.object = .none then plainValue E a st ev
  else userValueTail E a st ev

/-! ### The callback -/

/-- A key (load_config.c:1522-1542): kept, up to 31 bytes, unless it belongs to an embedded JSON value. -/
def handleKey {α : Type} (E : Env α) (a : α) (st : State) (ev : Ev) : α × Res State :=
  if st.section_ = .json then handleUserValue E a st ev
  else if 32 ≤ ev.data.length then (a, .err .configInvalidKey)
  else (a, .ok { st with key := cstr ev.data, keydepth := st.depth })

/-- A value outside the tables: the version, or the beginning of a table (load_config.c:1557-1625). -/
def handleTop {α : Type} (a : α) (st : State) (ev : Ev) : α × Res State :=
  if st.keydepth = 1 ∧ st.depth ≤ 2 then
    match ev.type with
    | .false | .true | .number | .string =>
      if st.depth ≠ 1 then (a, .err .configUnexpected)
      else if st.key = ascii "wolfsentry-config-version" then
        (a, (convertU32 ev.type ev.data).bind fun v =>
          if v ≠ 1 then .err .configInvalidValue else .ok { st with version := v })
      else (a, .err .configInvalidKey)
    | .objectBeg =>
      if st.version = 0 then (a, .err .configUnexpected)
      else if st.depth ≠ 2 then (a, .err .configUnexpected)
      else if st.key = ascii "config-update" then (a, .ok { st with table := .topConfig })
      else if st.key = ascii "default-policies" then (a, .ok { st with table := .defaultPolicies })
      else if st.key = ascii "user-values" then (a, .ok { st with table := .userValues })
      else (a, .err .configInvalidKey)
    | .arrayBeg =>
      if st.version = 0 then (a, .err .configUnexpected)
      else if st.depth ≠ 2 then (a, .err .configUnexpected)
      else if st.key = ascii "events-insert" ∨ st.key = ascii "events" then (a, .ok { st with table := .events })
      else if st.key = ascii "static-routes-insert" ∨ st.key = ascii "routes" then (a, .ok { st with table := .routes })
      else if st.key = ascii "actions-update" then (a, .err .configMissingHandler)
      else (a, .err .configInvalidKey)
    | _ => (a, .err .configUnexpected)
  else (a, .err .configUnexpected)

/-- The change of `cur_depth` (load_config.c:1544-1547). -/
def newDepth (type : JType) (depth : Int) : Int :=
  match type with
  | .objectBeg | .arrayBeg => depth + 1
  | .objectEnd | .arrayEnd => depth - 1
  | _ => depth

/-- Dispatch on the table under construction (load_config.c:1549-1692). -/
def dispatch {α : Type} (E : Env α) (a : α) (st : State) (ev : Ev) : α × Res State :=
  if ev.type = .objectBeg ∧ st.depth = 1 then (a, .ok st)
  else if ev.type = .objectEnd ∧ st.depth = 0 then (a, .ok st.reset)
  else
    match st.table with
    | .none => handleTop a st ev
    | .topConfig => handleConfig E a st ev st.defaultConfig (fun c => { st with defaultConfig := c })
    | .defaultPolicies => handlePolicy E a st ev
    | .routes =>
      if st.depth = 1 ∧ ev.type = .arrayEnd then (a, .ok { st with table := .none }) else handleRoute E a st ev
    | .events =>
      if st.depth = 1 ∧ ev.type = .arrayEnd then (a, .ok { st with table := .none }) else handleEvent E a st ev
    | .userValues =>
      if st.depth = 1 ∧ ev.type = .arrayEnd then (a, .ok { st with table := .none }) else handleUserValue E a st ev

/-- `json_process` (load_config.c:1505-1705). -/
def step {α : Type} (E : Env α) (a : α) (st : State) (ev : Ev) : α × Res State :=
  if ev.type = .key then handleKey E a st ev
  else dispatch E a { st with depth := newDepth ev.type st.depth } ev

/-- A sequence of events, up to the first failure. -/
def run {α : Type} (E : Env α) : α → State → List Ev → α × Res State
  | a, st, [] => (a, .ok st)
  | a, st, ev :: evs => andThen (step E a st ev) fun a st => run E a st evs

/-- The state `wolfsentry_config_json_init_ex` sets up (load_config.c:1749-1751, 1834): everything zero but the flags and
the default configuration read from the context. -/
def start (noRules : Bool) (c : EventConfig) : State := { noRules := noRules, defaultConfig := c }

end WS.Conf
