import Verif.Model.Format
import Verif.Model.KvRender
/-
Rules written as one line of text to a stdio stream (src/routes.c:4207-4586).

A run is a list of steps: output calls, each on one of three streams, and the points where the code gives up.  Which output calls succeed is an
oracle.  Simplifications: an output call that fails writes nothing; reading behind the bytes of an endpoint's address is undefined (`ub`), also
where the bytes of the other endpoint follow them in memory; dropping the reference to the address family does not fail.
-/
namespace WS.Txt
open WS

/-- The caller's stream, standard output, standard error. -/
inductive Stream where
  | f | out | err
  deriving DecidableEq, Repr

/-- The functions called: those of `FmtEnv`, and whether the name of a family comes with a reference to a registered family (the third argument of
`wolfsentry_addr_family_ntop`). -/
structure Env extends FmtEnv where
  famRef : Nat → Bool

/-- One step.  `quiet` is an output whose result is not looked at and `keep` one whose failure is reported after the reference has been
dropped. -/
inductive Op where
  | put (s : Stream) (b : List Byte)
  | quiet (s : Stream) (b : List Byte)
  | keep (s : Stream) (b : List Byte)
  | take
  | drop
  | stop (e : Err)
  | undefined
  deriving DecidableEq, Repr

/-- What has been written, the number of output calls made, the references held. -/
structure W where
  log : List (Stream × List Byte) := []
  calls : Nat := 0
  refs : Nat := 0
  deriving DecidableEq, Repr

inductive R where
  | ub
  | io (w : W)
  | fail (e : Err) (w : W)
  | ok (w : W)
  deriving DecidableEq, Repr

/-- Is there an error result, and what has been written. -/
def R.world : R → W
  | .ub => {}
  | .io w => w
  | .fail _ w => w
  | .ok w => w

/-- One output call. -/
def W.call (w : W) (works : Nat → Bool) (s : Stream) (b : List Byte) : W :=
  { w with log := if works w.calls then w.log ++ [(s, b)] else w.log, calls := w.calls + 1 }

def run (works : Nat → Bool) : List Op → W → R
  | [], w => .ok w
  | .put s b :: os, w => if works w.calls then run works os (w.call works s b) else .io (w.call works s b)
  | .quiet s b :: os, w => run works os (w.call works s b)
  | .keep s b :: os, w =>
    let w' := w.call works s b
    let w'' := { w' with refs := w'.refs - 1 }
    if works w.calls then run works os w'' else .io w''
  | .take :: os, w => run works os { w with refs := w.refs + 1 }
  | .drop :: os, w => run works os { w with refs := w.refs - 1 }
  | .stop e :: _, w => .fail e w
  | .undefined :: _, _ => .ub

/-- `"%s"`, `"%.*s"`: up to a zero byte. -/
def cstr (s : List Byte) : List Byte := s.takeWhile (· != 0#8)

/-- `"%02x"`. -/
def hex2 (b : Byte) : List Byte := [hexdigitNtoa (b.toNat >>> 4), hexdigitNtoa b.toNat]

/-- `"%d"`, `"%u"` of something not negative. -/
def dec (n : Nat) : List Byte := Render.decText n

/-- `wolfsentry_route_render_proto` (src/routes.c:4207-4241).  Its result is not looked at by its callers (4463, 4569), so its output is `quiet`;
each path makes one output call. -/
def protoOps (E : Env) (r : Route) : List Op :=
  if r.flags.hasAll RF.SA_PROTO_WILDCARD then [.quiet .f (ascii ", proto = *")]
  else if r.flags.hasAll RF.TCPLIKE_PORT_NUMBERS then
    match E.proto r.proto with
    | .found nm => [.quiet .f (ascii ", proto = " ++ nm)]
    | _ => [.quiet .f (ascii ", proto = " ++ dec r.proto)]
  else [.quiet .f (ascii ", proto = " ++ dec r.proto)]

/-- The loop for link-layer addresses (src/routes.c:4264-4269): byte `i` of `n`. -/
def linkOps (addr : List Byte) : (n i : Nat) → List Op
  | 0, _ => []
  | n + 1, i =>
    match addr[i]? with
    | none => [.undefined]
    | some b => .put .f ((if i = 0 then [] else ascii ":") ++ hex2 b) :: linkOps addr n (i + 1)

/-- `wolfsentry_route_render_address` (src/routes.c:4243-4316); `addr` is what can be read from the pointer on. -/
def addressOps (E : Env) (family bits : Nat) (addr : List Byte) (bytes : Nat) : List Op :=
  match E.formatter family with
  | some fm =>
    match fm addr bits 256 with
    | .error e => [.stop e]
    | .ok t => [.put .f t]
  | none =>
    if family = AF_LINK48 then linkOps addr (bits >>> 3) 0
    else if family = AF_INET then
      if bytes > 4 then [.stop .bufferTooSmall]
      else if addr.length < bytes then [.undefined]
      else
        let t := E.ntop4 (addr.take bytes ++ List.replicate (4 - bytes) 0#8)
        if 256 < t.length + 1 then [.stop .sysOpFailed] else [.put .f (t ++ ascii "/" ++ dec bits)]
    else if family = AF_INET6 then
      if bytes > 16 then [.stop .bufferTooSmall]
      else if addr.length < bytes then [.undefined]
      else
        let t := E.ntop6 (addr.take bytes ++ List.replicate (16 - bytes) 0#8)
        if 256 < t.length + 1 then [.stop .sysOpFailed] else [.put .f (ascii "[" ++ t ++ ascii "]/" ++ dec bits)]
    else if family = AF_LOCAL then
      if addr.length < bytes ∧ cstr addr = addr then [.undefined]
      else [.put .f (ascii "\"" ++ cstr (addr.take bytes) ++ ascii "\"")]
    else if family = AF_CAN then
      let n := bitsToBytes bits
      if n = 4 ∨ n = 3 ∨ n = 2 ∨ n = 1 then
        if addr.length < n then [.undefined]
        else [.put .f (ascii "\"0x" ++ (addr.take n).flatMap hex2 ++ (List.replicate (4 - n) (ascii "00")).flatten ++ ascii "\"")]
      else [.stop .invalidArg]
    else [.stop .opNotSuppForProto]

/-- The names of the flags (src/routes.c:4334-4356), by bit. -/
def bitNames : List (Nat × String) := [
  (0, "*F"), (1, "*RA"), (2, "*Pr"), (3, "*LP"), (4, "*LA"), (5, "*RP"), (6, "*RI"), (7, "*LI"), (8, "*E"), (9, "Tcplike"), (10, "In"),
  (11, "Out"), (12, "BMR"), (13, "BML"), (14, "Res"), (15, "D"), (16, "Ins"), (17, "Da"), (20, "Pbox"), (21, "Glist"), (22, "NoHits"),
  (23, "NoConnTrk"), (24, "PortRst")]

/-- The loop of `wolfsentry_route_render_flags` (src/routes.c:4328-4373) from bit `k`, `n` bits to go; `already` as there. -/
def flagLoop (flags : Flags) : (n k : Nat) → (already : Bool) → List Op
  | 0, _, _ => []
  | n + 1, k, already =>
    if flags &&& bit k = 0#32 then flagLoop flags n (k + 1) already
    else
      (if already then [.put .f (ascii ",")] else []) ++
      (match bitNames.find? (fun p => p.1 == k) with
       | none => [.put .err (ascii "unk-0x" ++ hexNum (2 ^ k))]
       | some p => [.put .f (ascii p.2)]) ++
      flagLoop flags n (k + 1) true
where
  /-- `"%x"`. -/
  hexNum (n : Nat) : List Byte := ((Nat.toDigits 16 n).map fun c => BitVec.ofNat 8 c.toNat)

/-- `wolfsentry_route_render_flags` (src/routes.c:4318-4378). -/
def flagsOps (flags : Flags) : List Op :=
  if flags = 0#32 then [.put .f (ascii "{}")]
  else [.put .f (ascii "{")] ++ flagLoop flags 32 0 false ++ [.put .f (ascii "}")]

/-- `wolfsentry_route_render_endpoint`, `wolfsentry_route_exports_render_endpoint` (src/routes.c:4380-4420, 4488-4526); the two differ in where
they find the address.  The place for the wildcard is standard output. -/
def endpointOps (E : Env) (r : Route) (e : Endpoint) (addrW portW ifaceW bitmask : Flags) : List Op :=
  (if r.flags.has addrW then [.put .out (ascii "*")]
   else if r.flags.has bitmask then
     addressOps E r.family (e.bits >>> 1) e.addr (bitsToBytes e.bits) ++ [.put .f (ascii "&")] ++
     addressOps E r.family (e.bits >>> 1) (e.addr.drop (bitsToBytes (e.bits >>> 1))) (bitsToBytes e.bits)
   else addressOps E r.family e.bits e.addr (bitsToBytes e.bits)) ++
  (if r.flags.has ifaceW then [] else [.put .f (ascii "%" ++ dec e.iface)]) ++
  (if r.flags.has portW then [.put .f (ascii ":*")] else [.put .f (ascii ":" ++ dec e.port)])

/-- The family (src/routes.c:4440-4461 for a rule, 4545-4567 for an export): for an export a failing output returns with the reference held. -/
def familyOps (E : Env) (r : Route) (exports : Bool) : List Op :=
  if r.flags.hasAll RF.SA_FAMILY_WILDCARD then [.put .f (ascii ", AF = *")]
  else match E.famName r.family with
    | some nm =>
      if E.famRef r.family then
        if exports then [.take, .put .f (ascii ", AF = " ++ nm), .drop] else [.take, .keep .f (ascii ", AF = " ++ nm)]
      else [.put .f (ascii ", AF = " ++ nm)]
    | none => [.put .f (ascii ", AF = " ++ dec r.family)]

/-- The event (src/routes.c:4465-4475, 4571-4581). -/
def eventOps (r : Route) : List Op :=
  match r.event with
  | some e => [.put .f (ascii ", ev = \"" ++ cstr e.label ++ ascii "\"" ++ (if r.flags.hasAll RF.PARENT_EVENT_WILDCARD then ascii "[*]" else []))]
  | none =>
    if r.flags.hasAll RF.PARENT_EVENT_WILDCARD then [.put .f (ascii ", ev = [*]")] else [.put .f (ascii ", ev = (none)")]

/-- `wolfsentry_route_render`, `wolfsentry_route_exports_render` (src/routes.c:4422-4486, 4528-4586); only the first writes the id. -/
def lineOps (E : Env) (r : Route) (exports : Bool) : List Op :=
  endpointOps E r r.remote RF.SA_REMOTE_ADDR_WILDCARD RF.SA_REMOTE_PORT_WILDCARD RF.REMOTE_INTERFACE_WILDCARD RF.REMOTE_ADDR_BITMASK ++
  [.put .f (ascii " " ++ (if r.flags.has RF.DIRECTION_OUT then ascii "<" else []) ++ ascii "-" ++
    (if r.flags.has RF.DIRECTION_IN then ascii ">" else []) ++ ascii " ")] ++
  endpointOps E r r.loc RF.SA_LOCAL_ADDR_WILDCARD RF.SA_LOCAL_PORT_WILDCARD RF.LOCAL_INTERFACE_WILDCARD RF.LOCAL_ADDR_BITMASK ++
  familyOps E r exports ++ protoOps E r ++ eventOps r ++ [.put .f (ascii ", flags=")] ++ flagsOps r.flags ++
  (if exports then [] else [.put .f (ascii ", id=" ++ dec r.id ++ ascii "\n")])

/-- A call. -/
def render (E : Env) (works : Nat → Bool) (r : Route) (exports : Bool) : R := run works (lineOps E r exports) {}

end WS.Txt
