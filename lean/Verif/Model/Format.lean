import Verif.Model.RouteTable
/-
Text rendering of rules (src/routes.c:3692-3780, 3782-3826, 3839-4124): numbers, addresses, and the
JSON form of a rule, written into a caller-supplied buffer.

Not modelled: the reference taken and dropped on the address family object while its name is written.
External functions are parameters (`FmtEnv`): the registered address formatters, the family names,
`getprotobynumber_r` and `inet_ntop`.
-/
namespace WS

/-- The bytes of an ASCII C string literal. -/
def ascii (s : String) : List Byte := s.toList.map (fun c => BitVec.ofNat 8 c.toNat)

/-- Number of values of `size_t`. -/
def sizeTMod : Nat := 18446744073709551616

/-- The output cursor: the bytes stored from the start of the buffer up to `*json_out`, the value of
`*json_out_len`, and one past the highest buffer index ever stored to. -/
structure Out where
  text : List Byte := []
  left : Nat
  high : Nat := 0
  deriving DecidableEq, Repr

/-- Result of a writing step; `ub` is undefined behaviour in C. -/
inductive WRes where
  | ub
  | fail (e : Err) (s : Out)
  | ok (s : Out)
  deriving DecidableEq, Repr

def WRes.bind (r : WRes) (f : Out → WRes) : WRes :=
  match r with
  | .ok s => f s
  | r => r

/-- Storing bytes at the cursor and advancing it. -/
def Out.put (s : Out) (b : List Byte) : Out :=
  { text := s.text ++ b, left := s.left - b.length, high := max s.high (s.text.length + b.length) }

/-- `write_byte`, `write_bytes`, `write_string` (src/routes.c:3878-3880). -/
def writeBytes (b : List Byte) (s : Out) : WRes :=
  if s.left < b.length then .fail .bufferTooSmall s else .ok (s.put b)

/-- `unwrite_byte` (src/routes.c:3881). -/
def unwriteByte (s : Out) : Out := { s with text := s.text.dropLast, left := s.left + 1 }

/-- The loop of `ws_itoa` that counts the digits (src/routes.c:3853-3862), from threshold `t` with
`chars` counted; gives the final `digit_thresh` and `out_chars`.  `t` starts at 10 and stops at
1000000000, so nine passes suffice for the fuel. -/
def itoaThresh (i : Nat) : (fuel t chars : Nat) → Nat × Nat
  | 0, t, chars => (t, chars)
  | fuel + 1, t, chars =>
    if t ≤ i then
      if t = 1000000000 then (t, chars + 1) else itoaThresh i fuel (t * 10) (chars + 1)
    else (t / 10, chars)

/-- The loop of `ws_itoa` that stores the digits (src/routes.c:3868-3873). -/
def itoaDigits (i t : Nat) : List Byte :=
  if 1 ≤ t then BitVec.ofNat 8 (48 + i / t) :: itoaDigits (i % t) (t / 10) else []
termination_by t
decreasing_by omega

/-- `ws_itoa` (src/routes.c:3842-3876) for a C `int`.  Negating `INT_MIN` overflows. -/
def wsItoa (i : Int) (s : Out) : WRes :=
  if i = -2147483648 then .ub
  else
    let n := i.natAbs
    let c := itoaThresh n 9 10 (if i < 0 then 2 else 1)
    if s.left < c.2 then .fail .bufferTooSmall s
    else
      let t := (if i < 0 then [45#8] else []) ++ itoaDigits n c.1
      .ok { text := s.text ++ t, left := s.left - c.2, high := max s.high (s.text.length + t.length) }

/-- `hexdigit_ntoa` (src/routes.c:3693-3699). -/
def hexdigitNtoa (d : Nat) : Byte :=
  let d := d % 16
  if d < 10 then BitVec.ofNat 8 (48 + d) else BitVec.ofNat 8 (97 + (d - 10))

/-- `WOLFSENTRY_AF_*` used by the renderers (wolfsentry/wolfsentry_af.h:40-102; `AF_LINK` is
`AF_LINK48`). -/
abbrev AF_LOCAL : Nat := 1
abbrev AF_INET : Nat := 2
abbrev AF_INET6 : Nat := 10
abbrev AF_CAN : Nat := 29
abbrev AF_LINK48 : Nat := 118
abbrev AF_LINK64 : Nat := 119

/-- What `getprotobynumber_r` reports: a name, no such protocol (return value 0 with a NULL result), or an
error. -/
inductive ProtoLookup where
  | found (name : List Byte)
  | unknown
  | error
  deriving DecidableEq, Repr

/-- The functions the renderers call.  `formatter f` is the registered formatter of family `f`: address
bytes, bit length and buffer length to a text (the formatter contract: the text fits the length).
`famName` is `wolfsentry_addr_family_ntop` (`none` when it fails).  `ntop4` and `ntop6` are the texts of
`inet_ntop`, which fails when text and terminator exceed the given length. -/
structure FmtEnv where
  formatter : Nat → Option (List Byte → Nat → Nat → Except Err (List Byte))
  famName : Nat → Option (List Byte)
  proto : Nat → ProtoLookup
  ntop4 : List Byte → List Byte
  ntop6 : List Byte → List Byte

/-- Outcome of `wolfsentry_route_format_address`: the text (without terminator) and how many bytes of the
buffer were stored to. -/
inductive FmtRes where
  | ub
  | fail (e : Err)
  | ok (text : List Byte) (stored : Nat)
  deriving DecidableEq, Repr

/-- The separator, then two digits: the loop for link-layer addresses (src/routes.c:3727-3732). -/
def fmtLinkBytes : List Byte → (first : Bool) → List Byte
  | [], _ => []
  | b :: bs, first =>
    (if first then [] else [58#8]) ++ [hexdigitNtoa (b.toNat >>> 4), hexdigitNtoa b.toNat] ++ fmtLinkBytes bs false

/-- The loop for CAN addresses (src/routes.c:3766-3774). -/
def fmtCanBytes (addr : List Byte) (n : Nat) : List Byte :=
  (List.range 4).flatMap fun i =>
    if i < n then [hexdigitNtoa ((byteAt addr i).toNat >>> 4), hexdigitNtoa (byteAt addr i).toNat] else [48#8, 48#8]

/-- `memset(addr_buf, 0, n); memcpy(addr_buf, addr, len)` into a local buffer of `n` bytes
(src/routes.c:3739-3741, 3747-3749): overflows when `len > n`. -/
def padCopy (n : Nat) (addr : List Byte) (len : Nat) : Option (List Byte) :=
  if n < len then none else some (addr.take len ++ List.replicate (n - len) 0#8)

/-- `wolfsentry_route_format_address` (src/routes.c:3701-3780).  `buflen` is `*buflen` as the comparisons
see it, converted to `size_t`; `socklen` as `inet_ntop` sees it. -/
def formatAddress (E : FmtEnv) (family : Nat) (addr : List Byte) (bits buflen socklen : Nat) : FmtRes :=
  match E.formatter family with
  | some f =>
    match f addr bits buflen with
    | .error e => .fail e
    | .ok t => .ok t t.length
  | none =>
    if family = AF_LINK48 then
      if (bits >>> 3) * 3 > buflen then .fail .bufferTooSmall
      else
        let t := fmtLinkBytes (addr.take (bits >>> 3)) true
        .ok t (t.length + 1)
    else if family = AF_INET then
      match padCopy 4 addr (bitsToBytes bits) with
      | none => .ub
      | some a =>
        let t := E.ntop4 a
        if socklen < t.length + 1 then .fail .sysOpFailed else .ok t (t.length + 1)
    else if family = AF_INET6 then
      match padCopy 16 addr (bitsToBytes bits) with
      | none => .ub
      | some a =>
        let t := E.ntop6 a
        if socklen < t.length + 1 then .fail .sysOpFailed else .ok t (t.length + 1)
    else if family = AF_LOCAL then
      if bitsToBytes bits ≥ buflen then .fail .bufferTooSmall
      else .ok (addr.take (bitsToBytes bits)) (bitsToBytes bits + 1)
    else if family = AF_CAN then
      if 2 + 4 * 2 + 1 > buflen then .fail .bufferTooSmall
      else
        let t := ascii "0x" ++ fmtCanBytes addr (bits >>> 3)
        .ok t (t.length + 1)
    else .fail .opNotSuppForProto

/-- `wolfsentry_route_flag_names` (src/routes.c:3789-3805). -/
def flagNames : List (Flags × String) := [
  (RF.SA_FAMILY_WILDCARD, "af-wild"),
  (RF.SA_REMOTE_ADDR_WILDCARD, "raddr-wild"),
  (RF.SA_REMOTE_PORT_WILDCARD, "rport-wild"),
  (RF.SA_LOCAL_ADDR_WILDCARD, "laddr-wild"),
  (RF.SA_LOCAL_PORT_WILDCARD, "lport-wild"),
  (RF.REMOTE_INTERFACE_WILDCARD, "riface-wild"),
  (RF.LOCAL_INTERFACE_WILDCARD, "liface-wild"),
  (RF.TCPLIKE_PORT_NUMBERS, "tcplike-port-numbers"),
  (RF.DIRECTION_IN, "direction-in"),
  (RF.DIRECTION_OUT, "direction-out"),
  (RF.PENALTYBOXED, "penalty-boxed"),
  (RF.GREENLISTED, "green-listed"),
  (RF.DONT_COUNT_HITS, "dont-count-hits"),
  (RF.DONT_COUNT_CURRENT_CONNECTIONS, "dont-count-current-connections"),
  (RF.PORT_RESET, "port-reset")]

/-- `wolfsentry_route_flag_assoc_by_flag` (src/routes.c:3807-3816). -/
def flagAssocByFlag (f : Flags) : Except Err (List Byte) :=
  match flagNames.find? (fun p => p.1 == f) with
  | some p => .ok (ascii p.2)
  | none => .error .itemNotFound

/-- `wolfsentry_route_flag_assoc_by_name` (src/routes.c:3818-3832): `strncmp(i->name, name, len) == 0` and
`i->name[len] == 0`; for a text of `len` bytes without NUL this is equality with the name. -/
def flagAssocByName (nm : List Byte) : Except Err Flags :=
  match flagNames.find? (fun p => ascii p.2 == nm) with
  | some p => .ok p.1
  | none => .error .itemNotFound

/-- The steps of `wolfsentry_route_format_json`, one per macro or call.  `addr` is the block
`len_in_out = (int)*json_out_len; …; wolfsentry_route_format_address(…)`; `stale` tells whether the
length was read before (src/routes.c:3993-4001) or after (4006-4014) the key was written. -/
inductive WOp where
  | str (b : List Byte)
  | num (n : Nat)
  | quoted (name : List Byte)
  | addr (stale : Bool) (lead a : List Byte) (bits : Nat) (trail : List Byte)
  | replace (b : List Byte)
  | undefined
  deriving DecidableEq, Repr

/-- `(int)x` of a `size_t`, converted back to `size_t` in a comparison. -/
def intSize (x : Nat) : Nat :=
  let l := x % 4294967296
  if l < 2147483648 then l else sizeTMod - 4294967296 + l

def runOp (E : FmtEnv) (family : Nat) : WOp → Out → WRes
  | .str b, s => writeBytes b s
  | .num n, s => wsItoa n s
  | .quoted name, s =>
    -- src/routes.c:3926-3934
    if name.length + 2 > s.left then .fail .bufferTooSmall s
    else (writeBytes [34#8] s).bind fun s => (writeBytes name s).bind fun s => writeBytes [34#8] s
  | .addr stale lead a bits trail, s =>
    (writeBytes lead s).bind fun s' =>
      let len := if stale then s.left else s'.left
      match formatAddress E family a bits (intSize len) (len % 4294967296) with
      | .ub => .ub
      | .fail e => .fail e s'
      | .ok t stored =>
        -- `(*json_out) += len_in_out; *json_out_len -= (size_t)len_in_out;`
        (fun s'' => writeBytes trail s'')
          { text := s'.text ++ t, left := (s'.left + sizeTMod - t.length) % sizeTMod,
            high := max s'.high (s'.text.length + stored) }
  | .replace b, s => writeBytes b (unwriteByte s)
  | .undefined, _ => .ub

def runOps (E : FmtEnv) (family : Nat) : List WOp → Out → WRes
  | [], s => .ok s
  | o :: os, s => (runOp E family o s).bind (runOps E family os)

/-- One endpoint (src/routes.c:3984-4050 and 4052-4118). -/
def endpointOps (r : Route) (e : Endpoint) (key : String) (addrW portW ifaceW bitmask : Flags) : List WOp :=
  let have_ (w : Flags) := !(r.flags.has w)
  if have_ addrW || have_ portW || have_ ifaceW then
    [.str (ascii key)]
    ++ (if have_ addrW then
          if r.flags.has bitmask then
            [.addr true (ascii "\"address\":\"") e.addr (e.bits >>> 1) (ascii "\",\"bitmask\":\""),
             .addr false [] (e.addr.drop (bitsToBytes (e.bits >>> 1))) (e.bits >>> 1) (ascii "\",")]
          else
            [.addr true (ascii "\"address\":\"") e.addr e.bits (ascii "\",\"prefix-bits\":"),
             .num e.bits, .str (ascii ",")]
        else [])
    ++ (if have_ portW then [.str (ascii "\"port\":"), .num e.port, .str (ascii ",")] else [])
    ++ (if have_ ifaceW then [.str (ascii "\"interface\":"), .num e.iface, .str (ascii ",")] else [])
    ++ [.replace (ascii "},")]
  else []

/-- `"parent-event"` (src/routes.c:3894-3898). -/
def parentEventOps (r : Route) : List WOp :=
  match r.event with
  | some e => [.str (ascii "\"parent-event\":\""), .str e.label, .str (ascii "\",")]
  | none => []

/-- The flags (src/routes.c:3899-3911). -/
def flagOps (r : Route) : List WOp :=
  flagNames.flatMap (fun p =>
    [.str (ascii "\""), .str (ascii p.2), .str (ascii "\":"),
     .str (if r.flags.has p.1 then ascii "true" else ascii "false"), .str (ascii ",")])

/-- `"family"` (src/routes.c:3915-3949). -/
def familyOps (E : FmtEnv) (r : Route) (numeric : Bool) : List WOp :=
  if r.flags.has RF.SA_FAMILY_WILDCARD then []
  else
    [.str (ascii "\"family\":"),
     (match (if numeric then none else E.famName r.family) with
      | some nm => .quoted nm
      | none => .num r.family),
     .str (ascii ",")]

/-- The value of `"protocol"` (src/routes.c:3956-3981).  For a number without a name
`protoent.p_name` is read uninitialised. -/
def protoValueOps (E : FmtEnv) (r : Route) (numeric : Bool) : List WOp :=
  if numeric || !(r.family == AF_INET || r.family == AF_INET6) then [.num r.proto]
  else match E.proto r.proto with
    | .found nm => [.str (ascii "\""), .str nm, .str (ascii "\"")]
    | .unknown => [.undefined]
    | .error => [.num r.proto]

/-- `"protocol"` (src/routes.c:3951-3983). -/
def protoOps (E : FmtEnv) (r : Route) (numeric : Bool) : List WOp :=
  if r.flags.has RF.SA_PROTO_WILDCARD then []
  else [.str (ascii "\"protocol\":")] ++ protoValueOps E r numeric ++ [.str (ascii ",")]

/-- `wolfsentry_route_format_json` (src/routes.c:3884-4124). `numeric` is
`WOLFSENTRY_FORMAT_FLAG_ALWAYS_NUMERIC`. -/
def formatJsonOps (E : FmtEnv) (r : Route) (numeric : Bool) : List WOp :=
  [.str (ascii "{")] ++ parentEventOps r ++ flagOps r ++ familyOps E r numeric ++ protoOps E r numeric
  ++ endpointOps r r.remote "\"remote\":{" RF.SA_REMOTE_ADDR_WILDCARD RF.SA_REMOTE_PORT_WILDCARD
      RF.REMOTE_INTERFACE_WILDCARD RF.REMOTE_ADDR_BITMASK
  ++ endpointOps r r.loc "\"local\":{" RF.SA_LOCAL_ADDR_WILDCARD RF.SA_LOCAL_PORT_WILDCARD
      RF.LOCAL_INTERFACE_WILDCARD RF.LOCAL_ADDR_BITMASK
  ++ [.replace (ascii "}")]

/-- A call with a buffer of `cap` bytes. -/
def formatJson (E : FmtEnv) (r : Route) (numeric : Bool) (cap : Nat) : WRes :=
  runOps E r.family (formatJsonOps E r numeric) { left := cap }

end WS
