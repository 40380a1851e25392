import Verif.Model.Route
/-
Comparison of rule keys (src/routes.c:43-573).  The default build is modelled, in which
`WOLFSENTRY_ADDR_BITMASK_MATCHING` is defined (wolfsentry/wolfsentry_settings.h:288-289).
C comparators return an `int` of which only the sign is used; `Ordering` is that sign.
-/
namespace WS

/-- `memcmp(a, b, n)`: sign of the first difference among the first `n` bytes, as unsigned
bytes.  Reading past either buffer would be undefined; the theorems assume well-formed buffers,
for which it does not happen. -/
def memcmp : List Byte → List Byte → Nat → Ordering
  | a :: as, b :: bs, n + 1 => (compare a.toNat b.toNat).then (memcmp as bs n)
  | _, _, _ => .eq

/-- `addr[i]`. -/
def byteAt (a : List Byte) (i : Nat) : Byte := a.getD i 0

/-- `cmp_addrs_prefixful` (src/routes.c:43-110).  Result: comparison and `*inexact_p`. -/
def cmpAddrsPrefixful (left : List Byte) (leftLen : Nat) (right : List Byte) (rightLen : Nat)
    (wildcardP matchSubnetsP : Bool) : Ordering × Bool :=
  let minLen := if leftLen < rightLen then leftLen else rightLen
  if minLen = 0 then
    if leftLen = rightLen then (.eq, false)
    else if wildcardP || matchSubnetsP then (.eq, true)
    else if leftLen ≠ 0 then (.gt, false)
    else (.lt, false)
  else if leftLen ≠ rightLen then
    if wildcardP then (.eq, true)
    else if matchSubnetsP then
      let minBytes := bitsToBytes minLen
      if minLen &&& 7 = 0 then
        match memcmp left right minBytes with
        | .eq => (.eq, true)
        | c => (c, false)
      else
        let pre := if minBytes > 1 then memcmp left right (minBytes - 1) else .eq
        match pre with
        | .eq =>
          let lb := byteAt left (minBytes - 1)
          let rb := byteAt right (minBytes - 1)
          if lb >>> (minLen &&& 7) = rb >>> (minLen &&& 7) then (.eq, true)
          else if lb.toNat < rb.toNat then (.lt, false)
          else (.gt, false)
        | c => (c, false)
    else
      match memcmp left right (bitsToBytes minLen) with
      | .eq => if leftLen < rightLen then (.lt, false) else (.gt, false)
      | c => (c, false)
  else
    match memcmp left right (bitsToBytes leftLen) with
    | .eq => (.eq, false)
    | c => if wildcardP then (.eq, true) else (c, false)

/-- The mask-matching loop of `cmp_addrs_bitmaskful` (src/routes.c:262-276): `addr` and `mask`
are the two halves of the rule address from index `i` on, `target` the query address from index
`i - padding_offset` on. -/
def maskLoop : (addr mask target : List Byte) → (pad : Nat) → (inexact : Bool) → Ordering × Bool
  | a :: as, _ :: ms, target, pad + 1, inx =>
      -- `if (i < padding_offset)`
      if a ≠ 0 then (.gt, inx) else maskLoop as ms target pad inx
  | a :: as, m :: ms, t :: ts, 0, inx =>
      let x := t &&& m
      if x = a then maskLoop as ms ts 0 (if t ≠ a then true else inx)
      else (compare a.toNat x.toNat, inx)
  | _, _, _, _, inx => (.eq, inx)

/-- `cmp_addrs_bitmaskful` (src/routes.c:188-289). The
`WOLFSENTRY_ERROR_RETURN(INVALID_ARG)` on incommensurable lengths is a large negative value, which
the caller returns as a negative comparison (`.lt`).  `padding_offset` is computed in bits and compared with byte indexes, as in
the C code. -/
def cmpAddrsBitmaskful (left : List Byte) (leftLen : Nat) (right : List Byte) (rightLen : Nat)
    (wildcardP matchMaskedP : Bool) : Ordering × Bool :=
  let minLen := if leftLen < rightLen then leftLen else rightLen
  if matchMaskedP && decide (leftLen >>> 1 < rightLen) && decide (rightLen >>> 1 < leftLen) then
    if wildcardP then (.eq, true) else (.lt, false)
  else if minLen = 0 then
    if leftLen = rightLen then (.eq, false)
    else if wildcardP || matchMaskedP then (.eq, true)
    else if leftLen ≠ 0 then (.gt, false)
    else (.lt, false)
  else if leftLen = rightLen then
    match memcmp left right (bitsToBytes leftLen) with
    | .eq => (.eq, false)
    | c => if wildcardP then (.eq, true) else (c, false)
  else if wildcardP then (.eq, true)
  else if matchMaskedP then
    let maskful := if leftLen < rightLen then right else left
    let maskLenBits := if leftLen < rightLen then rightLen >>> 1 else leftLen >>> 1
    let target := if leftLen < rightLen then left else right
    let pad := if leftLen < rightLen then maskLenBits - leftLen else maskLenBits - rightLen
    let maskLen := bitsToBytes maskLenBits
    maskLoop (maskful.take maskLen) (maskful.drop maskLen) target pad false
  else
    match memcmp left right (bitsToBytes minLen) with
    | .eq => if leftLen < rightLen then (.lt, false) else (.gt, false)
    | c => (c, false)

/-- One scalar field of `wolfsentry_route_key_cmp_1`: unequal values either match by wildcard
(recorded in `*inexact_matches`), or decide the comparison (e.g. src/routes.c:338-346).
`k` is the rest of the function. -/
def scalarStage (l r : Nat) (matchW : Bool) (wf wbit inx : Flags)
    (k : Flags → Ordering × Flags) : Ordering × Flags :=
  if l ≠ r then
    if matchW && wf.has wbit then k (inx ||| wbit)
    else if l < r then (.lt, inx)
    else (.gt, inx)
  else k inx

/-- One address of `wolfsentry_route_key_cmp_1` (src/routes.c:348-372 and 393-418). -/
def addrStage (l r : Endpoint) (matchW : Bool) (wf wbit bmbit inx : Flags)
    (k : Flags → Ordering × Flags) : Ordering × Flags :=
  let c :=
    if wf.has bmbit then
      cmpAddrsBitmaskful l.addr l.bits r.addr r.bits (matchW && wf.has wbit) matchW
    else
      cmpAddrsPrefixful l.addr l.bits r.addr r.bits (matchW && wf.has wbit) matchW
  match c.1 with
  | .eq => k (if c.2 then inx ||| wbit else inx)
  | o => (o, inx)

/-- `wolfsentry_event_key_cmp_1` (src/events.c:27-42). -/
def labelCmp (l r : List Byte) : Ordering :=
  if l.length ≥ r.length then
    match memcmp l r r.length with
    | .eq => if l.length ≠ r.length then .gt else .eq
    | c => c
  else
    match memcmp l r l.length with
    | .eq => .lt
    | c => c

/-- Parent-event part of `wolfsentry_route_key_cmp_1` (src/routes.c:459-500).  The C code first
tests pointer equality of the two events, which is subsumed by equality of their contents here. -/
def eventStage (l r : Route) (matchW : Bool) (wf inx : Flags) : Ordering × Flags :=
  let pw := RF.PARENT_EVENT_WILDCARD
  scalarStage l.effPriority r.effPriority matchW wf pw inx fun inx =>
    if l.event = r.event then (.eq, inx)
    else if inx.has pw then (.eq, inx)
    else match l.event, r.event with
      | none, none => (.eq, inx)
      | none, some _ => if matchW && wf.has pw then (.eq, inx ||| pw) else (.lt, inx)
      | some _, none => if matchW && wf.has pw then (.eq, inx ||| pw) else (.gt, inx)
      | some a, some b =>
        match labelCmp a.label b.label with
        | .eq => (.eq, inx)
        | c => if matchW && wf.has pw then (.eq, inx ||| pw) else (c, inx)

/-- `wolfsentry_route_key_cmp_1` (src/routes.c:325-501).  `matchW` is `match_wildcards_p`; the
second component is `*inexact_matches`. -/
def routeKeyCmp1 (l r : Route) (matchW : Bool) : Ordering × Flags :=
  let wf := l.flags ||| r.flags
  scalarStage l.family r.family matchW wf RF.SA_FAMILY_WILDCARD 0 fun inx =>
  addrStage l.remote r.remote matchW wf RF.SA_REMOTE_ADDR_WILDCARD RF.REMOTE_ADDR_BITMASK inx fun inx =>
  scalarStage l.proto r.proto matchW wf RF.SA_PROTO_WILDCARD inx fun inx =>
  scalarStage l.loc.port r.loc.port matchW wf RF.SA_LOCAL_PORT_WILDCARD inx fun inx =>
  addrStage l.loc r.loc matchW wf RF.SA_LOCAL_ADDR_WILDCARD RF.LOCAL_ADDR_BITMASK inx fun inx =>
  scalarStage l.remote.port r.remote.port matchW wf RF.SA_REMOTE_PORT_WILDCARD inx fun inx =>
  scalarStage l.remote.iface r.remote.iface matchW wf RF.REMOTE_INTERFACE_WILDCARD inx fun inx =>
  scalarStage l.loc.iface r.loc.iface matchW wf RF.LOCAL_INTERFACE_WILDCARD inx fun inx =>
    let ml := l.flags &&& RF.IMMUTABLE_FLAGS
    let mr := r.flags &&& RF.IMMUTABLE_FLAGS
    if (!matchW) && ml != mr then
      if ml.toNat < mr.toNat then (.lt, inx) else (.gt, inx)
    else eventStage l r matchW wf inx

/-- `wolfsentry_route_key_cmp` (src/routes.c:571-573): the table order. -/
def routeKeyCmp (l r : Route) : Ordering := (routeKeyCmp1 l r false).1

/-- `addr_prefix_match_size` (src/routes.c:112-140): whole equal bytes first, then single bits
from the least significant bit upward. -/
def addrPrefixMatchSize (a : List Byte) (aLen : Nat) (b : List Byte) (bLen : Nat) : Nat :=
  let minLen := if aLen < bLen then aLen else bLen
  let whole := minLen >>> 3
  if minLen = 0 then 0
  else
    let n := ((a.zip b).take whole).takeWhile (fun p => p.1 == p.2) |>.length
    let start := n <<< 3
    start + ((List.range (minLen - start)).takeWhile fun d =>
      let i := start + d
      (byteAt a (i / 8)).getLsbD (i % 8) == (byteAt b (i / 8)).getLsbD (i % 8)).length

/-- Number of set bits of a byte. -/
def popcountByte (b : Byte) : Nat := ((List.range 8).filter (fun i => b.getLsbD i)).length

/-- `addr_bitmask_match_size` (src/routes.c:291-321): `popcount32(~x) - 24` is the number of zero
bits in the low byte.  `padding_offset` mixes bytes and bits and wraps as unsigned when negative;
a negative offset makes the C code read before the buffer (undefined), which is not modelled: the
offset is truncated at 0. -/
def addrBitmaskMatchSize (a : List Byte) (aLen : Nat) (b : List Byte) (bLen : Nat) : Nat :=
  let longer := if aLen < bLen then b else a
  let shorter := if aLen < bLen then a else b
  let maskLen := if aLen < bLen then bitsToBytes (bLen >>> 1) else bitsToBytes (aLen >>> 1)
  let pad := if aLen < bLen then maskLen - aLen else maskLen - bLen
  ((List.range maskLen).map fun i =>
    if i < pad then 8 - popcountByte (byteAt longer i)
    else 8 - popcountByte (byteAt longer i ^^^ byteAt shorter (i - pad))).sum

/-- Number of set bits among the wildcard flags of a word. -/
def popcountWild (f : Flags) : Nat :=
  ((List.range 32).filter (fun i => (f &&& RF.WILDCARD_FLAGS).getLsbD i)).length

/-- `compare_match_exactness` (src/routes.c:503-550): `.lt` when `left` is the better match.
The right-hand remote score is computed from the *local* addresses (src/routes.c:523). -/
def compareMatchExactness (target left : Route) (leftInx : Flags) (right : Route) (rightInx : Flags) :
    Ordering :=
  let l0 := 8 - popcountWild leftInx
  let r0 := 8 - popcountWild rightInx
  let (l1, r1) :=
    if l0 = r0 then
      ((if left.flags.has RF.REMOTE_ADDR_BITMASK then
          addrBitmaskMatchSize target.remote.addr target.remote.bits left.remote.addr left.remote.bits
        else
          addrPrefixMatchSize target.remote.addr target.remote.bits left.remote.addr left.remote.bits),
       (if right.flags.has RF.REMOTE_ADDR_BITMASK then
          addrBitmaskMatchSize target.remote.addr target.remote.bits right.remote.addr right.remote.bits
        else
          addrPrefixMatchSize target.loc.addr target.loc.bits right.loc.addr right.loc.bits))
    else (l0, r0)
  let (l2, r2) :=
    if l1 = r1 then
      ((if left.flags.has RF.LOCAL_ADDR_BITMASK then
          addrBitmaskMatchSize target.loc.addr target.loc.bits left.loc.addr left.loc.bits
        else
          addrPrefixMatchSize target.loc.addr target.loc.bits left.loc.addr left.loc.bits),
       (if right.flags.has RF.LOCAL_ADDR_BITMASK then
          addrBitmaskMatchSize target.loc.addr target.loc.bits right.loc.addr right.loc.bits
        else
          addrPrefixMatchSize target.loc.addr target.loc.bits right.loc.addr right.loc.bits))
    else (l1, r1)
  if l2 > r2 then .lt else if l2 < r2 then .gt else .eq

end WS
