import Verif.Model.Basic
/-
The incremental JSON parser through which every configuration is loaded (src/json/centijson_sax.c:73-1009,
wolfsentry/centijson_sax.h:70-226).

Each C function is one definition over whole chunks of input: a pointer/length pair is a list of bytes, a
`while` loop is a recursion, and the number of bytes a function reports as consumed is returned as a
natural number.  Loops whose termination is not structural take fuel; running out of fuel, reading
`nesting_stack[-1]`, `buf[-1]` or `input[size]` sets `fault`.

Simplifications: allocation succeeds (`json_buf_append` and the growth of the nesting stack cannot fail);
offsets, line and column numbers and counters are natural numbers; `last_cl_offset`'s initial `SIZE_MAX-1`
is `none`.  `callbacks.process` is an arbitrary function of the user data, the event and the two positions it
can see in the parser; it returns the new user data, its return code, and optionally a new error position
(src/json/load_config.c:1685-1695 stores one).
-/
namespace WS.Sax

/-- `JSON_INPUT_POS` (wolfsentry/centijson_sax.h:152-156). -/
structure Pos where
  offset : Nat := 0
  line : Nat := 0
  col : Nat := 0
  deriving DecidableEq, Repr

/-- `JSON_TYPE` (wolfsentry/centijson_sax.h:70-81). -/
inductive JType where
  | null | false | true | number | string | key | arrayBeg | arrayEnd | objectBeg | objectEnd
  deriving DecidableEq, Repr

/-- One call of `callbacks.process`: type and data (wolfsentry/centijson_sax.h:176-177). -/
structure Event where
  type : JType
  data : List Byte
  deriving DecidableEq, Repr

/-- `JSON_CONFIG` (wolfsentry/centijson_sax.h:136-144). -/
structure Config where
  maxTotalLen : Nat
  maxTotalValues : Nat
  maxNumberLen : Nat
  maxStringLen : Nat
  maxKeyLen : Nat
  maxNesting : Nat
  flags : BitVec 32
  deriving DecidableEq, Repr

/-- `callbacks.process` (wolfsentry/centijson_sax.h:176-177); the positions are `value_pos` and `pos`. -/
abbrev Callback (σ : Type) := σ → Event → Pos → Pos → σ × Int × Option Pos

/-- `enum centijson_automaton` (wolfsentry/centijson_sax.h:206-214). -/
inductive Automaton where
  | main | null | false | true | number | string | key
  deriving DecidableEq, Repr

/-- The bits of `JSON_PARSER::state` (centijson_sax.c:132-139). -/
structure Bits where
  value : Bool := false
  key : Bool := false
  closer : Bool := false
  comma : Bool := false
  colon : Bool := false
  eof : Bool := false
  deriving DecidableEq, Repr

/-- `JSON_PARSER` (wolfsentry/centijson_sax.h:183-226).  `nest` is `nesting_stack[0..nesting_level)`, the
innermost closer first. -/
structure Parser (σ : Type) where
  user : σ
  pos : Pos
  vpos : Pos
  errPos : Pos
  err : Int
  vcount : Nat
  nest : List Byte
  auto : Automaton
  state : Bits
  sub : Nat
  cp0 : Nat
  cp1 : Nat
  buf : List Byte
  lastCl : Option Nat
  fault : Bool
  deriving DecidableEq

/-! Error codes (wolfsentry/centijson_sax.h:86-109). -/
def errInternal : Int := -1
def errSyntax : Int := -4
def errBadCloser : Int := -5
def errBadRootType : Int := -6
def errExpectedValue : Int := -7
def errExpectedKey : Int := -8
def errExpectedValueOrCloser : Int := -9
def errExpectedKeyOrCloser : Int := -10
def errExpectedColon : Int := -11
def errExpectedCommaOrCloser : Int := -12
def errExpectedEof : Int := -13
def errMaxTotalLen : Int := -14
def errMaxTotalValues : Int := -15
def errMaxNesting : Int := -16
def errMaxNumberLen : Int := -17
def errMaxStringLen : Int := -18
def errMaxKeyLen : Int := -19
def errUnclosedString : Int := -20
def errUnescapedControl : Int := -21
def errInvalidEscape : Int := -22
def errInvalidUtf8 : Int := -23

/-- `json_defaults` (centijson_sax.c:74-82). -/
def defaults : Config :=
  { maxTotalLen := 10 * 1024 * 1024, maxTotalValues := 0, maxNumberLen := 512, maxStringLen := 65536,
    maxKeyLen := 512, maxNesting := 512, flags := 0#32 }

/-- `default_json_config` of the configuration loader (src/json/load_config.c:1712-1730;
`WOLFSENTRY_KV_MAX_VALUE_BYTES` 16384, `WOLFSENTRY_MAX_LABEL_BYTES` 32, `WOLFSENTRY_MAX_JSON_NESTING` 16,
`JSON_NOSCALARROOT` 0xf). -/
def loaderConfig : Config :=
  { maxTotalLen := 0, maxTotalValues := 0, maxNumberLen := 20, maxStringLen := 16384, maxKeyLen := 32,
    maxNesting := 16, flags := 0xf#32 }

/-- `json_init` (centijson_sax.c:141-174). -/
def init {σ : Type} (user : σ) : Parser σ :=
  { user := user, pos := { offset := 0, line := 1, col := 1 }, vpos := {}, errPos := {}, err := 0, vcount := 0,
    nest := [], auto := .main, state := { value := true }, sub := 0, cp0 := 0, cp1 := 0, buf := [],
    lastCl := none, fault := false }

section
variable {σ : Type}

/-- `json_raise_` (centijson_sax.c:176-184): the first error is kept. -/
def raiseAt (p : Parser σ) (e : Int) (pos : Pos) : Parser σ :=
  if 0 ≤ p.err then { p with err := e, errPos := pos } else p

/-- `json_raise` (centijson_sax.c:186-190). -/
def raise (p : Parser σ) (e : Int) : Parser σ := raiseAt p e p.pos

/-- `json_raise_for_value` (centijson_sax.c:192-196). -/
def raiseForValue (p : Parser σ) (e : Int) : Parser σ := raiseAt p e p.vpos

/-- The `switch` of `json_raise_unexpected` (centijson_sax.c:203-214). -/
def unexpectedCode (s : Bits) : Int :=
  if s = { value := true } then errExpectedValue
  else if s = { key := true } then errExpectedKey
  else if s = { value := true, closer := true } then errExpectedValueOrCloser
  else if s = { key := true, closer := true } then errExpectedKeyOrCloser
  else if s = { colon := true } then errExpectedColon
  else if s = { comma := true, closer := true } then errExpectedCommaOrCloser
  else if s = { eof := true } then errExpectedEof
  else errSyntax

/-- `json_raise_unexpected` (centijson_sax.c:198-217). -/
def raiseUnexpected (p : Parser σ) : Parser σ := raise p (unexpectedCode p.state)

/-- `json_switch_automaton` (centijson_sax.c:219-227). -/
def switchAutomaton (p : Parser σ) (a : Automaton) : Parser σ :=
  { p with vpos := p.pos, auto := a, sub := 0, buf := [] }

/-- The root type tests of `json_process` (centijson_sax.c:236-266). -/
def rootBad (cfg : Config) : JType → Bool
  | .null => cfg.flags.getLsbD 0
  | .false => cfg.flags.getLsbD 1
  | .true => cfg.flags.getLsbD 1
  | .number => cfg.flags.getLsbD 2
  | .string => cfg.flags.getLsbD 3
  | .arrayBeg => cfg.flags.getLsbD 4
  | .objectBeg => cfg.flags.getLsbD 5
  | _ => false

/-- What the main automaton may see after an event (centijson_sax.c:282-302). -/
def nextBits (t : JType) (nested : Bool) : Bits :=
  match t with
  | .arrayBeg => { value := true, closer := true }
  | .objectBeg => { key := true, closer := true }
  | .key => { colon := true }
  | _ => if nested then { comma := true, closer := true } else { eof := true }

/-- The second half of `json_process`: the callback and what follows (centijson_sax.c:280-306). -/
def deliver (cb : Callback σ) (p : Parser σ) (t : JType) (data : List Byte) : Parser σ :=
  let r := cb p.user ⟨t, data⟩ p.vpos p.pos
  switchAutomaton { p with user := r.1, err := r.2.1, errPos := r.2.2.getD p.errPos, state := nextBits t (!p.nest.isEmpty) }
    .main

/-- `json_process` (centijson_sax.c:229-307). -/
def process (cfg : Config) (cb : Callback σ) (p : Parser σ) (t : JType) (data : List Byte) : Parser σ :=
  if p.err < 0 then p
  else if t = .arrayEnd ∨ t = .objectEnd then deliver cb p t data
  else if p.vcount = 0 ∧ rootBad cfg t = true then raiseForValue p errBadRootType
  else if cfg.maxTotalValues ≠ 0 ∧ cfg.maxTotalValues ≤ p.vcount then raiseForValue p errMaxTotalValues
  else deliver cb { p with vcount := p.vcount + 1 } t data

/-- `json_buf_append` (centijson_sax.c:309-329), allocation succeeding. -/
def append (p : Parser σ) (data : List Byte) : Parser σ := { p with buf := p.buf ++ data }

/-- The encoding of `json_buf_append_codepoint` (centijson_sax.c:331-358). -/
def encode (cp : Nat) : List Byte :=
  if cp ≤ 0x7f then [BitVec.ofNat 8 cp]
  else if cp ≤ 0x7ff then
    [BitVec.ofNat 8 (0xc0 ||| ((cp >>> 6) &&& 0x1f)), BitVec.ofNat 8 (0x80 ||| ((cp >>> 0) &&& 0x3f))]
  else if cp ≤ 0xffff then
    [BitVec.ofNat 8 (0xe0 ||| ((cp >>> 12) &&& 0x0f)), BitVec.ofNat 8 (0x80 ||| ((cp >>> 6) &&& 0x3f)),
     BitVec.ofNat 8 (0x80 ||| ((cp >>> 0) &&& 0x3f))]
  else
    [BitVec.ofNat 8 (0xf0 ||| ((cp >>> 18) &&& 0x07)), BitVec.ofNat 8 (0x80 ||| ((cp >>> 12) &&& 0x3f)),
     BitVec.ofNat 8 (0x80 ||| ((cp >>> 6) &&& 0x3f)), BitVec.ofNat 8 (0x80 ||| ((cp >>> 0) &&& 0x3f))]

/-- `json_buf_append_codepoint` (centijson_sax.c:331-358). -/
def appendCodepoint (p : Parser σ) (cp : Nat) : Parser σ := append p (encode cp)

/-! The character classes (centijson_sax.c:361-372). -/
def isIn (c : Byte) (lo hi : Nat) : Bool := decide (lo ≤ c.toNat) && decide (c.toNat ≤ hi)
def isWhitespace (c : Byte) : Bool := c == 0x20#8 || c == 0x09#8 || c == 0x0d#8 || c == 0x0a#8
def isControl (c : Byte) : Bool := decide (c.toNat ≤ 31)
def isPunct (c : Byte) : Bool := isIn c 33 47 || isIn c 58 64 || isIn c 91 96 || isIn c 123 126
def isTokenBoundary (c : Byte) : Bool := isWhitespace c || isControl c || isPunct c
def isAscii (c : Byte) : Bool := decide (c.toNat ≤ 127)
def isDigit (c : Byte) : Bool := isIn c 0x30 0x39
def isXdigit (c : Byte) : Bool := isDigit c || isIn c 0x61 0x66 || isIn c 0x41 0x46
def isHi (cp : Nat) : Bool := decide (0xd800 ≤ cp) && decide (cp ≤ 0xdbff)
def isLo (cp : Nat) : Bool := decide (0xdc00 ≤ cp) && decide (cp ≤ 0xdfff)

/-- `parser->pos.offset += n; parser->pos.column_number += n`. -/
def advance (p : Parser σ) (n : Nat) : Parser σ :=
  { p with pos := { p.pos with offset := p.pos.offset + n, col := p.pos.col + n } }

/-! ### Literals -/

/-- The loop of `json_literal_automaton` (centijson_sax.c:383-395); the flag tells that a mismatch was
raised. -/
def litLoop (lit : List Byte) : Parser σ → Nat → List Byte → Parser σ × Nat × Bool
  | p, off, [] => (p, off, false)
  | p, off, c :: cs =>
    match lit[p.sub]? with
    | none => (p, off, false)
    | some l =>
      if c ≠ l then (raiseForValue p errSyntax, 0, true)
      else litLoop lit { advance p 1 with sub := p.sub + 1 } (off + 1) cs

/-- `json_literal_automaton` (centijson_sax.c:375-407); `eof` is `input == NULL`. -/
def litAutomaton (cfg : Config) (cb : Callback σ) (t : JType) (lit : List Byte) (p : Parser σ) (input : List Byte)
    (eof : Bool) : Parser σ × Nat :=
  match litLoop lit p 0 input with
  | (p', off, true) => (p', off)
  | (p', off, false) =>
    match input.drop off with
    | c :: _ =>
      if isTokenBoundary c = false then (raise { p' with pos := p'.vpos } errSyntax, off)
      else (process cfg cb p' t [], off)
    | [] => if eof then (process cfg cb p' t [], off) else (p', off)

/-! ### Numbers -/

/-- One iteration of the number loop's `if` chain. -/
inductive NumStep where
  | next (sub : Nat)
  | finish
  | bad
  deriving DecidableEq, Repr

/-- The `if` chain of `json_number_automaton` (centijson_sax.c:434-467).  Bits of `substate`: 0 sign,
1 first digit, 2 digit, 4 point, 5 fraction digit, 8 `e`, 9 exponent sign, 10 exponent digit, 12 end. -/
def numChar (sub : Nat) (c : Byte) : NumStep :=
  if sub.testBit 0 = true ∧ c = 0x2d#8 then .next 0x0002
  else if sub.testBit 1 = true ∧ isDigit c = true then (if c = 0x30#8 then .next 0x1110 else .next 0x1114)
  else if sub.testBit 2 = true ∧ isDigit c = true then .next 0x1114
  else if sub.testBit 4 = true ∧ c = 0x2e#8 then .next 0x0020
  else if sub.testBit 5 = true ∧ isDigit c = true then .next 0x1120
  else if sub.testBit 8 = true ∧ (c = 0x65#8 ∨ c = 0x45#8) then .next 0x0600
  else if sub.testBit 9 = true ∧ (c = 0x2b#8 ∨ c = 0x2d#8) then .next 0x0400
  else if sub.testBit 10 = true ∧ isDigit c = true then .next 0x1400
  else if sub.testBit 12 = true ∧ isTokenBoundary c = true then .finish
  else .bad

/-- How the number loop was left. -/
inductive NumExit (σ : Type) where
  | ranOut (p : Parser σ) (seen : List Byte)
  | returned (p : Parser σ) (off : Nat)

/-- The loop of `json_number_automaton` (centijson_sax.c:431-471); `seen` is `input[0..off)`. -/
def numLoop (cfg : Config) (cb : Callback σ) : Parser σ → List Byte → List Byte → NumExit σ
  | p, seen, [] => .ranOut p seen
  | p, seen, c :: cs =>
    match numChar p.sub c with
    | .next s => numLoop cfg cb (advance { p with sub := s } 1) (seen ++ [c]) cs
    | .finish =>
      if p.buf.length = 0 then .returned (process cfg cb p .number seen) seen.length
      else .returned (process cfg cb (append p seen) .number (append p seen).buf) seen.length
    | .bad => .returned (raiseForValue p errSyntax) 0

/-- The limit a too long chunk is cut to (centijson_sax.c:425-426, 551-552). -/
def cut (maxLen : Nat) (p : Parser σ) (input : List Byte) : List Byte :=
  if maxLen ≠ 0 ∧ p.pos.offset - p.vpos.offset + input.length > maxLen then
    input.take (maxLen - (p.pos.offset - p.vpos.offset) + 1)
  else input

/-- `json_number_automaton` (centijson_sax.c:409-489). -/
def numAutomaton (cfg : Config) (cb : Callback σ) (p : Parser σ) (input : List Byte) (eof : Bool) :
    Parser σ × Nat :=
  let inp := cut cfg.maxNumberLen p input
  let p1 := if p.sub = 0 then { p with sub := 0x0003 } else p
  match numLoop cfg cb p1 [] inp with
  | .returned p2 off => (p2, off)
  | .ranOut p2 seen =>
    let p3 :=
      if cfg.maxNumberLen ≠ 0 ∧ p2.pos.offset - p2.vpos.offset > cfg.maxNumberLen then
        raiseForValue p2 errMaxNumberLen
      else p2
    if eof then
      if 0 ≤ p3.err ∧ p3.sub.testBit 12 = true then (process cfg cb p3 .number p3.buf, seen.length)
      else (raiseForValue p3 errSyntax, seen.length)
    else if 0 ≤ p3.err ∧ 0 < seen.length then (append p3 seen, seen.length)
    else (p3, seen.length)

/-! ### Strings and keys -/

/-- `json_resolve_xdigit` (centijson_sax.c:491-500). -/
def resolveXdigit (c : Byte) : Nat :=
  if isDigit c then c.toNat - 0x30 else if isIn c 0x61 0x66 then c.toNat - 0x61 + 10 else c.toNat - 0x41 + 10

/-- `fffd` (centijson_sax.c:513-514), one replacement character. -/
def fffd : List Byte := [0xef#8, 0xbf#8, 0xbd#8]

/-- `json_handle_ill_surrogate` (centijson_sax.c:516-527); the flag is success. -/
def illSurrogate (p : Parser σ) (cp : Nat) (ignore fix : Bool) : Parser σ × Bool :=
  if ignore then (appendCodepoint p cp, true)
  else if fix then (append p (fffd ++ fffd ++ fffd), true)
  else (raise p errInvalidUtf8, false)

/-- What one pass through the body of the string loop does: `adv` falls through to the advance at its end,
`again` is `continue` without advancing, `closed` the closing quote, `fail` a `break`/`return` after an
error. -/
inductive StrStep (σ : Type) where
  | adv (p : Parser σ)
  | again (p : Parser σ)
  | closed (p : Parser σ)
  | fail (p : Parser σ)

/-- The first byte of a multi-byte character: the substate awaiting its continuation
(centijson_sax.c:623-638). -/
def leadState (c : Byte) : Option Nat :=
  if isIn c 0xc2 0xdf then some 1
  else if c = 0xe0#8 then some 4
  else if isIn c 0xe1 0xec then some 2
  else if c = 0xed#8 then some 5
  else if isIn c 0xee 0xef then some 2
  else if c = 0xf0#8 then some 6
  else if isIn c 0xf1 0xf3 then some 3
  else if c = 0xf4#8 then some 7
  else none

/-- A continuation byte: the next substate (centijson_sax.c:654-663). -/
def trailState (sub : Nat) (c : Byte) : Option Nat :=
  if sub ≤ 3 ∧ c &&& 0xc0#8 = 0x80#8 then some (sub - 1)
  else if sub = 4 ∧ isIn c 0xa0 0xbf = true then some 1
  else if sub = 5 ∧ isIn c 0x80 0x9f = true then some 1
  else if sub = 6 ∧ isIn c 0x90 0xbf = true then some 2
  else if sub = 7 ∧ isIn c 0x80 0x8f = true then some 2
  else none

/-- The loop cancelling trailing bytes (centijson_sax.c:682-683), on the reversed buffer; `none` is a read
before the buffer. -/
def cancelTrailing : List Byte → Option (List Byte)
  | [] => none
  | c :: cs => if c &&& 0xc0#8 = 0x80#8 then cancelTrailing cs else some (c :: cs)

/-- Cancelling the incomplete character at the end of the buffer (centijson_sax.c:682-684). -/
def cancelPartial (buf : List Byte) : Option (List Byte) :=
  match cancelTrailing buf.reverse with
  | some (_ :: cs) => some cs.reverse
  | _ => none

/-- The two-character escapes (centijson_sax.c:706-715). -/
def escapeChar (c : Byte) : Option Byte :=
  if c = 0x22#8 then some 0x22#8
  else if c = 0x5c#8 then some 0x5c#8
  else if c = 0x2f#8 then some 0x2f#8
  else if c = 0x62#8 then some 0x08#8
  else if c = 0x66#8 then some 0x0c#8
  else if c = 0x6e#8 then some 0x0a#8
  else if c = 0x72#8 then some 0x0d#8
  else if c = 0x74#8 then some 0x09#8
  else none

/-- Completion of a `\uXXXX` escape (centijson_sax.c:742-780). -/
def finishEscape (p0 : Parser σ) (ignore fix : Bool) : StrStep σ :=
  let r1 : Parser σ × Bool :=
    if p0.cp0 ≠ 0 ∧ isLo p0.cp1 = false then
      (match illSurrogate p0 p0.cp0 ignore fix with
       | (q, true) => ({ q with cp0 := 0 }, true)
       | (q, false) => (q, false))
    else (p0, true)
  if r1.2 = false then .fail r1.1
  else
    let p := r1.1
    if p.cp0 = 0 ∧ isLo p.cp1 = true then
      match illSurrogate p p.cp1 ignore fix with
      | (q, false) => .fail q
      | (q, true) => .adv { q with sub := 0, cp1 := 0 }
    else if p.cp0 ≠ 0 ∧ isLo p.cp1 = true then
      .adv { appendCodepoint p (0x10000 + (p.cp0 - 0xd800) * 0x400 + (p.cp1 - 0xdc00)) with
             sub := 0, cp0 := 0, cp1 := 0 }
    else if isHi p.cp1 = true then
      .adv { p with cp0 := p.cp1, sub := 0xabcd - 2, cp1 := 0 }
    else
      .adv { appendCodepoint p p.cp1 with sub := 0, cp1 := 0 }

/-- The body of the string loop for a byte outside the tight loop (centijson_sax.c:557-800). -/
def strChar (cfg : Config) (cb : Callback σ) (t : JType) (ignore fix : Bool) (p : Parser σ) (c : Byte) :
    StrStep σ :=
  if p.sub = 0 then
    if c = 0x22#8 then .closed (process cfg cb (advance p 1) t p.buf)
    else if isControl c then
      (if c = 0x0d#8 ∨ c = 0x0a#8 then .fail (raiseForValue p errUnclosedString)
       else .fail (raise p errUnescapedControl))
    else if c = 0x5c#8 then .adv { p with sub := 0x5c }
    else
      match leadState c with
      | some s => .adv (append { p with sub := s } [c])
      | none =>
        if fix then .adv (append p fffd)
        else .fail (raise p errInvalidUtf8)
  else if p.sub ≤ 7 then
    match trailState p.sub c with
    | some s => .adv (append { p with sub := s } [c])
    | none =>
      if fix then
        match cancelPartial p.buf with
        | some b => .again { p with buf := b ++ fffd, sub := 0 }
        | none => .fail { p with fault := true }
      else .fail (raise p errInvalidUtf8)
  else if p.sub = 0x5c then
    if c = 0x75#8 then .adv { p with sub := 0xabcd + 4 }
    else
      match escapeChar c with
      | some e => .adv { append p [e] with sub := 0 }
      | none => .fail (raise p errInvalidEscape)
  else if p.sub > 0xabcd then
    if isXdigit c = false then .fail (raise p errInvalidEscape)
    else
      let q := { p with cp1 := (p.cp1 <<< 4) ||| resolveXdigit c, sub := p.sub - 1 }
      if q.sub = 0xabcd then finishEscape q ignore fix else .adv q
  else if p.sub ≥ 0xabcd - 2 then
    if p.sub = 0xabcd - 2 ∧ c = 0x5c#8 then .adv { p with sub := 0xabcd - 1 }
    else if p.sub = 0xabcd - 1 ∧ c = 0x75#8 then .adv { p with sub := 0xabcd + 4 }
    else
      match illSurrogate p p.cp0 ignore fix with
      | (q, false) => .fail q
      | (q, true) => .again { q with cp0 := 0, sub := if p.sub = 0xabcd - 1 then 0x5c else 0 }
  else .fail (raise p errInternal)

/-- The bytes the tight loop runs over (centijson_sax.c:581-583). -/
def plain (c : Byte) : Bool := isAscii c && !isControl c && c != 0x5c#8 && c != 0x22#8

/-- The loop of `json_string_automaton` (centijson_sax.c:554-806), `off` bytes into this call; returns the
parser and the number of bytes consumed. -/
def strLoop (cfg : Config) (cb : Callback σ) (t : JType) (ignore fix : Bool) :
    Nat → Nat → Parser σ → List Byte → Parser σ × Nat
  | _, off, p, [] => (p, off)
  | 0, off, p, _ :: _ => ({ p with fault := true }, off)
  | fuel + 1, off, p, c :: cs =>
    if p.sub = 0 ∧ c ≠ 0x22#8 ∧ isControl c = false ∧ c ≠ 0x5c#8 ∧ (isAscii c = true ∨ ignore = true) then
      let run := cs.takeWhile plain
      let rest := cs.dropWhile plain
      if p.buf.length + off = 0 ∧ rest.head? = some 0x22#8 then
        (process cfg cb (advance p (run.length + 2)) t (c :: run), run.length + 2)
      else
        strLoop cfg cb t ignore fix fuel (off + (run.length + 1)) (advance (append p (c :: run)) (run.length + 1)) rest
    else
      match strChar cfg cb t ignore fix p c with
      | .adv q => strLoop cfg cb t ignore fix fuel (off + 1) (advance q 1) cs
      | .again q => strLoop cfg cb t ignore fix fuel off q (c :: cs)
      | .closed q => (q, off + 1)
      | .fail q => (q, off)

/-- `ignore_ill_utf8` (centijson_sax.c:538-545). -/
def ignoreIll (cfg : Config) (t : JType) : Bool :=
  if t = .key then cfg.flags.getLsbD 8 else cfg.flags.getLsbD 10

/-- `fix_ill_utf8` (centijson_sax.c:538-545). -/
def fixIll (cfg : Config) (t : JType) : Bool :=
  if t = .key then cfg.flags.getLsbD 9 else cfg.flags.getLsbD 11

/-- `max_len` of a string or key, with one for the closing quote (centijson_sax.c:541-549). -/
def strMax (cfg : Config) (t : JType) : Nat :=
  let m := if t = .key then cfg.maxKeyLen else cfg.maxStringLen
  if m > 0 then m + 1 else m

/-- `json_string_automaton` (centijson_sax.c:529-816). -/
def strAutomaton (cfg : Config) (cb : Callback σ) (t : JType) (p : Parser σ) (input : List Byte) (eof : Bool) :
    Parser σ × Nat :=
  let inp := cut (strMax cfg t) p input
  let r := strLoop cfg cb t (ignoreIll cfg t) (fixIll cfg t) (2 * inp.length + 1) 0 p inp
  let q :=
    if strMax cfg t ≠ 0 ∧ r.1.pos.offset - r.1.vpos.offset > strMax cfg t then
      raiseForValue r.1 (if t = .key then errMaxKeyLen else errMaxStringLen)
    else r.1
  (if eof then raiseForValue q errUnclosedString else q, r.2)

/-! ### Dispatch, feed, finish -/

/-- "null" / "false" / "true". -/
def litNull : List Byte := [0x6e#8, 0x75#8, 0x6c#8, 0x6c#8]
def litFalse : List Byte := [0x66#8, 0x61#8, 0x6c#8, 0x73#8, 0x65#8]
def litTrue : List Byte := [0x74#8, 0x72#8, 0x75#8, 0x65#8]

/-- `json_dispatch` (centijson_sax.c:818-833). -/
def dispatch (cfg : Config) (cb : Callback σ) (p : Parser σ) (input : List Byte) (eof : Bool) : Parser σ × Nat :=
  match p.auto with
  | .null => litAutomaton cfg cb .null litNull p input eof
  | .false => litAutomaton cfg cb .false litFalse p input eof
  | .true => litAutomaton cfg cb .true litTrue p input eof
  | .number => numAutomaton cfg cb p input eof
  | .string => strAutomaton cfg cb .string p input eof
  | .key => strAutomaton cfg cb .key p input eof
  | .main => (raise p errInternal, 0)

/-- `json_handle_new_line` (centijson_sax.c:835-847). -/
def handleNewLine (p : Parser σ) (c : Byte) : Parser σ :=
  if c = 0x0d#8 then
    { p with lastCl := some p.pos.offset, pos := { p.pos with line := p.pos.line + 1, col := 0 } }
  else if c = 0x0a#8 then
    { p with pos := { p.pos with line := if p.lastCl.map (· + 1) = some p.pos.offset then p.pos.line else p.pos.line + 1,
                                 col := 0 } }
  else p

/-- What the main automaton does with one byte: `adv` falls through to the advance, `again` is `continue`,
`stop` is `break` after an error. -/
inductive MainStep (σ : Type) where
  | adv (p : Parser σ)
  | again (p : Parser σ)
  | stop (p : Parser σ)

/-- The main automaton (centijson_sax.c:883-943). -/
def mainChar (cfg : Config) (cb : Callback σ) (p : Parser σ) (c : Byte) : MainStep σ :=
  if p.state.value = true ∧ (c = 0x5b#8 ∨ c = 0x7b#8) then
    if cfg.maxNesting ≠ 0 ∧ cfg.maxNesting ≤ p.nest.length then .stop (raise p errMaxNesting)
    else
      .adv (process cfg cb { p with nest := (if c = 0x5b#8 then 0x5d#8 else 0x7d#8) :: p.nest }
        (if c = 0x5b#8 then .arrayBeg else .objectBeg) [])
  else if p.state.closer = true ∧ (c = 0x5d#8 ∨ c = 0x7d#8) then
    match p.nest with
    | [] => .stop { p with fault := true }
    | top :: below =>
      if top ≠ c then .stop (raise p errBadCloser)
      else .adv (process cfg cb { p with nest := below } (if c = 0x5d#8 then .arrayEnd else .objectEnd) [])
  else if p.state.comma = true ∧ c = 0x2c#8 then
    match p.nest with
    | [] => .stop { p with fault := true }
    | top :: _ => .adv { p with state := if top = 0x5d#8 then { value := true } else { key := true } }
  else if p.state.colon = true ∧ c = 0x3a#8 then .adv { p with state := { value := true } }
  else if p.state.value = true ∧ c = 0x22#8 then .adv (switchAutomaton p .string)
  else if p.state.key = true ∧ c = 0x22#8 then .adv (switchAutomaton p .key)
  else if p.state.value = true ∧ (isIn c 0x61 0x7a = true ∨ isIn c 0x41 0x5a = true) then
    if c = 0x6e#8 then .again (switchAutomaton p .null)
    else if c = 0x66#8 then .again (switchAutomaton p .false)
    else if c = 0x74#8 then .again (switchAutomaton p .true)
    else .again (raise p errSyntax)
  else if p.state.value = true ∧ (isDigit c = true ∨ c = 0x2d#8) then .again (switchAutomaton p .number)
  else if isWhitespace c = false then .stop (raiseUnexpected p)
  else .adv p

/-- The loop of `json_feed` (centijson_sax.c:869-950). -/
def feedLoop (cfg : Config) (cb : Callback σ) : Nat → Parser σ → List Byte → Parser σ
  | _, p, [] => p
  | 0, p, _ :: _ => { p with fault := true }
  | fuel + 1, p, c :: cs =>
    if p.err < 0 then p
    else if p.auto ≠ .main then
      let r := dispatch cfg cb p (c :: cs) false
      if r.1.err < 0 then r.1 else feedLoop cfg cb fuel r.1 ((c :: cs).drop r.2)
    else
      match mainChar cfg cb p c with
      | .adv q => feedLoop cfg cb fuel (handleNewLine (advance q 1) c) cs
      | .again q => feedLoop cfg cb fuel q (c :: cs)
      | .stop q => q

/-- The loop moving the position to the limit (centijson_sax.c:859-864): it looks at the byte after the one
it passes. -/
def skipTo (cfg : Config) : Parser σ → List Byte → Parser σ
  | p, [] => if p.pos.offset < cfg.maxTotalLen then { p with fault := true } else p
  | p, _ :: cs =>
    if p.pos.offset < cfg.maxTotalLen then
      match cs with
      | [] => { p with fault := true }
      | d :: ds => skipTo cfg (handleNewLine (advance p 1) d) (d :: ds)
    else p

/-- `json_feed` (centijson_sax.c:849-953). -/
def feed (cfg : Config) (cb : Callback σ) (p : Parser σ) (input : List Byte) : Parser σ :=
  let p1 :=
    if cfg.maxTotalLen ≠ 0 ∧ p.pos.offset + input.length > cfg.maxTotalLen then
      raise (skipTo cfg p input) errMaxTotalLen
    else p
  feedLoop cfg cb (3 * input.length + 3) p1 input

/-- What a caller sees of a finished parse: the return code of `json_fini`, the position it reports, and the
user data. -/
structure Result (σ : Type) where
  ret : Int
  pos : Pos
  user : σ
  fault : Bool
  deriving DecidableEq

/-- The flushing step of `json_fini` (centijson_sax.c:962-972). -/
def flush (cfg : Config) (cb : Callback σ) (p : Parser σ) : Parser σ :=
  if 0 ≤ p.err then
    if p.auto ≠ .main then
      let r := dispatch cfg cb p [] true
      let q : Parser σ := { r.1 with pos := { r.1.pos with offset := r.1.pos.offset + r.2 } }
      if q.auto ≠ .main then raise q errSyntax else q
    else if p.nest.length ≠ 0 ∨ p.state.eof = false then raiseUnexpected p
    else p
  else p

/-- `json_fini` (centijson_sax.c:955-983). -/
def fini (cfg : Config) (cb : Callback σ) (p : Parser σ) : Result σ :=
  let q := flush cfg cb p
  { ret := q.err, pos := if 0 ≤ q.err then q.pos else q.errPos, user := q.user, fault := q.fault }

/-- `json_init`, one `json_feed` per chunk, `json_fini` (as in `json_parse`, centijson_sax.c:985-1009, which
feeds one chunk). -/
def parse (cfg : Config) (cb : Callback σ) (user : σ) (chunks : List (List Byte)) : Result σ :=
  fini cfg cb (chunks.foldl (feed cfg cb) (init user))

end
end WS.Sax
