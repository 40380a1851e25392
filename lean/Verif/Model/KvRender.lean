import Verif.Model.JsonDom
import Verif.Model.ErrCode
/-
Rendering user values as text (src/kv.c:389-488) and the translation of the JSON library's codes (src/json/json_util.c:28-61).

The caller's memory from `out` on is a function from offsets to bytes, so that stores behind the end of the buffer are visible.  `snprintf` is the
one of ISO C; its `"%.10f"` is a parameter.
-/
namespace WS.Render
open WS

/-- The memory from `out` on. -/
abbrev Mem := Nat → Byte

/-- Bytes stored from offset `k` on. -/
def store (m : Mem) (k : Nat) (b : List Byte) : Mem := fun i => if k ≤ i then (b[i - k]?).getD (m i) else m i

/-- ISO C `snprintf` of a text: at most `space` bytes are stored, the last one a zero; the result is the length of the whole text. -/
def snprintf (m : Mem) (space : Nat) (text : List Byte) : Mem × Nat :=
  if space = 0 then (m, text.length) else (store m 0 (text.take (space - 1) ++ [0#8]), text.length)

/-- `"%lu"`. -/
def decText (n : Nat) : List Byte :=
  if n < 10 then [BitVec.ofNat 8 (0x30 + n)] else decText (n / 10) ++ [BitVec.ofNat 8 (0x30 + n % 10)]

/-- `"%ld"`. -/
def decTextI (i : Int) : List Byte := if i < 0 then 0x2d#8 :: decText i.natAbs else decText i.natAbs

/-- A stored value (`struct wolfsentry_kv_pair`, wolfsentry/wolfsentry.h:3033-3061); `none` is `WOLFSENTRY_KV_NONE`, `other` a type that does not
exist.  The string is what its length field covers. -/
inductive Val where
  | none | null | true | false
  | uint (n : BitVec 64)
  | sint (i : BitVec 64)
  | float (d : BitVec 64)
  | string (s : List Byte)
  | bytes (s : List Byte)
  | json (v : Dom.V)
  | other

/-- `wolfsentry_centijson_errcode_translate` (src/json/json_util.c:28-61); a code that names a source file is not the JSON library's and is
returned as it is (`sum.inl`). -/
def translate (code : Int) : Sum Int (Except Err Unit) :=
  if ErrCode.decodeSource code ≠ 0 then .inl code
  else .inr <|
    if code = 0 then .ok ()
    else if code = -1 then .error .internalCheckFatal
    else if code = -2 then .error .sysResourceFailed
    else if code = -4 ∨ code = -5 ∨ code = -6 then .error .configParser
    else if code = -7 ∨ code = -8 ∨ code = -9 ∨ code = -10 ∨ code = -11 ∨ code = -12 ∨ code = -13 then .error .configUnexpected
    else if code = -14 ∨ code = -15 ∨ code = -16 then .error .configParser
    else if code = -17 then .error .numericArgTooBig
    else if code = -18 then .error .stringArgTooLong
    else if code = -19 then .error .configInvalidKey
    else if code = -20 ∨ code = -21 ∨ code = -22 ∨ code = -23 then .error .configParser
    else if code = -24 then .error .invalidArg
    else if code = -1000 then .error .itemAlreadyPresent
    else .error .configParser

/-- `BUFFER_TOO_SMALL` at the writer's line of kv.c (source 6). -/
def tooSmall : Int := ErrCode.encode (-14) 397 6

/-- `_json_value_dump_writer` (src/kv.c:395-402): the state is the memory, the place and the space left. -/
def writer : JNum.Write (Mem × Nat × Nat) := fun (m, pos, left) b =>
  if b.length > left then ((m, pos, left), tooSmall)
  else ((store m pos b, pos + b.length, left - b.length), 0)

/-- What the caller gets: the result, the new value of `*out_len`, the memory. -/
structure Res where
  err : Option Err
  len : Int
  mem : Mem

/-- The end of the `snprintf` cases (src/kv.c:484-487). -/
def fin (m : Mem) (space : Nat) (text : List Byte) : Res :=
  let (m', n) := snprintf m space text
  ⟨if n ≥ space then some .bufferTooSmall else .none, n, m'⟩

/-- `wolfsentry_kv_render_value` (src/kv.c:405-488), with `WOLFSENTRY_HAVE_JSON_DOM`.  `HAVE_JSON_DOM` (437) is defined nowhere in the library, so
strings are written by `snprintf("\"%.*s\"")`.  A code of the JSON library other than the writer's is translated. -/
def render (fmt10 : BitVec 64 → List Byte) (fmt : BitVec 64 → Option (List Byte)) (v : Val) (m : Mem) (outLen : Int) : Res :=
  if outLen < 0 then ⟨some .invalidArg, outLen, m⟩
  else
    let space := outLen.toNat
    match v with
    | .none => ⟨some .wrongType, outLen, m⟩
    | .null => fin m space (JNum.lit "null")
    | .true => fin m space (JNum.lit "true")
    | .false => fin m space (JNum.lit "false")
    | .uint n => fin m space (decText n.toNat)
    | .sint i => fin m space (decTextI i.toInt)
    | .float d => fin m space (fmt10 d)
    | .string s => fin m space (0x22#8 :: s.takeWhile (· != 0#8) ++ [0x22#8])
    | .bytes _ => ⟨some .wrongType, outLen, m⟩
    | .json v =>
      let ((m', pos, left), code) := Dom.dumpRoot fmt writer { preferOrder := Bool.true, tabWidth := 4 } v (m, 0, space)
      if code < 0 then
        match translate code with
        | .inl c => ⟨some (if c = tooSmall then .bufferTooSmall else .internalCheckFatal), outLen, m'⟩
        | .inr (.error e) => ⟨some e, outLen, m'⟩
        | .inr (.ok _) => ⟨.none, outLen, m'⟩
      else if left = 0 then ⟨some .bufferTooSmall, outLen, m'⟩
      else ⟨.none, pos, store m' pos [0#8]⟩
    | .other => ⟨some .wrongType, outLen, m⟩

end WS.Render
