import Verif.Model.Basic
/-
Numeric encoding of results (wolfsentry/wolfsentry_errcodes.h:50-122).
-/
namespace WS.ErrCode

/-- The magnitude packed by `WOLFSENTRY_ERROR_ENCODE_0`: code in bits 0-7, line in bits 8-23,
source id in bits 24-30 (wolfsentry/wolfsentry_errcodes.h:58-65). -/
def pack (mag line src : Nat) : Nat :=
  (mag &&& 255) ||| ((line &&& 65535) <<< 8) ||| ((src &&& 127) <<< 24)

/-- `WOLFSENTRY_ERROR_ENCODE_0(x)` at line `line` of source file `src`
(wolfsentry/wolfsentry_errcodes.h:58-65).  `Int` stands for `int32_t`; the range theorem in
`Props/Codec.lean` shows that every result fits. -/
def encode (x : Int) (line src : Nat) : Int :=
  if x < 0 then - (pack (-x).toNat line src : Int) else (pack x.toNat line src : Int)

/-- `WOLFSENTRY_ERROR_DECODE_ERROR_CODE_1` (wolfsentry/wolfsentry_errcodes.h:87). -/
def decodeCode (x : Int) : Int :=
  if x < 0 then - (((-x).toNat &&& 255 : Nat) : Int) else ((x.toNat &&& 255 : Nat) : Int)

/-- `WOLFSENTRY_ERROR_DECODE_SOURCE_ID_1` (wolfsentry/wolfsentry_errcodes.h:88). -/
def decodeSource (x : Int) : Nat :=
  if x < 0 then (-x).toNat >>> 24 else x.toNat >>> 24

/-- `WOLFSENTRY_ERROR_DECODE_LINE_NUMBER_1` (wolfsentry/wolfsentry_errcodes.h:89). -/
def decodeLine (x : Int) : Nat :=
  if x < 0 then ((-x).toNat >>> 8) &&& 65535 else (x.toNat >>> 8) &&& 65535

/-- `WOLFSENTRY_ERROR_RECODE`-style re-encoding at a new place: decode the bare code and
encode it again (wolfsentry/wolfsentry_errcodes.h:122). -/
def recode (x : Int) (line src : Nat) : Int := encode (decodeCode x) line src

/-- `WOLFSENTRY_IS_FAILURE` / the test `ret < 0` used throughout. -/
def isFailure (x : Int) : Bool := decide (x < 0)

end WS.ErrCode
