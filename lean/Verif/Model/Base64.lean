import Verif.Model.Basic
/-
Base64 decoding (src/wolfsentry_util.c:4059-4146, wolfsentry/wolfsentry.h:3334-3338).
-/
namespace WS.Base64

/-- Classification of one input character by `base64_inv_lut`
(src/wolfsentry_util.c:4059-4077): `'|'` = junk, `'@'` = padding (`=`), else a 6-bit value. -/
inductive Cls where
  | junk | pad | val (v : Nat)
  deriving DecidableEq, Repr

/-- `base64_inv_lut[c]` (src/wolfsentry_util.c:4059-4077).  The table is run-length written in
C; here each run is an interval. -/
def lut (c : Nat) : Cls :=
  if c = 43 then .val 62            -- '+'
  else if c = 47 then .val 63       -- '/'
  else if 48 ≤ c ∧ c ≤ 57 then .val (c - 48 + 52)   -- 0-9
  else if c = 61 then .pad          -- '='
  else if 65 ≤ c ∧ c ≤ 90 then .val (c - 65)        -- A-Z
  else if 97 ≤ c ∧ c ≤ 122 then .val (c - 97 + 26)  -- a-z
  else .junk

/-- `WOLFSENTRY_BASE64_DECODED_BUFSPC` (wolfsentry/wolfsentry.h:3334-3338). -/
def bufspc (src : List Nat) : Nat :=
  (src.length + 3) / 4 * 3
    - (if src.length > 1 then (if src[src.length - 1]? = some 61 then 1 else 0) else 0)
    - (if src.length > 2 then (if src[src.length - 2]? = some 61 then 1 else 0) else 0)

/-- Loop state of `wolfsentry_base64_decode`: `decoded` (uint32), `decoded_bits`,
`pad_chars`, and the bytes written to `dest` so far. -/
structure St where
  decoded : Nat := 0
  bits : Nat := 0
  pads : Nat := 0
  out : List Nat := []
  deriving DecidableEq, Repr

def u32 (n : Nat) : Nat := n % 4294967296

/-- The body of the decode loop, applied to the rest of the text
(src/wolfsentry_util.c:4089-4116).  On an error the bytes already written are kept (second
component) because they have been stored through `dest`. -/
def loop (ignoreJunk : Bool) : List Nat → St → Except (Err × List Nat) St
  | [], st => .ok st
  | c :: cs, st =>
    match lut c with
    | .junk =>
      if ignoreJunk then loop ignoreJunk cs st else .error (.invalidArg, st.out)
    | .pad =>
      -- `if ((src + 1 < src_end) && (base64_inv_lut[src[1]] != '@')) error`
      match cs with
      | [] => loop ignoreJunk [] { st with pads := st.pads + 1, decoded := u32 (st.decoded <<< 6) }
      | d :: ds =>
        if lut d = .pad then
          loop ignoreJunk (d :: ds) { st with pads := st.pads + 1, decoded := u32 (st.decoded <<< 6) }
        else .error (.invalidArg, st.out)
    | .val v =>
      let dec := u32 (st.decoded <<< 6) ||| v
      let bits := st.bits + 6
      if bits = 24 then
        let out := st.out ++ [(dec >>> 16) % 256, (dec >>> 8) % 256, dec % 256]
        loop ignoreJunk cs { st with decoded := 0, bits := 0, out := out }
      else loop ignoreJunk cs { st with decoded := dec, bits := bits }

/-- The tail after the loop (src/wolfsentry_util.c:4118-4143). -/
def finish (st : St) : Except (Err × List Nat) (List Nat) :=
  let r : Except (Err × List Nat) (Nat × Nat) :=
    if st.bits ≠ 0 ∧ st.pads = 0 then
      if st.bits < 8 then .error (.invalidArg, st.out)
      else .ok ((28 - st.bits) >>> 3, u32 (st.decoded <<< (24 - st.bits)))
    else .ok (st.pads, st.decoded)
  match r with
  | .error e => .error e
  | .ok (pads, dec) =>
    match pads with
    | 0 => .ok st.out
    | 1 => .ok (st.out ++ [(dec >>> 16) % 256, (dec >>> 8) % 256])
    | 2 => .ok (st.out ++ [(dec >>> 16) % 256])
    | _ => .error (.invalidArg, st.out)

/-- `wolfsentry_base64_decode(src, src_len, dest, &dest_spc, ignore_junk_p)`
(src/wolfsentry_util.c:4079-4146).  The result is either the decoded bytes (their number is
the returned `*dest_spc`) or an error together with the bytes already stored in `dest`. -/
def decode (src : List Nat) (spc : Nat) (ignoreJunk : Bool) :
    Except (Err × List Nat) (List Nat) :=
  if bufspc src > spc then .error (.bufferTooSmall, [])
  else match loop ignoreJunk src {} with
    | .error e => .error e
    | .ok st => finish st

/-- Every byte stored through `dest`, whether the call succeeded or not. -/
def stored : Except (Err × List Nat) (List Nat) → List Nat
  | .ok o => o
  | .error (_, o) => o

end WS.Base64
