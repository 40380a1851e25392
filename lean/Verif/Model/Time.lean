import Verif.Model.Basic
/-
The built-in clock conversions (src/wolfsentry_util.c:3155-3176).
`wolfsentry_time_t` is a signed 64-bit count of microseconds; `time_t` and `long` are modelled
as signed 64-bit (LP64).  Signed overflow is undefined behaviour in C, so it is a distinct
outcome here.
-/
namespace WS.Time

def I64_MAX : Int := 9223372036854775807
def I64_MIN : Int := -9223372036854775808

/-- A value representable in `int64_t`. -/
def InI64 (x : Int) : Prop := I64_MIN ≤ x ∧ x ≤ I64_MAX
instance (x : Int) : Decidable (InI64 x) := by unfold InI64; infer_instance

/-- Outcome of C arithmetic: a value, a reported error, or undefined behaviour. -/
inductive Res (α : Type) where
  | ok (a : α)
  | err (e : Err)
  | ub
  deriving DecidableEq, Repr

/-- A signed 64-bit arithmetic result: undefined when it does not fit. -/
def chk (x : Int) : Res Int := if I64_MIN ≤ x ∧ x ≤ I64_MAX then .ok x else .ub

def Res.bind {α β} (r : Res α) (f : α → Res β) : Res β :=
  match r with
  | .ok a => f a
  | .err e => .err e
  | .ub => .ub

/-- `wolfsentry_builtin_diff_time` (src/wolfsentry_util.c:3155-3157). -/
def diffTime (later earlier : Int) : Res Int := chk (later - earlier)

/-- `wolfsentry_builtin_add_time` (src/wolfsentry_util.c:3159-3161). -/
def addTime (start interval : Int) : Res Int := chk (start + interval)

/-- `wolfsentry_builtin_to_epoch_time` (src/wolfsentry_util.c:3163-3169).  C `/` and `%`
truncate toward zero (`Int.tdiv`, `Int.tmod`).  `MAX_SINT_OF(*epoch_secs)` is `I64_MAX`. -/
def toEpoch (when_ : Int) : Res (Int × Int) :=
  if when_.tdiv 1000000 > I64_MAX then .err .numericArgTooBig
  else
    (chk (when_.tdiv 1000000)).bind fun secs =>
    (chk (when_.tmod 1000000 * 1000)).bind fun nsecs => .ok (secs, nsecs)

/-- `wolfsentry_builtin_from_epoch_time` (src/wolfsentry_util.c:3171-3176): only the upper
bound of the seconds is checked. -/
def fromEpoch (secs nsecs : Int) : Res Int :=
  if secs > I64_MAX.tdiv 1000000 then .err .numericArgTooBig
  else
    (chk (secs * 1000000)).bind fun us => chk (us + nsecs.tdiv 1000)

end WS.Time
