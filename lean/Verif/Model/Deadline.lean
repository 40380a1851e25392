import Verif.Model.Time
/-
Clock readings and deadlines in the form the system's waits take (src/wolfsentry_util.c:3144-3229), over the clock callbacks a host may install.
-/
namespace WS.Time

/-- The clock callbacks (wolfsentry/wolfsentry.h: struct wolfsentry_timecbs) as far as deadlines need them: what reading the clock gives, addition,
and conversion into seconds and nanoseconds.  Simplification: a callback keeps no state of its own; the reading is a field. -/
structure Callbacks where
  get : Res Int
  add : Int → Int → Res Int
  toEpoch : Int → Res (Int × Int)

/-- `wolfsentry_builtin_get_time` on a POSIX system (src/wolfsentry_util.c:3144-3151): `clock` is what clock_gettime gives, `none` if it fails. -/
def builtinGet (clock : Option (Int × Int)) : Res Int :=
  match clock with
  | none => .err .sysOpFatal
  | some (s, n) => (chk (s * 1000000)).bind fun us => chk (us + n.tdiv 1000)

/-- `default_timecbs` (src/wolfsentry_util.c:3178-3200). -/
def builtin (clock : Option (Int × Int)) : Callbacks := { get := builtinGet clock, add := addTime, toEpoch := toEpoch }

/-- `wolfsentry_time_now_plus_delta` (src/wolfsentry_util.c:3203-3208). -/
def nowPlusDelta (cb : Callbacks) (td : Int) : Res Int := cb.get.bind fun now => cb.add now td

/-- `wolfsentry_time_to_timespec` (src/wolfsentry_util.c:3210-3217): what is stored; `none`: whatever lay on the stack, as the result of the conversion is
not looked at. -/
def toTimespec (cb : Callbacks) (t : Int) : Res (Option (Int × Int)) :=
  match cb.toEpoch t with
  | .ok x => .ok (some x)
  | .err _ => .ok none
  | .ub => .ub

/-- `wolfsentry_time_now_plus_delta_timespec` (src/wolfsentry_util.c:3219-3229). -/
def deadline (cb : Callbacks) (td : Int) : Res (Option (Int × Int)) :=
  cb.get.bind fun now => (cb.add now td).bind fun t => toTimespec cb t

end WS.Time
