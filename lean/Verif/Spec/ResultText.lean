import Verif.Model.ResultText
/-
Specification for C80 (texts of result codes) and C81 (build settings).
-/
namespace WS.Spec.RT
open WS.RT

/-- The names of the results, in the order of `enum wolfsentry_error_id` (wolfsentry/wolfsentry_errcodes.h:393-448): the
name at position `k` belongs to the code `-k`. -/
def errorNames : List String := ["OK", "NOT_OK", "INTERNAL_CHECK_FATAL", "SYS_OP_FATAL", "SYS_OP_FAILED", "SYS_RESOURCE_FAILED",
  "INCOMPATIBLE_STATE", "TIMED_OUT", "INVALID_ARG", "BUSY", "INTERRUPTED", "NUMERIC_ARG_TOO_BIG", "NUMERIC_ARG_TOO_SMALL",
  "STRING_ARG_TOO_LONG", "BUFFER_TOO_SMALL", "IMPLEMENTATION_MISSING", "ITEM_NOT_FOUND", "ITEM_ALREADY_PRESENT",
  "ALREADY_STOPPED", "WRONG_OBJECT", "DATA_MISSING", "NOT_PERMITTED", "ALREADY", "CONFIG_INVALID_KEY", "CONFIG_INVALID_VALUE",
  "CONFIG_OUT_OF_SEQUENCE", "CONFIG_UNEXPECTED", "CONFIG_MISPLACED_KEY", "CONFIG_PARSER", "CONFIG_MISSING_HANDLER",
  "CONFIG_JSON_VALUE_SIZE", "OP_NOT_SUPP_FOR_PROTO", "WRONG_TYPE", "BAD_VALUE", "DEADLOCK_AVERTED", "OVERFLOW_AVERTED",
  "LACKING_MUTEX", "LACKING_READ_LOCK", "LIB_MISMATCH", "LIBCONFIG_MISMATCH", "IO_FAILED", "WRONG_ATTRIBUTES"]

/-- The names of the successes: position `k` belongs to the code `k`. -/
def successNames : List String := ["OK", "LOCK_OK_AND_GOT_RESV", "HAVE_MUTEX", "HAVE_READ_LOCK", "USED_FALLBACK", "YES", "NO",
  "ALREADY_OK", "DEFERRED"]

/-- The names of the result bits, in the order of the bits (wolfsentry/wolfsentry.h:865-1000). -/
def bitNames : List String := ["accept", "reject", "connect", "disconnect", "derogatory", "commendable", "stop", "deallocated",
  "inserted", "error", "fallthrough", "update", "port-reset", "sending", "received", "binding", "listening", "stopped-listening",
  "connecting-out", "closed", "unreachable", "sock-error", "close-wait", "reserved-23", "user+0", "user+1", "user+2", "user+3",
  "user+4", "user+5", "user+6", "user+7"]

/-- The name the library gives to a code, if it gives one. -/
def nameOf (code : Int) : Option String :=
  if code ≤ 0 then errorNames[(-code).toNat]? else successNames[code.toNat]?

/-- The codes a user may define. -/
def UserError (code : Int) : Prop := -255 ≤ code ∧ code ≤ -128
def UserSuccess (code : Int) : Prop := 128 ≤ code ∧ code ≤ 255
/-- The source ids a user may define. -/
def UserSource (id : Int) : Prop := 112 ≤ id ∧ id ≤ 127

/-- The text registered first for a code, or for a source. -/
def codeText (ops : List Op) (code : Int) : Option String :=
  (ops.filterMap (fun o => match o with | .code i t => if i = code then t else none | .source _ _ => none)).head?
def sourceText (ops : List Op) (id : Int) : Option String :=
  (ops.filterMap (fun o => match o with | .source i t => if i = id then t else none | .code _ _ => none)).head?

/-- The texts that say that a result is not known. -/
def fallbacks : List String := ["unknown user defined error code", "unknown user defined success code", "unknown success code",
  "unknown error code"]

/-- The configuration bits that decide the layout of structures shared with the caller: user-defined types, thread
safety, protocol names, JSON values, short enumerations (wolfsentry/wolfsentry_settings.h:735-752). -/
def layoutBits : List Nat := [1, 2, 6, 9, 12]

/-- The number of configuration bits there are. -/
def knownBits : Nat := 14

end WS.Spec.RT
