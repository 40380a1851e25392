import Verif.Model.ErrCode
import Verif.Model.Config
/-
Texts of result codes, sources and result bits, and the check of the caller's build settings
(src/wolfsentry_util.c:28-302, 358-458; wolfsentry/wolfsentry_errcodes.h:395-448;
wolfsentry/wolfsentry_settings.h:735-766, 848-871).

The arrays of registered texts are functions on slot numbers together with their C lengths; reading outside an array is
`Ans.oob`.  A text is a Lean string, a null pointer is `none`.
-/
namespace WS.RT

/-- What a `const char *` function returns. -/
inductive Ans where
  | text (s : String)
  | null
  | oob
  deriving DecidableEq, Repr

/-- The registered texts (src/wolfsentry_util.c:30, 85-86). -/
structure Reg where
  sources : Nat → Option String := fun _ => none
  errors : Nat → Option String := fun _ => none
  successes : Nat → Option String := fun _ => none

def put (f : Nat → Option String) (i : Nat) (v : Option String) : Nat → Option String :=
  fun j => if j = i then v else f j

/-- Lengths of the three arrays (src/wolfsentry_util.c:30, 85-86). -/
def nSources : Nat := 127 - 112 + 1
def nErrors : Nat := 255 + 128 + 1
def nSuccesses : Nat := 255 + 128 + 1

/-- `wolfsentry_user_source_string_set` (src/wolfsentry_util.c:32-41). -/
def setSource (r : Reg) (id : Int) (t : Option String) : Except Err Unit × Reg :=
  if id < 112 ∨ id > 127 then (.error .invalidArg, r)
  else if r.sources (id - 112).toNat ≠ none then (.error .itemAlreadyPresent, r)
  else (.ok (), { r with sources := put r.sources (id - 112).toNat t })

/-- `wolfsentry_user_error_string_set` (src/wolfsentry_util.c:88-108). -/
def setError (r : Reg) (id : Int) (t : Option String) : Except Err Unit × Reg :=
  if id < 0 then
    if id > -128 ∨ id < -255 then (.error .invalidArg, r)
    else if r.errors (-(id + 128)).toNat ≠ none then (.error .itemAlreadyPresent, r)
    else (.ok (), { r with errors := put r.errors (-(id + 128)).toNat t })
  else
    if id < 128 ∨ id > 255 then (.error .invalidArg, r)
    else if r.successes (id - 128).toNat ≠ none then (.error .itemAlreadyPresent, r)
    else (.ok (), { r with successes := put r.successes (id - 128).toNat t })

/-- The cases of `wolfsentry_errcode_source_string` (src/wolfsentry_util.c:47-71;
wolfsentry/wolfsentry_errcodes.h:369-384). -/
def sourceCases : List (Nat × String) := [
  (0, "<unset>"), (1, "actions.c"), (2, "events.c"), (3, "wolfsentry_internal.c"), (4, "routes.c"), (5, "wolfsentry_util.c"),
  (6, "kv.c"), (7, "addr_families.c"), (8, "json/load_config.c"), (9, "json/json_util.c"),
  (10, "lwip/packet_filter_glue.c"), (11, "action_builtins.c")]

/-- `wolfsentry_errcode_source_string` (src/wolfsentry_util.c:44-82). -/
def sourceString (r : Reg) (e : Int) : Ans :=
  let i := ErrCode.decodeSource e
  match sourceCases.find? (fun p => p.1 = i) with
  | some p => .text p.2
  | none =>
    if i ≥ 112 then
      if i - 112 ≥ nSources then .oob
      else match r.sources (i - 112) with
        | some t => .text t
        | none => .text "unknown user defined source"
    else .text "unknown source"

/-- The cases of `wolfsentry_errcode_error_string` (src/wolfsentry_util.c:115-219). -/
def errorCases : List (Int × String) := [
  (0, "OK, operation succeeded"),
  (-1, "Error, not otherwise specified"),
  (-2, "Internal consistency check failed, not recoverable"),
  (-3, "Host system operation failed, not recoverable"),
  (-4, "Host system operation failed, normal error (recoverable)"),
  (-5, "Host system resource exhausted/failed, normal error (recoverable)"),
  (-6, "Request was incompatible with current state of the designated object"),
  (-7, "Operation timed out"),
  (-8, "Supplied argument was invalid"),
  (-9, "A prerequisite condition was unmet because a resource was busy"),
  (-10, "Operation was interrupted by a signal"),
  (-11, "Numeric arg is impermissibly large"),
  (-12, "Numeric arg is impermissibly small"),
  (-13, "String or vector arg is impermissibly long"),
  (-14, "Buffer too small to complete operation"),
  (-15, "Function or mechanism not compiled in or not implemented"),
  (-16, "No matching item found"),
  (-17, "New item would collide with existing item"),
  (-18, "Operation attempted with object already marked as stopped"),
  (-19, "Operation attempted on wrong type of object"),
  (-20, "Requested data or buffer is not present"),
  (-21, "Illegal access attempted"),
  (-22, "Object already has requested condition"),
  (-23, "Configuration contains an invalid key"),
  (-24, "Configuration contains an invalid value"),
  (-25, "Configuration clause in wrong sequence or missing dependency"),
  (-26, "Configuration has unexpected or invalid structure"),
  (-27, "Configuration uses a key in the wrong context or combination"),
  (-28, "Configuration parsing failed"),
  (-29, "Configuration processing failed due to missing handler"),
  (-30, "Configuration contains an overlong JSON value"),
  (-31, "Operation not supported for protocol"),
  (-32, "Item type does not match request"),
  (-33, "Bad value"),
  (-34, "Deadlock averted"),
  (-35, "Overflow averted"),
  (-36, "Caller lacks exclusive lock"),
  (-37, "Caller lacks shared read lock"),
  (-38, "Library or plugin version mismatch"),
  (-39, "Library built configuration is incompatible with caller"),
  (-40, "Input/output failure"),
  (-41, "Attributes of item preclude the requested operation"),
  (1, "Lock request succeeded and reserved promotion"),
  (2, "Caller owns a mutex on the designated lock"),
  (3, "Caller shares the designated lock"),
  (4, "Operation succeeded by fallback strategy"),
  (5, "Result was Yes"),
  (6, "Result was No"),
  (7, "Operation skipped due to idempotency"),
  (8, "Operation deferred awaiting state change")]

/-- `wolfsentry_errcode_error_string` (src/wolfsentry_util.c:111-238).  For a registered success code the C code returns the
entry of the array of error texts (line 231). -/
def errorString (r : Reg) (e : Int) : Ans :=
  let i := ErrCode.decodeCode e
  match errorCases.find? (fun p => p.1 = i) with
  | some p => .text p.2
  | none =>
    if i ≤ -128 then
      if (-(i + 128)).toNat ≥ nErrors then .oob
      else match r.errors (-(i + 128)).toNat with
        | some t => .text t
        | none => .text "unknown user defined error code"
    else if i ≥ 128 then
      if (i - 128).toNat ≥ nSuccesses ∨ (i - 128).toNat ≥ nErrors then .oob
      else match r.successes (i - 128).toNat with
        | some _ => match r.errors (i - 128).toNat with
          | some t => .text t
          | none => .null
        | none => .text "unknown user defined success code"
    else if i ≥ 0 then .text "unknown success code"
    else .text "unknown error code"

/-- The cases of `wolfsentry_errcode_error_name` (src/wolfsentry_util.c:244-301), with the values of
`enum wolfsentry_error_id` (wolfsentry/wolfsentry_errcodes.h:393-448). -/
def nameCases : List (Int × String) := [
  (0, "OK"), (-1, "NOT_OK"), (-2, "INTERNAL_CHECK_FATAL"), (-3, "SYS_OP_FATAL"), (-4, "SYS_OP_FAILED"),
  (-5, "SYS_RESOURCE_FAILED"), (-6, "INCOMPATIBLE_STATE"), (-7, "TIMED_OUT"), (-8, "INVALID_ARG"), (-9, "BUSY"),
  (-10, "INTERRUPTED"), (-11, "NUMERIC_ARG_TOO_BIG"), (-12, "NUMERIC_ARG_TOO_SMALL"), (-13, "STRING_ARG_TOO_LONG"),
  (-14, "BUFFER_TOO_SMALL"), (-15, "IMPLEMENTATION_MISSING"), (-16, "ITEM_NOT_FOUND"), (-17, "ITEM_ALREADY_PRESENT"),
  (-18, "ALREADY_STOPPED"), (-19, "WRONG_OBJECT"), (-20, "DATA_MISSING"), (-21, "NOT_PERMITTED"), (-22, "ALREADY"),
  (-23, "CONFIG_INVALID_KEY"), (-24, "CONFIG_INVALID_VALUE"), (-25, "CONFIG_OUT_OF_SEQUENCE"), (-26, "CONFIG_UNEXPECTED"),
  (-27, "CONFIG_MISPLACED_KEY"), (-28, "CONFIG_PARSER"), (-29, "CONFIG_MISSING_HANDLER"), (-30, "CONFIG_JSON_VALUE_SIZE"),
  (-31, "OP_NOT_SUPP_FOR_PROTO"), (-32, "WRONG_TYPE"), (-33, "BAD_VALUE"), (-34, "DEADLOCK_AVERTED"),
  (-35, "OVERFLOW_AVERTED"), (-36, "LACKING_MUTEX"), (-37, "LACKING_READ_LOCK"), (-38, "LIB_MISMATCH"),
  (-39, "LIBCONFIG_MISMATCH"), (-41, "WRONG_ATTRIBUTES"), (-40, "IO_FAILED"),
  (1, "LOCK_OK_AND_GOT_RESV"), (2, "HAVE_MUTEX"), (3, "HAVE_READ_LOCK"), (4, "USED_FALLBACK"), (5, "YES"), (6, "NO"),
  (7, "ALREADY_OK"), (8, "DEFERRED")]

/-- `wolfsentry_errcode_error_name` (src/wolfsentry_util.c:241-302). -/
def errorName (r : Reg) (e : Int) : Ans :=
  match nameCases.find? (fun p => p.1 = ErrCode.decodeCode e) with
  | some p => .text p.2
  | none => errorString r e

/-- Calls that register texts. -/
inductive Op where
  | source (id : Int) (t : Option String)
  | code (id : Int) (t : Option String)

def step (r : Reg) : Op → Except Err Unit × Reg
  | .source id t => setSource r id t
  | .code id t => setError r id t

/-- The texts after a history of calls. -/
def run (ops : List Op) : Reg := ops.foldl (fun r o => (step r o).2) {}

/-- `wolfsentry_action_res_assoc_by_flag` (src/wolfsentry_util.c:402-415). -/
def resByFlag (res : Flags) (n : Nat) : Ans :=
  if n > 31 then .text "(out-of-range)"
  else if res &&& ((1 : Flags) <<< n) ≠ 0 then
    match Conf.actionResNames.find? (fun p => p.1 = (1 : Flags) <<< n) with
    | some p => .text p.2
    | none => .text "(?)"
  else .null

/-- `struct wolfsentry_build_settings` (wolfsentry/wolfsentry_settings.h:757-762). -/
structure Build where
  version : BitVec 32
  config : BitVec 32
  deriving DecidableEq

/-- The answers of the check; the library's error enumeration has the last one, the model's `Err` has not. -/
inductive Verdict where
  | ok | invalidArg | libMismatch | libconfigMismatch
  deriving DecidableEq, Repr

/-- One `CHECK_CONFIG_MATCHES` (src/wolfsentry_util.c:448). -/
def flagMatches (lib caller : Build) (n : Nat) : Bool :=
  (caller.config &&& ((1 : BitVec 32) <<< n)) == (lib.config &&& ((1 : BitVec 32) <<< n))

/-- `wolfsentry_build_settings_compatible` (src/wolfsentry_util.c:437-458).  `lib.version` stands for `WOLFSENTRY_VERSION`.
The check of a user-chosen enum size against the compiler's (lines 444-447) concerns the library alone and is left
out. -/
def compatible (lib caller : Build) : Verdict :=
  if caller.version = 0 then .invalidArg
  else if caller.version ≠ lib.version then .libMismatch
  else if ~~~(((1 : BitVec 32) <<< 13 <<< 1) - 1) &&& caller.config ≠ 0 then .invalidArg
  else if ¬ flagMatches lib caller 1 then .libconfigMismatch
  else if ¬ flagMatches lib caller 2 then .libconfigMismatch
  else if ¬ flagMatches lib caller 6 then .libconfigMismatch
  else if ¬ flagMatches lib caller 9 then .libconfigMismatch
  else if ¬ flagMatches lib caller 12 then .libconfigMismatch
  else .ok

end WS.RT
