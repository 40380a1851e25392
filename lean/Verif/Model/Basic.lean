/-
Shared vocabulary of the wolfSentry model: result codes, bytes, flag words.
-/
deriving instance DecidableEq for Except

namespace WS

/-- One byte (`byte`, `unsigned char`). -/
abbrev Byte := BitVec 8

/-- A 32-bit flag word: `wolfsentry_route_flags_t`, `wolfsentry_action_res_t`,
`wolfsentry_eventconfig_flags_t` (wolfsentry/wolfsentry.h:865-1079, 1203-1211). -/
abbrev Flags := BitVec 32

/-- The failure results the modelled functions can return
(wolfsentry/wolfsentry_errcodes.h:393-437, `enum wolfsentry_error_id`).  Only the
symbolic identity is kept here; the numeric encoding is modelled in `Model/ErrCode.lean`. -/
inductive Err where
  | internalCheckFatal | sysOpFatal | sysOpFailed | sysResourceFailed
  | incompatibleState | timedOut | invalidArg | busy | interrupted
  | numericArgTooBig | numericArgTooSmall | stringArgTooLong | bufferTooSmall
  | implementationMissing | itemNotFound | itemAlreadyPresent | alreadyStopped
  | wrongObject | dataMissing | notPermitted | already | configInvalidKey
  | configInvalidValue | configOutOfSequence | configUnexpected | configMisplacedKey
  | configParser | configMissingHandler | configJsonValueSize | opNotSuppForProto
  | wrongType | badValue | deadlockAverted | overflowAverted | lackingMutex
  | lackingReadLock | libMismatch
  | user (code : Int)
  deriving DecidableEq, Repr

/-- The ubiquitous C truth test `x & y`. -/
def Flags.has (f m : Flags) : Bool := (f &&& m) != 0#32

/-- `WOLFSENTRY_CHECK_BITS(x, y)` = `(x & y) == y` (wolfsentry/wolfsentry_util.h:109). -/
def Flags.hasAll (f m : Flags) : Bool := (f &&& m) == m

/-- The one-bit word `1U << k`. -/
def bit (k : Nat) : Flags := BitVec.twoPow 32 k

theorem Flags.has_bit (f : Flags) (k : Nat) (hk : k < 32) :
    Flags.has f (bit k) = f.getLsbD k := by
  unfold Flags.has bit
  rw [BitVec.and_twoPow]
  by_cases h : f.getLsbD k = true
  · simp only [h, if_true]
    have : BitVec.twoPow 32 k ≠ 0#32 := by
      intro hc
      have := congrArg (fun b => BitVec.getLsbD b k) hc
      simp [hk] at this
    simpa using this
  · simp only [Bool.not_eq_true] at h
    simp [h]

/-! ### Rule flags (wolfsentry/wolfsentry.h:1005-1079) -/
namespace RF
def SA_FAMILY_WILDCARD      : Flags := bit 0
def SA_REMOTE_ADDR_WILDCARD : Flags := bit 1
def SA_PROTO_WILDCARD       : Flags := bit 2
def SA_LOCAL_PORT_WILDCARD  : Flags := bit 3
def SA_LOCAL_ADDR_WILDCARD  : Flags := bit 4
def SA_REMOTE_PORT_WILDCARD : Flags := bit 5
def REMOTE_INTERFACE_WILDCARD : Flags := bit 6
def LOCAL_INTERFACE_WILDCARD  : Flags := bit 7
def PARENT_EVENT_WILDCARD   : Flags := bit 8
def TCPLIKE_PORT_NUMBERS    : Flags := bit 9
def DIRECTION_IN            : Flags := bit 10
def DIRECTION_OUT           : Flags := bit 11
def REMOTE_ADDR_BITMASK     : Flags := bit 12
def LOCAL_ADDR_BITMASK      : Flags := bit 13
def IN_TABLE                : Flags := bit 14
def PENDING_DELETE          : Flags := bit 15
def INSERT_ACTIONS_CALLED   : Flags := bit 16
def DELETE_ACTIONS_CALLED   : Flags := bit 17
def PENALTYBOXED            : Flags := bit 20
def GREENLISTED             : Flags := bit 21
def DONT_COUNT_HITS         : Flags := bit 22
def DONT_COUNT_CURRENT_CONNECTIONS : Flags := bit 23
def PORT_RESET              : Flags := bit 24
/-- `WOLFSENTRY_ROUTE_WILDCARD_FLAGS` = `PARENT_EVENT_WILDCARD - 1`
(wolfsentry/wolfsentry.h:1069). -/
def WILDCARD_FLAGS : Flags := PARENT_EVENT_WILDCARD - 1
/-- `WOLFSENTRY_ROUTE_IMMUTABLE_FLAGS` = `IN_TABLE - 1` (wolfsentry/wolfsentry.h:1072). -/
def IMMUTABLE_FLAGS : Flags := IN_TABLE - 1
/-- `WOLFSENTRY_ROUTE_INTERNAL_FLAGS` (wolfsentry/wolfsentry.h:1075-1079). -/
def INTERNAL_FLAGS : Flags := IN_TABLE ||| PENDING_DELETE ||| INSERT_ACTIONS_CALLED ||| DELETE_ACTIONS_CALLED
end RF

/-! ### Action results (wolfsentry/wolfsentry.h:865-1000) -/
namespace AR
def ACCEPT       : Flags := bit 0
def REJECT       : Flags := bit 1
def CONNECT      : Flags := bit 2
def DISCONNECT   : Flags := bit 3
def DEROGATORY   : Flags := bit 4
def COMMENDABLE  : Flags := bit 5
def EXCLUDE_REJECT_ROUTES : Flags := DEROGATORY ||| COMMENDABLE
def STOP         : Flags := bit 6
def DEALLOCATED  : Flags := bit 7
def INSERTED     : Flags := bit 8
def ERROR        : Flags := bit 9
def FALLTHROUGH  : Flags := bit 10
def UPDATE       : Flags := bit 11
def PORT_RESET   : Flags := bit 12
def DEFAULT_POLICY_MASK : Flags := ACCEPT ||| REJECT ||| STOP ||| ERROR
end AR

/-- `(f | set) & ~clear` — `WOLFSENTRY_SET_BITS` then `WOLFSENTRY_CLEAR_BITS`
(wolfsentry/wolfsentry_util.h:107-111). -/
def Flags.setClear (f set clear : Flags) : Flags := (f ||| set) &&& ~~~clear

end WS
