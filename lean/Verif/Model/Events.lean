import Verif.Model.Table
import Verif.Model.RouteOps
/-
The catalogue of events and actions and event configurations
(src/events.c, src/actions.c, src/wolfsentry_internal.c:340-352, src/wolfsentry_util.c:3318-3466).

Objects are table entries of `Model/Table.lean` keyed by their label; table 0 holds actions, table 1
events, and tables 2... stand for the other tables of a context (rules, user values, address
families), which share the ID space.  What an event's `config` pointer points to is kept per object
ID.  Allocation failures are not modelled.  The reference counts of these objects are the subject of
`Model/RefCount.lean`.
-/
namespace WS

/-- A `(const char *label, int label_len)` argument pair: the bytes the pointer can read (`none` for
NULL) and the length, negative for "NUL-terminated" (`WOLFSENTRY_LENGTH_NULL_TERMINATED`). -/
structure LabelArg where
  mem : Option (List Byte)
  len : Int

/-- The bytes the pair denotes: `strlen` applied when `label_len < 0` (e.g. src/events.c:103-104). -/
def LabelArg.text (a : LabelArg) : List Byte :=
  match a.mem with
  | none => []
  | some m => if a.len < 0 then m.takeWhile (· != 0#8) else m.take a.len.toNat

/-- `label_len` after the `if (label_len < 0) label_len = strlen(label)` step. -/
def LabelArg.effLen (a : LabelArg) : Nat :=
  match a.mem with
  | none => 0
  | some m => if a.len < 0 then (m.takeWhile (· != 0#8)).length else a.len.toNat

/-- `WOLFSENTRY_MAX_LABEL_BYTES` (wolfsentry/wolfsentry_settings.h). -/
def maxLabelBytes : Nat := 32

/-- `'%'`: `WOLFSENTRY_BUILTIN_LABEL_PREFIX` is the one-byte string `"%"`
(wolfsentry/wolfsentry_settings.h). -/
def builtinPrefix : Byte := 0x25#8

/-- The `strncmp(label, "%", min(label_len, 1)) == 0` of `wolfsentry_label_is_builtin`
(src/wolfsentry_internal.c:345-348): a zero-length comparison succeeds. -/
def prefixCompare (t : List Byte) : Bool :=
  match t with
  | [] => true
  | b :: _ => b == builtinPrefix

/-- `wolfsentry_label_is_builtin` (src/wolfsentry_internal.c:340-352). -/
def labelIsBuiltin (a : LabelArg) : Except Err Bool :=
  if a.mem.isNone || a.len == 0 then .error .invalidArg
  else .ok (prefixCompare a.text)

/-- The label checks shared by `wolfsentry_event_new_1` (src/events.c:100-106, 55-57),
`wolfsentry_action_new_1` (src/actions.c:77-87, 52-53), `wolfsentry_action_delete`
(src/actions.c:188-199) and `wolfsentry_event_get_1` (src/events.c:329-336): the label to use, or
the failure.  (`event_get_1` does not test for NULL; there a NULL label with a non-zero length is
undefined behaviour, which the model maps to `INVALID_ARG`.) -/
def labelCheck (a : LabelArg) : Except Err (List Byte) :=
  if a.len == 0 || a.mem.isNone then .error .invalidArg
  else if a.effLen > maxLabelBytes then .error .stringArgTooLong
  else if a.effLen == 0 then .error .invalidArg
  else .ok a.text

/-- `struct wolfsentry_eventconfig` (wolfsentry/wolfsentry.h:1212-1241).  `size_t` values are
naturals below 2^64. -/
structure Cfg where
  privSize : Nat := 0
  privAlign : Nat := 0
  maxConn : Nat := 0
  derogThreshold : Nat := 0
  boxDuration : Int := 0
  idleForPurge : Int := 0
  cfgFlags : Flags := 0
  flagsAdd : Flags := 0
  flagsClear : Flags := 0
  filterSet : Flags := 0
  filterUnset : Flags := 0
  resAdd : Flags := 0
  resClear : Flags := 0
  deriving DecidableEq, Repr

/-- `struct wolfsentry_eventconfig_internal` (src/wolfsentry_internal.h:313-320). -/
structure CfgInt where
  config : Cfg := {}
  padding : Nat := 0
  deriving DecidableEq, Repr

/-- Platform facts the configuration code depends on: `offsetof(struct wolfsentry_route, data)` and
`sizeof(void *)`. -/
structure Plat where
  dataOffset : Nat
  ptrSize : Nat

/-- Number of `size_t` values. -/
def sizeModulus : Nat := 18446744073709551616

/-- `private_data_slop` (src/wolfsentry_util.c:3362, 3388). -/
def Plat.slop (p : Plat) (c : Cfg) : Nat := p.dataOffset % c.privAlign

/-- The alignment tests of `wolfsentry_eventconfig_check` (src/wolfsentry_util.c:3350-3359). -/
def alignmentBad (p : Plat) (c : Cfg) : Bool :=
  if c.privSize == 0 then c.privAlign != 0
  else c.privAlign != 0 &&
    (decide (c.privAlign < p.ptrSize) || (c.privAlign &&& (c.privAlign - 1)) != 0 || decide (c.privAlign > c.privSize))

/-- `wolfsentry_eventconfig_check` (src/wolfsentry_util.c:3332-3370), for a non-NULL argument.
`MAX_UINT_OF` of the 16-bit `derogatory_count` and `data_addr_offset` is 65535; the `size_t` sum
wraps. -/
def cfgCheck (p : Plat) (c : Cfg) : Except Err Unit :=
  if c.flagsAdd &&& c.flagsClear != 0#32 then .error .invalidArg
  else if c.filterSet &&& c.filterUnset != 0#32 then .error .invalidArg
  else if c.resAdd &&& c.resClear != 0#32 then .error .invalidArg
  else if c.derogThreshold > 65535 then .error .invalidArg
  else if !flagsSensical c.flagsAdd then .error .invalidArg
  else if alignmentBad p c then .error .invalidArg
  else if c.privAlign > 0 && p.slop c > 0
      && (c.privSize + (c.privAlign - p.slop c)) % sizeModulus > 65535 then .error .numericArgTooBig
  else .ok ()

/-- The padding step of `wolfsentry_eventconfig_load` (src/wolfsentry_util.c:3384-3393). -/
def cfgPad (p : Plat) (c : Cfg) : CfgInt :=
  if c.privAlign > 0 && p.slop c > 0 then
    { config := { c with privSize := (c.privSize + (c.privAlign - p.slop c)) % sizeModulus },
      padding := c.privAlign - p.slop c }
  else { config := c, padding := 0 }

/-- `wolfsentry_eventconfig_load` (src/wolfsentry_util.c:3372-3396) into an existing internal
configuration.  A NULL argument succeeds without storing anything. -/
def cfgLoad (p : Plat) (supplied : Option Cfg) (old : CfgInt) : Except Err CfgInt :=
  match supplied with
  | none => .ok old
  | some c =>
    match cfgCheck p c with
    | .error e => .error e
    | .ok () => .ok (cfgPad p c)

/-- The field copies of `wolfsentry_eventconfig_update_1` (src/wolfsentry_util.c:3414-3424). -/
def cfgCopy (c : Cfg) (old : CfgInt) : CfgInt :=
  { old with config := { old.config with
      maxConn := c.maxConn
      derogThreshold := c.derogThreshold
      boxDuration := c.boxDuration
      idleForPurge := c.idleForPurge
      cfgFlags := c.cfgFlags
      flagsAdd := c.flagsAdd
      flagsClear := c.flagsClear
      filterSet := c.filterSet
      filterUnset := c.filterUnset
      resAdd := c.resAdd
      resClear := c.resClear } }

/-- `wolfsentry_eventconfig_update_1` (src/wolfsentry_util.c:3398-3427). -/
def cfgUpdate (p : Plat) (supplied : Option Cfg) (old : CfgInt) : Except Err CfgInt :=
  match supplied with
  | none => .error .invalidArg
  | some c =>
    match cfgCheck p c with
    | .error e => .error e
    | .ok () => .ok (cfgCopy c old)

/-- `wolfsentry_eventconfig_get_1` (src/wolfsentry_util.c:3429-3444): the padding is subtracted
again (`size_t` arithmetic). -/
def cfgGet (i : CfgInt) : Cfg :=
  { i.config with privSize := (i.config.privSize + (sizeModulus - i.padding)) % sizeModulus }

/-- `wolfsentry_eventconfig_init` with a context (src/wolfsentry_util.c:3319-3330): a plain copy of
the internal configuration. -/
def cfgInit (i : CfgInt) : Cfg := i.config

/-- Labels are compared by `labelCmp` in every table of the catalogue (src/events.c:27-53,
src/actions.c:27-49). -/
def catCmp : Nat → List Byte → List Byte → Ordering := fun _ => labelCmp

/-- The catalogue part of a context. -/
structure Cat where
  store : Store (List Byte) := {}
  /-- `event->config` of the live event with this ID -/
  evCfg : Nat → Option CfgInt := fun _ => none
  /-- `wolfsentry->config` -/
  dflt : CfgInt := {}

/-- The actions table. -/
abbrev tblActions : Nat := 0
/-- The events table. -/
abbrev tblEvents : Nat := 1

def Cat.events (s : Cat) : List (Ent (List Byte)) := (s.store.tables tblEvents).ents
def Cat.actions (s : Cat) : List (Ent (List Byte)) := (s.store.tables tblActions).ents

def Cat.setCfg (s : Cat) (id : Nat) (c : Option CfgInt) : Cat :=
  { s with evCfg := fun i => if i = id then c else s.evCfg i }

/-- The configuration a new event gets: none without an argument, otherwise the loaded one
(src/events.c:113-118, 73-76). -/
def newEventCfg (p : Plat) (c : Option Cfg) : Except Err (Option CfgInt) :=
  match c with
  | none => .ok none
  | some c =>
    match cfgLoad p (some c) {} with
    | .error e => .error e
    | .ok i => .ok (some i)

/-- ID allocation and table insertion of a new event (src/events.c:287-300). -/
def eventInsertTail (s : Cat) (t : List Byte) (i : Option CfgInt) : Except Err Nat × Cat :=
  match storeInsert catCmp s.store tblEvents t with
  | (.error e, st) => (.error e, { s with store := st })
  | (.ok ent, st) => (.ok ent.id, ({ s with store := st } : Cat).setCfg ent.id i)

/-- `wolfsentry_event_new_1` (src/events.c:96-131) followed by the insertion. -/
def eventInsert1 (p : Plat) (s : Cat) (a : LabelArg) (c : Option Cfg) : Except Err Nat × Cat :=
  match labelCheck a with
  | .error e => (.error e, s)
  | .ok t =>
    match newEventCfg p c with
    | .error e => (.error e, s)
    | .ok i => eventInsertTail s t i

/-- `wolfsentry_event_insert` (src/events.c:265-303). -/
def eventInsert (p : Plat) (s : Cat) (a : LabelArg) (c : Option Cfg) : Except Err Nat × Cat :=
  match labelIsBuiltin a with
  | .ok true => (.error .notPermitted, s)
  | _ => eventInsert1 p s a c

/-- `wolfsentry_event_get_1` (src/events.c:320-342). -/
def eventGet (s : Cat) (a : LabelArg) : Except Err (Ent (List Byte)) :=
  match labelCheck a with
  | .error e => .error e
  | .ok t => tableGet catCmp s.store tblEvents t

/-- `wolfsentry_event_delete` (src/events.c:433-452). -/
def eventDelete (s : Cat) (a : LabelArg) : Except Err Unit × Cat :=
  match eventGet s a with
  | .error e => (.error e, s)
  | .ok ent => (.ok (), { s with store := tableDelete1 s.store ent })

/-- `wolfsentry_event_flush_all` (src/events.c:454-459). -/
def eventFlush (s : Cat) : Cat := { s with store := tableFlush s.store tblEvents }

/-- `wolfsentry_event_get_config` (src/events.c:344-358). -/
def eventGetConfig (s : Cat) (a : LabelArg) : Except Err Cfg :=
  match eventGet s a with
  | .error e => .error e
  | .ok ent =>
    match s.evCfg ent.id with
    | none => .ok (cfgGet s.dflt)
    | some i => .ok (cfgGet i)

/-- The memory the load in `wolfsentry_event_update_config` starts from: the existing configuration,
or a fresh `WOLFSENTRY_MALLOC` result whose content is arbitrary (src/events.c:369-380). -/
def updateBase (garbage : CfgInt) (o : Option CfgInt) : CfgInt := o.getD garbage

/-- `wolfsentry_event_update_config` (src/events.c:360-383). -/
def eventUpdateConfig (p : Plat) (garbage : CfgInt) (s : Cat) (a : LabelArg) (c : Option Cfg) :
    Except Err Unit × Cat :=
  match eventGet s a with
  | .error e => (.error e, s)
  | .ok ent =>
    match cfgLoad p c (updateBase garbage (s.evCfg ent.id)) with
    | .error e => (.error e, s)
    | .ok i => (.ok (), s.setCfg ent.id (some i))

/-- `wolfsentry_defaultconfig_update` (src/wolfsentry_util.c:3456-3466). -/
def defaultUpdate (p : Plat) (s : Cat) (c : Option Cfg) : Except Err Unit × Cat :=
  match cfgUpdate p c s.dflt with
  | .error e => (.error e, s)
  | .ok i => (.ok (), { s with dflt := i })

/-- `wolfsentry_defaultconfig_get` (src/wolfsentry_util.c:3446-3454). -/
def defaultGet (s : Cat) : Cfg := cfgGet s.dflt

/-- `wolfsentry_action_insert_1` (src/actions.c:128-161) with `wolfsentry_action_new_1` (73-99), for
a non-NULL handler.  `wolfsentry_action_insert_builtins` (src/action_builtins.c) calls it directly. -/
def actionInsert1 (s : Cat) (a : LabelArg) : Except Err Nat × Cat :=
  match labelCheck a with
  | .error e => (.error e, s)
  | .ok t =>
    match storeInsert catCmp s.store tblActions t with
    | (.error e, st) => (.error e, { s with store := st })
    | (.ok ent, st) => (.ok ent.id, { s with store := st })

/-- `wolfsentry_action_insert` (src/actions.c:163-177). -/
def actionInsert (s : Cat) (a : LabelArg) : Except Err Nat × Cat :=
  match labelIsBuiltin a with
  | .ok true => (.error .notPermitted, s)
  | _ => actionInsert1 s a

/-- `wolfsentry_action_delete` (src/actions.c:179-213). -/
def actionDelete (s : Cat) (a : LabelArg) : Except Err Unit × Cat :=
  match labelCheck a with
  | .error e => (.error e, s)
  | .ok t =>
    match tableDelete catCmp s.store tblActions t with
    | (.error e, st) => (.error e, { s with store := st })
    | (.ok _, st) => (.ok (), { s with store := st })

/-- `wolfsentry_action_flush_all` (src/actions.c:215-220). -/
def actionFlush (s : Cat) : Cat := { s with store := tableFlush s.store tblActions }

/-- The lookup in `wolfsentry_action_get_reference` (src/actions.c:222-255). -/
def actionGet (s : Cat) (a : LabelArg) : Except Err (Ent (List Byte)) :=
  match labelCheck a with
  | .error e => .error e
  | .ok t => tableGet catCmp s.store tblActions t

/-- One user API call on the catalogue.  `otherInsert`/`otherDelete` stand for calls that add and
remove rules, user values and address families: they move the shared ID counter. -/
inductive CatOp where
  | eventInsert (a : LabelArg) (c : Option Cfg)
  | eventDelete (a : LabelArg)
  | eventFlush
  | eventUpdateConfig (a : LabelArg) (c : Option Cfg)
  | defaultUpdate (c : Option Cfg)
  | actionInsert (a : LabelArg)
  | actionDelete (a : LabelArg)
  | actionFlush
  | otherInsert (t : Nat) (k : List Byte)
  | otherDelete (t : Nat) (k : List Byte)

/-- The effect of one call; `garbage` is what a fresh allocation contains. -/
def catStep (p : Plat) (garbage : CfgInt) (s : Cat) : CatOp → Cat
  | .eventInsert a c => (eventInsert p s a c).2
  | .eventDelete a => (eventDelete s a).2
  | .eventFlush => eventFlush s
  | .eventUpdateConfig a c => (eventUpdateConfig p garbage s a c).2
  | .defaultUpdate c => (defaultUpdate p s c).2
  | .actionInsert a => (actionInsert s a).2
  | .actionDelete a => (actionDelete s a).2
  | .actionFlush => actionFlush s
  | .otherInsert t k => { s with store := (storeInsert catCmp s.store (t + 2) k).2 }
  | .otherDelete t k => { s with store := (tableDelete catCmp s.store (t + 2) k).2 }

/-- The state after a history of calls. -/
def catRun (p : Plat) (garbage : CfgInt) (s : Cat) (ops : List CatOp) : Cat :=
  ops.foldl (catStep p garbage) s

/-- `wolfsentry_init_ex` as far as the catalogue goes: the default configuration is loaded over
zeroed memory (src/wolfsentry_util.c:3685-3686) and the built-in action inserted
(src/action_builtins.c; label `%track-peer-v1`). -/
def catInit (p : Plat) (c : Option Cfg) (builtins : List LabelArg) : Except Err Cat :=
  match cfgLoad p c {} with
  | .error e => .error e
  | .ok i => .ok (builtins.foldl (fun s a => (actionInsert1 s a).2) { dflt := i })

end WS
