import Verif.Model.Format
/-
Iterating over a table, and the export of the whole rule table as a configuration (src/routes.c:3611-3691, 4127-4202).

A table is the list of its entries.  A cursor is a pointer to an entry or NULL; here the position of the entry.  The caller holds a
lock throughout, so the table does not change between the calls.
-/
namespace WS.Dump
open WS

/-- `cursor->point`: NULL or an entry of the table. -/
abbrev Cursor := Option Nat

/-- `wolfsentry_table_cursor_seek_to_head` (src/wolfsentry_internal.h:709-711) in a table of `n` entries. -/
def seekHead (n : Nat) : Cursor := if n = 0 then none else some 0

/-- `wolfsentry_table_cursor_seek_to_tail` (src/wolfsentry_internal.h:712-714). -/
def seekTail (n : Nat) : Cursor := if n = 0 then none else some (n - 1)

/-- `wolfsentry_table_cursor_next` (src/wolfsentry_internal.h:724-729). -/
def next (n : Nat) : Cursor → Cursor
  | none => none
  | some i => if i + 1 < n then some (i + 1) else none

/-- `wolfsentry_table_cursor_prev` (src/wolfsentry_internal.h:718-723). -/
def prev : Cursor → Cursor
  | none => none
  | some i => if i = 0 then none else some (i - 1)

/-- The entry under the cursor, or `ITEM_NOT_FOUND`: `wolfsentry_route_table_iterate_current` (src/routes.c:3645-3655) and
`wolfsentry_kv_table_iterate_current` (src/kv.c:641-653). -/
def current {α : Type} (l : List α) (c : Cursor) : Except Err α :=
  match c with
  | none => .error .itemNotFound
  | some i =>
    match l[i]? with
    | some x => .ok x
    | none => .error .itemNotFound

/-- `wolfsentry_route_table_iterate_next` (src/routes.c:3669-3679), `wolfsentry_kv_table_iterate_next` (src/kv.c:669-681): move, then the
entry there. -/
def iterateNext {α : Type} (l : List α) (c : Cursor) : Except Err α × Cursor := (current l (next l.length c), next l.length c)

/-- `wolfsentry_route_table_iterate_prev` (src/routes.c:3657-3667), `wolfsentry_kv_table_iterate_prev` (src/kv.c:655-667). -/
def iteratePrev {α : Type} (l : List α) (c : Cursor) : Except Err α × Cursor := (current l (prev c), prev c)

/-- `wolfsentry_route_table_iterate_start` (src/routes.c:3611-3628) and the same for user values (src/kv.c:604-619, whose caller has
checked the lock, 1098-1104): a new cursor on the first entry.  `locked`: the caller holds a lock; `memory`: the allocation succeeds. -/
def iterateStart (locked memory : Bool) (n : Nat) : Except Err Cursor :=
  if !locked then .error .lackingReadLock
  else if !memory then .error .sysResourceFailed
  else .ok (seekHead n)

/-- What a call of the export gives: undefined behaviour, or a return code (`none` is success), the cursor, and the output. -/
inductive Res where
  | ub
  | ret (e : Option Err) (c : Cursor) (s : Out)
  deriving DecidableEq, Repr

/-- `wolfsentry_route_table_dump_json_start` (src/routes.c:4127-4144).  If it fails there is no cursor (written `none`). -/
def start (locked memory : Bool) (rs : List Route) (s : Out) : Res :=
  match writeBytes (ascii "{\"wolfsentry-config-version\":1,\n\"routes\":[\n") s with
  | .ub => .ub
  | .fail e s => .ret (some e) none s
  | .ok s =>
    match iterateStart locked memory rs.length with
    | .error e => .ret (some e) none s
    | .ok c => .ret none c s

/-- `wolfsentry_route_table_dump_json_next` (src/routes.c:4146-4183): `json_out_start` and `json_out_len_start` restore the output when
the rule does not fit; the comma may have been written by then. -/
def dumpNext (E : FmtEnv) (numeric : Bool) (rs : List Route) (c : Cursor) (s : Out) : Res :=
  match current rs c with
  | .error e => .ret (some e) c s
  | .ok r =>
    -- `&route->header != wolfsentry_table_first(&table->header)`
    match (if c = seekHead rs.length then .ok s else writeBytes (ascii ",\n") s) with
    | .ub => .ub
    | .fail e s' => .ret (some e) c s'
    | .ok s1 =>
      match runOps E r.family (formatJsonOps E r numeric) s1 with
      | .ub => .ub
      | .fail e s2 =>
        if e = .bufferTooSmall then .ret (some e) c { s2 with text := s.text, left := s.left } else .ret (some e) c s2
      | .ok s2 => .ret none (next rs.length c) s2

/-- `wolfsentry_route_table_dump_json_end` (src/routes.c:4185-4202): the cursor is released and set to NULL. -/
def finish (locked : Bool) (c : Cursor) (s : Out) : Res :=
  match writeBytes (ascii "\n]}\n") s with
  | .ub => .ub
  | .fail e s => .ret (some e) c s
  | .ok s => if !locked then .ret (some .lackingReadLock) c s else .ret none none s

end WS.Dump
