import Verif.Model.DefaultEvent
/-
What the calls about the default event should do (C79), in terms of labels and of which calls
succeeded.  The operations are those of the model; none of its functions are used.
-/
namespace WS.Spec.DE
open WS WS.DE

/-- A call and whether it succeeded. -/
abbrev Record := Op × Bool

/-- The label of the event in force after a history: that of the last successful `setDefault` since the
last `clearDefault`.  Nothing else changes it. -/
def inForce : List Record → Option Label
  | [] => none
  | (.setDefault l, true) :: _ => some l
  | (.clearDefault, true) :: _ => none
  | _ :: earlier => inForce earlier

/-- An event of that label exists after a history (latest call first): created, and not deleted or flushed
since. -/
def Known (l : Label) : List Record → Bool
  | [] => false
  | (.create m, true) :: earlier => m == l || Known l earlier
  | (.delete m, true) :: earlier => m != l && Known l earlier
  | (.flush, _) :: _ => false
  | _ :: earlier => Known l earlier

/-- What `wolfsentry_route_table_get_default_event` should answer and leave in the caller's buffer, given
the label in force: the label with a terminating zero if that fits into `len`. -/
def Answer (force : Option Label) (buf : List Byte) (len : Int) : Except Err Unit × List Byte :=
  match force with
  | none => (.error .itemNotFound, buf)
  | some l => if (l.length : Int) + 1 ≤ len then (.ok (), l ++ [0#8] ++ buf.drop (l.length + 1)) else (.error .bufferTooSmall, buf)

end WS.Spec.DE
