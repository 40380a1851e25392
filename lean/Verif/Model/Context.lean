import Verif.Model.Kv
import Verif.Model.AddrFam
import Verif.Model.Cleanup
import Verif.Model.RouteTable
/-
Exchanging the contents of two contexts (src/wolfsentry_util.c:3973-4048, src/routes.c:4689-4729).

The tables of a context are held by value: events, actions, user values and address families are
lists in table order, rules the `RouteTable` of `Model/RouteTable.lean`.  In C the first four are
pointers that are exchanged without being looked at, so what they hold is irrelevant to the
function; the values make "the other context's former contents" visible in the statements.  The two
contexts are different objects (exchanging a context with itself has no effect in C).  Lock failures
are not modelled: the theorems are about calls that obtain both locks.
-/
namespace WS

/-- `struct wolfsentry_context` (src/wolfsentry_internal.h:475-496).  `hpi` stands for the bytes of the
host platform interface, `mkIdCb` for the ID callback, `lock` for the identity of the lock. -/
structure Ctx where
  hpi : Nat := 0
  lock : Nat := 0
  hooks : List Hook := []
  mkIdCb : Nat := 0
  idState : Nat := 0
  config : CfgInt := {}
  configAtCreation : CfgInt := {}
  events : List Event := []
  actions : List (Ent (List Byte)) := []
  routes : RouteTable := {}
  values : List (List Byte × KvObj) := []
  famByNumber : List (Nat × AfHandlers) := []
  famByName : List (List Byte × Nat) := []
  byId : List Nat := []

/-- `to_i->flags = from_i->flags; to_i->meta = from_i->meta;` (src/routes.c:4705-4706).  The hit count
lives in `header`, not in `meta`, and stays (src/wolfsentry_internal.h:225-239, 365-377). -/
def copyMetaTo (f t : Route) : Route :=
  { t with flags := f.flags, data := { f.data with hitcount := t.data.hitcount } }

/-- The loop of `wolfsentry_route_copy_metadata` (src/routes.c:4700-4727): one cursor in each list. -/
def copyMetaLoop : List Route → List Route → List Route
  | [], ts => ts
  | _ :: _, [] => []
  | f :: fs, t :: ts =>
    if f.id = t.id then copyMetaTo f t :: copyMetaLoop fs ts
    else match routeKeyCmp f t with
      | .lt => copyMetaLoop fs (t :: ts)
      | .gt => t :: copyMetaLoop (f :: fs) ts
      | .eq => t :: copyMetaLoop fs ts
termination_by fs ts => fs.length + ts.length

/-- `wolfsentry_route_copy_metadata` (src/routes.c:4689-4729): only the destination's rules change. -/
def copyMetadata (from_ to_ : RouteTable) : RouteTable :=
  { to_ with ents := copyMetaLoop from_.ents to_.ents }

/-- `wolfsentry_context_exchange` (src/wolfsentry_util.c:3973-4048): result and the two contexts. -/
def ctxExchange (a b : Ctx) : Except Err Unit × Ctx × Ctx :=
  if a.hpi ≠ b.hpi ∨ a.mkIdCb ≠ b.mkIdCb then (.error .invalidArg, a, b)
  else
    let b := { b with routes := copyMetadata a.routes b.routes }
    (.ok (),
     { a with
        idState := b.idState, config := b.config, configAtCreation := b.configAtCreation,
        events := b.events, actions := b.actions, routes := b.routes, values := b.values,
        famByNumber := b.famByNumber, famByName := b.famByName, byId := b.byId },
     { b with
        idState := a.idState, config := a.config, configAtCreation := a.configAtCreation,
        events := a.events, actions := a.actions, routes := a.routes, values := a.values,
        famByNumber := a.famByNumber, famByName := a.famByName, byId := a.byId })

end WS
