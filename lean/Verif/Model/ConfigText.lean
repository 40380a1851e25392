import Verif.Model.Config
import Verif.Model.JsonSax
/-
The loader behind the parser: `json_process` as the callback of the incremental parser
(`wolfsentry_config_json_init_ex`, `_feed`, `_fini`: src/json/load_config.c:1712-2023).
-/
namespace WS.Conf
open WS WS.Sax WS.Time WS.ConfNum

/-- The bytes found in memory after the data of an event; only numbers and strings are ever read past their end
(load_config.c:154-400, 640-700). -/
def Tail := Sax.Event → Pos → Pos → List Byte

/-- `json_process` as a parser callback (load_config.c:1505-1705).  The second half of the user data is the loader state, or
how the load went wrong; the library calls made so far have made the first half.  Simplification: every error code is
−1 (the parser only looks at the sign, centijson_sax.c:214-240). -/
def loader {α : Type} (E : Env α) (tail : Tail) : Callback (α × Res State) := fun u e vp p =>
  match u with
  | (a, .ok st) =>
    let r := step E a st ⟨e.type, e.data, if e.type = .number ∨ e.type = .string then tail e vp p else []⟩
    (r, (match r.2 with | .ok _ => 0 | _ => -1), none)
  | u => (u, -1, none)

/-- A whole load: `wolfsentry_config_json_init_ex`, one `wolfsentry_config_json_feed` per chunk,
`wolfsentry_config_json_fini` (load_config.c:1712-2023).  Not modelled: the context locking and, with
LOAD_THEN_COMMIT or DRY_RUN, the cloning before and the commit after the load (1780-1811, 1950-2010; see C48 and C53 for clone
and context). -/
def load {α : Type} (E : Env α) (tail : Tail) (cfg : Config) (noRules : Bool) (c : EventConfig) (a : α) (chunks : List (List Byte)) :
    Result (α × Res State) :=
  parse cfg (loader E tail) (a, .ok (start noRules c)) chunks

end WS.Conf
