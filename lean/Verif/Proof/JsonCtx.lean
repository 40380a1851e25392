import Verif.Spec.JsonSax
/-
Prefixes of JSON texts: what may precede a value, a key, a closer.
-/
namespace WS.Sax
open WS WS.Spec.Json

theorem ws_nil : Spec.Json.WS [] := fun _ h => by cases h

theorem ws_append {a b : List Byte} (ha : Spec.Json.WS a) (hb : Spec.Json.WS b) : Spec.Json.WS (a ++ b) := by
  intro c hc
  rw [List.mem_append] at hc
  rcases hc with h | h
  · exact ha c h
  · exact hb c h

/-- The event of a closer. -/
def endEv (c : Byte) : Event := ⟨if c = 0x5d#8 then .arrayEnd else .objectEnd, []⟩

mutual
/-- The text before a value: the closers of the open containers, the text, the events. -/
inductive Before (cfg : Config) : List Byte → List Byte → List Event → Prop
  | root {w : List Byte} : Spec.Json.WS w → Before cfg [] w []
  | first {ns t w : List Byte} {e : List Event} : Before cfg ns t e → Within cfg.maxNesting (ns.length + 1) →
      Spec.Json.WS w → Before cfg (0x5d#8 :: ns) (t ++ ch '[' :: w) (e ++ [⟨.arrayBeg, []⟩])
  | next {ns t te w : List Byte} {e ee : List Event} : Before cfg ns t e → Within cfg.maxNesting (ns.length + 1) →
      Elements cfg (ns.length + 1) te ee → Spec.Json.WS w →
      Before cfg (0x5d#8 :: ns) (t ++ ch '[' :: (te ++ ch ',' :: w)) (e ++ ⟨.arrayBeg, []⟩ :: ee)
  | colon {ns t w : List Byte} {e : List Event} : Keyed cfg ns t e → Spec.Json.WS w →
      Before cfg (0x7d#8 :: ns) (t ++ ch ':' :: w) e

/-- The text before a key, inside the containers `ns` and one object. -/
inductive BeforeKey (cfg : Config) : List Byte → List Byte → List Event → Prop
  | first {ns t w : List Byte} {e : List Event} : Before cfg ns t e → Within cfg.maxNesting (ns.length + 1) →
      Spec.Json.WS w → BeforeKey cfg ns (t ++ ch '{' :: w) (e ++ [⟨.objectBeg, []⟩])
  | next {ns t te w : List Byte} {e ee : List Event} : Before cfg ns t e → Within cfg.maxNesting (ns.length + 1) →
      Members cfg (ns.length + 1) te ee → Spec.Json.WS w →
      BeforeKey cfg ns (t ++ ch '{' :: (te ++ ch ',' :: w)) (e ++ ⟨.objectBeg, []⟩ :: ee)

/-- The text up to the end of a key. -/
inductive Keyed (cfg : Config) : List Byte → List Byte → List Event → Prop
  | mk {ns t b w : List Byte} {s : List Nat} {e : List Event} : BeforeKey cfg ns t e → Body b s →
      Within cfg.maxKeyLen b.length → Spec.Json.WS w →
      Keyed cfg ns (t ++ (ch '"' :: b ++ [ch '"']) ++ w) (e ++ [⟨.key, utf8s s⟩])
end

/-- The text up to the end of a value. -/
inductive After (cfg : Config) : List Byte → List Byte → List Event → Prop
  | root {w1 t w2 : List Byte} {e : List Event} : Spec.Json.WS w1 → Value cfg 0 t e → Spec.Json.WS w2 →
      After cfg [] (w1 ++ t ++ w2) e
  | arr {ns t te : List Byte} {e ee : List Event} : Before cfg ns t e → Within cfg.maxNesting (ns.length + 1) →
      Elements cfg (ns.length + 1) te ee → After cfg (0x5d#8 :: ns) (t ++ ch '[' :: te) (e ++ ⟨.arrayBeg, []⟩ :: ee)
  | obj {ns t te : List Byte} {e ee : List Event} : Before cfg ns t e → Within cfg.maxNesting (ns.length + 1) →
      Members cfg (ns.length + 1) te ee → After cfg (0x7d#8 :: ns) (t ++ ch '{' :: te) (e ++ ⟨.objectBeg, []⟩ :: ee)

/-- The innermost container may be closed here, after any white space. -/
def Closable (cfg : Config) (nest text : List Byte) (evs : List Event) : Prop :=
  ∀ w, Spec.Json.WS w → ∃ top ns t0 e0 tv ev, nest = top :: ns ∧ Before cfg ns t0 e0 ∧ Value cfg ns.length tv ev ∧
    text ++ w ++ [top] = t0 ++ tv ∧ evs ++ [endEv top] = e0 ++ ev

theorem elements_ws {cfg : Config} {d : Nat} {t w : List Byte} {e : List Event} (h : Elements cfg d t e)
    (hw : Spec.Json.WS w) : Elements cfg d (t ++ w) e := by
  cases h with
  | one h1 h2 h3 =>
    have := Elements.one h1 h2 (ws_append h3 hw)
    simpa [List.append_assoc] using this
  | more h0 h1 h2 h3 =>
    have := Elements.more h0 h1 h2 (ws_append h3 hw)
    simpa [List.append_assoc] using this

theorem member_ws {cfg : Config} {d : Nat} {t w : List Byte} {e : List Event} (h : Member cfg d t e)
    (hw : Spec.Json.WS w) : Member cfg d (t ++ w) e := by
  cases h with
  | mk h1 h2 h3 h4 h5 h6 h7 =>
    have := Member.mk h1 h2 h3 h4 h5 h6 (ws_append h7 hw)
    simpa [List.append_assoc] using this

theorem members_ws {cfg : Config} {d : Nat} {t w : List Byte} {e : List Event} (h : Members cfg d t e)
    (hw : Spec.Json.WS w) : Members cfg d (t ++ w) e := by
  cases h with
  | one h => exact .one (member_ws h hw)
  | more h0 h =>
    have := Members.more h0 (member_ws h hw)
    simpa [List.append_assoc] using this

theorem before_ws {cfg : Config} {n t w : List Byte} {e : List Event} (h : Before cfg n t e) (hw : Spec.Json.WS w) :
    Before cfg n (t ++ w) e := by
  cases h with
  | root h => exact .root (ws_append h hw)
  | first h1 h2 h3 =>
    have := Before.first h1 h2 (ws_append h3 hw)
    simpa [List.append_assoc] using this
  | next h1 h2 h3 h4 =>
    have := Before.next h1 h2 h3 (ws_append h4 hw)
    simpa [List.append_assoc] using this
  | colon h1 h2 =>
    have := Before.colon h1 (ws_append h2 hw)
    simpa [List.append_assoc] using this

theorem beforeKey_ws {cfg : Config} {n t w : List Byte} {e : List Event} (h : BeforeKey cfg n t e)
    (hw : Spec.Json.WS w) : BeforeKey cfg n (t ++ w) e := by
  cases h with
  | first h1 h2 h3 =>
    have := BeforeKey.first h1 h2 (ws_append h3 hw)
    simpa [List.append_assoc] using this
  | next h1 h2 h3 h4 =>
    have := BeforeKey.next h1 h2 h3 (ws_append h4 hw)
    simpa [List.append_assoc] using this

theorem keyed_ws {cfg : Config} {n t w : List Byte} {e : List Event} (h : Keyed cfg n t e) (hw : Spec.Json.WS w) :
    Keyed cfg n (t ++ w) e := by
  cases h with
  | mk h1 h2 h3 h4 =>
    have := Keyed.mk h1 h2 h3 (ws_append h4 hw)
    simpa [List.append_assoc] using this

theorem after_ws {cfg : Config} {n t w : List Byte} {e : List Event} (h : After cfg n t e) (hw : Spec.Json.WS w) :
    After cfg n (t ++ w) e := by
  cases h with
  | root h1 h2 h3 =>
    have := After.root h1 h2 (ws_append h3 hw)
    simpa [List.append_assoc] using this
  | arr h1 h2 h3 =>
    have := After.arr h1 h2 (elements_ws h3 hw)
    simpa [List.append_assoc] using this
  | obj h1 h2 h3 =>
    have := After.obj h1 h2 (members_ws h3 hw)
    simpa [List.append_assoc] using this

/-- A value in its place. -/
theorem after_value {cfg : Config} {n t tv : List Byte} {e ev : List Event} (h : Before cfg n t e)
    (hv : Value cfg n.length tv ev) : After cfg n (t ++ tv) (e ++ ev) := by
  cases h with
  | root h =>
    have := After.root h hv ws_nil
    simpa using this
  | first h1 h2 h3 =>
    have := After.arr h1 h2 (Elements.one h3 hv ws_nil)
    simpa [List.append_assoc] using this
  | next h1 h2 h3 h4 =>
    have := After.arr h1 h2 (Elements.more h3 h4 hv ws_nil)
    simpa [List.append_assoc] using this
  | colon h1 h2 =>
    cases h1 with
    | mk k1 k2 k3 k4 =>
      cases k1 with
      | first b1 b2 b3 =>
        have := After.obj b1 b2 (Members.one (Member.mk b3 k2 k3 k4 h2 hv ws_nil))
        simpa [List.append_assoc] using this
      | next b1 b2 b3 b4 =>
        have := After.obj b1 b2 (Members.more b3 (Member.mk b4 k2 k3 k4 h2 hv ws_nil))
        simpa [List.append_assoc] using this

theorem closable_after {cfg : Config} {n t : List Byte} {e : List Event} (h : After cfg n t e) (hn : n ≠ []) :
    Closable cfg n t e := by
  intro w hw
  cases h with
  | root => exact absurd rfl hn
  | @arr ns t te e ee h1 h2 h3 =>
    exact ⟨_, ns, t, e, _, _, rfl, h1, Value.array h2 (elements_ws h3 hw), by simp; rfl, by simp [endEv]⟩
  | @obj ns t te e ee h1 h2 h3 =>
    exact ⟨_, ns, t, e, _, _, rfl, h1, Value.object h2 (members_ws h3 hw), by simp; rfl, by simp [endEv]⟩

theorem closable_array {cfg : Config} {ns t : List Byte} {e : List Event} (h : Before cfg ns t e)
    (hw : Within cfg.maxNesting (ns.length + 1)) :
    Closable cfg (0x5d#8 :: ns) (t ++ [ch '[']) (e ++ [⟨.arrayBeg, []⟩]) := by
  intro w hws
  exact ⟨_, ns, t, e, _, _, rfl, h, Value.emptyArray hw hws, by simp; rfl, by simp [endEv]⟩

theorem closable_object {cfg : Config} {ns t : List Byte} {e : List Event} (h : Before cfg ns t e)
    (hw : Within cfg.maxNesting (ns.length + 1)) :
    Closable cfg (0x7d#8 :: ns) (t ++ [ch '{']) (e ++ [⟨.objectBeg, []⟩]) := by
  intro w hws
  exact ⟨_, ns, t, e, _, _, rfl, h, Value.emptyObject hw hws, by simp; rfl, by simp [endEv]⟩

/-- What the state of the main automaton tells of the text so far. -/
structure MainShape (cfg : Config) (bits : Bits) (nest text : List Byte) (evs : List Event) : Prop where
  value : bits.value = true → Before cfg nest text evs
  key : bits.key = true → ∃ ns, nest = 0x7d#8 :: ns ∧ BeforeKey cfg ns text evs
  closer : bits.closer = true → Closable cfg nest text evs
  comma : bits.comma = true → After cfg nest text evs ∧ nest ≠ []
  colon : bits.colon = true → ∃ ns, nest = 0x7d#8 :: ns ∧ Keyed cfg ns text evs
  eof : bits.eof = true → nest = [] ∧ After cfg nest text evs

theorem MainShape.ws {cfg : Config} {bits : Bits} {nest text w : List Byte} {evs : List Event}
    (h : MainShape cfg bits nest text evs) (hw : Spec.Json.WS w) : MainShape cfg bits nest (text ++ w) evs := by
  refine ⟨fun g => before_ws (h.value g) hw, ?_, ?_, ?_, ?_, ?_⟩
  · intro g
    obtain ⟨ns, h1, h2⟩ := h.key g
    exact ⟨ns, h1, beforeKey_ws h2 hw⟩
  · intro g w' hw'
    obtain ⟨top, ns, t0, e0, tv, ev, k1, k2, k3, k4, k5⟩ := h.closer g (w ++ w') (ws_append hw hw')
    exact ⟨top, ns, t0, e0, tv, ev, k1, k2, k3, by rw [← k4]; simp, k5⟩
  · intro g
    exact ⟨after_ws (h.comma g).1 hw, (h.comma g).2⟩
  · intro g
    obtain ⟨ns, h1, h2⟩ := h.colon g
    exact ⟨ns, h1, keyed_ws h2 hw⟩
  · intro g
    exact ⟨(h.eof g).1, after_ws (h.eof g).2 hw⟩

/-- The state after a value. -/
def doneBits (nested : Bool) : Bits := if nested then { comma := true, closer := true } else { eof := true }

theorem MainShape.after {cfg : Config} {nest text : List Byte} {evs : List Event} (h : After cfg nest text evs) :
    MainShape cfg (doneBits (!nest.isEmpty)) nest text evs := by
  cases nest with
  | nil =>
    refine ⟨?_, ?_, ?_, ?_, ?_, fun _ => ⟨rfl, h⟩⟩ <;> (intro g; cases g)
  | cons a ns =>
    refine ⟨(fun g => by cases g), (fun g => by cases g), (fun _ => closable_after h (by simp)), (fun _ => ⟨h, by simp⟩),
      (fun g => by cases g), (fun g => by cases g)⟩

end WS.Sax
