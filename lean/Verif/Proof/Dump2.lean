import Verif.Proof.Dump
import Verif.Props.RoundTrip
/-
Proofs about loading an exported rule table (C72).
-/
namespace WS.Dump
open WS WS.Sax WS.Conf WS.Spec WS.Spec.Load WS.Spec.RoundTrip WS.RoundTrip WS.Spec.Dump WS.Props

theorem newline_ws : Spec.Json.WS (ascii "\n") := by
  intro c hc
  have : c = 0x0a#8 := by simpa [ascii] using hc
  subst this
  exact Or.inr (Or.inr (Or.inl rfl))

theorem newlines_ws : Spec.Json.WS (ascii "\n" ++ ascii "\n") := by
  intro c hc
  rcases List.mem_append.1 hc with h | h <;> exact newline_ws c h

theorem nil_ws : Spec.Json.WS [] := by intro c hc; cases hc

/-- Texts separated by a comma and a line feed, between line feeds. -/
theorem tx_elements {d : Nat} {ts : List (List Byte × J)} : ts ≠ [] → (∀ p ∈ ts, Tx d p.1 p.2) →
    Spec.Json.Elements loaderConfig d (ascii "\n" ++ joined (ascii ",\n") (ts.map (·.1))) ((Spec.Load.elements (ts.map (·.2))).map erase) ∧
    Spec.Json.Elements loaderConfig d (ascii "\n" ++ joined (ascii ",\n") (ts.map (·.1)) ++ ascii "\n") ((Spec.Load.elements (ts.map (·.2))).map erase) := by
  generalize hk : ts.length = k
  induction k generalizing ts with
  | zero => intro h; exact absurd (List.eq_nil_of_length_eq_zero hk) h
  | succ k ih =>
    intro _ h
    obtain ⟨s0, p, rfl⟩ : ∃ s0 n, ts = s0 ++ [n] := ⟨ts.dropLast, ts.getLast (by rintro rfl; cases hk), (List.dropLast_concat_getLast _).symm⟩
    rw [List.length_append, List.length_singleton] at hk
    have hp := h p (by simp)
    by_cases h0 : s0 = []
    · subst h0
      have e : (Spec.Load.elements ([p].map (·.2))).map erase = p.2.events.map erase := by simp [Spec.Load.elements]
      simp only [List.nil_append]
      rw [e]
      have a := Spec.Json.Elements.one newline_ws hp nil_ws
      have b := Spec.Json.Elements.one newline_ws hp newline_ws
      simp only [List.append_nil] at a
      exact ⟨by simpa [joined] using a, by simpa [joined] using b⟩
    · have h1 := (ih (ts := s0) (by omega) h0 (fun e he => h e (by simp [he]))).1
      have e1 : ascii ",\n" = [Spec.Json.ch ','] ++ ascii "\n" := by decide
      have e2 : (Spec.Load.elements ((s0 ++ [p]).map (·.2))).map erase = (Spec.Load.elements (s0.map (·.2))).map erase ++ p.2.events.map erase := by
        have : ∀ (l : List J) (j : J), Spec.Load.elements (l ++ [j]) = Spec.Load.elements l ++ j.events := by
          intro l j
          induction l with
          | nil => simp [Spec.Load.elements]
          | cons x l ih => simp [Spec.Load.elements, ih]
        rw [List.map_append, List.map_cons, List.map_nil, this, List.map_append]
      rw [e2, List.map_append, List.map_cons, List.map_nil, joined_snoc _ _ _ (by simpa using h0)]
      have a := Spec.Json.Elements.more h1 newline_ws hp nil_ws
      have b := Spec.Json.Elements.more h1 newline_ws hp newline_ws
      generalize joined (ascii ",\n") (s0.map (·.1)) = X at a b ⊢
      rw [e1]
      constructor
      · simpa using a
      · simpa using b

/-- The document of an export. -/
theorem whole_document {ts : List (List Byte × J)} (h : ∀ p ∈ ts, Tx 2 p.1 p.2) (f : List Byte) :
    Spec.Json.Document loaderConfig (wholeText (ts.map (·.1)))
      ((J.obj [(ascii "wolfsentry-config-version", .num [0x31#8] f), (ascii "routes", .arr (ts.map (·.2)))]).events.map erase) := by
  have h1 : Tx 1 (decimal 1) (.num (decimal 1) f) := tx_decimal (by decide) f
  have e1 : decimal 1 = [0x31#8] := by rw [decimal]; decide
  rw [e1] at h1
  have h2 : Tx 1 ([Spec.Json.ch '['] ++ ascii "\n" ++ joined (ascii ",\n") (ts.map (·.1)) ++ ascii "\n" ++ [Spec.Json.ch ']']) (.arr (ts.map (·.2))) := by
    by_cases h0 : ts = []
    · subst h0
      have := Spec.Json.Value.emptyArray (cfg := loaderConfig) (d := 1) (Or.inr (by decide)) newlines_ws
      simpa [Tx, J.events, Spec.Load.elements, erase, joined] using this
    · have := Spec.Json.Value.array (cfg := loaderConfig) (d := 1) (Or.inr (by decide)) (tx_elements h0 h).2
      simpa [Tx, J.events, erase] using this
  obtain ⟨k1, hk1, hp1⟩ := plain_bytes (t := ascii "wolfsentry-config-version") (by decide)
  obtain ⟨k2, hk2, hp2⟩ := plain_bytes (t := ascii "routes") (by decide)
  have m1 := Spec.Json.Member.mk (cfg := loaderConfig) nil_ws (plain_body hp1) (Or.inr (by rw [← hk1]; decide)) nil_ws nil_ws h1 nil_ws
  have m2 := Spec.Json.Member.mk (cfg := loaderConfig) newline_ws (plain_body hp2) (Or.inr (by rw [← hk2]; decide)) nil_ws nil_ws h2 nil_ws
  have hv := Spec.Json.Value.object (cfg := loaderConfig) (d := 0) (Or.inr (by decide)) (.more (.one m1) m2)
  rw [← hk1, ← hk2] at hv
  have e2 : (J.obj [(ascii "wolfsentry-config-version", .num [0x31#8] f), (ascii "routes", .arr (ts.map (·.2)))]).events.map erase =
      ⟨.objectBeg, []⟩ :: (⟨.key, ascii "wolfsentry-config-version"⟩ :: (J.num [0x31#8] f).events.map erase ++
        ⟨.key, ascii "routes"⟩ :: (J.arr (ts.map (·.2))).events.map erase) ++ [⟨.objectEnd, []⟩] := by
    simp [J.events, Spec.Load.members, erase]
  rw [← e2] at hv
  refine ⟨⟨[], _, ascii "\n", ?_, nil_ws, newline_ws, hv⟩, Or.inl rfl, Or.inl rfl, ?_⟩
  rotate_left
  · intro e he
    simp [J.events, erase] at he
    subst he
    show ¬ (loaderConfig.flags.getLsbD 5 = true)
    decide
  · have a1 : ascii "{\"wolfsentry-config-version\":1,\n\"routes\":[\n" =
        [Spec.Json.ch '{'] ++ ([Spec.Json.ch '"'] ++ ascii "wolfsentry-config-version" ++ [Spec.Json.ch '"'] ++ [Spec.Json.ch ':'] ++ [0x31#8]) ++
          [Spec.Json.ch ','] ++ (ascii "\n" ++ [Spec.Json.ch '"'] ++ ascii "routes" ++ [Spec.Json.ch '"'] ++ [Spec.Json.ch ':'] ++ [Spec.Json.ch '['] ++ ascii "\n") := by
      decide
    have a2 : ascii "\n]}\n" = ascii "\n" ++ [Spec.Json.ch ']'] ++ [Spec.Json.ch '}'] ++ ascii "\n" := by decide
    unfold wholeText
    rw [a1, a2]
    simp only [List.append_assoc, List.cons_append, List.nil_append]

variable {α : Type}

/-- A rule that was created by an insertion, can be written and can be read. -/
structure Restorable (F : FmtEnv) (E : Env α) (numeric : Bool) (at_ : List Byte → Nat → List Byte) (r : Route) : Prop where
  created : ∃ ev0 remote0 loc0 flags0 r0, routeNewForInsert ev0 remote0 loc0 flags0 = .ok r0 ∧ CreatedAs r0 r
  renderable : Renderable F r numeric at_
  reloadable : Reloadable F E r

theorem reload_one {F : FmtEnv} {E : Env α} (hb : ReadsBack F E) {numeric : Bool} {at_ : List Byte → Nat → List Byte} {r : Route}
    (h : Restorable F E numeric at_ r) :
    ∃ rem loc, (∀ ev, routeNewForInsert ev (sockAddrOf rem) (sockAddrOf loc) (givenFlags r.flags) = .ok (asCreated r ev)) ∧
      ∀ a a', E.call a (.routeInsert rem loc (givenFlags r.flags) (labelOf r)) = (a', none) →
        Rule E false (.obj ((ruleEntries F r numeric at_).map Entry.pair)) a a' := by
  obtain ⟨ev0, remote0, loc0, flags0, r0, hnew, hc⟩ := h.created
  have hrl := h.reloadable
  have hf := hnew
  unfold routeNewForInsert at hf
  split at hf
  · cases hf
  have hsen : Sensical r.flags := by
    rcases routeInit_cases ev0 remote0 loc0 flags0 with ⟨a, b⟩ | ⟨_, _, b⟩ | ⟨_, _, b⟩
    · rw [b] at hf
      injection hf with hf
      have hi : ∀ i < 14, r.flags.getLsbD i = flags0.getLsbD i := fun i hi => by rw [hc.flags i hi, ← hf]
      have := a.sensical
      unfold Sensical at this ⊢
      rw [hi 0 (by decide), hi 1 (by decide), hi 2 (by decide), hi 3 (by decide), hi 4 (by decide), hi 5 (by decide)]
      exact this
    · rw [b] at hf; cases hf
    · rw [b] at hf; cases hf
  obtain ⟨rem, loc, hm, h1, h2⟩ := rule_reads (numeric := numeric) hb hrl (sizes_of h.renderable.fields) (fun p hp => (h.renderable.addrs p hp).1)
    (fun h => hsen.1 h) (fun h => ⟨(hsen.2 h).2, (hsen.2 h).1⟩)
  have hbound : rem.addrLen ≤ 128 ∧ loc.addrLen ≤ 128 := by
    have key : ∀ (e : Endpoint) (aw bm : Nat), EndOk F E r e aw bm → (if r.flags.getLsbD aw then 0 else e.bits) ≤ 128 := by
      rintro e aw bm ⟨_, h⟩
      cases ha : r.flags.getLsbD aw with
      | true => simp
      | false =>
        have h := h ha
        cases hbm : r.flags.getLsbD bm with
        | true =>
          simp only [hbm, if_true] at h
          exact (mask_sizes h).2.2.2.2.2.2.2.2.2.2.2
        | false =>
          simp only [hbm, Bool.false_eq_true, if_false] at h
          exact (addr_sizes h).2.2.2
    exact ⟨by rw [h1.2.2.2.2.1]; exact key _ _ _ hrl.remote, by rw [h2.2.2.2.2.1]; exact key _ _ _ hrl.loc⟩
  exact ⟨rem, loc, reload_creates hnew hc hrl h1 h2, fun a a' hcall => .mk hm (fun _ => hbound) (by unfold DidRule Did; exact hcall)⟩

theorem reload_all {F : FmtEnv} {E : Env α} (hb : ReadsBack F E) {numeric : Bool} {at_ : List Byte → Nat → List Byte} : ∀ {rs : List Route},
    (∀ r ∈ rs, Restorable F E numeric at_ r) → ∃ ks, ReinsertsAll rs ks ∧
      ∀ a a', Performed E ks a a' → Elements (Rule E false) (rs.map fun r => .obj ((ruleEntries F r numeric at_).map Entry.pair)) a a'
  | [], _ => ⟨[], .nil, fun a a' h => by cases h; exact .nil _⟩
  | r :: rs, h => by
    obtain ⟨rem, loc, h1, h2⟩ := reload_one hb (h r (by simp))
    obtain ⟨ks, h3, h4⟩ := reload_all hb (rs := rs) (fun r hr => h r (by simp [hr]))
    refine ⟨_ :: ks, .cons ⟨rem, loc, rfl, h1⟩ h3, fun a a' hd => ?_⟩
    cases hd with
    | cons g1 g2 => exact .cons (h2 _ _ g1) (h4 _ _ g2)

theorem elements_inPlace : ∀ (js : List J), (∀ j ∈ js, j.InPlace) → elementsInPlace js
  | [], _ => trivial
  | j :: js, h => ⟨h j (by simp), elements_inPlace js fun x hx => h x (by simp [hx])⟩

theorem whole_no_cut {rs : List (List Byte)} : ¬ Spec.Json.EndsInWord (wholeText rs) := by
  rintro ⟨t, b, e, g⟩
  have hx : ascii "\n]}\n" = ascii "\n]}" ++ [0x0a#8] := by decide
  unfold wholeText at e
  rw [hx, ← List.append_assoc] at e
  have := (List.append_inj' e rfl).2
  injection this with h
  subst h
  unfold Spec.Json.Digit at g
  revert g; decide

/-- Loading an export does the insertions. -/
theorem reload_whole {F : FmtEnv} {E : Env α} (hb : ReadsBack F E) (hE : NoEmptyEvent E) {tail : Tail} (ht : InPlaceTail tail) (c : EventConfig)
    {numeric : Bool} {at_ : List Byte → Nat → List Byte} {rs : List Route} (hr : ∀ r ∈ rs, Restorable F E numeric at_ r) :
    ∃ ks, ReinsertsAll rs ks ∧ ∀ chunks : List (List Byte), chunks.flatten = wholeText (rs.map (textOf F numeric at_)) →
      ∀ a a', Performed E ks a a' → 0 ≤ (load E tail loaderConfig false c a chunks).ret ∧ (load E tail loaderConfig false c a chunks).user.1 = a' := by
  obtain ⟨ks, h1, h2⟩ := reload_all hb hr
  refine ⟨ks, h1, fun chunks hch a a' hd => ?_⟩
  refine (C56_text_meaning_partial E hE tail ht loaderConfig (by unfold Spec.Json.Strict; decide) false c chunks
    (fun _ h => whole_no_cut (hch ▸ Sax.cutOff_ends h)) a a').2
    ⟨versioned "routes" (.arr (rs.map fun r => .obj ((ruleEntries F r numeric at_).map Entry.pair))), ⟨?_, ?_⟩, ?_⟩
  · refine versioned_inPlace ?_
    refine elements_inPlace _ fun j hj => ?_
    obtain ⟨r, _, rfl⟩ := List.mem_map.1 hj
    exact rule_inPlace F r numeric at_
  · rw [hch]
    have := whole_document (ts := rs.map fun r => (textOf F numeric at_ r, J.obj ((ruleEntries F r numeric at_).map Entry.pair))) (by
      intro p hp
      obtain ⟨r, hm, rfl⟩ := List.mem_map.1 hp
      have h := hr r hm
      exact rule_text hb h.reloadable (sizes_of h.renderable.fields) (fun p hp => (h.renderable.addrs p hp).1)) [0x2c#8]
    simp only [List.map_map] at this
    exact this
  · have hv : Section E false (ascii "wolfsentry-config-version") (.num [0x31#8] [0x2c#8]) { config := c, lib := a }
        { config := c, lib := a, versioned := true } := by
      refine .version ?_
      have := uint_decimal (bits := 32) (room := 16) (k := 1) (n := 1) (by decide) (by decide) (by decide) (by decide) (by decide) [0x2c#8]
      have e1 : decimal 1 = [0x31#8] := by rw [decimal]; decide
      rwa [e1] at this
    have hsec := Section.routes (E := E) (noRules := false) (k := "routes") (x := { config := c, lib := a, versioned := true }) (by simp) rfl (h2 _ _ hd)
    have nv : name (ascii "wolfsentry-config-version") = ascii "wolfsentry-config-version" := by decide
    have nr : name (ascii "routes") = ascii "routes" := by decide
    exact Loads.mk (x := { config := c, lib := a', versioned := true })
      (.cons (by decide) (by rw [nv]; exact hv) (.cons (by decide) (by rw [nr]; exact hsec) (.nil _)))

end WS.Dump
