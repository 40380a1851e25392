import Verif.Props.Exports
import Verif.Spec.Lookup
import Verif.Props.Insert
/-
Property C68: the built-in action `%track-peer-v1`.
-/
namespace WS.Props
open WS Spec

/-- Dropping the private data and the counts leaves the key. -/
theorem trackExports_key (P : PrivCfg) (aux : Event → Option Event) (o : RouteObj) (rule : Route) :
    (trackExports P aux o rule).flags = o.flags ∧ (trackExports P aux o rule).remote = o.view.remote ∧ (trackExports P aux o rule).loc = o.view.loc ∧
    (trackExports P aux o rule).family = o.family ∧ (trackExports P aux o rule).proto = o.proto ∧ (trackExports P aux o rule).priv = none ∧
    (trackExports P aux o rule).privSize = 0 ∧ (trackExports P aux o rule).info.purgeAfter = 0 ∧ (trackExports P aux o rule).info.connectionCount = 0 ∧
    (trackExports P aux o rule).info.derogatoryCount = 0 ∧ (trackExports P aux o rule).info.commendableCount = 0 :=
  ⟨rfl, rfl, rfl, rfl, rfl, rfl, rfl, rfl, rfl, rfl, rfl⟩

/-- The event of a tracked rule: the auxiliary event of the generating rule's event, else that event. -/
def trackedEvent (aux : Event → Option Event) (rule : Route) : Option Event := rule.event.map fun e => (aux e).getD e

theorem trackLabel_event (aux : Event → Option Event) (rule : Route) : trackLabel aux rule = (trackedEvent aux rule).map (·.label) := by
  unfold trackLabel trackedEvent
  cases rule.event with
  | none => rfl
  | some e =>
    cases h : aux e with
    | none => simp [h]
    | some x => simp [h]

theorem track_event {resolve : List Byte → Except Err Event} {aux : Event → Option Event} {rule : Route}
    (h : ∀ E, trackedEvent aux rule = some E → resolve E.label = .ok E) (P : PrivCfg) (o : RouteObj) :
    eventOf resolve (trackExports P aux o rule).label = .ok (trackedEvent aux rule) := by
  show eventOf resolve (trackLabel aux rule) = _
  rw [trackLabel_event]
  cases he : trackedEvent aux rule with
  | none => rfl
  | some E =>
    show (resolve E.label).map some = _
    rw [h E he]; rfl

theorem has_two (f : Flags) : f.has (RF.IN_TABLE ||| RF.PENDING_DELETE) = (f.getLsbD 14 || f.getLsbD 15) := by
  rw [has_mask_or, has_of_bit (m := RF.IN_TABLE) (k := 14) rfl (by omega), has_of_bit (m := RF.PENDING_DELETE) (k := 15) rfl (by omega)]

/-- C68: the tracking action, called for traffic no rule of the table has the key of, adds one rule: the
traffic's own key, the auxiliary event of the generating rule's event (or that event itself), counts zero,
expiring after the configured idle time if there is one.  The new rule matches that traffic; all other rules
stay.  The results gain INSERTED (bit 8) and nothing else. -/
theorem C68_tracks (X : TrackEnv) (b : Bool) (T : RouteTable) (hT : Reach (X.ins T).g b T) (target : RouteObj) (ho : SoundAddrs target) (hwz : WildZero target.view)
    (hnew : target.flags.getLsbD 14 = false ∧ target.flags.getLsbD 15 = false) (rule : Route) (a : Flags)
    (hres : ∀ E, trackedEvent X.aux rule = some E → (X.ins T).resolve E.label = .ok E)
    (t : Int) (id : Nat) (hN : Able (X.ins T) T target (trackedEvent X.aux rule) t id) :
    ∃ T' a' st, trackPeer X target rule T a = some (T', a') ∧ st.id = id ∧ st.event = trackedEvent X.aux rule ∧
      st.family = target.family ∧ st.proto = target.proto ∧ st.remote = target.view.remote ∧ st.loc = target.view.loc ∧
      RuleMatches CidrMatch st (AnyEvent target.view) ∧ DirectionOK st target.view ∧
      st.data.purgeAfter = (if 0 < (inForce (X.ins T).g st.event).routeIdleTimeForPurge then t + (inForce (X.ins T).g st.event).routeIdleTimeForPurge else 0) ∧
      ((∀ e, st.event = some e → e.insertActions = []) → a' = a ||| bit 8 ∧
        st.data = { insertTime := t, purgeAfter := st.data.purgeAfter } ∧ (∀ k, 18 ≤ k → k < 32 → st.flags.getLsbD k = target.flags.getLsbD k)) ∧
      (∀ y, y ∈ T'.ents ↔ y = st ∨ y ∈ T.ents) := by
  obtain ⟨res, st, h1, h2, h3, h4, h5, h6, h7, h8, h9, h10, h11, h12, h13, h14⟩ :=
    insert_like hT target ho hwz (trackExports (X.ins T).priv X.aux target rule) rfl rfl rfl rfl rfl (fun p hp => by cases hp)
      (track_event hres _ target) (Or.inl rfl) hN (Or.inl rfl)
  have hdir : ∀ k, k < 14 → st.flags.getLsbD k = target.flags.getLsbD k := by
    intro k hk
    rw [h11 k (by omega)]
    have : ¬ k = 14 := by omega
    simp [this]
  refine ⟨res.T, a ||| res.ares.getD X.junk, st, ?_, h5, h6, h7, h8, h9, h10, ?_, ?_, ?_, ?_, h14⟩
  · unfold trackPeer
    rw [has_two, hnew.1, hnew.2]
    simp only [Bool.or_self, Bool.false_eq_true, if_false]
    rw [h1]; rfl
  · constructor
    · exact Or.inl h7
    · right; rw [h9]; unfold CidrMatch; exact if_pos rfl ▸ rfl
    · exact Or.inl h8
    · left; rw [h10]; rfl
    · right; rw [h10]; unfold CidrMatch; exact if_pos rfl ▸ rfl
    · left; rw [h9]; rfl
    · left; rw [h9]; rfl
    · left; rw [h10]; rfl
    · right
      unfold wild AnyEvent
      simp
  · rcases ho.direction with h | h
    · exact Or.inl ⟨(hdir 10 (by omega)).trans h, h⟩
    · exact Or.inr ⟨(hdir 11 (by omega)).trans h, h⟩
  · rw [h12, h6]
    have : (trackExports (X.ins T).priv X.aux target rule).info.purgeAfter = 0 := rfl
    rw [this]
    simp
  · rw [h6]
    intro hq
    obtain ⟨k1, k2, k3⟩ := h13 hq
    refine ⟨by rw [k1]; rfl, k3, ?_⟩
    intro k hk hk'
    rw [k2 k hk']
    have a1 : ¬ k = 14 := by omega
    have a2 : ¬ k ≤ 17 := by omega
    simp [a1, a2]

/-- C68: called for a rule of the table (dispatch by ID or by rule), the action does nothing. -/
theorem C68_rule_as_target (X : TrackEnv) (target : RouteObj) (rule : Route) (T : RouteTable) (a : Flags)
    (h : target.flags.getLsbD 14 = true ∨ target.flags.getLsbD 15 = true) : trackPeer X target rule T a = some (T, a) := by
  unfold trackPeer
  rw [has_two, if_pos (by rcases h with h | h <;> rw [h] <;> simp)]

/-- C68: an insertion that fails for whatever reason — the key is there already, no memory, no clock — changes
nothing in the table, unless handlers of the new rule failed; with a queue of expiring rules that is full a
rule may be lost (C14), hence the last hypothesis. -/
theorem C68_failure_changes_nothing_partial (X : TrackEnv) (b : Bool) (T : RouteTable) (hT : Reach (X.ins T).g b T) (hA : (X.ins T).acts.Keeps) (target : RouteObj)
    (ho : SoundAddrs target) (rule : Route) (hid : FreshId T (X.ins T).newId)
    (hroom : T.maxPurgeableRoutes = 0 ∨ purgeableCount T.ents < T.maxPurgeableRoutes)
    (res : ExpRes) (hr : insertByExports (X.ins T) T (trackExports (X.ins T).priv X.aux target rule) = some res) (e : Err) (he : res.res = .error e)
    (hact : res.actionsFailed = false) (a : Flags) (T' : RouteTable) (a' : Flags) (h : trackPeer X target rule T a = some (T', a')) : T' = T := by
  unfold trackPeer at h
  split at h
  · cases h; rfl
  rw [hr] at h
  cases h
  show res.T = T
  unfold insertByExports at hr
  split at hr
  · cases hr; rfl
  split at hr
  · cases hr; rfl
  split at hr
  · cases hr; rfl
  rename_i o hn
  obtain ⟨i, hi, hri⟩ := Option.map_eq_some_iff.1 hr
  subst hri
  have hwf : o.view.WF := by
    unfold newByExports at hn
    split at hn
    · cases hn
    split at hn
    · cases hn
    split at hn
    · cases hn
    split at hn
    · cases hn
    split at hn
    · cases hn
    obtain ⟨_, _, _, _, harea⟩ := initByExports_view hn (fun p hp => by cases hp) ho.wf.1 ho.wf.2
    constructor
    · show (slice o.data o.off (bitsToBytes o.rbits)).length = bitsToBytes o.rbits
      exact slice_length (by omega)
    · show (slice o.data (o.off + bitsToBytes o.rbits) (bitsToBytes o.lbits)).length = bitsToBytes o.lbits
      exact slice_length (by omega)
  exact C14_failed_insert_unchanged_partial _ b _ hA T hT o.view hwf _ _ hid 0 i hi e he hact hroom

/-- C68, finding: when the lock cannot be had or the event is not found (say the auxiliary event was deleted),
the results are never written and the action adds whatever lay on the stack. -/
theorem C68_finding_uninitialised_results (X : TrackEnv) (target : RouteObj) (rule : Route) (T : RouteTable) (a : Flags)
    (hnew : target.flags.getLsbD 14 = false ∧ target.flags.getLsbD 15 = false)
    (h : (∃ e, (X.ins T).lock = .error e) ∨ ∃ E e, trackedEvent X.aux rule = some E ∧ (X.ins T).resolve E.label = .error e) :
    trackPeer X target rule T a = some (T, a ||| X.junk) := by
  have hi : ∃ res, insertByExports (X.ins T) T (trackExports (X.ins T).priv X.aux target rule) = some res ∧ res.T = T ∧ res.ares = none := by
    unfold insertByExports
    rcases h with ⟨e, h⟩ | ⟨E, e, h1, h2⟩
    · rw [h]; exact ⟨_, rfl, rfl, rfl⟩
    · have hl : (trackExports (X.ins T).priv X.aux target rule).label = some E.label := by
        show trackLabel X.aux rule = _
        rw [trackLabel_event, h1]; rfl
      have he : eventOf (X.ins T).resolve (trackExports (X.ins T).priv X.aux target rule).label = .error e := by
        rw [hl]; show ((X.ins T).resolve E.label).map some = _; rw [h2]; rfl
      split
      · exact ⟨_, rfl, rfl, rfl⟩
      · rw [he]; exact ⟨_, rfl, rfl, rfl⟩
  obtain ⟨res, h1, h2, h3⟩ := hi
  unfold trackPeer
  rw [has_two, hnew.1, hnew.2]
  simp only [Bool.or_self, Bool.false_eq_true, if_false]
  rw [h1]
  simp [h2, h3]

/-- C68: in every other case the results gain at most what the insertion reports, which starts from nothing. -/
theorem C68_results_written (X : TrackEnv) (target : RouteObj) (rule : Route) (T : RouteTable) (a : Flags) (T' : RouteTable) (a' : Flags)
    (hlock : (X.ins T).lock = .ok ()) (hres : ∀ E, trackedEvent X.aux rule = some E → (X.ins T).resolve E.label = .ok E)
    (h : trackPeer X target rule T a = some (T', a')) :
    ∀ junk, trackPeer { X with junk := junk } target rule T a = some (T', a') := by
  intro junk
  unfold trackPeer at h ⊢
  split at h
  · rename_i hc; rw [if_pos hc]; exact h
  rename_i hc
  rw [if_neg hc]
  obtain ⟨res, h1, h2⟩ := Option.map_eq_some_iff.1 h
  show (insertByExports (X.ins T) T (trackExports (X.ins T).priv X.aux target rule)).map _ = _
  rw [h1]
  have hs : ∃ r, res.ares = some r := by
    unfold insertByExports at h1
    rw [hlock] at h1
    simp only at h1
    rw [track_event hres] at h1
    simp only at h1
    split at h1
    · cases h1; exact ⟨_, rfl⟩
    · obtain ⟨i, _, hri⟩ := Option.map_eq_some_iff.1 h1
      subst hri; exact ⟨_, rfl⟩
  obtain ⟨r, hr⟩ := hs
  rw [← h2]
  simp [hr]

/-- C68, finding: traffic reported as derogatory (bit 4) that makes the action insert a rule is counted
nowhere: the new rule starts at zero, and INSERTED keeps the dispatch from charging the generating rule. -/
theorem C68_finding_first_offence_uncounted (X : TrackEnv) (b : Bool) (T : RouteTable) (hT : Reach (X.ins T).g b T) (target : RouteObj) (ho : SoundAddrs target)
    (hwz : WildZero target.view) (hnew : target.flags.getLsbD 14 = false ∧ target.flags.getLsbD 15 = false) (rule : Route) (a : Flags)
    (hres : ∀ E, trackedEvent X.aux rule = some E → (X.ins T).resolve E.label = .ok E)
    (t : Int) (id : Nat) (hN : Able (X.ins T) T target (trackedEvent X.aux rule) t id)
    (hq : ∀ e, trackedEvent X.aux rule = some e → e.insertActions = []) (_ : a.getLsbD 4 = true) :
    ∃ T' a' st, trackPeer X target rule T a = some (T', a') ∧ (∀ y, y ∈ T'.ents ↔ y = st ∨ y ∈ T.ents) ∧ st.data.derogatoryCount = 0 ∧ ¬ Charged a' ∧
      ∀ c r, derogatoryNow c r a' = r.data.derogatoryCount := by
  obtain ⟨T', a', st, h1, _, h3, _, _, _, _, _, _, _, h11, h12⟩ := C68_tracks X b T hT target ho hwz hnew rule a hres t id hN
  obtain ⟨k1, k2, _⟩ := h11 (by rw [h3]; exact hq)
  have hc : ¬ Charged a' := by
    intro hc
    have := hc.1
    rw [k1, getLsbD_or_bit _ _ _ (by omega)] at this
    simp at this
  exact ⟨T', a', st, h1, h12, by rw [k2], hc, fun c r => by unfold derogatoryNow; rw [if_pos hc]⟩

/-! ### The hypotheses can be met -/

/-- Traffic of TCP from 1.2.3.4:5 to 5.6.7.8:80. -/
def objTcp : RouteObj :=
  { flags := bit 10, family := 2, proto := 6, rport := 5, rbits := 32, lport := 80, lbits := 32, data := [1, 2, 3, 4, 5, 6, 7, 8] }

def evWatch : Event := { label := [119] }
def evTrack : Event := { label := [116], config := some { routeIdleTimeForPurge := 100 } }

def envTrack : TrackEnv :=
  { ins := fun _ => { resolve := fun l => if l = [116] then .ok evTrack else .error .itemNotFound, now := .ok 5, newId := .ok 7 },
    aux := fun e => if e = evWatch then some evTrack else none }

theorem objTcp_sound : SoundAddrs objTcp := by
  refine ⟨by decide, by decide, by decide, by decide, by decide, by unfold Sensical; decide, ?_, ?_⟩ <;> unfold Tidy <;> decide

theorem objTcp_wild : WildZero objTcp.view := by
  constructor <;> intro h <;> revert h <;> decide

theorem objTcp_able (T : RouteTable) (hid : ∀ r ∈ T.ents, r.id ≠ 7) (hq : T.maxPurgeableRoutes = 0) (hk : ∀ r ∈ T.ents, r.loc.port ≠ 80) :
    Able (envTrack.ins T) T objTcp (some evTrack) 5 7 where
  lock := rfl
  keeps := keeps_default
  never := neverFails_default
  clock := rfl
  newId := rfl
  fresh := by intro i hi; cases hi; exact ⟨by decide, hid⟩
  size := Nat.zero_le _
  mem := ⟨_, rfl, by simp⟩
  settings := by intro k _; constructor <;> intro h <;> exfalso <;> revert h <;> simp [inForce, evTrack]
  queue := Or.inl hq
  masks := fun h => absurd h (by unfold UsesBitmask; decide)
  newKey := fun y hy hs => hk y hy hs.localPort

/-- The first packet leaves a rule that expires in 100 µs. -/
example : ∃ T' a', trackPeer envTrack objTcp { event := some evWatch } {} 0 = some (T', a') ∧ a' = bit 8 ∧
    ∃ st ∈ T'.ents, st.event = some evTrack ∧ st.remote.addr = [1, 2, 3, 4] ∧ st.data.purgeAfter = 105 := by
  obtain ⟨T', a', st, h1, _, h3, _, _, h6, _, _, _, h10, h11, h12⟩ := C68_tracks envTrack false {} (Reach.init 0 0 none none 0) objTcp objTcp_sound objTcp_wild
    ⟨rfl, rfl⟩ { event := some evWatch } 0 (by intro E hE; cases hE; rfl) 5 7
    (objTcp_able {} (by intro r hr; cases hr) rfl (by intro r hr; cases hr))
  refine ⟨T', a', h1, ?_, st, (h12 st).2 (Or.inl rfl), h3, by rw [h6]; decide, by rw [h10, h3]; decide⟩
  have := (h11 (by rw [h3]; intro e he; cases he; rfl)).1
  rw [this]; decide

/-- With the auxiliary event gone, ACCEPT (bit 0) can come from nowhere. -/
example : trackPeer { envTrack with ins := fun _ => { now := .ok 5, newId := .ok 7 }, junk := bit 0 } objTcp { event := some evWatch } {} 0 = some ({}, bit 0) := by
  rw [C68_finding_uninitialised_results _ _ _ _ _ ⟨rfl, rfl⟩ (Or.inr ⟨evTrack, .itemNotFound, rfl, rfl⟩)]
  rfl

/-- A rule re-created from its export. -/
example : ∃ res st, insertByExports { now := .ok 5, newId := .ok 7 } {} (routeExport {} objTcp) = some res ∧ res.res = .ok .inserted ∧ st ∈ res.T.ents ∧ SameKey objTcp.view st := by
  obtain ⟨res, st, h1, h2, _, _, h5, _, _, _, h9⟩ := C67_reinserted {} { now := .ok 5, newId := .ok 7 } false {} (Reach.init 0 0 none none 0) objTcp
    ⟨objTcp_sound, by decide⟩ objTcp_wild none (fun _ => rfl) (fun e he => by cases he) (Or.inl rfl) 5 7
    { lock := rfl, keeps := keeps_default, never := neverFails_default, clock := rfl, newId := rfl, fresh := by intro i hi; cases hi; exact ⟨by decide, by intro r hr; cases hr⟩,
      size := Nat.zero_le _, mem := ⟨_, rfl, by simp⟩, settings := by intro k _; constructor <;> intro h <;> exfalso <;> revert h <;> simp [inForce],
      queue := Or.inl rfl, masks := by intro h; revert h; unfold UsesBitmask; decide, newKey := fun y hy => by cases hy } (Or.inl rfl)
  exact ⟨res, st, h1, h2, (h9 st).2 (Or.inl rfl), h5⟩

end WS.Props
