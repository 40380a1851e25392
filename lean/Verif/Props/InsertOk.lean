import Verif.Spec.Exports
import Verif.Props.Insert
import Verif.Props.RouteInit
/-
Property C14, the other direction: an insertion that nothing speaks against succeeds, and adds exactly
the rule asked for.
-/
namespace WS.Props
open WS Spec

theorem configOf_inForce (g : EventConfig) (ev : Option Event) : configOf g ev = inForce g ev := by
  unfold configOf inForce
  cases ev with
  | none => rfl
  | some e => cases h : e.config <;> simp [h]

theorem map_zero_replicate (l : List Byte) : l.map (fun _ => 0#8) = List.replicate l.length 0 := by
  induction l with
  | nil => rfl
  | cons _ _ ih => rw [List.map_cons, ih]; rfl

theorem wf_of_stored {g : EventConfig} {t : Int} {a : Flags} {r0 r : Route} (h : StoredAs g t a r0 r) (hwf : r0.WF) : r.WF := by
  have hb : ∀ (b : Bool) (l : List Byte), (blanked b l).length = l.length := by
    intro b l; unfold blanked; cases b <;> simp
  constructor
  · unfold Endpoint.WF; rw [h.remoteAddr, h.remoteBits, hb]; exact hwf.1
  · unfold Endpoint.WF; rw [h.localAddr, h.localBits, hb]; exact hwf.2

/-- The rule prepared for insertion, once it enters the table, is the one the specification asks for. -/
theorem prepared_stored {g : EventConfig} {t : Int} {r0 r : Route} {a : Flags} (h : insertPrepare g t r0 a = .ok r) (id : Nat) :
    StoredAs g t a r0 (enterTable r id) := by
  unfold insertPrepare at h
  simp only at h
  split at h
  · cases h
  split at h
  · cases h
  split at h
  · cases h
  cases h
  have hf : ∀ k, k < 32 → k ≠ 14 → ((r0.flags &&& ~~~(configOf g r0.event).routeFlagsToClear ||| (configOf g r0.event).routeFlagsToAdd) ||| RF.IN_TABLE).getLsbD k =
      (r0.flags &&& ~~~(configOf g r0.event).routeFlagsToClear ||| (configOf g r0.event).routeFlagsToAdd).getLsbD k := by
    intro k hk hne
    rw [BitVec.getLsbD_or]
    have : RF.IN_TABLE.getLsbD k = false := by
      simp only [RF.IN_TABLE, bit, BitVec.getLsbD_twoPow]
      have : ¬ 14 = k := by omega
      simp [this]
    rw [this, Bool.or_false]
  generalize hfl : (r0.flags &&& ~~~(configOf g r0.event).routeFlagsToClear ||| (configOf g r0.event).routeFlagsToAdd) = f at *
  have hb : ∀ k, k < 32 → k ≠ 14 → (f ||| RF.IN_TABLE).getLsbD k = f.has (bit k) := by
    intro k hk hne; rw [hf k hk hne, Flags.has_bit _ _ hk]
  have ha : ∀ k, k < 32 → a.has (bit k) = a.getLsbD k := fun k hk => Flags.has_bit _ _ hk
  constructor
  · rfl
  · intro k hk
    show (f ||| RF.IN_TABLE).getLsbD k = _
    by_cases h14 : k = 14
    · subst h14
      rw [BitVec.getLsbD_or]
      have : RF.IN_TABLE.getLsbD 14 = true := by decide
      rw [this]; simp
    · rw [hf k hk h14, ← hfl, BitVec.getLsbD_or, BitVec.getLsbD_and, BitVec.getLsbD_not, configOf_inForce]
      simp [h14, hk]
  · show (if f.has RF.SA_FAMILY_WILDCARD then 0 else r0.family) = if (f ||| RF.IN_TABLE).getLsbD 0 then 0 else r0.family
    rw [hb 0 (by omega) (by omega)]; rfl
  · show (if f.has RF.SA_REMOTE_ADDR_WILDCARD then r0.remote.addr.map (fun _ => 0#8) else r0.remote.addr) = blanked ((f ||| RF.IN_TABLE).getLsbD 1) r0.remote.addr
    rw [hb 1 (by omega) (by omega), map_zero_replicate]; rfl
  · show (if f.has RF.SA_PROTO_WILDCARD then 0 else r0.proto) = if (f ||| RF.IN_TABLE).getLsbD 2 then 0 else r0.proto
    rw [hb 2 (by omega) (by omega)]; rfl
  · show (if f.has RF.SA_LOCAL_PORT_WILDCARD then 0 else r0.loc.port) = if (f ||| RF.IN_TABLE).getLsbD 3 then 0 else r0.loc.port
    rw [hb 3 (by omega) (by omega)]; rfl
  · show (if f.has RF.SA_LOCAL_ADDR_WILDCARD then r0.loc.addr.map (fun _ => 0#8) else r0.loc.addr) = blanked ((f ||| RF.IN_TABLE).getLsbD 4) r0.loc.addr
    rw [hb 4 (by omega) (by omega), map_zero_replicate]; rfl
  · show (if f.has RF.SA_REMOTE_PORT_WILDCARD then 0 else r0.remote.port) = if (f ||| RF.IN_TABLE).getLsbD 5 then 0 else r0.remote.port
    rw [hb 5 (by omega) (by omega)]; rfl
  · show (if f.has RF.REMOTE_INTERFACE_WILDCARD then 0 else r0.remote.iface) = if (f ||| RF.IN_TABLE).getLsbD 6 then 0 else r0.remote.iface
    rw [hb 6 (by omega) (by omega)]; rfl
  · show (if f.has RF.LOCAL_INTERFACE_WILDCARD then 0 else r0.loc.iface) = if (f ||| RF.IN_TABLE).getLsbD 7 then 0 else r0.loc.iface
    rw [hb 7 (by omega) (by omega)]; rfl
  · rfl
  · rfl
  · rfl
  · rfl
  · rfl
  · rfl
  · show (if (configOf g r0.event).routeIdleTimeForPurge > 0 ∧ r0.data.purgeAfter = 0 then t + (configOf g r0.event).routeIdleTimeForPurge else r0.data.purgeAfter) = _
    rw [configOf_inForce]
  · show (if a.has AR.DEROGATORY then (r0.data.derogatoryCount + 1) % 65536 else r0.data.derogatoryCount) = _
    rw [show a.has AR.DEROGATORY = a.getLsbD 4 from ha 4 (by omega)]; rfl
  · show (if a.has AR.COMMENDABLE then (r0.data.commendableCount + 1) % 65536 else r0.data.commendableCount) = _
    rw [show a.has AR.COMMENDABLE = a.getLsbD 5 from ha 5 (by omega)]; rfl
  · show (if a.has AR.CONNECT ∧ f.has RF.DONT_COUNT_CURRENT_CONNECTIONS = false then (r0.data.connectionCount + 1) % 65536 else r0.data.connectionCount) =
      Bumped r0.data.connectionCount (a.getLsbD 2 && !(f ||| RF.IN_TABLE).getLsbD 23)
    rw [show a.has AR.CONNECT = a.getLsbD 2 from ha 2 (by omega), hb 23 (by omega) (by omega)]
    show _ = Bumped r0.data.connectionCount (a.getLsbD 2 && !f.has RF.DONT_COUNT_CURRENT_CONNECTIONS)
    unfold Bumped
    cases a.getLsbD 2 <;> cases f.has RF.DONT_COUNT_CURRENT_CONNECTIONS <;> simp

/-- Handlers that never fail. -/
def NeverFails (A : RuleActs) : Prop := ∀ ty i r a, (A.handler ty i r a).2.2 = none

theorem runActions_never {A : RuleActs} (h : NeverFails A) (ty : ActionType) (l : List Nat) (s : Route) (a : Flags) :
    (runActions A.env ty l s a).err = none := by
  induction l generalizing s a with
  | nil => rfl
  | cons i rest ih =>
    unfold runActions
    split
    · exact ih s a
    · have he : (A.env.handler ty i (A.env.enter s i) a).2.2 = none := h ty i (A.env.enter s i) a
      generalize A.env.handler ty i (A.env.enter s i) a = x at he
      obtain ⟨x1, x2, x3⟩ := x
      simp only at he
      subst he
      simp only
      by_cases hst : Flags.hasAll x2 AR.STOP = true
      · rw [if_pos hst]
      · rw [if_neg hst]; exact ih _ _

theorem insertActions_never {A : RuleActs} (h : NeverFails A) (g : EventConfig) (r : Route) (a : Flags) (h16 : r.flags.getLsbD 16 = false)
    (hs : a.getLsbD 6 = false) : (insertActions g A r a).err = none := by
  unfold insertActions
  cases r.event with
  | none => rfl
  | some e =>
    simp only
    split
    · unfold listDispatch
      rw [if_neg (by rw [show a.has AR.STOP = a.getLsbD 6 from Flags.has_bit _ _ (by decide), hs]; simp)]
      simp only
      have : (A.env.rule r).flags.hasAll RF.INSERT_ACTIONS_CALLED = false := by
        show Flags.hasAll r.flags (bit 16) = false
        unfold Flags.hasAll bit
        rw [BitVec.and_twoPow, h16]
        decide
      rw [if_neg (by rw [this]; simp)]
      split
      · rfl
      · exact runActions_never h _ _ _ _
    · rfl

theorem upref_room {af : Nat} {l : List (Nat × Nat)} (hl : l.length < 4) (hr : ∀ p ∈ l, p.2 < 65535) : ∃ l', upref af l = .ok l' := by
  have hs : ∀ l : List (Nat × Nat), (∀ p ∈ l, p.2 < 65535) → uprefScan af l = none ∨ ∃ l', uprefScan af l = some (.ok l') := by
    intro l
    induction l with
    | nil => intro _; exact Or.inl rfl
    | cons p rest ih =>
      intro h
      obtain ⟨x, n⟩ := p
      unfold uprefScan
      by_cases hx : x = af
      · rw [if_pos hx]
        have := h (x, n) (by simp)
        rw [if_neg (by simp at this; omega)]
        exact Or.inr ⟨_, rfl⟩
      · rw [if_neg hx]
        rcases ih (fun p hp => h p (List.mem_cons_of_mem _ hp)) with e | ⟨l', e⟩
        · rw [e]; exact Or.inl rfl
        · rw [e]; exact Or.inr ⟨_, rfl⟩
  unfold upref
  rcases hs l hr with e | ⟨l', e⟩
  · rw [e]; simp only
    rw [if_neg (by unfold maxBitmaskAfs; omega)]
    exact ⟨_, rfl⟩
  · rw [e]; exact ⟨l', rfl⟩

/-- Everything an insertion needs besides a rule: the purge queue has room if the rule will expire, and a
rule with a masked address finds room among the masked families. -/
structure Room (T : RouteTable) (r : Route) : Prop where
  queue : r.data.purgeAfter = 0 ∨ T.maxPurgeableRoutes = 0 ∨ purgeableCount T.ents < T.maxPurgeableRoutes
  masks : UsesBitmask r → T.bitmaskAfs.length < 4 ∧ ∀ p ∈ T.bitmaskAfs, p.2 < 65535

theorem endpoint_ext {a b : Endpoint} (h1 : a.port = b.port) (h2 : a.bits = b.bits) (h3 : a.iface = b.iface) (h4 : a.addr = b.addr) : a = b := by
  cases a; cases b; simp_all

theorem meta_ext {a b : RouteMeta} (h1 : a.insertTime = b.insertTime) (h2 : a.lastHitTime = b.lastHitTime) (h3 : a.lastPenaltyboxTime = b.lastPenaltyboxTime)
    (h4 : a.purgeAfter = b.purgeAfter) (h5 : a.connectionCount = b.connectionCount) (h6 : a.derogatoryCount = b.derogatoryCount)
    (h7 : a.commendableCount = b.commendableCount) (h8 : a.hitcount = b.hitcount) : a = b := by
  cases a; cases b; simp_all

theorem route_ext {a b : Route} (h1 : a.id = b.id) (h2 : a.event = b.event) (h3 : a.flags = b.flags) (h4 : a.family = b.family)
    (h5 : a.proto = b.proto) (h6 : a.remote = b.remote) (h7 : a.loc = b.loc) (h8 : a.data = b.data) : a = b := by
  cases a; cases b; simp_all

/-- The specification says everything about the stored rule but its ID. -/
theorem stored_unique {g : EventConfig} {t : Int} {a : Flags} {r0 r r' : Route} (h : StoredAs g t a r0 r) (h' : StoredAs g t a r0 r') (hid : r.id = r'.id) :
    r = r' := by
  have hf : r.flags = r'.flags := BitVec.eq_of_getLsbD_eq (fun k hk => (h.flags k hk).trans (h'.flags k hk).symm)
  refine route_ext hid (h.event.trans h'.event.symm) hf ?_ ?_ (endpoint_ext ?_ (h.remoteBits.trans h'.remoteBits.symm) ?_ ?_)
    (endpoint_ext ?_ (h.localBits.trans h'.localBits.symm) ?_ ?_)
    (meta_ext (h.insertTime.trans h'.insertTime.symm) (h.lastHit.trans h'.lastHit.symm) (h.lastBoxed.trans h'.lastBoxed.symm)
      (h.expiry.trans h'.expiry.symm) ?_ (h.derogatory.trans h'.derogatory.symm) (h.commendable.trans h'.commendable.symm) (h.hits.trans h'.hits.symm))
  · rw [h.family, h'.family, hf]
  · rw [h.proto, h'.proto, hf]
  · rw [h.remotePort, h'.remotePort, hf]
  · rw [h.remoteIface, h'.remoteIface, hf]
  · rw [h.remoteAddr, h'.remoteAddr, hf]
  · rw [h.localPort, h'.localPort, hf]
  · rw [h.localIface, h'.localIface, hf]
  · rw [h.localAddr, h'.localAddr, hf]
  · rw [h.connections, h'.connections, hf]

/-- The flags before the mark. -/
theorem prepared_of_stored {g : EventConfig} {t : Int} {a : Flags} {r0 r : Route} (hr : StoredAs g t a r0 r) (hsens : Sensical r.flags)
    (h14 : r0.flags.getLsbD 14 = false) (hadd14 : (inForce g r0.event).routeFlagsToAdd.getLsbD 14 = false)
    (hexp : r0.data.purgeAfter = 0 ∨ t < r0.data.purgeAfter) : ∃ r1, insertPrepare g t r0 a = .ok r1 ∧ r = enterTable r1 r.id := by
  have hok : ∃ r1, insertPrepare g t r0 a = .ok r1 := by
    unfold insertPrepare
    simp only
    have hfb : ∀ k, k < 32 → k ≠ 14 → (r0.flags &&& ~~~(configOf g r0.event).routeFlagsToClear ||| (configOf g r0.event).routeFlagsToAdd).getLsbD k = r.flags.getLsbD k := by
      intro k hk hne
      rw [hr.flags k hk, BitVec.getLsbD_or, BitVec.getLsbD_and, BitVec.getLsbD_not, configOf_inForce]
      simp [hne, hk]
    have hs : flagsSensical (r0.flags &&& ~~~(configOf g r0.event).routeFlagsToClear ||| (configOf g r0.event).routeFlagsToAdd) = true := by
      rw [flagsSensical_iff]
      unfold Sensical at *
      rw [hfb 0 (by omega) (by omega), hfb 1 (by omega) (by omega), hfb 2 (by omega) (by omega), hfb 3 (by omega) (by omega),
        hfb 4 (by omega) (by omega), hfb 5 (by omega) (by omega)]
      exact hsens
    rw [if_neg (by rw [hs]; simp), if_neg, if_neg (by omega)]
    · exact ⟨_, rfl⟩
    · have hb : (r0.flags &&& ~~~(configOf g r0.event).routeFlagsToClear ||| (configOf g r0.event).routeFlagsToAdd).getLsbD 14 = false := by
        rw [BitVec.getLsbD_or, BitVec.getLsbD_and, h14, configOf_inForce, hadd14]; rfl
      unfold Flags.hasAll RF.IN_TABLE bit
      rw [BitVec.and_twoPow, hb]
      decide
  obtain ⟨r1, h1⟩ := hok
  exact ⟨r1, h1, stored_unique hr (prepared_stored h1 r.id) rfl⟩

/-- The first part of an insertion that nothing speaks against. -/
theorem prepare_succeeds {g : EventConfig} {t : Int} {a : Flags} {r0 : Route}
    (hsens : Sensical (r0.flags &&& ~~~(inForce g r0.event).routeFlagsToClear ||| (inForce g r0.event).routeFlagsToAdd))
    (h14 : r0.flags.getLsbD 14 = false) (hadd14 : (inForce g r0.event).routeFlagsToAdd.getLsbD 14 = false)
    (hexp : r0.data.purgeAfter = 0 ∨ t < r0.data.purgeAfter) : ∃ r1, insertPrepare g t r0 a = .ok r1 := by
  unfold insertPrepare
  simp only
  rw [configOf_inForce]
  rw [if_neg (by rw [(flagsSensical_iff _).2 hsens]; simp), if_neg, if_neg (by omega)]
  · exact ⟨_, rfl⟩
  · have hb : (r0.flags &&& ~~~(inForce g r0.event).routeFlagsToClear ||| (inForce g r0.event).routeFlagsToAdd).getLsbD 14 = false := by
      rw [BitVec.getLsbD_or, BitVec.getLsbD_and, h14, hadd14]; rfl
    unfold Flags.hasAll RF.IN_TABLE bit
    rw [BitVec.and_twoPow, hb]
    decide

/-- The last part of an insertion that nothing speaks against. -/
theorem commit_succeeds {g : EventConfig} {A : RuleActs} (hA : A.Keeps) (hnf : NeverFails A) {T : RouteTable} (hT : SortedTable T.ents)
    {r1 : Route} (hwf : r1.WF) {id : Nat} (hid : FreshId T (.ok id)) {a : Flags} (hstop : a.getLsbD 6 = false)
    (h16 : r1.flags.getLsbD 16 = false) (hnew : NewKey T (enterTable r1 id))
    (hmask : UsesBitmask r1 → T.bitmaskAfs.length < 4 ∧ ∀ p ∈ T.bitmaskAfs, p.2 < 65535) :
    ∃ st, (insertCommit g A T r1 (.ok id) a).res = .ok .inserted ∧ (insertCommit g A T r1 (.ok id) a).actionsFailed = false ∧
      KeepsKey (enterTable r1 id) st ∧ (insertCommit g A T r1 (.ok id) a).rule = st ∧
      ((∀ e, r1.event = some e → e.insertActions = []) → st = enterTable r1 id ∧ (insertCommit g A T r1 (.ok id) a).ares = a ||| bit 8) ∧
      (∀ y, y ∈ (insertCommit g A T r1 (.ok id) a).T.ents ↔ y = st ∨ y ∈ T.ents) := by
  have hrw : (enterTable r1 id).WF := hwf
  cases hsp : routeSplice (enterTable r1 id) T.ents with
  | none =>
    obtain ⟨x, hx, hc⟩ := (routeSplice_none hT hrw).1 hsp
    exact absurd ((C01_eq_iff x _ (hT.wf x hx) hrw).1 hc) (hnew x hx)
  | some ents =>
    have haf : ∃ afs, insertAfs T (enterTable r1 id) = .ok afs := by
      unfold insertAfs
      split
      · rename_i hb
        have hu : UsesBitmask r1 := by
          have hb' : (r1.flags ||| RF.IN_TABLE).has (RF.REMOTE_ADDR_BITMASK ||| RF.LOCAL_ADDR_BITMASK) = true := hb
          rw [has_or, has_rmask, has_lmask, BitVec.getLsbD_or, BitVec.getLsbD_or] at hb'
          have e1 : RF.IN_TABLE.getLsbD 12 = false := by decide
          have e2 : RF.IN_TABLE.getLsbD 13 = false := by decide
          rw [e1, e2, Bool.or_false, Bool.or_false, Bool.or_eq_true] at hb'
          exact hb'
        exact upref_room (hmask hu).1 (hmask hu).2
      · exact ⟨_, rfl⟩
    obtain ⟨afs, haf⟩ := haf
    have hk := insertActions_keeps hA g (enterTable r1 id) (a ||| AR.INSERTED)
    have h16' : (enterTable r1 id).flags.getLsbD 16 = false := by
      show (r1.flags ||| RF.IN_TABLE).getLsbD 16 = false
      rw [BitVec.getLsbD_or, h16]; decide
    have hst' : (a ||| AR.INSERTED).getLsbD 6 = false := by
      rw [BitVec.getLsbD_or, hstop]; decide
    have herr := insertActions_never hnf g (enterTable r1 id) (a ||| AR.INSERTED) h16' hst'
    have hquiet : (∀ e, r1.event = some e → e.insertActions = []) →
        (insertActions g A (enterTable r1 id) (a ||| AR.INSERTED)).st = enterTable r1 id ∧
        (insertActions g A (enterTable r1 id) (a ||| AR.INSERTED)).ares = a ||| AR.INSERTED := by
      intro hq
      unfold insertActions
      cases he : (enterTable r1 id).event with
      | none => exact ⟨rfl, rfl⟩
      | some e =>
        have := hq e he
        simp only [this, List.length_nil]
        exact ⟨rfl, rfl⟩
    generalize hact : insertActions g A (enterTable r1 id) (a ||| AR.INSERTED) = x at hk herr hquiet
    obtain ⟨called, st, ares', err⟩ := x
    simp only at hk herr hquiet
    subst herr
    have hup := routeSplice_update hk.core hrw hT.wf (fun y hy => (hid id rfl).2 y hy)
    rw [hsp] at hup
    simp only [Option.map_some] at hup
    have hcom : insertCommit g A T r1 (.ok id) a =
        { T := insertedTable T (ents.map (fun y => if y.id = st.id then st else y)) afs st, rule := st, ares := ares', res := .ok .inserted, called := called } := by
      unfold insertCommit
      simp only [hsp, haf, hact]
      rfl
    rw [hcom]
    refine ⟨st, rfl, rfl, hk, rfl, hquiet, fun y => ?_⟩
    rw [(insertedTable_ents _ _ _ _).1]
    exact ((routeSplice_perm hup.symm).mem_iff).trans List.mem_cons

theorem stored_of_commit_flags {r r1 : Route} (hr : r = enterTable r1 r.id) :
    (∀ k, k ≠ 14 → r.flags.getLsbD k = r1.flags.getLsbD k) ∧ r.data = r1.data ∧ r.event = r1.event := by
  rw [hr]
  refine ⟨fun k hk => ?_, rfl, rfl⟩
  show (r1.flags ||| RF.IN_TABLE).getLsbD k = _
  rw [BitVec.getLsbD_or]
  have : RF.IN_TABLE.getLsbD k = false := by
    simp only [RF.IN_TABLE, bit, BitVec.getLsbD_twoPow]
    have : ¬ 14 = k := fun h => hk h.symm
    simp [this]
  rw [this, Bool.or_false]

theorem insert_succeeds (g : EventConfig) (A : RuleActs) (hA : A.Keeps) (hnf : NeverFails A) (T : RouteTable) (hI : TableInv T)
    (r0 : Route) (hwf : r0.WF) (t : Int) (a : Flags) (hstop : a.getLsbD 6 = false) (r : Route) (hid : FreshId T (.ok r.id))
    (hr : StoredAs g t a r0 r) (hsens : Sensical r.flags) (h14 : r0.flags.getLsbD 14 = false)
    (hadd14 : (inForce g r0.event).routeFlagsToAdd.getLsbD 14 = false) (h16 : r.flags.getLsbD 16 = false)
    (hexp : r0.data.purgeAfter = 0 ∨ t < r0.data.purgeAfter) (hnew : NewKey T r) (hroom : Room T r) :
    ∃ res st, insert1 g A T r0 (.ok t) (.ok r.id) a = some res ∧ res.res = .ok .inserted ∧ res.actionsFailed = false ∧ KeepsKey r st ∧
      res.rule = st ∧ ((∀ e, r0.event = some e → e.insertActions = []) → st = r ∧ res.ares = a ||| bit 8) ∧
      (∀ y, y ∈ res.T.ents ↔ y = st ∨ y ∈ T.ents) := by
  obtain ⟨r1, hp, he⟩ := prepared_of_stored hr hsens h14 hadd14 hexp
  obtain ⟨hfl, hda, hev⟩ := stored_of_commit_flags he
  have hwf1 : r1.WF := (insertPrepare_ok hp hwf).1
  have hevict : insertEvict g A t T r1 = some (T, .ok ()) := by
    rcases insertEvict_cases (g := g) (A := A) (now := t) hI r1 with ⟨_, h⟩ | ⟨⟨h1, h2, h3⟩, _⟩
    · exact h
    · exfalso
      rw [purgeList_length hI] at h3
      rcases hroom.queue with h | h | h
      · rw [hda] at h; exact h1 h
      · omega
      · omega
  have hnew' : NewKey T (enterTable r1 r.id) := by rw [← he]; exact hnew
  have hmask : UsesBitmask r1 → T.bitmaskAfs.length < 4 ∧ ∀ p ∈ T.bitmaskAfs, p.2 < 65535 := by
    intro hu
    apply hroom.masks
    unfold UsesBitmask at *
    rw [hfl 12 (by omega), hfl 13 (by omega)]; exact hu
  obtain ⟨st, c1, c2, c3, c4, c5, c6⟩ := commit_succeeds (g := g) hA hnf hI.core.sorted hwf1 hid hstop (by rw [← hfl 16 (by omega)]; exact h16) hnew' hmask
  have hi : insert1 g A T r0 (.ok t) (.ok r.id) a = some (insertCommit g A T r1 (.ok r.id) a) := by
    unfold insert1
    simp only [hp, hevict]
  rw [← he] at c3 c5
  refine ⟨_, st, hi, c1, c2, c3, c4, fun hq => c5 (fun e h => hq e ?_), c6⟩
  rw [← hr.event, hev]; exact h

/-- C14: an insertion succeeds whenever the flags it leaves are consistent and not already marked, the
given expiry is absent or in the future, no rule of the table has the same key, there is room, and no insert
action fails.  The table then holds what it held and the rule asked for; with insert actions, as they left
it (they may not change its key). -/
theorem C14_insert_succeeds (g : EventConfig) (b : Bool) (A : RuleActs) (hA : A.Keeps) (hnf : NeverFails A) (T : RouteTable) (hT : Reach g b T)
    (r0 : Route) (hwf : r0.WF) (t : Int) (a : Flags) (hstop : a.getLsbD 6 = false) (r : Route) (hid : FreshId T (.ok r.id))
    (hr : StoredAs g t a r0 r) (hsens : Sensical r.flags) (h14 : r0.flags.getLsbD 14 = false)
    (hadd14 : (inForce g r0.event).routeFlagsToAdd.getLsbD 14 = false) (h16 : r.flags.getLsbD 16 = false)
    (hexp : r0.data.purgeAfter = 0 ∨ t < r0.data.purgeAfter) (hnew : NewKey T r) (hroom : Room T r) :
    ∃ res st, insert1 g A T r0 (.ok t) (.ok r.id) a = some res ∧ res.res = .ok .inserted ∧ res.actionsFailed = false ∧ KeepsKey r st ∧
      res.rule = st ∧ ((∀ e, r0.event = some e → e.insertActions = []) → st = r ∧ res.ares = a ||| bit 8) ∧
      (∀ y, y ∈ res.T.ents ↔ y = st ∨ y ∈ T.ents) :=
  insert_succeeds g A hA hnf T hT.inv.1 r0 hwf t a hstop r hid hr hsens h14 hadd14 h16 hexp hnew hroom

/-- C17: when the queue of expiring rules is full, the insertion of an expiring rule succeeds all the same:
one expiring rule makes room, and — in tables whose queue no hit has disordered (C16) — it is one that
expires first.  Everything else is as in `C14_insert_succeeds`. -/
theorem C17_insert_evicts (g : EventConfig) (b : Bool) (A : RuleActs) (hA : A.Keeps) (hnf : NeverFails A) (T : RouteTable) (hT : Reach g b T)
    (r0 : Route) (hwf : r0.WF) (t : Int) (a : Flags) (hstop : a.getLsbD 6 = false) (r : Route) (hid : FreshId T (.ok r.id))
    (hr : StoredAs g t a r0 r) (hsens : Sensical r.flags) (h14 : r0.flags.getLsbD 14 = false)
    (hadd14 : (inForce g r0.event).routeFlagsToAdd.getLsbD 14 = false) (h16 : r.flags.getLsbD 16 = false)
    (hexp : r0.data.purgeAfter = 0 ∨ t < r0.data.purgeAfter) (hnew : NewKey T r) (hmask : ¬ UsesBitmask r)
    (hpur : Purgeable r) (hfull : 0 < T.maxPurgeableRoutes ∧ T.maxPurgeableRoutes ≤ purgeableCount T.ents) :
    ∃ res st v, insert1 g A T r0 (.ok t) (.ok r.id) a = some res ∧ res.res = .ok .inserted ∧ res.actionsFailed = false ∧ KeepsKey r st ∧
      res.rule = st ∧ ((∀ e, r0.event = some e → e.insertActions = []) → st = r ∧ res.ares = a ||| bit 8) ∧
      v ∈ T.ents ∧ Purgeable v ∧ (b = false → ∀ x ∈ T.ents, Purgeable x → v.data.purgeAfter ≤ x.data.purgeAfter) ∧
      (∀ y, y ∈ res.T.ents ↔ y = st ∨ (y ∈ T.ents ∧ y ≠ v)) := by
  obtain ⟨r1, hp, he⟩ := prepared_of_stored hr hsens h14 hadd14 hexp
  obtain ⟨hfl, hda, hev⟩ := stored_of_commit_flags he
  have hI := hT.inv.1
  have hwf1 : r1.WF := (insertPrepare_ok hp hwf).1
  rcases insertEvict_cases (g := g) (A := A) (now := t) hI r1 with ⟨hn, _⟩ | ⟨_, v, hv, hlast, hevict⟩
  · exfalso
    apply hn
    refine ⟨by rw [← hda]; exact hpur, hfull.1, ?_⟩
    rw [purgeList_length hI]; exact hfull.2
  · have hI1 : TableInv (T.removeRule v) := hI.removeRule hv
    have hsub : ∀ y, y ∈ (T.removeRule v).ents ↔ y ∈ T.ents ∧ y ≠ v := by
      intro y
      show y ∈ T.ents.filter (fun x => x.id != v.id) ↔ _
      rw [List.mem_filter]
      constructor
      · rintro ⟨h1, h2⟩
        refine ⟨h1, fun hc => ?_⟩
        rw [hc] at h2; simp at h2
      · rintro ⟨h1, h2⟩
        refine ⟨h1, ?_⟩
        simp only [bne_iff_ne, ne_eq]
        exact fun hc => h2 (id_inj hI.core.ids h1 hv hc)
    have hnew' : NewKey (T.removeRule v) (enterTable r1 r.id) := by
      rw [← he]; exact fun x hx => hnew x ((hsub x).1 hx).1
    have hid' : FreshId (T.removeRule v) (.ok r.id) := fun i hi => ⟨(hid i hi).1, fun x hx => (hid i hi).2 x ((hsub x).1 hx).1⟩
    have hmask' : UsesBitmask r1 → (T.removeRule v).bitmaskAfs.length < 4 ∧ ∀ p ∈ (T.removeRule v).bitmaskAfs, p.2 < 65535 := by
      intro hu
      exfalso
      apply hmask
      unfold UsesBitmask at *
      rw [hfl 12 (by omega), hfl 13 (by omega)]; exact hu
    obtain ⟨st, c1, c2, c3, c4, c5, c6⟩ := commit_succeeds (g := g) hA hnf hI1.core.sorted hwf1 hid' hstop (by rw [← hfl 16 (by omega)]; exact h16) hnew' hmask'
    have hi : insert1 g A T r0 (.ok t) (.ok r.id) a = some (insertCommit g A (T.removeRule v) r1 (.ok r.id) a) := by
      unfold insert1
      simp only [hp, hevict]
    rw [← he] at c3 c5
    have hvm := List.mem_of_getLast? hlast
    have hpv : Purgeable v := by
      obtain ⟨w, hw, h1, h2⟩ := (hI.purge.mem _).1 hvm
      have := id_inj hI.core.ids hw hv h1
      rw [← this]; exact h2
    refine ⟨_, st, v, hi, c1, c2, c3, c4, fun hq => c5 (fun e h => hq e ?_), hv, hpv, ?_, fun y => (c6 y).trans (or_congr_right (hsub y))⟩
    · rw [← hr.event, hev]; exact h
    · intro hb x hx hpx
      have hs := hT.inv.2 hb
      have hxm : x.id ∈ T.purgeList := (hI.purge.mem _).2 ⟨x, hx, rfl, hpx⟩
      have hex : ∀ y ∈ T.ents, T.expiry y.id = y.data.purgeAfter := by
        intro y hy
        unfold RouteTable.expiry
        rw [get?_mem hI.core.ids hy]
      rw [← hex v hv, ← hex x hx]
      obtain ⟨ys, hys⟩ := List.getLast?_eq_some_iff.1 hlast
      unfold PurgeSorted at hs
      rw [hys] at hs hxm
      rcases List.mem_append.1 hxm with h | h
      · exact (List.pairwise_append.1 hs).2.2 _ h _ (by simp)
      · have : x.id = v.id := by simpa using h
        rw [this]; exact Int.le_refl _

/-! ### The hypotheses can be met -/

/-- A rule for TCP traffic from 1.2.3.4, with an event that lets rules expire. -/
def newRule : Route :=
  { flags := bit 10, family := 2, proto := 6, remote := { port := 5, bits := 32, addr := [1, 2, 3, 4] }, loc := { port := 80, bits := 32, addr := [5, 6, 7, 8] } }

def newStored (id : Nat) (exp : Int) : Route := { newRule with id := id, flags := bit 10 ||| bit 14, data := { insertTime := 5, purgeAfter := exp } }

theorem newRule_stored (id : Nat) : StoredAs {} 5 0 newRule (newStored id 0) :=
  prepared_stored (r := { newStored 0 0 with flags := bit 10 }) (by decide) id

theorem newRule_stored_exp (id : Nat) : StoredAs { routeIdleTimeForPurge := 100 } 5 0 newRule (newStored id 105) :=
  prepared_stored (r := { newStored 0 105 with flags := bit 10 }) (by decide) id

theorem neverFails_default : NeverFails {} := fun _ _ _ _ => rfl

/-- The empty table: one rule more. -/
example : ∃ res, insert1 {} {} {} newRule (.ok 5) (.ok 7) 0 = some res ∧ res.res = .ok .inserted ∧
    (∀ y, y ∈ res.T.ents ↔ y = newStored 7 0 ∨ y ∈ ([] : List Route)) := by
  obtain ⟨res, st, h1, h2, _, _, _, h3, h4⟩ := C14_insert_succeeds {} false {} keeps_default neverFails_default {} (Reach.init 0 0 none none 0)
    newRule (by decide) 5 0 rfl (newStored 7 0) (by intro i hi; cases hi; simp [newStored]) (newRule_stored 7) (by unfold Sensical; decide) rfl rfl rfl
    (Or.inl rfl) (by intro x hx; simp at hx) ⟨Or.inl rfl, fun h => by revert h; unfold UsesBitmask; decide⟩
  have := (h3 (by intro e he; cases he)).1
  subst this
  exact ⟨res, h1, h2, h4⟩

/-- A table whose queue is full: the only expiring rule makes room. -/
example : ∃ res v, insert1 {} {} tableAB { newRule with data := { purgeAfter := 900 } } (.ok 5) (.ok 7) 0 = some res ∧ res.res = .ok .inserted ∧
    v ∈ tableAB.ents ∧ Purgeable v ∧ (∀ y, y ∈ res.T.ents ↔ y = newStored 7 900 ∨ (y ∈ tableAB.ents ∧ y ≠ v)) := by
  obtain ⟨res, st, v, h1, h2, _, _, _, h3, h4, h5, _, h6⟩ := C17_insert_evicts {} false {} keeps_default neverFails_default tableAB reach_tableAB
    { newRule with data := { purgeAfter := 900 } } (by decide) 5 0 rfl (newStored 7 900) (by intro i hi; cases hi; exact ⟨by decide, by decide⟩)
    (prepared_stored (r := { newStored 0 900 with flags := bit 10 }) (by decide) 7) (by unfold Sensical; decide) rfl rfl rfl
    (Or.inr (by decide)) (by
      have hp : ∀ x ∈ tableAB.ents, x.loc.port ≠ 80 := by decide
      exact fun x hx hk => hp x hx hk.localPort) (by unfold UsesBitmask; decide) (by decide) (by decide)
  have := (h3 (by intro e he; cases he)).1
  subst this
  exact ⟨res, v, h1, h2, h4, h5, h6⟩

end WS.Props
