import Verif.Proof.Exports2
import Verif.Spec.Dispatch
import Verif.Props.InsertOk
import Verif.Proof.Dispatch
/-
Properties C67 (export and re-creation of rules) and C68 (the built-in tracking action).
-/
namespace WS.Props
open WS Spec

/-! ### Same key, same traffic -/

theorem wild_same {l l' t : Route} (h : SameKey l l') (k : Nat) (hk : k < 14) : wild l t k = wild l' t k := by
  unfold wild; rw [h.keyFlags k hk]

theorem endpoint_same {l l' : Route} (h : SameKey l l') : l.remote = l'.remote ∧ l.loc = l'.loc :=
  ⟨endpoint_ext h.remotePort h.remoteBits h.remoteIface h.remoteAddr, endpoint_ext h.localPort h.localBits h.localIface h.localAddr⟩

/-- C67: two rules with the same key match the same traffic, whatever matching of addresses means. -/
theorem C67_same_traffic {addrOK : Endpoint → Endpoint → Prop} {l l' : Route} (h : SameKey l l') (t : Route) :
    RuleMatches addrOK l t ↔ RuleMatches addrOK l' t := by
  have key : ∀ l l' : Route, SameKey l l' → RuleMatches addrOK l t → RuleMatches addrOK l' t := by
    intro l l' h m
    obtain ⟨e1, e2⟩ := endpoint_same h
    constructor
    · rw [← wild_same h 0 (by omega), ← h.family]; exact m.family
    · rw [← wild_same h 1 (by omega), ← e1]; exact m.remoteAddr
    · rw [← wild_same h 2 (by omega), ← h.proto]; exact m.proto
    · rw [← wild_same h 3 (by omega), ← h.localPort]; exact m.localPort
    · rw [← wild_same h 4 (by omega), ← e2]; exact m.localAddr
    · rw [← wild_same h 5 (by omega), ← h.remotePort]; exact m.remotePort
    · rw [← wild_same h 6 (by omega), ← h.remoteIface]; exact m.remoteIface
    · rw [← wild_same h 7 (by omega), ← h.localIface]; exact m.localIface
    · rw [← wild_same h 8 (by omega)]
      rcases m.event with he | he
      · left; unfold EventAgree at *; rw [← h.prio, ← h.label]; exact he
      · exact Or.inr he
  refine ⟨key l l' h, key l' l ?_⟩
  exact ⟨h.family.symm, h.proto.symm, h.remoteAddr.symm, h.remoteBits.symm, h.localAddr.symm, h.localBits.symm, h.remotePort.symm, h.localPort.symm,
    h.remoteIface.symm, h.localIface.symm, fun k hk => (h.keyFlags k hk).symm, h.prio.symm, h.label.symm⟩

/-! ### Re-creation -/

/-- A rule object as the library makes them: the data area holds both addresses behind `off` bytes; flags
consistent, with a direction; address bytes tidy. -/
structure SoundAddrs (o : RouteObj) : Prop where
  area : o.off + bitsToBytes o.rbits + bitsToBytes o.lbits ≤ o.data.length
  size : (o.rbits + 7) / 8 + (o.lbits + 7) / 8 ≤ 65535
  direction : o.flags.getLsbD 10 = true ∨ o.flags.getLsbD 11 = true
  remoteMask : o.flags.getLsbD 12 = true → o.rbits % 16 = 0
  localMask : o.flags.getLsbD 13 = true → o.lbits % 16 = 0
  sensical : Sensical o.flags
  remoteTidy : Tidy o.view.remote (o.flags.getLsbD 12)
  localTidy : Tidy o.view.loc (o.flags.getLsbD 13)

/-- Moreover there is room in front for private data of the configured size. -/
structure SoundObj (P : PrivCfg) (o : RouteObj) : Prop extends SoundAddrs o where
  priv : P.size o.event ≤ o.off

theorem SoundAddrs.wf {o : RouteObj} (h : SoundAddrs o) : o.view.WF := by
  have := h.area
  constructor
  · show (slice o.data o.off (bitsToBytes o.rbits)).length = bitsToBytes o.rbits
    exact slice_length (by omega)
  · show (slice o.data (o.off + bitsToBytes o.rbits) (bitsToBytes o.lbits)).length = bitsToBytes o.lbits
    exact slice_length (by omega)

/-- The private data an export shows. -/
theorem export_priv {P : PrivCfg} {o : RouteObj} (h : SoundObj P o) : ∀ p, (routeExport P o).priv = some p → (routeExport P o).privSize ≤ p.length := by
  intro p hp
  unfold routeExport at hp ⊢
  simp only at hp ⊢
  split at hp
  · cases hp
  · rename_i hz
    cases hp
    rw [if_neg hz]
    have := h.area
    have := h.priv
    simp only [List.length_take, List.length_drop]
    omega

theorem internal_bit (k : Nat) (hk : k < 32) : (~~~RF.INTERNAL_FLAGS).getLsbD k = !(decide (14 ≤ k) && decide (k ≤ 17)) := by
  revert k; decide

/-- An object created from an export that shows the key of the sound object `o`. -/
theorem recreate (P' : PrivCfg) (o : RouteObj) (ho : SoundAddrs o) (x : RouteExports) (hf : x.flags = o.flags) (hxr : x.remote = o.view.remote) (hxl : x.loc = o.view.loc)
    (hxp : ∀ p, x.priv = some p → x.privSize ≤ p.length) (ev : Option Event) (alloc : Nat → Option (List Byte))
    (hx1 : x.privSize = 0 ∨ x.privSize = P'.size ev - P'.padding ev) (hsz : P'.size ev ≤ 65535)
    (hmem : ∃ mem, alloc (bitsToBytes o.rbits + bitsToBytes o.lbits + P'.size ev) = some mem ∧
      bitsToBytes o.rbits + bitsToBytes o.lbits + P'.size ev ≤ mem.length) :
    ∃ o', newByExports P' alloc ev x = .ok o' ∧ SoundObj P' o' ∧
      o'.view.event = ev ∧ o'.view.family = x.family ∧ o'.view.proto = x.proto ∧ o'.view.remote = o.view.remote ∧ o'.view.loc = o.view.loc ∧
      (∀ k, k < 32 → o'.view.flags.getLsbD k = (o.view.flags.getLsbD k && !(decide (14 ≤ k) && decide (k ≤ 17)))) ∧
      o'.view.data = { purgeAfter := x.info.purgeAfter, connectionCount := x.info.connectionCount,
                       derogatoryCount := x.info.derogatoryCount, commendableCount := x.info.commendableCount } := by
  obtain ⟨mem, hal, hlen⟩ := hmem
  have hrb0 : x.remote.bits = o.rbits := by rw [hxr]; rfl
  have hlb0 : x.loc.bits = o.lbits := by rw [hxl]; rfl
  have hxo : ExportOK x := ⟨by rw [hrb0, hlb0]; exact ho.size, by rw [hf]; exact ho.direction, by rw [hf, hrb0]; exact ho.remoteMask,
    by rw [hf, hlb0]; exact ho.localMask, by rw [hf]; exact ho.sensical⟩
  have hx2 : x.privSize ≤ P'.size ev := by omega
  have hnew : newByExports P' alloc ev x = initByExports ev x (P'.size ev) mem := by
    unfold newByExports
    rw [has_rmask, has_lmask]
    rw [if_neg (by omega), if_neg (fun hc => hc.2 (hxo.remoteMask hc.1)), if_neg (fun hc => hc.2 (hxo.localMask hc.1)), if_neg]
    · rw [hrb0, hlb0, hal]
    · have := ho.size
      rw [← bitsToBytes_eq, ← bitsToBytes_eq] at this
      rw [hrb0, hlb0]; omega
  have hm : P'.size ev + bitsToBytes x.remote.bits + bitsToBytes x.loc.bits ≤ mem.length := by rw [hrb0, hlb0]; omega
  obtain ⟨o', hini, hfl, hrb, hlb⟩ : ∃ o', initByExports ev x (P'.size ev) mem = .ok o' ∧ o'.flags = x.flags &&& ~~~RF.INTERNAL_FLAGS ∧
      o'.rbits = x.remote.bits ∧ o'.lbits = x.loc.bits := ⟨_, initByExports_ok hxo hx2 hsz hm, rfl, rfl, rfl⟩
  rw [hf] at hfl
  rw [hrb0] at hrb
  rw [hlb0] at hlb
  obtain ⟨hv, _, hoff, hev, harea⟩ := initByExports_view hini hxp (by rw [hxr]; exact ho.wf.1) (by rw [hxl]; exact ho.wf.2)
  have hre : initEndpoint x.remote (x.flags.getLsbD 12) = o.view.remote := by
    rw [initEndpoint_eq, hxr, hf]
    show ({ o.view.remote with addr := normBytes o.view.remote.addr o.view.remote.bits (o.flags.getLsbD 12) } : Endpoint) = _
    rw [normBytes_tidy ho.wf.1 ho.remoteMask ho.remoteTidy]
  have hle : initEndpoint x.loc (x.flags.getLsbD 13) = o.view.loc := by
    rw [initEndpoint_eq, hxl, hf]
    show ({ o.view.loc with addr := normBytes o.view.loc.addr o.view.loc.bits (o.flags.getLsbD 13) } : Endpoint) = _
    rw [normBytes_tidy ho.wf.2 ho.localMask ho.localTidy]
  rw [hre, hle] at hv
  have hbit : ∀ k, k < 32 → o'.flags.getLsbD k = (o.flags.getLsbD k && !(decide (14 ≤ k) && decide (k ≤ 17))) := by
    intro k hk
    rw [hfl, BitVec.getLsbD_and, internal_bit k hk]
  have hlow : ∀ k, k < 14 → o'.flags.getLsbD k = o.flags.getLsbD k := by
    intro k hk
    rw [hbit k (by omega)]
    have : ¬ 14 ≤ k := by omega
    simp [this]
  refine ⟨o', hnew.trans hini, ⟨⟨harea, by rw [hrb, hlb]; exact ho.size, ?_, ?_, ?_, ?_, ?_, ?_⟩, by rw [hoff, hev]; exact Nat.le_refl _⟩, ?_, ?_, ?_, ?_, ?_, ?_, ?_⟩
  · rw [hlow 10 (by omega), hlow 11 (by omega)]; exact ho.direction
  · rw [hlow 12 (by omega), hrb]; exact ho.remoteMask
  · rw [hlow 13 (by omega), hlb]; exact ho.localMask
  · unfold Sensical
    rw [hlow 0 (by omega), hlow 1 (by omega), hlow 2 (by omega), hlow 3 (by omega), hlow 4 (by omega), hlow 5 (by omega)]
    exact ho.sensical
  · rw [hlow 12 (by omega), hv]; exact ho.remoteTidy
  · rw [hlow 13 (by omega), hv]; exact ho.localTidy
  · rw [hv]
  · rw [hv]
  · rw [hv]
  · rw [hv]
  · rw [hv]
  · exact hbit
  · rw [hv]

/-- C67: a rule exported and created again from the export is the same rule: same addresses, ports,
protocol, family, interfaces, counts and expiry, same flags but for the library's own marks (bits 14 to 17);
its event is the one given, its hit count and times are zero.  This needs memory, and private data of the
size the event's settings ask for. -/
theorem C67_recreated (P P' : PrivCfg) (o : RouteObj) (ho : SoundObj P o) (ev : Option Event) (alloc : Nat → Option (List Byte))
    (hpriv : P.size o.event = 0 ∨ P.size o.event - P.padding o.event = 0 ∨ P.size o.event - P.padding o.event = P'.size ev - P'.padding ev)
    (hsz : P'.size ev ≤ 65535)
    (hmem : ∃ mem, alloc (bitsToBytes o.rbits + bitsToBytes o.lbits + P'.size ev) = some mem ∧
      bitsToBytes o.rbits + bitsToBytes o.lbits + P'.size ev ≤ mem.length) :
    ∃ o', newByExports P' alloc ev (routeExport P o) = .ok o' ∧ SoundObj P' o' ∧
      o'.view.event = ev ∧ o'.view.family = o.view.family ∧ o'.view.proto = o.view.proto ∧ o'.view.remote = o.view.remote ∧ o'.view.loc = o.view.loc ∧
      (∀ k, k < 32 → o'.view.flags.getLsbD k = (o.view.flags.getLsbD k && !(decide (14 ≤ k) && decide (k ≤ 17)))) ∧
      o'.view.data = { purgeAfter := o.view.data.purgeAfter, connectionCount := o.view.data.connectionCount,
                       derogatoryCount := o.view.data.derogatoryCount, commendableCount := o.view.data.commendableCount } := by
  have hps : (routeExport P o).privSize = if P.size o.event = 0 then 0 else P.size o.event - P.padding o.event := rfl
  refine recreate P' o ho.toSoundAddrs (routeExport P o) rfl rfl rfl (export_priv ho) ev alloc ?_ hsz hmem
  rw [hps]
  rcases hpriv with h | h | h
  · rw [if_pos h]; exact Or.inl rfl
  · split
    · exact Or.inl rfl
    · exact Or.inl h
  · split
    · exact Or.inl rfl
    · exact Or.inr h

/-- C67: the private data comes along too, if the new object's private area has no padding in front. -/
theorem C67_private_data_partial (P P' : PrivCfg) (o : RouteObj) (ho : SoundObj P o) (ev : Option Event) (alloc : Nat → Option (List Byte)) (o' : RouteObj)
    (h : newByExports P' alloc ev (routeExport P o) = .ok o') (d : List Byte) (hd : getPrivateData P o = .ok d) (hne : P.padding o.event < P.size o.event)
    (hpad : P'.padding ev = 0) : getPrivateData P' o' = .ok d := by
  have hs0 : P.size o.event ≠ 0 := by omega
  unfold getPrivateData at hd
  rw [if_neg hs0] at hd
  cases hd
  unfold newByExports at h
  have hps : (routeExport P o).privSize = P.size o.event - P.padding o.event := by
    unfold routeExport; simp only; rw [if_neg hs0]
  have hpv : (routeExport P o).priv = some ((o.data.drop (P.padding o.event)).take (P.size o.event - P.padding o.event)) := by
    unfold routeExport; simp only; rw [if_neg hs0]
  split at h
  · cases h
  rename_i hsize
  split at h
  · cases h
  split at h
  · cases h
  split at h
  · cases h
  split at h
  · cases h
  obtain ⟨_, h1, _, h2, _⟩ := initByExports_view h (export_priv ho) ho.wf.1 ho.wf.2
  have hsz : P'.size ev = P.size o.event - P.padding o.event := by omega
  unfold getPrivateData
  rw [h2, if_neg (by omega), hpad]
  simp only [List.drop_zero, Nat.sub_zero]
  rw [h1]
  unfold privArea
  rw [hpv]
  simp only
  rw [hps, hsz, Nat.sub_self]
  have := ho.area
  have := ho.priv
  simp only [List.replicate_zero, List.append_nil]
  rw [List.take_take, Nat.min_self]

/-! ### Re-insertion -/

/-- Whatever the settings, there is a form in which a rule is stored. -/
theorem stored_exists (g : EventConfig) (t : Int) (a : Flags) (r0 : Route) (id : Nat) : ∃ r, StoredAs g t a r0 r ∧ r.id = id := by
  let c := inForce g r0.event
  let F : Flags := ((r0.flags &&& ~~~c.routeFlagsToClear) ||| c.routeFlagsToAdd) ||| bit 14
  refine ⟨
    { id := id, event := r0.event, flags := F, family := if F.getLsbD 0 then 0 else r0.family, proto := if F.getLsbD 2 then 0 else r0.proto,
      remote := { port := if F.getLsbD 5 then 0 else r0.remote.port, bits := r0.remote.bits, iface := if F.getLsbD 6 then 0 else r0.remote.iface,
                       addr := blanked (F.getLsbD 1) r0.remote.addr },
      loc := { port := if F.getLsbD 3 then 0 else r0.loc.port, bits := r0.loc.bits, iface := if F.getLsbD 7 then 0 else r0.loc.iface,
                       addr := blanked (F.getLsbD 4) r0.loc.addr },
      data := { r0.data with
                         insertTime := t,
                         purgeAfter := if 0 < c.routeIdleTimeForPurge ∧ r0.data.purgeAfter = 0 then t + c.routeIdleTimeForPurge else r0.data.purgeAfter,
                         derogatoryCount := Bumped r0.data.derogatoryCount (a.getLsbD 4), commendableCount := Bumped r0.data.commendableCount (a.getLsbD 5),
                         connectionCount := Bumped r0.data.connectionCount (a.getLsbD 2 && !F.getLsbD 23) } },
    { event := rfl, flags := ?_, family := rfl, remoteAddr := rfl, proto := rfl, localPort := rfl, localAddr := rfl, remotePort := rfl, remoteIface := rfl,
      localIface := rfl, remoteBits := rfl, localBits := rfl, insertTime := rfl, lastHit := rfl, lastBoxed := rfl, hits := rfl, expiry := rfl,
      derogatory := rfl, commendable := rfl, connections := rfl }, rfl⟩
  intro k hk
  show F.getLsbD k = _
  show (((r0.flags &&& ~~~c.routeFlagsToClear) ||| c.routeFlagsToAdd) ||| bit 14).getLsbD k = _
  rw [BitVec.getLsbD_or, BitVec.getLsbD_or, BitVec.getLsbD_and, BitVec.getLsbD_not, Bool.or_comm]
  have : (bit 14).getLsbD k = decide (k = 14) := by
    unfold bit; rw [BitVec.getLsbD_twoPow]
    by_cases h : k = 14
    · subst h; rfl
    · have : ¬ 14 = k := fun hc => h hc.symm
      simp [h, this]
  rw [this]
  simp [hk, c]

/-- An insertion by export that gets the lock, finds the event and creates the object succeeds as the
insertion of that object does. -/
theorem insertByExports_succeeds {N : InsEnv} {b : Bool} (hA : N.acts.Keeps) (hnf : NeverFails N.acts) {T : RouteTable} (hT : Reach N.g b T)
    {x : RouteExports} {ev : Option Event} {o : RouteObj} (hlock : N.lock = .ok ()) (hev : eventOf N.resolve x.label = .ok ev)
    (hnew : newByExports N.priv N.alloc ev x = .ok o) {t : Int} (hnow : N.now = .ok t) {r : Route} (hnid : N.newId = .ok r.id) (hid : FreshId T (.ok r.id))
    (hwf : o.view.WF) (hr : StoredAs N.g t 0 o.view r) (hsens : Sensical r.flags) (h14 : o.flags.getLsbD 14 = false)
    (hadd14 : (inForce N.g o.event).routeFlagsToAdd.getLsbD 14 = false) (h16 : r.flags.getLsbD 16 = false)
    (hexp : o.info.purgeAfter = 0 ∨ t < o.info.purgeAfter) (hkey : NewKey T r) (hroom : Room T r) :
    ∃ res st, insertByExports N T x = some res ∧ res.res = .ok .inserted ∧ res.actionsFailed = false ∧ KeepsKey r st ∧ res.rule = st ∧ res.obj = some o ∧
      ((∀ e, o.event = some e → e.insertActions = []) → st = r ∧ res.ares = some (bit 8)) ∧ (∀ y, y ∈ res.T.ents ↔ y = st ∨ y ∈ T.ents) := by
  obtain ⟨i, st, h1, h2, h3, h4, h5, h6, h7⟩ := C14_insert_succeeds N.g b N.acts hA hnf T hT o.view hwf t 0 rfl r hid hr hsens h14 hadd14 h16 hexp hkey hroom
  refine ⟨{ T := i.T, ares := some i.ares, res := i.res, obj := some o, rule := i.rule, called := i.called, actionsFailed := i.actionsFailed }, st, ?_, h2, h3, h4, h5,
    rfl, fun hq => ⟨(h6 hq).1, ?_⟩, h7⟩
  · unfold insertByExports
    rw [hlock]
    simp only
    rw [hev]
    simp only
    rw [hnew]
    simp only
    rw [hnow, hnid, h1]
    rfl
  · show some i.ares = _
    rw [(h6 hq).2]; rfl

theorem sameKey_trans {x y z : Route} (h : SameKey x y) (h' : SameKey y z) : SameKey x z :=
  ⟨h.family.trans h'.family, h.proto.trans h'.proto, h.remoteAddr.trans h'.remoteAddr, h.remoteBits.trans h'.remoteBits, h.localAddr.trans h'.localAddr,
    h.localBits.trans h'.localBits, h.remotePort.trans h'.remotePort, h.localPort.trans h'.localPort, h.remoteIface.trans h'.remoteIface,
    h.localIface.trans h'.localIface, fun k hk => (h.keyFlags k hk).trans (h'.keyFlags k hk), h.prio.trans h'.prio, h.label.trans h'.label⟩

theorem sameKey_symm {x y : Route} (h : SameKey x y) : SameKey y x :=
  ⟨h.family.symm, h.proto.symm, h.remoteAddr.symm, h.remoteBits.symm, h.localAddr.symm, h.localBits.symm, h.remotePort.symm, h.localPort.symm,
    h.remoteIface.symm, h.localIface.symm, fun k hk => (h.keyFlags k hk).symm, h.prio.symm, h.label.symm⟩

/-- The settings add only flags the rule has anyway, and clear only flags it lacks; they do not touch the
library's own marks. -/
def LeavesFlags (c : EventConfig) (f : Flags) : Prop :=
  ∀ k, k < 32 → (c.routeFlagsToAdd.getLsbD k = true → f.getLsbD k = true ∧ ¬ (14 ≤ k ∧ k ≤ 17)) ∧ (c.routeFlagsToClear.getLsbD k = true → f.getLsbD k = false)

/-- The surroundings let an insertion go through: lock, handlers, clock, a fresh ID, memory. -/
structure Able (N : InsEnv) (T : RouteTable) (o : RouteObj) (ev : Option Event) (t : Int) (id : Nat) : Prop where
  lock : N.lock = .ok ()
  keeps : N.acts.Keeps
  never : NeverFails N.acts
  clock : N.now = .ok t
  newId : N.newId = .ok id
  fresh : FreshId T (.ok id)
  size : N.priv.size ev ≤ 65535
  mem : ∃ mem, N.alloc (bitsToBytes o.rbits + bitsToBytes o.lbits + N.priv.size ev) = some mem ∧ bitsToBytes o.rbits + bitsToBytes o.lbits + N.priv.size ev ≤ mem.length
  settings : LeavesFlags (inForce N.g ev) o.flags
  queue : T.maxPurgeableRoutes = 0 ∨ purgeableCount T.ents < T.maxPurgeableRoutes
  masks : UsesBitmask o.view → T.bitmaskAfs.length < 4 ∧ ∀ p ∈ T.bitmaskAfs, p.2 < 65535
  newKey : ∀ y ∈ T.ents, ¬ SameKey y { o.view with event := ev }

theorem blanked_zero {w : Bool} {a : List Byte} (h : w = true → ∀ b ∈ a, b = 0) : blanked w a = a := by
  unfold blanked
  split
  · rename_i hw
    exact (List.eq_replicate_iff.2 ⟨rfl, h hw⟩).symm
  · rfl

/-- An export that shows the key of the sound object `o`, inserted. -/
theorem insert_like {N : InsEnv} {b : Bool} {T : RouteTable} (hT : Reach N.g b T) (o : RouteObj) (ho : SoundAddrs o) (hwz : WildZero o.view) (x : RouteExports)
    (hf : x.flags = o.flags) (hxr : x.remote = o.view.remote) (hxl : x.loc = o.view.loc) (hxf : x.family = o.family) (hxo : x.proto = o.proto)
    (hxp : ∀ p, x.priv = some p → x.privSize ≤ p.length) {ev : Option Event} (hev : eventOf N.resolve x.label = .ok ev)
    (hx1 : x.privSize = 0 ∨ x.privSize = N.priv.size ev - N.priv.padding ev) {t : Int} {id : Nat} (hN : Able N T o ev t id)
    (hexp : x.info.purgeAfter = 0 ∨ t < x.info.purgeAfter) :
    ∃ res st, insertByExports N T x = some res ∧ res.res = .ok .inserted ∧ res.actionsFailed = false ∧ res.rule = st ∧
      st.id = id ∧ st.event = ev ∧ st.family = o.family ∧ st.proto = o.proto ∧ st.remote = o.view.remote ∧ st.loc = o.view.loc ∧
      (∀ k, k < 15 → st.flags.getLsbD k = (decide (k = 14) || o.flags.getLsbD k)) ∧
      st.data.purgeAfter = (if 0 < (inForce N.g ev).routeIdleTimeForPurge ∧ x.info.purgeAfter = 0 then t + (inForce N.g ev).routeIdleTimeForPurge else x.info.purgeAfter) ∧
      ((∀ e, ev = some e → e.insertActions = []) → res.ares = some (bit 8) ∧
        (∀ k, k < 32 → st.flags.getLsbD k = (decide (k = 14) || (o.flags.getLsbD k && !(decide (14 ≤ k) && decide (k ≤ 17))))) ∧
        st.data = { insertTime := t, purgeAfter := st.data.purgeAfter, connectionCount := x.info.connectionCount,
                    derogatoryCount := x.info.derogatoryCount, commendableCount := x.info.commendableCount }) ∧
      (∀ y, y ∈ res.T.ents ↔ y = st ∨ y ∈ T.ents) := by
  obtain ⟨o', hnew, hso', oev, ofam, oproto, orem, oloc, ofl, odat⟩ := recreate N.priv o ho x hf hxr hxl hxp ev N.alloc hx1 hN.size hN.mem
  obtain ⟨r, hr, hrid⟩ := stored_exists N.g t 0 o'.view id
  have hie : inForce N.g o'.view.event = inForce N.g ev := by rw [oev]
  have hfl : ∀ k, k < 32 → r.flags.getLsbD k = (decide (k = 14) || (o.flags.getLsbD k && !(decide (14 ≤ k) && decide (k ≤ 17)))) := by
    intro k hk
    rw [hr.flags k hk, hie, ofl k hk]
    show (decide (k = 14) || ((o.flags.getLsbD k && !(decide (14 ≤ k) && decide (k ≤ 17))) && !(inForce N.g ev).routeFlagsToClear.getLsbD k ||
      (inForce N.g ev).routeFlagsToAdd.getLsbD k)) = _
    have hs := hN.settings k hk
    cases hadd : (inForce N.g ev).routeFlagsToAdd.getLsbD k
    · cases hcl : (inForce N.g ev).routeFlagsToClear.getLsbD k
      · simp
      · rw [hs.2 hcl]; simp
    · obtain ⟨h1, h2⟩ := hs.1 hadd
      rw [h1]
      have h2' : (decide (14 ≤ k) && decide (k ≤ 17)) = false := by
        cases hd : (decide (14 ≤ k) && decide (k ≤ 17))
        · rfl
        · simp only [Bool.and_eq_true, decide_eq_true_eq] at hd; exact absurd hd h2
      rw [h2']; simp
  have hlow : ∀ k, k < 14 → r.flags.getLsbD k = o.flags.getLsbD k := by
    intro k hk
    rw [hfl k (by omega)]
    have h1 : ¬ k = 14 := by omega
    have h2 : ¬ 14 ≤ k := by omega
    simp [h1, h2]
  have rfam : r.family = o.family := by
    rw [hr.family, hlow 0 (by omega), ofam, hxf]
    split
    · rename_i h; exact (hwz.family h).symm
    · rfl
  have rproto : r.proto = o.proto := by
    rw [hr.proto, hlow 2 (by omega), oproto, hxo]
    split
    · rename_i h; exact (hwz.proto h).symm
    · rfl
  have rrem : r.remote = o.view.remote := by
    apply endpoint_ext
    · rw [hr.remotePort, hlow 5 (by omega), orem]
      split
      · rename_i h; exact (hwz.remotePort h).symm
      · rfl
    · rw [hr.remoteBits, orem]
    · rw [hr.remoteIface, hlow 6 (by omega), orem]
      split
      · rename_i h; exact (hwz.remoteIface h).symm
      · rfl
    · rw [hr.remoteAddr, hlow 1 (by omega), orem]
      exact blanked_zero hwz.remoteAddr
  have rloc : r.loc = o.view.loc := by
    apply endpoint_ext
    · rw [hr.localPort, hlow 3 (by omega), oloc]
      split
      · rename_i h; exact (hwz.localPort h).symm
      · rfl
    · rw [hr.localBits, oloc]
    · rw [hr.localIface, hlow 7 (by omega), oloc]
      split
      · rename_i h; exact (hwz.localIface h).symm
      · rfl
    · rw [hr.localAddr, hlow 4 (by omega), oloc]
      exact blanked_zero hwz.localAddr
  have rev : r.event = ev := by rw [hr.event, oev]
  have hsk : SameKey r { o.view with event := ev } :=
    ⟨rfam, rproto, by rw [rrem], by rw [rrem], by rw [rloc], by rw [rloc], by rw [rrem], by rw [rloc], by rw [rrem], by rw [rloc], hlow,
      by unfold priority; rw [rev], by rw [rev]⟩
  have hsens : Sensical r.flags := by
    unfold Sensical
    rw [hlow 0 (by omega), hlow 1 (by omega), hlow 2 (by omega), hlow 3 (by omega), hlow 4 (by omega), hlow 5 (by omega)]
    exact ho.sensical
  have opur : o'.info.purgeAfter = x.info.purgeAfter := by
    show o'.view.data.purgeAfter = _
    rw [odat]
  have hadd14 : (inForce N.g o'.event).routeFlagsToAdd.getLsbD 14 = false := by
    rw [show o'.event = ev from oev]
    cases h : (inForce N.g ev).routeFlagsToAdd.getLsbD 14
    · rfl
    · exact absurd ⟨by omega, by omega⟩ ((hN.settings 14 (by omega)).1 h).2
  have hroom : Room T r := by
    refine ⟨Or.inr hN.queue, fun hu => hN.masks ?_⟩
    unfold UsesBitmask at *
    rw [hlow 12 (by omega), hlow 13 (by omega)] at hu
    exact hu
  have hnk : NewKey T r := fun y hy hsy => hN.newKey y hy (sameKey_trans hsy hsk)
  obtain ⟨res, st, h1, h2, h3, h4, h5, _, h6, h7⟩ := insertByExports_succeeds hN.keeps hN.never hT hN.lock hev hnew hN.clock (r := r)
    (by rw [hrid]; exact hN.newId) (by rw [hrid]; exact hN.fresh) hso'.wf hr hsens
    (by have := ofl 14 (by omega); rw [show (decide (14 ≤ 14) && decide (14 ≤ 17)) = true from rfl, Bool.not_true, Bool.and_false] at this; exact this) hadd14 (by rw [hfl 16 (by omega)]; simp) (by rw [opur]; exact hexp) hnk hroom
  have hpa : r.data.purgeAfter = (if 0 < (inForce N.g ev).routeIdleTimeForPurge ∧ x.info.purgeAfter = 0 then t + (inForce N.g ev).routeIdleTimeForPurge
      else x.info.purgeAfter) := by
    rw [hr.expiry, hie, show o'.view.data.purgeAfter = x.info.purgeAfter from opur]
  refine ⟨res, st, h1, h2, h3, h5, by rw [h4.id, hrid], by rw [h4.event, rev], by rw [h4.family, rfam], by rw [h4.proto, rproto], by rw [h4.remote, rrem],
    by rw [h4.loc, rloc], ?_, by rw [h4.purgeAfter, hpa], ?_, h7⟩
  · intro k hk
    rw [h4.flags k hk, hfl k (by omega)]
    by_cases h14 : k = 14
    · simp [h14]
    · have : ¬ 14 ≤ k := by omega
      simp [this]
  · intro hq
    obtain ⟨e1, e2⟩ := h6 (by rw [show o'.event = ev from oev]; exact hq)
    subst e1
    refine ⟨e2, hfl, ?_⟩
    apply meta_ext
    · exact hr.insertTime
    · rw [hr.lastHit, odat]
    · rw [hr.lastBoxed, odat]
    · rfl
    · rw [hr.connections, odat]; simp [Bumped]
    · rw [hr.derogatory, odat]; simp [Bumped]
    · rw [hr.commendable, odat]; simp [Bumped]
    · rw [hr.hits, odat]

/-- C67: a rule that was exported (from this table or another), inserted again into a table that has no rule
of its key: the insertion succeeds, the table has all it had and the new rule, and the new rule has the old
one's key — so it matches the same traffic (`C67_same_traffic`) —, its counts, its expiry (if it had none, the
configured idle time from now) and, but for the library's own marks, its flags.  The event it names must
exist, with the same priority; settings must not change the flags; an expiry must not have passed. -/
theorem C67_reinserted (P : PrivCfg) (N : InsEnv) (b : Bool) (T : RouteTable) (hT : Reach N.g b T) (o : RouteObj) (ho : SoundObj P o) (hwz : WildZero o.view)
    (ev : Option Event) (hnone : o.event = none → ev = none)
    (hsome : ∀ e, o.event = some e → ∃ e', N.resolve e.label = .ok e' ∧ ev = some e' ∧ e'.label = e.label ∧ e'.priority = e.priority)
    (hpriv : P.size o.event = 0 ∨ P.size o.event - P.padding o.event = 0 ∨ P.size o.event - P.padding o.event = N.priv.size ev - N.priv.padding ev)
    (t : Int) (id : Nat) (hN : Able N T o ev t id) (hexp : o.info.purgeAfter = 0 ∨ t < o.info.purgeAfter) :
    ∃ res st, insertByExports N T (routeExport P o) = some res ∧ res.res = .ok .inserted ∧ res.actionsFailed = false ∧ res.rule = st ∧
      SameKey o.view st ∧ st.event = ev ∧
      st.data.purgeAfter = (if 0 < (inForce N.g ev).routeIdleTimeForPurge ∧ o.info.purgeAfter = 0 then t + (inForce N.g ev).routeIdleTimeForPurge else o.info.purgeAfter) ∧
      ((∀ e, ev = some e → e.insertActions = []) →
        (∀ k, 18 ≤ k → k < 32 → st.flags.getLsbD k = o.flags.getLsbD k) ∧
        st.data.connectionCount = o.info.connectionCount ∧ st.data.derogatoryCount = o.info.derogatoryCount ∧
        st.data.commendableCount = o.info.commendableCount ∧ st.data.insertTime = t ∧ st.data.hitcount = 0 ∧ st.data.lastPenaltyboxTime = 0) ∧
      (∀ y, y ∈ res.T.ents ↔ y = st ∨ y ∈ T.ents) := by
  have hps : (routeExport P o).privSize = if P.size o.event = 0 then 0 else P.size o.event - P.padding o.event := rfl
  have hev : eventOf N.resolve (routeExport P o).label = .ok ev := by
    show eventOf N.resolve (o.event.map (·.label)) = _
    cases he : o.event with
    | none => rw [hnone he]; rfl
    | some e =>
      obtain ⟨e', h1, h2, _⟩ := hsome e he
      show (N.resolve e.label).map some = _
      rw [h1, h2]; rfl
  obtain ⟨res, st, h1, h2, h3, h4, h5, h6, h7, h8, h9, h10, h11, h12, h13, h14⟩ := insert_like hT o ho.toSoundAddrs hwz (routeExport P o) rfl rfl rfl rfl rfl (export_priv ho) hev (by
    rw [hps]
    rcases hpriv with h | h | h
    · rw [if_pos h]; exact Or.inl rfl
    · split
      · exact Or.inl rfl
      · exact Or.inl h
    · split
      · exact Or.inl rfl
      · exact Or.inr h) hN hexp
  have hkf : ∀ k, k < 14 → o.view.flags.getLsbD k = st.flags.getLsbD k := by
    intro k hk
    rw [h11 k (by omega)]
    have : ¬ k = 14 := by omega
    simp [this]; rfl
  refine ⟨res, st, h1, h2, h3, h4, ⟨h7.symm, h8.symm, by rw [h9], by rw [h9], by rw [h10], by rw [h10], by rw [h9], by rw [h10], by rw [h9], by rw [h10], hkf, ?_, ?_⟩,
    h6, h12, ?_, h14⟩
  · unfold priority
    show (o.event.map (·.priority)).getD 0 = _
    rw [h6]
    cases he : o.event with
    | none => rw [hnone he]
    | some e =>
      obtain ⟨e', _, k2, _, k4⟩ := hsome e he
      rw [k2]; simp [k4]
  · rw [h6]
    show o.event.map _ = _
    cases he : o.event with
    | none => rw [hnone he]
    | some e =>
      obtain ⟨e', _, k2, k3, _⟩ := hsome e he
      rw [k2]; simp [k3]
  · intro hq
    obtain ⟨_, k1, k2⟩ := h13 hq
    refine ⟨?_, by rw [k2]; rfl, by rw [k2]; rfl, by rw [k2]; rfl, by rw [k2], by rw [k2], by rw [k2]⟩
    intro k hk hk'
    rw [k1 k hk']
    have a1 : ¬ k = 14 := by omega
    have a2 : ¬ k ≤ 17 := by omega
    simp [a1, a2]

/-! ### What is lost -/

/-- C67, finding: a rule that was penalty-boxed (bit 20) is boxed again after re-insertion, but the time of
boxing is lost: no passing of time releases it any more, whatever the settings say. -/
theorem C67_finding_boxed_for_good (P : PrivCfg) (N : InsEnv) (b : Bool) (T : RouteTable) (hT : Reach N.g b T) (o : RouteObj) (ho : SoundObj P o) (hwz : WildZero o.view)
    (ev : Option Event) (hnone : o.event = none → ev = none)
    (hsome : ∀ e, o.event = some e → ∃ e', N.resolve e.label = .ok e' ∧ ev = some e' ∧ e'.label = e.label ∧ e'.priority = e.priority)
    (hpriv : P.size o.event = 0 ∨ P.size o.event - P.padding o.event = 0 ∨ P.size o.event - P.padding o.event = N.priv.size ev - N.priv.padding ev)
    (t : Int) (id : Nat) (hN : Able N T o ev t id) (hexp : o.info.purgeAfter = 0 ∨ t < o.info.purgeAfter)
    (hq : ∀ e, ev = some e → e.insertActions = []) (hbox : o.flags.getLsbD 20 = true) :
    ∃ res st, insertByExports N T (routeExport P o) = some res ∧ res.res = .ok .inserted ∧ st ∈ res.T.ents ∧ SameKey o.view st ∧ Boxed st ∧ ∀ c now, ¬ BoxElapsed c now st := by
  obtain ⟨res, st, h1, h2, _, _, h5, _, _, h8, h9⟩ := C67_reinserted P N b T hT o ho hwz ev hnone hsome hpriv t id hN hexp
  obtain ⟨k1, _, _, _, _, _, k7⟩ := h8 hq
  exact ⟨res, st, h1, h2, (h9 st).2 (Or.inl rfl), h5, (k1 20 (by omega) (by omega)).trans hbox, fun c now hb => hb.2.1 k7⟩

/-- C67, finding: a rule whose expiry has passed but which the library has not purged yet cannot be inserted
again. -/
theorem C67_expired_refused (P : PrivCfg) (N : InsEnv) (T : RouteTable) (o : RouteObj) (t : Int) (hnow : N.now = .ok t)
    (h1 : o.info.purgeAfter ≠ 0) (h2 : o.info.purgeAfter ≤ t) (res : ExpRes) (h : insertByExports N T (routeExport P o) = some res) :
    res.T = T ∧ ∃ e, res.res = .error e := by
  unfold insertByExports at h
  split at h
  · cases h; exact ⟨rfl, _, rfl⟩
  split at h
  · cases h; exact ⟨rfl, _, rfl⟩
  split at h
  · cases h; exact ⟨rfl, _, rfl⟩
  rename_i o' hn
  have hp : o'.view.data.purgeAfter = o.info.purgeAfter := by
    unfold newByExports at hn
    split at hn
    · cases hn
    split at hn
    · cases hn
    split at hn
    · cases hn
    split at hn
    · cases hn
    split at hn
    · cases hn
    unfold initByExports at hn
    repeat (split at hn; · cases hn)
    cases hn; rfl
  rw [hnow] at h
  have hprep : ∃ e, insertPrepare N.g t o'.view 0 = .error e := by
    unfold insertPrepare
    simp only
    split
    · exact ⟨_, rfl⟩
    split
    · exact ⟨_, rfl⟩
    rw [if_pos (by rw [hp]; exact ⟨h1, h2⟩)]
    exact ⟨_, rfl⟩
  obtain ⟨e, he⟩ := hprep
  have hi : ∃ i, insert1 N.g N.acts T o'.view (.ok t) N.newId 0 = some i ∧ i.T = T ∧ ∃ e, i.res = .error e := by
    unfold insert1
    simp only
    rw [he]
    exact ⟨_, rfl, rfl, _, rfl⟩
  obtain ⟨i, hi1, hi2, hi3⟩ := hi
  rw [hi1] at h
  cases h
  exact ⟨hi2, hi3⟩

/-- An object with four bytes of private data behind four bytes of padding. -/
def objPadded : RouteObj :=
  { flags := bit 10, family := 2, proto := 6, rport := 5, rbits := 32, lport := 80, lbits := 32, off := 8,
    data := [0, 0, 0, 0, 0xaa, 0xbb, 0xcc, 0xdd, 1, 2, 3, 4, 5, 6, 7, 8] }

def cfgPadded : PrivCfg := { size := fun _ => 8, padding := fun _ => 4 }

theorem objPadded_sound : SoundObj cfgPadded objPadded := by
  refine ⟨⟨by decide, by decide, by decide, by decide, by decide, by unfold Sensical; decide, ?_, ?_⟩, by decide⟩ <;> unfold Tidy <;> decide

/-- C67, finding: with padding in front, the private data is stored where the padding belongs and reads back
as zeroes. -/
theorem C67_finding_private_data_shifted :
    getPrivateData cfgPadded objPadded = .ok [0xaa, 0xbb, 0xcc, 0xdd] ∧
    (newByExports cfgPadded (fun n => some (List.replicate n 0)) none (routeExport cfgPadded objPadded)).bind (getPrivateData cfgPadded) = .ok [0, 0, 0, 0] := by
  decide

/-! ### Wildcards set after creation -/

/-- C67: setting wildcards other than that for the remote address leaves the addresses alone (the local
address becomes empty if it is wildcarded), and wildcarded fields become zero. -/
theorem C67_set_wildcard_partial (o o' : RouteObj) (w : Flags) (h : setWildcard o w = .ok o') (hw : w.getLsbD 1 = false) :
    o'.view.remote.addr = o.view.remote.addr ∧ o'.view.remote.bits = o.view.remote.bits ∧
    o'.view.loc.addr = (if w.getLsbD 4 then [] else o.view.loc.addr) ∧ o'.view.loc.bits = (if w.getLsbD 4 then 0 else o.view.loc.bits) ∧
    o'.view.family = (if w.getLsbD 0 then 0 else o.view.family) ∧ o'.view.proto = (if w.getLsbD 2 then 0 else o.view.proto) ∧
    o'.view.loc.port = (if w.getLsbD 3 then 0 else o.view.loc.port) ∧ o'.view.remote.port = (if w.getLsbD 5 then 0 else o.view.remote.port) ∧
    o'.view.remote.iface = (if w.getLsbD 6 then 0 else o.view.remote.iface) ∧ o'.view.loc.iface = (if w.getLsbD 7 then 0 else o.view.loc.iface) ∧
    (∀ k, k < 32 → o'.view.flags.getLsbD k = (o.view.flags.getLsbD k || (decide (k < 9) && w.getLsbD k))) := by
  unfold setWildcard at h
  split at h
  · cases h
  have e0 : w.has RF.SA_FAMILY_WILDCARD = w.getLsbD 0 := has_of_bit (k := 0) rfl (by omega) w
  have e1 : w.has RF.SA_REMOTE_ADDR_WILDCARD = w.getLsbD 1 := has_of_bit (k := 1) rfl (by omega) w
  have e2 : w.has RF.SA_PROTO_WILDCARD = w.getLsbD 2 := has_of_bit (k := 2) rfl (by omega) w
  have e3 : w.has RF.SA_LOCAL_PORT_WILDCARD = w.getLsbD 3 := has_of_bit (k := 3) rfl (by omega) w
  have e4 : w.has RF.SA_LOCAL_ADDR_WILDCARD = w.getLsbD 4 := has_of_bit (k := 4) rfl (by omega) w
  have e5 : w.has RF.SA_REMOTE_PORT_WILDCARD = w.getLsbD 5 := has_of_bit (k := 5) rfl (by omega) w
  have e6 : w.has RF.REMOTE_INTERFACE_WILDCARD = w.getLsbD 6 := has_of_bit (k := 6) rfl (by omega) w
  have e7 : w.has RF.LOCAL_INTERFACE_WILDCARD = w.getLsbD 7 := has_of_bit (k := 7) rfl (by omega) w
  have e8 : w.has RF.PARENT_EVENT_WILDCARD = w.getLsbD 8 := has_of_bit (k := 8) rfl (by omega) w
  rw [e0, e1, e2, e3, e4, e5, e6, e7, e8, hw] at h
  extract_lets o1 o2 o3 o4 o5 o6 o7 o8 o9 at h
  have h1 : o1 = if w.getLsbD 8 = true then { o with flags := o.flags ||| RF.PARENT_EVENT_WILDCARD } else o := rfl
  have h2 : o2 = if w.getLsbD 6 = true then { o1 with flags := o1.flags ||| RF.REMOTE_INTERFACE_WILDCARD, riface := 0 } else o1 := rfl
  have h3 : o3 = if w.getLsbD 7 = true then { o2 with flags := o2.flags ||| RF.LOCAL_INTERFACE_WILDCARD, liface := 0 } else o2 := rfl
  have h4 : o4 = if w.getLsbD 0 = true then { o3 with flags := o3.flags ||| RF.SA_FAMILY_WILDCARD, family := 0 } else o3 := rfl
  have h5 : o5 = o4 := rfl
  have h6 : o6 = if w.getLsbD 4 = true then { o5 with flags := o5.flags ||| RF.SA_LOCAL_ADDR_WILDCARD, lbits := 0 } else o5 := rfl
  have h7 : o7 = if w.getLsbD 2 = true then { o6 with flags := o6.flags ||| RF.SA_PROTO_WILDCARD, proto := 0 } else o6 := rfl
  have h8 : o8 = if w.getLsbD 5 = true then { o7 with flags := o7.flags ||| RF.SA_REMOTE_PORT_WILDCARD, rport := 0 } else o7 := rfl
  have h9 : o9 = if w.getLsbD 3 = true then { o8 with flags := o8.flags ||| RF.SA_LOCAL_PORT_WILDCARD, lport := 0 } else o8 := rfl
  clear_value o1 o2 o3 o4 o5 o6 o7 o8 o9
  have hfin : o9 = o' := by injection h
  subst hfin
  have f1 : o9.data = o.data := by
    simp only [h9, h8, h7, h6, h5, h4, h3, h2, h1, apply_ite RouteObj.data, ite_self]
  have f2 : o9.off = o.off := by
    simp only [h9, h8, h7, h6, h5, h4, h3, h2, h1, apply_ite RouteObj.off, ite_self]
  have f3 : o9.rbits = o.rbits := by
    simp only [h9, h8, h7, h6, h5, h4, h3, h2, h1, apply_ite RouteObj.rbits, ite_self]
  have f4 : o9.lbits = if w.getLsbD 4 = true then 0 else o.lbits := by
    simp only [h9, h8, h7, h6, h5, h4, h3, h2, h1, apply_ite RouteObj.lbits, ite_self]
  have hor : ∀ (b : Bool) (f g : Flags) (k : Nat), (if b = true then f ||| g else f).getLsbD k = (f.getLsbD k || (b && g.getLsbD k)) := by
    intro b f g k; cases b <;> simp
  refine ⟨?_, f3, ?_, f4, ?_, ?_, ?_, ?_, ?_, ?_, ?_⟩
  · show (o9.data.drop o9.off).take (bitsToBytes o9.rbits) = (o.data.drop o.off).take (bitsToBytes o.rbits)
    rw [f1, f2, f3]
  · show (o9.data.drop (o9.off + bitsToBytes o9.rbits)).take (bitsToBytes o9.lbits) = if w.getLsbD 4 = true then [] else (o.data.drop (o.off + bitsToBytes o.rbits)).take (bitsToBytes o.lbits)
    rw [f1, f2, f3, f4]
    split
    · rfl
    · rfl
  · show o9.family = _
    simp only [h9, h8, h7, h6, h5, h4, h3, h2, h1, apply_ite RouteObj.family, ite_self]; rfl
  · show o9.proto = _
    simp only [h9, h8, h7, h6, h5, h4, h3, h2, h1, apply_ite RouteObj.proto, ite_self]; rfl
  · show o9.lport = _
    simp only [h9, h8, h7, h6, h5, h4, h3, h2, h1, apply_ite RouteObj.lport, ite_self]; rfl
  · show o9.rport = _
    simp only [h9, h8, h7, h6, h5, h4, h3, h2, h1, apply_ite RouteObj.rport, ite_self]; rfl
  · show o9.riface = _
    simp only [h9, h8, h7, h6, h5, h4, h3, h2, h1, apply_ite RouteObj.riface, ite_self]; rfl
  · show o9.liface = _
    simp only [h9, h8, h7, h6, h5, h4, h3, h2, h1, apply_ite RouteObj.liface, ite_self]; rfl
  · intro k hk
    show o9.flags.getLsbD k = (o.flags.getLsbD k || _)
    rw [h9, apply_ite RouteObj.flags, hor, h8, apply_ite RouteObj.flags, hor, h7, apply_ite RouteObj.flags, hor, h6, apply_ite RouteObj.flags, hor, h5, h4,
      apply_ite RouteObj.flags, hor, h3, apply_ite RouteObj.flags, hor, h2, apply_ite RouteObj.flags, hor, h1, apply_ite RouteObj.flags, hor]
    rw [show RF.PARENT_EVENT_WILDCARD = bit 8 from rfl, show RF.REMOTE_INTERFACE_WILDCARD = bit 6 from rfl, show RF.LOCAL_INTERFACE_WILDCARD = bit 7 from rfl,
      show RF.SA_FAMILY_WILDCARD = bit 0 from rfl, show RF.SA_LOCAL_ADDR_WILDCARD = bit 4 from rfl, show RF.SA_PROTO_WILDCARD = bit 2 from rfl,
      show RF.SA_REMOTE_PORT_WILDCARD = bit 5 from rfl, show RF.SA_LOCAL_PORT_WILDCARD = bit 3 from rfl]
    simp only [bit_getLsbD _ _ (show 8 < 32 by omega), bit_getLsbD _ _ (show 6 < 32 by omega), bit_getLsbD _ _ (show 7 < 32 by omega), bit_getLsbD _ _ (show 0 < 32 by omega),
      bit_getLsbD _ _ (show 4 < 32 by omega), bit_getLsbD _ _ (show 2 < 32 by omega), bit_getLsbD _ _ (show 5 < 32 by omega), bit_getLsbD _ _ (show 3 < 32 by omega)]
    by_cases hk9 : k < 9
    · have : k = 0 ∨ k = 1 ∨ k = 2 ∨ k = 3 ∨ k = 4 ∨ k = 5 ∨ k = 6 ∨ k = 7 ∨ k = 8 := by omega
      rcases this with rfl | rfl | rfl | rfl | rfl | rfl | rfl | rfl | rfl <;> first | (rw [hw]; simp) | simp
    · have : k ≠ 0 ∧ k ≠ 2 ∧ k ≠ 3 ∧ k ≠ 4 ∧ k ≠ 5 ∧ k ≠ 6 ∧ k ≠ 7 ∧ k ≠ 8 := by omega
      obtain ⟨a0, a2, a3, a4, a5, a6, a7, a8⟩ := this
      simp [hk9, a0.symm, a2.symm, a3.symm, a4.symm, a5.symm, a6.symm, a7.symm, a8.symm]

/-- C67: a rule that is in a table is refused. -/
theorem C67_set_wildcard_refused_in_table (o : RouteObj) (w : Flags) :
    (o.view.flags.getLsbD 14 = true → setWildcard o w = .error .notPermitted) ∧
    (o.view.flags.getLsbD 14 = false → ∃ o', setWildcard o w = .ok o') := by
  have e : o.flags.has RF.IN_TABLE = o.flags.getLsbD 14 := has_of_bit (k := 14) rfl (by omega) _
  unfold setWildcard
  rw [e]
  constructor
  · intro h
    rw [if_pos (show o.flags.getLsbD 14 = true from h)]
  · intro h
    rw [if_neg (by rw [show o.flags.getLsbD 14 = false from h]; simp)]
    exact ⟨_, rfl⟩
example : setWildcard { objPadded with flags := bit 14 } (bit 3) = .error .notPermitted :=
  (C67_set_wildcard_refused_in_table _ _).1 (by decide)

/-- C67, finding: the wildcard for the remote address shortens the remote address to nothing, but the bytes
stay where they are: the local address then reads as the bytes of the old remote one. -/
theorem C67_finding_set_wildcard_moves_local :
    objPadded.view.loc.addr = [5, 6, 7, 8] ∧
    (setWildcard objPadded (bit 1)).map (fun o => o.view.loc.addr) = .ok [1, 2, 3, 4] := by
  decide

end WS.Props
