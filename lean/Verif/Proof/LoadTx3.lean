import Verif.Proof.LoadTx2
/-
Load transaction proofs, part 3: what the calls of a load on an inhibited context preserve.
-/
namespace WS.LT
open WS WS.Conf WS.Sax WS.Time WS.ConfNum

/-- An event whose label was there before, or that is inhibited if it has its own configuration. -/
def REv (old : List Byte → Prop) (e : Event) : Prop := old e.label ∨ ∀ c, e.config = some c → IBit c.flags

/-- Every event the context refers to. -/
structure Evs (R : Event → Prop) (c : Cx) : Prop where
  tbl : ∀ e ∈ c.events, R e
  rules : AllEv R c.routes
  dflt : ∀ e, c.routes.defaultEvent = some e → R e

/-- What a load on an inhibited context preserves. -/
structure IW (old : List Byte → Prop) (w0 w : World) : Prop where
  ran : w.ran = w0.ran
  inh : IBit w.cx.global.flags
  hpi : w.cx.hpi = w0.cx.hpi
  mkid : w.cx.mkIdCb = w0.cx.mkIdCb
  cfg0 : w.cx.config0 = w0.cx.config0
  acts : w.cx.actions = w0.cx.actions
  evs : Evs (REv old) w.cx

/-- A context with the same settings. -/
structure Same (c c' : Cx) : Prop where
  hpi : c'.hpi = c.hpi
  mkid : c'.mkIdCb = c.mkIdCb
  cfg0 : c'.config0 = c.config0
  acts : c'.actions = c.actions

theorem Same.rfl' (c : Cx) : Same c c := ⟨rfl, rfl, rfl, rfl⟩

variable {old : List Byte → Prop} {w0 w : World}

theorem IW.put (h : IW old w0 w) {c : Cx} (hs : Same w.cx c) (hi : IBit c.global.flags) (he : Evs (REv old) c) : IW old w0 { w with cx := c } :=
  ⟨h.ran, hi, hs.hpi.trans h.hpi, hs.mkid.trans h.mkid, hs.cfg0.trans h.cfg0, hs.acts.trans h.acts, he⟩

theorem event_mem {c : Cx} {l : List Byte} {e : Event} (h : c.event l = .ok e) : e ∈ c.events := by
  unfold Cx.event at h
  split at h
  · cases h
  · split at h
    · rename_i hf; injection h with h; subst h; exact List.mem_of_find?_eq_some hf
    · cases h

theorem Evs.setEvent {R : Event → Prop} {c : Cx} (h : Evs R c) {e : Event} (he : R e) : Evs R (c.setEvent e) := by
  have up : ∀ x, R x → R (if x.label == e.label then e else x) := by
    intro x hx; split
    · exact he
    · exact hx
  refine ⟨?_, ?_, ?_⟩
  · intro x hx
    obtain ⟨y, hy, rfl⟩ := List.mem_map.1 hx
    exact up y (h.tbl y hy)
  · intro x hx ev hev
    obtain ⟨y, hy, rfl⟩ := List.mem_map.1 hx
    obtain ⟨z, hz, rfl⟩ := Option.map_eq_some_iff.1 hev
    exact up z (h.rules y hy z hz)
  · intro x hx
    have hx' : (if c.dfltStale then c.routes.defaultEvent else c.routes.defaultEvent.map (fun x => if x.label == e.label then e else x)) = some x := hx
    split at hx'
    · exact h.dflt x hx'
    · obtain ⟨z, hz, rfl⟩ := Option.map_eq_some_iff.1 hx'
      exact up z (h.dflt z hz)

theorem mem_eventSplice {e : Event} {l l' : List Event} (h : eventSplice e l = some l') : ∀ x ∈ l', x = e ∨ x ∈ l := by
  induction l generalizing l' with
  | nil => injection h with h; subst h; intro x hx; left; simpa using hx
  | cons y l ih =>
    unfold eventSplice at h
    split at h
    · obtain ⟨l2, h2, rfl⟩ := Option.map_eq_some_iff.1 h
      intro x hx
      rcases List.mem_cons.1 hx with rfl | hx
      · right; simp
      · rcases ih h2 x hx with h | h
        · exact .inl h
        · right; simp [h]
    · cases h
    · injection h with h; subst h
      intro x hx
      rcases List.mem_cons.1 hx with rfl | hx
      · left; rfl
      · right; exact hx

theorem allocId_cx (H : Host) (c : Cx) : ∃ s, (H.allocId c).2 = { c with idState := s } := by
  unfold Host.allocId
  split
  · exact ⟨c.idState, rfl⟩
  · rename_i s _; exact ⟨s, rfl⟩

theorem pad_flags (p : Plat) (c : EventConfig) : (ofCfg (cfgPad p (toCfg c)).config).flags = c.flags := by
  unfold cfgPad
  grind [toCfg, ofCfg]

theorem newEventCfg_inh {p : Plat} {conf : Option EventConfig} {i : Option CfgInt} (hc : ∀ c, conf = some c → IBit c.flags)
    (h : newEventCfg p (conf.map toCfg) = .ok i) : ∀ c, i.map (fun i => ofCfg i.config) = some c → IBit c.flags := by
  intro c hi
  obtain ⟨j, rfl, rfl⟩ := Option.map_eq_some_iff.1 hi
  cases conf with
  | none => cases h
  | some c =>
    have := hc c rfl
    simp only [Option.map_some, newEventCfg, cfgLoad] at h
    cases hk : cfgCheck p (toCfg c) with
    | error e => rw [hk] at h; cases h
    | ok u =>
      rw [hk] at h
      injection h with h; injection h with h; subst h
      have e : (ofCfg (cfgPad p (toCfg c)).config).flags = c.flags := pad_flags p c
      rw [e]; exact this

/-- Everything `IW` says about the context part of a call's result. -/
def CxOk (old : List Byte → Prop) (c c' : Cx) : Prop := Same c c' ∧ IBit c'.global.flags ∧ Evs (REv old) c'

theorem CxOk.refl {c : Cx} (hi : IBit c.global.flags) (he : Evs (REv old) c) : CxOk old c c := ⟨.rfl' c, hi, he⟩

theorem eventInsert_ok (H : Host) {c : Cx} (hi : IBit c.global.flags) (he : Evs (REv old) c) {l : List Byte} {prio : Nat} {conf : Option EventConfig}
    (hc : ∀ x, conf = some x → IBit x.flags) : CxOk old c (eventInsertC H c l prio conf).1 := by
  unfold eventInsertC
  split
  · exact .refl hi he
  · split
    · exact .refl hi he
    · split
      · exact .refl hi he
      · rename_i i hn
        have hx := allocId_cx H c
        split
        · rename_i e c' ha; rw [ha] at hx; obtain ⟨s, rfl⟩ := hx
          exact ⟨⟨rfl, rfl, rfl, rfl⟩, hi, ⟨he.tbl, he.rules, he.dflt⟩⟩
        · rename_i e c' ha; rw [ha] at hx; obtain ⟨s, rfl⟩ := hx
          split
          · exact ⟨⟨rfl, rfl, rfl, rfl⟩, hi, ⟨he.tbl, he.rules, he.dflt⟩⟩
          · rename_i es hs
            refine ⟨⟨rfl, rfl, rfl, rfl⟩, hi, ⟨?_, he.rules, he.dflt⟩⟩
            intro x hxm
            rcases mem_eventSplice hs x hxm with rfl | hxm
            · exact .inr (newEventCfg_inh hc hn)
            · exact he.tbl x hxm

theorem appendAction_R {e e' : Event} {t : ActionType} {a : Nat} (h : appendAction e t a = .ok e') (he : REv old e) : REv old e' := by
  unfold appendAction at h
  split at h
  · cases h
  · injection h with h
    subst h
    cases t <;> exact he

theorem actionAppend_ok {c : Cx} (hi : IBit c.global.flags) (he : Evs (REv old) c) {l al : List Byte} {t : ActionType} :
    CxOk old c (actionAppendC c l t al).1 := by
  unfold actionAppendC
  split
  · exact .refl hi he
  · rename_i ev hev
    split
    · exact .refl hi he
    · split
      · exact .refl hi he
      · split
        · exact .refl hi he
        · rename_i ev' ha
          exact ⟨⟨rfl, rfl, rfl, rfl⟩, hi, he.setEvent (appendAction_R ha (he.tbl _ (event_mem hev)))⟩

theorem CxOk.trans {a b c : Cx} (h1 : CxOk old a b) (h2 : CxOk old b c) : CxOk old a c :=
  ⟨⟨h2.1.hpi.trans h1.1.hpi, h2.1.mkid.trans h1.1.mkid, h2.1.cfg0.trans h1.1.cfg0, h2.1.acts.trans h1.1.acts⟩, h2.2⟩

theorem copyLoop_ok {l : List Byte} {t : ActionType} (as : List Nat) : ∀ {c : Cx}, IBit c.global.flags → Evs (REv old) c →
    CxOk old c (copyLoop l t as c).1 := by
  induction as with
  | nil => intro c hi he; exact .refl hi he
  | cons a as ih =>
    intro c hi he
    unfold copyLoop
    split
    · exact .refl hi he
    · rename_i x _
      have h1 := actionAppend_ok (l := l) (t := t) (al := x.1) hi he
      split
      · rename_i c' e hc; rw [hc] at h1; exact h1
      · rename_i c' hc; rw [hc] at h1; exact h1.trans (ih h1.2.1 h1.2.2)

theorem routeNew_event {ev : Option Event} {r l : SockAddr} {f : Flags} {r0 : Route} (h : routeNewForInsert ev r l f = .ok r0) :
    r0.event = ev := by
  unfold routeNewForInsert at h
  grind [routeInit]

theorem insert1_dflt {g : EventConfig} {A : RuleActs} {T : RouteTable} {r0 : Route} {now : Except Err Int} {id : Except Err Nat} {a : Flags} {res : InsRes}
    (h : insert1 g A T r0 now id a = some res) : res.T.defaultEvent = T.defaultEvent := by
  have hc : ∀ T r, (insertCommit g A T r id a).T.defaultEvent = T.defaultEvent := by
    intro T r
    unfold insertCommit RouteTable.noteInserted RouteTable.setExpiry RouteTable.update RouteTable.purgeInsert RouteTable.purgeRemove
    grind
  unfold insert1 at h
  split at h
  · split at h <;> (injection h with h; rw [← h])
  · rename_i t
    split at h
    · injection h with h; rw [← h]
    · rename_i r hp
      have he : ∀ x, insertEvict g A t T r = some x → x.1.defaultEvent = T.defaultEvent := by
        intro x hx
        unfold insertEvict at hx
        split at hx
        · obtain ⟨y, hy, rfl⟩ := Option.map_eq_some_iff.1 hx
          exact stalePurge_inv (fun T' => T'.defaultEvent = T.defaultEvent) (fun T' r h _ => h) rfl hy
        · injection hx with hx; rw [← hx]
      split at h
      · cases h
      · rename_i hx; injection h with h; rw [← h]; exact he _ hx
      · rename_i hx; injection h with h; rw [← h]; rw [hc]; exact he _ hx

theorem routeInsert_ok (H : Host) (h : IW old w0 w) (remote loc : Sa) (flags : Flags) (l : List Byte) :
    IW old w0 (routeInsertC H w remote loc flags l).1 := by
  unfold routeInsertC
  simp only
  split
  · exact h
  · rename_i ev hev
    split
    · exact h
    · rename_i r0 hr
      split
      · exact h
      · rename_i res hres
        obtain ⟨s, hs⟩ := allocId_cx H w.cx
        have hRev : ∀ e, r0.event = some e → REv old e := by
          intro e he
          rw [routeNew_event hr] at he
          subst he
          split at hev
          · cases hev
          · cases hc : w.cx.event l with
            | error e' => rw [hc] at hev; cases hev
            | ok e' =>
              rw [hc] at hev
              injection hev with hev; injection hev with hev; subst hev
              exact h.evs.tbl _ (event_mem hc)
        rw [hs]
        rw [insertRuns_inh h.inh, List.append_nil]
        exact h.put (c := { w.cx with idState := s, routes := res.T }) ⟨rfl, rfl, rfl, rfl⟩ h.inh
          ⟨h.evs.tbl, AllEv.insert h.inh h.evs.rules H.acts hRev _ _ _ res hres, by
            intro e he; exact h.evs.dflt e (by rw [← insert1_dflt hres]; exact he)⟩

theorem maxPurgeable_ok (H : Host) (h : IW old w0 w) (n : Nat) : IW old w0 (maxPurgeableC H w n).1 := by
  unfold maxPurgeableC
  simp only
  split
  · exact h.put (c := { w.cx with routes := { w.cx.routes with maxPurgeableRoutes := n } }) ⟨rfl, rfl, rfl, rfl⟩ h.inh ⟨h.evs.tbl, h.evs.rules, h.evs.dflt⟩
  · split
    · exact h
    · rename_i T res hm
      have hd : T.defaultEvent = w.cx.routes.defaultEvent := by
        unfold maxPurgeableSet at hm
        simp only at hm
        split at hm
        · obtain ⟨y, hy, e⟩ := Option.map_eq_some_iff.1 hm
          have := stalePurge_inv (fun T' => T'.defaultEvent = w.cx.routes.defaultEvent) (fun T' r h _ => h)
            (T := { w.cx.routes with maxPurgeableRoutes := n }) rfl hy
          injection e with e1 e2
          rw [← e1]; exact this
        · injection hm with hm; injection hm with e1 e2; rw [← e1]
      have hp : ∀ (x : List Ran), x = [] → IW old w0 { w with cx := { w.cx with routes := T }, ran := w.ran ++ x } := by
        intro x hx; subst hx
        rw [List.append_nil]
        exact h.put (c := { w.cx with routes := T }) ⟨rfl, rfl, rfl, rfl⟩ h.inh
          ⟨h.evs.tbl, AllEv.maxPurgeable h.evs.rules H.acts _ _ _ _ hm, by intro e he; exact h.evs.dflt e (by rw [← hd]; exact he)⟩
      apply hp
      split
      · split
        · rfl
        · split
          · rfl
          · exact purgeRuns_inh h.inh _ _ _ _ _ _
      · rfl

theorem libCall_inh (H : Host) (call : Call) (hc : ICall call) (h : IW old w0 w) : IW old w0 (libCall H w call).1 := by
  unfold libCall
  have ht : IW old w0 { w with tick := w.tick + 1 } := ⟨h.ran, h.inh, h.hpi, h.mkid, h.cfg0, h.acts, h.evs⟩
  have put : ∀ {x : Cx × Option Err}, CxOk old w.cx x.1 → IW old w0 { w with cx := x.1, tick := w.tick + 1 } := by
    intro x hx
    exact ht.put hx.1 hx.2.1 hx.2.2
  simp only
  cases call with
  | defaultConfigUpdate conf =>
    refine put ?_
    unfold cfgUpdate
    simp only
    cases cfgCheck H.plat (toCfg conf) with
    | error e => exact .refl h.inh h.evs
    | ok u => exact ⟨⟨rfl, rfl, rfl, rfl⟩, hc, ⟨h.evs.tbl, h.evs.rules, h.evs.dflt⟩⟩
  | defaultPolicySet p =>
    refine put ?_
    unfold WS.defaultPolicySet
    split
    · exact .refl h.inh h.evs
    · rename_i hT
      split at hT
      · cases hT
      · injection hT with hT; subst hT
        exact ⟨⟨rfl, rfl, rfl, rfl⟩, h.inh, ⟨h.evs.tbl, h.evs.rules, h.evs.dflt⟩⟩
  | maxPurgeableRoutes n => exact maxPurgeable_ok H ht n
  | maxPurgeableIdleTime t =>
    refine put (x := (_, none)) ?_
    exact ⟨⟨rfl, rfl, rfl, rfl⟩, h.inh, ⟨h.evs.tbl, h.evs.rules, h.evs.dflt⟩⟩
  | setDefaultEvent l =>
    refine put ?_
    split
    · exact .refl h.inh h.evs
    · rename_i e he
      exact ⟨⟨rfl, rfl, rfl, rfl⟩, h.inh, ⟨h.evs.tbl, h.evs.rules, by
        intro x hx; injection hx with hx; subst hx; exact h.evs.tbl _ (event_mem he)⟩⟩
  | routeInsert remote loc flags l => exact routeInsert_ok H ht remote loc flags l
  | eventInsert l prio conf =>
    refine put (eventInsert_ok H h.inh h.evs ?_)
    intro x hx; subst hx; exact hc
  | eventUpdateConfig l conf =>
    refine put ?_
    split
    · exact .refl h.inh h.evs
    · rename_i ev hev
      unfold cfgLoad
      simp only
      cases cfgCheck H.plat (toCfg conf) with
      | error e => exact .refl h.inh h.evs
      | ok u =>
        refine ⟨⟨rfl, rfl, rfl, rfl⟩, h.inh, h.evs.setEvent (.inr ?_)⟩
        intro c hcc
        injection hcc with hcc; subst hcc
        have e := pad_flags H.plat conf
        rw [e]; exact hc
  | setAuxEvent l aux =>
    refine put ?_
    split
    · exact .refl h.inh h.evs
    · split
      · exact .refl h.inh h.evs
      · exact .refl h.inh h.evs
  | actionAppend l t al => exact put (actionAppend_ok h.inh h.evs)
  | copyActions l t src =>
    refine put ?_
    split
    · exact .refl h.inh h.evs
    · exact copyLoop_ok _ h.inh h.evs
  | store k v =>
    refine put ?_
    split
    · exact .refl h.inh h.evs
    · exact ⟨⟨rfl, rfl, rfl, rfl⟩, h.inh, ⟨h.evs.tbl, h.evs.rules, h.evs.dflt⟩⟩

end WS.LT
