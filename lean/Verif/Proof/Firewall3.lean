import Verif.Proof.Firewall2
import Verif.Props.Loaded
/-
The rules a configuration loads are tidy, and nothing has been charged to them.
-/
namespace WS.Fw
open WS WS.Conf WS.Spec WS.Spec.Load WS.Spec.Ld WS.Spec.Fw WS.LT WS.Ld WS.Props WS.Sax WS.Spec.LT

variable {issued : Nat → Nat → Prop} {old : List Nat}

/-- Prefixes of whole half-bytes are followed by zeros. -/
def Neat (s : Seen) : Prop := (s.remote.bits % 4 = 0 → Spec.Fw.Tidy s.remote) ∧ (s.loc.bits % 4 = 0 → Spec.Fw.Tidy s.loc)

theorem tidy_blanked {e e0 : Endpoint} {b : Bool} (ha : e.addr = blanked b e0.addr) (hb : e.bits = e0.bits) (h : Spec.Fw.Tidy e0) : Spec.Fw.Tidy e := by
  unfold blanked at ha
  intro i h1 h2
  rw [ha]
  cases b
  · rw [ha] at h2; exact h i (by rw [← hb]; exact h1) h2
  · rw [if_pos rfl]
    unfold addrBit
    have : (List.replicate e0.addr.length (0 : Byte)).getD (i / 8) 0 = 0 := by
      rw [List.getD_eq_getElem?_getD, List.getElem?_replicate]; split <;> rfl
    rw [this]; simp

theorem tidy_whole {e : Endpoint} (hw : e.WF) (h : e.bits % 8 = 0) : Spec.Fw.Tidy e := by
  intro i h1 h2
  unfold Endpoint.WF at hw
  rw [bitsToBytes_eq] at hw
  omega

theorem created_tidy {ev : Option Event} {r l : SockAddr} {f : Flags} {r0 : Route} (h : routeNewForInsert ev r l f = .ok r0) (hr : r.ep.WF) (hl : l.ep.WF) :
    (r0.remote.bits % 4 = 0 → Spec.Fw.Tidy r0.remote) ∧ (r0.loc.bits % 4 = 0 → Spec.Fw.Tidy r0.loc) := by
  have hw := (routeNew_ok h hr hl).1
  unfold routeNewForInsert at h
  split at h
  · cases h
  have hc := C13_created_fields ev r l f r0 h
  have hok : CreateOK r l f := by
    rcases routeInit_cases ev r l f with ⟨h1, _⟩ | ⟨_, _, h2⟩ | ⟨_, _, h2⟩
    · exact h1
    · rw [h2] at h; cases h
    · rw [h2] at h; cases h
  refine ⟨fun h4 => ?_, fun h4 => ?_⟩
  · rw [hc.2.2.2.2.2.1] at h4
    cases hm : f.getLsbD 12
    · intro i h1 h2
      rw [hc.2.2.2.2.2.1] at h1
      by_cases hi : i < 8 * r.ep.addr.length
      · rw [(C13_padding_partial ev r l f r0 h hr hm h4 i hi).2, if_neg (by omega)]
      · have hlen : r0.remote.addr.length = r.ep.addr.length := by
          have h5 := hw.1; unfold Endpoint.WF at h5 hr; rw [h5, hr, hc.2.2.2.2.2.1]
        omega
    · exact tidy_whole hw.1 (by rw [hc.2.2.2.2.2.1]; have := hok.remoteMask hm; omega)
  · rw [hc.2.2.2.2.2.2.2.2.1] at h4
    cases hm : f.getLsbD 13
    · intro i h1 h2
      rw [hc.2.2.2.2.2.2.2.2.1] at h1
      by_cases hi : i < 8 * l.ep.addr.length
      · rw [(C13_padding_local_partial ev r l f r0 h hl hm h4 i hi).2, if_neg (by omega)]
      · have hlen : r0.loc.addr.length = l.ep.addr.length := by
          have h5 := hw.2; unfold Endpoint.WF at h5 hl; rw [h5, hl, hc.2.2.2.2.2.2.2.2.1]
        omega
    · exact tidy_whole hw.2 (by rw [hc.2.2.2.2.2.2.2.2.1]; have := hok.localMask hm; omega)

theorem asked_neat {v : View} {remote loc : Sa} {flags : Flags} {l : List Byte} {s : Seen} (hf : Fits (.routeInsert remote loc flags l))
    (h : AskedFor v remote loc flags l s) : Neat s := by
  obtain ⟨ev, r0, r, t, _, h0, hs, rfl⟩ := h
  obtain ⟨h1, h2⟩ := created_tidy h0 hf.1 hf.2
  refine ⟨fun h4 => tidy_blanked hs.remoteAddr hs.remoteBits (h1 ?_), fun h4 => tidy_blanked hs.localAddr hs.localBits (h2 ?_)⟩
  · rw [← hs.remoteBits]; exact h4
  · rw [← hs.localBits]; exact h4

theorem does_neat {store : List (List Byte × UserValue) → List Byte → UserValue → Except Err (List (List Byte × UserValue))} {k : Call} {v v' : View}
    (hf : Fits k) (h : Does store k v v') (hN : ∀ s ∈ v.rules, Neat s) : ∀ s ∈ v'.rules, Neat s := by
  cases h with
  | config => exact hN
  | policy => exact hN
  | idle => exact hN
  | dflt _ => exact hN
  | event _ _ => exact hN
  | eventConfig _ _ => exact hN
  | aux _ _ => exact hN
  | action _ _ _ => exact hN
  | copy _ _ _ _ => exact hN
  | copyNone _ _ => exact hN
  | store _ => exact hN
  | limit hs _ _ => exact fun s h => hN s (hs.subset h)
  | @rule _ remote loc flags l s kept rules ha hroom hent =>
    have hk : ∀ x ∈ kept, Neat x := by
      cases hroom with
      | enough _ => exact hN
      | evicted _ _ _ _ _ _ hs => exact fun x hx => hN x (hs.subset hx)
    have hs := asked_neat hf ha
    intro x hx
    cases hent with
    | new _ hp =>
      rcases List.mem_cons.1 (hp.mem_iff.1 hx) with rfl | hx
      · exact hs
      · exact hk x hx
    | @revived z rest _ hp _ _ hp' =>
      rcases List.mem_cons.1 (hp'.mem_iff.1 hx) with rfl | hx
      · exact hk z (hp.mem_iff.2 (List.mem_cons_self ..))
      · exact hk x (hp.mem_iff.2 (List.mem_cons_of_mem _ hx))

theorem done_neat {store : List (List Byte × UserValue) → List Byte → UserValue → Except Err (List (List Byte × UserValue))} {cs : List Call} {v v' : View}
    (h : Done store cs v v') : (∀ k ∈ cs, Fits k) → (∀ s ∈ v.rules, Neat s) → ∀ s ∈ v'.rules, Neat s := by
  induction h with
  | nil v => exact fun _ h => h
  | cons hd _ ih => exact fun hf hN => ih (fun k hk => hf k (List.mem_cons_of_mem _ hk)) (does_neat (hf _ (List.mem_cons_self ..)) hd hN)

/-! ### Nothing charged -/

/-- Handlers that leave the counts of a rule alone. -/
def Still (A : RuleActs) : Prop := ∀ t i r a, (A.handler t i r a).1.data = r.data

theorem runActions_data {A : RuleActs} (hA : Still A) (ty : ActionType) (l : List Nat) (r : Route) (a : Flags) :
    (runActions A.env ty l r a).st.data = r.data := by
  induction l generalizing r a with
  | nil => rfl
  | cons i rest ih =>
    unfold runActions
    have he : A.env.enter r i = r := by unfold ActEnv.enter RuleActs.env; simp
    split
    · exact ih r a
    · have h1 : (A.env.handler ty i (A.env.enter r i) a).1.data = r.data := by rw [he]; exact hA ty i r a
      simp only
      split
      · exact h1
      · split
        · exact h1
        · exact (ih _ _).trans h1

theorem insertActions_data {A : RuleActs} (hA : Still A) (g : EventConfig) (r : Route) (a : Flags) : (insertActions g A r a).st.data = r.data := by
  unfold insertActions
  cases r.event with
  | none => rfl
  | some e =>
    simp only
    split
    · unfold listDispatch
      split
      · rfl
      · simp only
        split
        · rfl
        · split
          · rfl
          · rw [runActions_data hA]; rfl
    · rfl

theorem commit_data {g : EventConfig} {A : RuleActs} (hA : Still A) {T : RouteTable} {r : Route} {newId : Except Err Nat} {a : Flags}
    (h : (insertCommit g A T r newId a).res = .ok .inserted) : (insertCommit g A T r newId a).rule.data = r.data := by
  unfold insertCommit at h ⊢
  split
  · rename_i e; simp only at h; cases h
  · rename_i id'
    simp only at h ⊢
    split
    · rename_i hsp
      rw [hsp] at h
      simp only at h
      split at h
      · cases h
      · split at h <;> cases h
    · rename_i ents hsp
      rw [hsp] at h
      simp only at h
      split
      · rename_i e he
        rw [he] at h
        cases h
      · rename_i afs he
        rw [he] at h
        simp only at h
        have hs := insertActions_data hA g (enterTable r id') (a ||| AR.INSERTED)
        split
        · exact hs
        · rename_i e2 he2
          rw [he2] at h
          cases h

def AllFresh (T : RouteTable) : Prop := ∀ r ∈ T.ents, Unused r

theorem insert_fresh {H : Host} (hM : Mild H.acts) (hS : Still H.acts) {T : RouteTable} {g : EventConfig} (hT : TableInv T) (hF : AllFresh T)
    {r0 : Route} (hwf : r0.WF) (h0 : r0.data = {}) {now : Except Err Int} {newId : Except Err Nat} (hid : FreshId T newId) {res : InsRes}
    (h : insert1 g H.acts T r0 now newId 0 = some res) {x : InsOk} (hok : res.res = .ok x) : AllFresh res.T := by
  rcases Props.insert1_cases hT hid h with ⟨_, e, he⟩ | ⟨T1, t, r, hnow, hp, hT1, hid1, hres, hcase⟩
  · rw [he] at hok; cases hok
  have hsub : ∀ y ∈ T1.ents, y ∈ T.ents := by
    rcases hcase with ⟨rfl, _⟩ | ⟨v, hv, _, rfl, _⟩
    · exact fun y hy => hy
    · exact fun y hy => ((removeRule_mem hT.core.ids hv y).1 hy).1
  have hrw := (insertPrepare_ok hp hwf).1
  subst hres
  rcases insertCommit_cases g H.acts hM.1 T1 hT1.core.sorted r hrw newId hid1 0 with
    ⟨_, ⟨e, he⟩, _, _⟩ | ⟨old, ho, hcmp, hpd, _, _, hTeq⟩ | ⟨id, ents, afs, st, hni, hk, hsp, haf, hins, _, hrule, hTeq⟩ | ⟨_, e, he⟩
  · rw [he] at hok; cases hok
  · intro y hy
    rw [hTeq, setExpiry_ents] at hy
    unfold RouteTable.update at hy
    simp only [List.map_map] at hy
    obtain ⟨z, hz, rfl⟩ := List.mem_map.1 hy
    have hzF := hF z (hsub z hz)
    have hoF := hF old (hsub old ho)
    simp only [Function.comp]
    unfold Unused at *
    split <;> split <;> simp_all [withExpiry]
  · intro y hy
    rw [hTeq, (insertedTable_ents _ _ _ _).1] at hy
    rcases List.mem_cons.1 ((routeSplice_perm hsp).mem_iff.1 hy) with rfl | hy
    · have hst := Props.prepared_stored hp 0
      have hd : y.data = r.data := by rw [← hrule]; exact commit_data hS hins
      have h1 := hst.connections
      have h2 := hst.derogatory
      have h3 := hst.lastBoxed
      have h4 := hst.commendable
      rw [h0] at h1 h2 h3 h4
      unfold Unused
      rw [hd]
      refine ⟨h1.trans ?_, h2.trans ?_, h3, h4.trans ?_⟩
      · simp [Bumped]
      · simp [Bumped]
      · simp [Bumped]
    · exact hF y (hsub y hy)
  · rw [he] at hok; cases hok

theorem allFresh_data {T T' : RouteTable} (h : T'.ents.map (·.data) = T.ents.map (·.data)) (hF : AllFresh T) : AllFresh T' := by
  intro r hr
  have : r.data ∈ T.ents.map (·.data) := by rw [← h]; exact List.mem_map.2 ⟨r, hr, rfl⟩
  obtain ⟨r', hr', e⟩ := List.mem_map.1 this
  have := hF r' hr'
  unfold Unused at *
  rw [← e]; exact this

theorem setEvent_data (c : Cx) (e : Event) : (c.setEvent e).routes.ents.map (·.data) = c.routes.ents.map (·.data) := by
  unfold Cx.setEvent
  simp only [List.map_map]
  apply List.map_congr_left
  intro r _
  rfl

theorem actionAppend_data (c : Cx) (l : List Byte) (t : ActionType) (al : List Byte) :
    (actionAppendC c l t al).1.routes.ents.map (·.data) = c.routes.ents.map (·.data) := by
  unfold actionAppendC
  split
  · rfl
  split
  · rfl
  split
  · rfl
  split
  · rfl
  · exact setEvent_data _ _

theorem copyLoop_data (l : List Byte) (t : ActionType) : ∀ (as : List Nat) (c : Cx), (copyLoop l t as c).1.routes.ents.map (·.data) = c.routes.ents.map (·.data) := by
  intro as
  induction as with
  | nil => intro c; rfl
  | cons a rest ih =>
    intro c
    unfold copyLoop
    grind [setEvent_data, actionAppend_data]

theorem eventInsert_data (H : Host) (c : Cx) (l : List Byte) (n : Nat) (conf : Option EventConfig) :
    (eventInsertC H c l n conf).1.routes = c.routes := by
  have ha : (H.allocId c).2.routes = c.routes := by unfold Host.allocId; split <;> rfl
  unfold eventInsertC
  split
  · rfl
  split
  · rfl
  split
  · rfl
  generalize H.allocId c = x at ha
  obtain ⟨x1, x2⟩ := x
  cases x1 with
  | error e => exact ha
  | ok i =>
    simp only
    split <;> exact ha

theorem limit_fresh {H : Host} {w w' : LT.World} (hG : Good issued old w.cx) (hF : AllFresh w.cx.routes) {n : Nat} (h : maxPurgeableC H w n = (w', none)) :
    AllFresh w'.cx.routes := by
  obtain ⟨_, hd⟩ := limit_does hG h
  unfold maxPurgeableC at h
  simp only at h
  split at h
  · injection h with h _
    subst h
    exact hF
  · rename_i now _
    split at h
    · cases h
    rename_i T res hset
    injection h with hw herr
    subst hw
    unfold maxPurgeableSet at hset
    simp only at hset
    split at hset
    · cases hp : stalePurge w.cx.global H.acts .all now (2 * w.cx.routes.purgeList.length + 2) { w.cx.routes with maxPurgeableRoutes := n } 0 with
      | none => rw [hp] at hset; cases hset
      | some x =>
        rw [hp] at hset
        injection hset with hset
        injection hset with hT _
        have h0 : Purged now { w.cx.routes with maxPurgeableRoutes := n } { w.cx.routes with maxPurgeableRoutes := n } :=
          ⟨⟨hG.table.core.congr rfl rfl rfl rfl, hG.table.purge.congr rfl rfl⟩, hG.queue.congr rfl rfl, List.Sublist.refl _, rfl, .refl _⟩
        have hx : Purged now { w.cx.routes with maxPurgeableRoutes := n } x.1 := by
          unfold stalePurge at hp
          split at hp
          · cases hp; exact h0
          · split at hp
            · cases hp; exact h0
            · split at hp
              · cases hp
              · rename_i T2 a2 n2 hl
                cases hp
                exact purgeLoop_purged _ _ _ _ h0 _ hl
        rw [hT] at hx
        exact fun r hr => hF r (hx.sub.subset hr)
    · injection hset with hset
      injection hset with hT _
      show AllFresh T
      rw [← hT]; exact hF

theorem routeInsert_fresh {H : Host} (hM : Mild H.acts) (hS : Still H.acts) (hI : Issues H issued) {w w' : LT.World} (hG : Good issued old w.cx)
    (hF : AllFresh w.cx.routes) {remote loc : Sa} {flags : Flags}
    {l : List Byte} (hf : Fits (.routeInsert remote loc flags l)) (h : routeInsertC H w remote loc flags l = (w', none)) : AllFresh w'.cx.routes := by
  unfold routeInsertC at h
  simp only at h
  split at h
  · cases h
  rename_i ev hevr
  split at h
  · cases h
  rename_i r0 hr0
  obtain ⟨hwf, hr0e⟩ := routeNew_ok hr0 hf.1 hf.2
  have hd : r0.data = {} := by
    unfold routeNewForInsert at hr0
    split at hr0
    · cases hr0
    · exact (C13_created_fields _ _ _ _ _ hr0).2.2.2.2.2.2.2.2.2.2
  have hfresh : FreshId w.cx.routes (H.allocId w.cx).1 := by
    intro i hi
    unfold Host.allocId at hi
    split at hi
    · cases hi
    · rename_i i' s hs
      injection hi with hi
      subst hi
      obtain ⟨h1, h2, _, _⟩ := hI _ _ _ hs
      exact ⟨h1, fun r hr hc => h2 (by rw [← hc]; exact (hG.ids r hr).1)⟩
  split at h
  · cases h
  rename_i res hres
  injection h with hw herr
  subst hw
  cases hx : res.res with
  | error e => rw [hx] at herr; cases herr
  | ok x =>
    show AllFresh res.T
    exact insert_fresh hM hS hG.table hF hwf hd hfresh hres hx

theorem libCall_fresh {H : Host} (hM : Mild H.acts) (hS : Still H.acts) (hI : Issues H issued) {w w' : LT.World} (hG : Good issued old w.cx)
    (hF : AllFresh w.cx.routes) {k : Call} (hf : Fits k) (h : libCall H w k = (w', none)) : AllFresh w'.cx.routes := by
  unfold libCall at h
  simp only at h
  cases k with
  | maxPurgeableRoutes n => exact limit_fresh (w := { w with tick := w.tick + 1 }) hG hF h
  | routeInsert remote loc flags l => exact routeInsert_fresh (w := { w with tick := w.tick + 1 }) hM hS hI hG hF hf h
  | defaultConfigUpdate conf =>
    simp only at h
    injection h with hw hr
    subst hw
    refine allFresh_data ?_ hF
    simp only
    split <;> rfl
  | defaultPolicySet p =>
    simp only at h
    injection h with hw hr
    subst hw
    refine allFresh_data ?_ hF
    simp only
    split
    · rfl
    · rename_i T hT
      have : T = { w.cx.routes with defaultPolicy := p } := by
        unfold defaultPolicySet at hT; grind
      rw [this]
  | maxPurgeableIdleTime t =>
    simp only at h
    injection h with hw hr
    subst hw
    exact hF
  | setDefaultEvent l =>
    simp only at h
    injection h with hw hr
    subst hw
    refine allFresh_data ?_ hF
    simp only
    split <;> rfl
  | eventInsert l prio conf =>
    simp only at h
    injection h with hw hr
    subst hw
    refine allFresh_data ?_ hF
    simp only [eventInsert_data]
  | eventUpdateConfig l conf =>
    simp only at h
    injection h with hw hr
    subst hw
    refine allFresh_data ?_ hF
    simp only
    split
    · rfl
    · split
      · rfl
      · exact setEvent_data _ _
  | setAuxEvent l aux =>
    simp only at h
    injection h with hw hr
    subst hw
    refine allFresh_data ?_ hF
    simp only
    split
    · rfl
    · split <;> rfl
  | actionAppend l t al =>
    simp only at h
    injection h with hw hr
    subst hw
    exact allFresh_data (actionAppend_data _ _ _ _) hF
  | copyActions l t src =>
    simp only at h
    injection h with hw hr
    subst hw
    refine allFresh_data ?_ hF
    simp only
    split
    · rfl
    · exact copyLoop_data _ _ _ _
  | store k v =>
    simp only at h
    injection h with hw hr
    subst hw
    refine allFresh_data ?_ hF
    simp only
    split <;> rfl

theorem made_fresh {H : Host} (hM : Mild H.acts) (hS : Still H.acts) (hI : Issues H issued) {cs : List Call} {w w' : LT.World} (h : Made H.env cs w w') :
    (∀ c ∈ cs, Fits c) → Good issued old w.cx → AllFresh w.cx.routes → AllFresh w'.cx.routes := by
  induction h with
  | nil a => exact fun _ _ h => h
  | cons h1 _ ih =>
    intro hf hG hF
    have hk := hf _ (List.mem_cons_self ..)
    exact ih (fun c hc => hf c (List.mem_cons_of_mem _ hc)) (libCall_does hM hI hG hk h1).1 (libCall_fresh hM hS hI hG hF hk h1)
  | refused h1 _ ih =>
    have := refused_store h1
    intro hf hG hF
    exact ih hf (by rw [this]; exact hG) (by rw [this]; exact hF)

theorem bulk_data {g : EventConfig} {A : RuleActs} (hA : Still A) : ∀ (l : List Route) (a : Flags), (bulkInsertLoop g A l a).1.map (·.data) = l.map (·.data) := by
  intro l
  induction l with
  | nil => intro a; rfl
  | cons r l ih =>
    intro a
    have hs := insertActions_data hA g r a
    unfold bulkInsertLoop
    simp only
    split
    · split
      · rw [List.map_cons, List.map_cons, hs, ih]
      · rw [List.map_cons, List.map_cons, hs]
    · rw [List.map_cons, List.map_cons, hs, ih]

theorem commit_fresh {H : Host} (hS : Still H.acts) {f : LoadFlags} (hn : f.noFlush = false) {a L : Cx}
    (hG : Good issued (a.routes.ents.map (·.id)) L) (hF : AllFresh L.routes) :
    AllFresh (bulkInsertActions (preCommit f a L).global H.acts (preCommit f a L).routes 0).1 := by
  have hcm : copyMetadata a.routes L.routes = L.routes := by
    unfold copyMetadata
    rw [copyMeta_none _ _ (fun x hx y hy he => (hG.ids y hy).2 (by rw [← he]; exact List.mem_map.2 ⟨x, hx, rfl⟩))]
  have hst : (preCommit f a L).routes = bulkClearInsertStatus L.routes := by
    show staged f a.routes L.routes = _
    unfold staged
    rw [hn, hcm]; rfl
  refine allFresh_data (T := L.routes) ?_ hF
  show (bulkInsertLoop (preCommit f a L).global H.acts (preCommit f a L).routes.ents 0).1.map (·.data) = _
  rw [bulk_data hS, hst]
  show (List.map _ (List.map _ _)) = _
  rw [List.map_map]; rfl

end WS.Fw
