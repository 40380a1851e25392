import Verif.Proof.LoadTx5
/-
Load transaction proofs, part 6: the commit.
-/
namespace WS.LT
open WS WS.Conf WS.Sax WS.Time WS.ConfNum WS.Spec.LT

theorem runsOf_congr {A : RuleActs} {t : ActionType} {due due' : Route → Bool} : ∀ {l l' : List Route} {xs : List Ran}, RunsOf A t due l xs →
    l.map (fun r => (r.id, r.event, due r)) = l'.map (fun r => (r.id, r.event, due' r)) → RunsOf A t due' l' xs := by
  intro l l' xs h
  induction h generalizing l' with
  | nil => intro e; cases l' with
    | nil => exact .nil
    | cons y ys => cases e
  | skip h1 h2 ih =>
    intro e
    cases l' with
    | nil => cases e
    | cons y ys =>
      rw [List.map_cons, List.map_cons] at e
      injection e with e1 e2
      injection e1 with e3 e4; injection e4 with e4 e5
      exact .skip (e5 ▸ h1) (ih e2)
  | run h1 h2 h3 ih =>
    intro e
    cases l' with
    | nil => cases e
    | cons y ys =>
      rw [List.map_cons, List.map_cons] at e
      injection e with e1 e2
      injection e1 with e3 e4; injection e4 with e4 e5
      exact .run (e5 ▸ h1) ⟨h2.1, h2.2.1.trans e3, h2.2.2.1, by rw [← e4]; exact h2.2.2.2⟩ (ih e2)

theorem copyMeta_map (fs : List Route) : ∀ ts : List Route, (copyMetaLoop fs ts).map (fun r => (r.id, r.event)) = ts.map (fun r => (r.id, r.event)) := by
  intro ts
  induction h : fs.length + ts.length using Nat.strongRecOn generalizing fs ts with
  | ind n ih =>
    subst h
    unfold copyMetaLoop
    split
    · rfl
    · rfl
    · rename_i f fs t ts
      split
      · rw [List.map_cons, List.map_cons, ih (fs.length + ts.length) (by simp only [List.length_cons]; omega) fs ts rfl]; rfl
      · split
        · exact ih (fs.length + (t :: ts).length) (by simp only [List.length_cons]; omega) fs (t :: ts) rfl
        · rw [List.map_cons, List.map_cons, ih ((f :: fs).length + ts.length) (by simp only [List.length_cons]; omega) (f :: fs) ts rfl]
        · rw [List.map_cons, List.map_cons, ih (fs.length + ts.length) (by simp only [List.length_cons]; omega) fs ts rfl]

theorem enable_bit (c : Cx) : inhibits (enable c).global = false := by
  show (c.config.config.cfgFlags &&& ~~~EF.INHIBIT_ACTIONS).getLsbD 2 = false
  rw [BitVec.getLsbD_and]
  have : (~~~EF.INHIBIT_ACTIONS : Flags).getLsbD 2 = false := by decide
  rw [this, Bool.and_false]

/-- The rules the commit runs insert handlers for, before it does. -/
def staged (f : LoadFlags) (actual loaded : RouteTable) : RouteTable :=
  if f.noFlush then copyMetadata actual loaded else bulkClearInsertStatus (copyMetadata actual loaded)

theorem staged_map (f : LoadFlags) (a l : RouteTable) : (staged f a l).ents.map (fun r => (r.id, r.event)) = l.ents.map (fun r => (r.id, r.event)) := by
  unfold staged
  split
  · exact copyMeta_map _ _
  · rw [← copyMeta_map a.ents l.ents]
    show ((copyMetaLoop a.ents l.ents).map _).map _ = _
    rw [List.map_map]; rfl

/-- What the commit makes of the context given, before the insert handlers are run. -/
def preCommit (f : LoadFlags) (actual : Cx) (nw : Cx) : Cx :=
  enable { actual with idState := nw.idState, config := nw.config, config0 := nw.config0, events := nw.events, actions := nw.actions,
                       routes := staged f actual.routes nw.routes, values := nw.values, dfltStale := nw.dfltStale }

/-- The former contents, in the place of the clone. -/
def former (actual nw : Cx) : Cx :=
  { nw with
      idState := actual.idState
      config := actual.config
      config0 := actual.config0
      events := actual.events
      actions := actual.actions
      routes := actual.routes
      values := actual.values
      dfltStale := actual.dfltStale }

theorem commit_eq (H : Host) (f : LoadFlags) (actual : Cx) (nw : World) (h1 : nw.cx.hpi = actual.hpi) (h2 : nw.cx.mkIdCb = actual.mkIdCb) :
    let p := preCommit f actual nw.cx
    let q := bulkInsertActions p.global H.acts p.routes 0
    let old : World := { nw with cx := former actual nw.cx }
    let old' := if f.noFlush then old else contextFlush H.acts old
    commit H f actual nw = (q.2.2.1, { cx := { p with routes := q.1 }, ran := old'.ran ++ (q.2.2.2.flatMap fun x => note .insert x.1 x.2), tick := nw.tick }, old'.cx) := by
  intro p q old old'
  unfold commit exchange
  rw [if_neg (by rw [h1, h2]; simp)]
  cases hf : f.noFlush
  · simp only [p, q, old', old, former, preCommit, staged, hf, Bool.not_false, Bool.false_eq_true, if_true, if_false]
  · simp only [p, q, old', old, former, preCommit, staged, hf, Bool.not_true, Bool.false_eq_true, if_true, if_false]

/-- Handlers run by the whole ending of a committed load: delete handlers of the old rules and insert handlers of the new ones,
in one order or the other. -/
theorem ending_commit (H : Host) (f : LoadFlags) (hd : f.dryRun = false) (hc : f.thenCommit = true) (actual : Cx) (ret : Int) (hret : 0 ≤ ret)
    (u : World × Res State) (h1 : u.1.cx.hpi = actual.hpi) (h2 : u.1.cx.mkIdCb = actual.mkIdCb) :
    let p := preCommit f actual u.1.cx
    let q := bulkInsertActions p.global H.acts p.routes 0
    (ending H f actual ret u).1.cx = { p with routes := q.1 } ∧ (ending H f actual ret u).2 = q.2.2.1 ∧
    ∃ D I n, (ending H f actual ret u).1.ran = u.1.ran ++ (if f.noFlush then I ++ D else D ++ I) ∧
      RunsOf H.acts .delete (DeleteDue H.acts actual.global) actual.routes.ents D ∧
      RunsOf H.acts .insert (dueOf H.acts p.global .insert) (p.routes.ents.take n) I ∧ (q.2.2.1 = none → p.routes.ents.take n = p.routes.ents) := by
  intro p q
  have he := commit_eq H f actual u.1 h1 h2
  simp only at he
  have hend : ending H f actual ret u = ({ contextFree H.acts { (commit H f actual u.1).2.1 with cx := (commit H f actual u.1).2.2 } with cx := (commit H f actual u.1).2.1.cx }, (commit H f actual u.1).1) := by
    unfold ending
    rw [if_neg (by omega), hd, hc]
    rfl
  rw [hend]
  rw [he]
  refine ⟨rfl, rfl, ?_⟩
  obtain ⟨n, hr, hn⟩ := bulk_runs p.global H.acts p.routes.ents 0
  refine ⟨(flush actual.global H.acts actual.routes 0).2.2, _, n, ?_, flush_runs _ _ _ _, hr, hn⟩
  cases hf : f.noFlush
  · simp only [Bool.false_eq_true, if_false]
    unfold contextFree flushRules
    simp only
    have hempty : (contextFlush H.acts { u.1 with cx := former actual u.1.cx }).cx.routes.ents = [] := flush_empty _ _ _ _
    have hnil : ∀ (g : EventConfig) (T : RouteTable), T.ents = [] → (flush g H.acts T 0).2.2 = [] := by
      intro g T hT; unfold flush; rw [hT]; rfl
    rw [hnil _ _ hempty, List.append_nil]
    unfold contextFlush flushRules
    simp only [List.append_assoc]
    rfl
  · simp only [if_true]
    unfold contextFree flushRules
    simp only [List.append_assoc]
    rfl

end WS.LT
