import Verif.Model.LoadTx
import Verif.Proof.LoadTx1
import Verif.Proof.RouteHist3
/-
Load transaction proofs, part 2: on an inhibited context the loader's calls run no handler and leave it inhibited.
-/
namespace WS.LT
open WS WS.Conf WS.Sax WS.Time WS.ConfNum

theorem has_inhibit (f : Flags) : f.hasAll EF.INHIBIT_ACTIONS = true ↔ IBit f := by
  unfold Flags.hasAll IBit EF.INHIBIT_ACTIONS bit
  rw [beq_iff_eq]
  constructor
  · intro h
    have := congrArg (·.getLsbD 2) h
    simpa using this
  · intro h
    apply BitVec.eq_of_getLsbD_eq
    intro i hi
    by_cases e : i = 2
    · subst e; simp; simpa using h
    · have h4 : ∀ i : Fin 32, i.val ≠ 2 → ((1#32) <<< 2).getLsbD i.val = false := by decide
      have := h4 ⟨i, hi⟩ e
      rw [BitVec.getLsbD_and]
      first
        | rw [this, Bool.and_false]
        | simp_all

theorem inhibited_of {g : EventConfig} (h : IBit g.flags) (e : Event) : inhibited g e = true := by
  unfold inhibited
  rw [(has_inhibit _).2 h, Bool.true_or]

/-- An inhibited dispatch calls nothing, and changes at most the flags of the rule. -/
theorem dispatch_inh {g : EventConfig} (h : IBit g.flags) (A : RuleActs) (e : Event) (ty : ActionType) (r : Route) (a : Flags) :
    (listDispatch A.env g e ty r a).called = [] ∧ (listDispatch A.env g e ty r a).st.event = r.event ∧
      (listDispatch A.env g e ty r a).st.id = r.id := by
  unfold listDispatch
  simp only [inhibited_of h, if_true]
  split
  · exact ⟨rfl, rfl, rfl⟩
  · split
    · split
      · exact ⟨rfl, rfl, rfl⟩
      · exact ⟨rfl, rfl, rfl⟩
    · split
      · exact ⟨rfl, rfl, rfl⟩
      · exact ⟨rfl, rfl, rfl⟩
    · exact ⟨rfl, rfl, rfl⟩

theorem insertActions_inh {g : EventConfig} (h : IBit g.flags) (A : RuleActs) (r : Route) (a : Flags) :
    (insertActions g A r a).called = [] ∧ (insertActions g A r a).st.event = r.event ∧ (insertActions g A r a).st.id = r.id := by
  unfold insertActions
  split
  · split
    · exact dispatch_inh h A _ .insert r a
    · exact ⟨rfl, rfl, rfl⟩
  · exact ⟨rfl, rfl, rfl⟩

theorem deleteActions_inh {g : EventConfig} (h : IBit g.flags) (A : RuleActs) (r : Route) (a : Flags) :
    (deleteActions g A r a).called = [] := by
  unfold deleteActions
  split
  · split
    · exact (dispatch_inh h A _ .delete r a).1
    · rfl
  · rfl

theorem deleteRuns_inh {g : EventConfig} (h : IBit g.flags) (A : RuleActs) (r : Route) (a : Flags) : deleteRuns g A r a = [] := by
  unfold deleteRuns note
  rw [deleteActions_inh h]; rfl

theorem purgeRuns_inh {g : EventConfig} (h : IBit g.flags) (A : RuleActs) (mode : PurgeMode) (now : Int) (n : Nat) :
    ∀ (T : RouteTable) (a : Flags), purgeRuns g A mode now n T a = [] := by
  induction n with
  | zero => intro T a; rfl
  | succ n ih =>
    intro T a
    unfold purgeRuns
    split
    · rfl
    · split
      · rfl
      · split
        · rfl
        · split
          · exact ih _ _
          · simp only [deleteRuns_inh h, List.nil_append]
            split
            · exact ih _ _
            · rfl

theorem insertCommit_inh {g : EventConfig} (h : IBit g.flags) (A : RuleActs) (T : RouteTable) (r0 : Route) (id : Except Err Nat) (a : Flags) :
    (insertCommit g A T r0 id a).called = [] := by
  unfold insertCommit
  split
  · rfl
  · simp only
    split
    · split
      · rfl
      · split <;> rfl
    · split
      · rfl
      · split
        · exact (insertActions_inh h A _ _).1
        · exact (insertActions_inh h A _ _).1

theorem insert1_inh {g : EventConfig} (h : IBit g.flags) (A : RuleActs) (T : RouteTable) (r0 : Route) (now : Except Err Int) (id : Except Err Nat)
    (a : Flags) (res : InsRes) (hr : insert1 g A T r0 now id a = some res) : res.called = [] := by
  unfold insert1 at hr
  split at hr
  · split at hr <;> (injection hr with hr; rw [← hr])
  · split at hr
    · injection hr with hr; rw [← hr]
    · split at hr
      · cases hr
      · injection hr with hr; rw [← hr]
      · injection hr with hr; rw [← hr]; exact insertCommit_inh h A _ _ _ _

theorem insertRuns_inh {g : EventConfig} (h : IBit g.flags) (A : RuleActs) (T : RouteTable) (r0 : Route) (now : Except Err Int) (id : Except Err Nat) :
    insertRuns g A T r0 now id = [] := by
  unfold insertRuns
  split
  · rfl
  · split
    · rfl
    · rename_i t _ r _
      have h1 : (if r.data.purgeAfter ≠ 0 ∧ T.maxPurgeableRoutes > 0 ∧ T.purgeList.length ≥ T.maxPurgeableRoutes then
        purgeRuns g A .unconditional t 1 T 0 else []) = [] := by
        split
        · exact purgeRuns_inh h A _ _ _ _ _
        · rfl
      rw [h1, List.nil_append]
      split
      · rename_i res hr
        rw [insert1_inh h A _ _ _ _ _ _ hr]; rfl
      · rfl

/-! ### Events of the rules -/

/-- Every rule's event has the property. -/
def AllEv (R : Event → Prop) (T : RouteTable) : Prop := ∀ x ∈ T.ents, ∀ e, x.event = some e → R e

variable {R : Event → Prop}

theorem AllEv.removeRule {T : RouteTable} (h : AllEv R T) (r : Route) : AllEv R (T.removeRule r) := by
  intro x hx
  have : x ∈ T.ents := by
    unfold RouteTable.removeRule at hx
    first
      | exact (List.mem_filter.1 hx).1
      | exact List.mem_of_mem_filter hx
  exact h x this

theorem AllEv.update {T : RouteTable} (h : AllEv R T) {r : Route} (hr : ∀ e, r.event = some e → R e) : AllEv R (T.update r) := by
  intro x hx
  unfold RouteTable.update at hx
  obtain ⟨y, hy, e⟩ := List.mem_map.1 hx
  split at e
  · rw [← e]; exact hr
  · rw [← e]; exact h y hy

theorem AllEv.setExpiry {T : RouteTable} (h : AllEv R T) {r : Route} (hr : ∀ e, r.event = some e → R e) (t : Int) : AllEv R (T.setExpiry r t) := by
  unfold RouteTable.setExpiry RouteTable.purgeInsert RouteTable.purgeRemove
  have := h.update (r := { r with data := { r.data with purgeAfter := t } }) hr
  intro x hx
  refine this x ?_
  revert hx
  simp only
  repeat' split
  all_goals exact id

theorem mem_routeSplice {r : Route} {l l' : List Route} (h : routeSplice r l = some l') : ∀ x ∈ l', x = r ∨ x ∈ l := by
  induction l generalizing l' with
  | nil => injection h with h; subst h; intro x hx; left; simpa using hx
  | cons y l ih =>
    unfold routeSplice at h
    split at h
    · obtain ⟨l2, h2, rfl⟩ := Option.map_eq_some_iff.1 h
      intro x hx
      rcases List.mem_cons.1 hx with rfl | hx
      · right; simp
      · rcases ih h2 x hx with h | h
        · exact .inl h
        · right; simp [h]
    · cases h
    · injection h with h; subst h
      intro x hx
      rcases List.mem_cons.1 hx with rfl | hx
      · left; rfl
      · right; exact hx

theorem AllEv.commit {g : EventConfig} (hg : IBit g.flags) {T : RouteTable} (h : AllEv R T) (A : RuleActs) {r0 : Route} (hr : ∀ e, r0.event = some e → R e)
    (id : Except Err Nat) (a : Flags) : AllEv R (insertCommit g A T r0 id a).T := by
  unfold insertCommit
  split
  · exact h
  · simp only
    split
    · split
      · exact h
      · rename_i old hf
        have ho : ∀ e, old.event = some e → R e := h old (List.mem_of_find?_eq_some hf)
        split
        · exact (h.update (r := { old with flags := old.flags &&& ~~~RF.PENDING_DELETE }) ho).setExpiry (r := { old with flags := old.flags &&& ~~~RF.PENDING_DELETE }) ho _
        · exact h
    · rename_i ents hs
      have h1 : AllEv R { T with ents := ents } := by
        intro x hx e he
        rcases mem_routeSplice hs x hx with rfl | hx
        · exact hr e he
        · exact h x hx e he
      split
      · exact h
      · rename_i afs _
        have hst := (insertActions_inh hg A (enterTable r0 ‹Nat›) (a ||| AR.INSERTED)).2.1
        split
        · have h2 : AllEv R ({ ({ T with ents := ents } : RouteTable) with bitmaskAfs := afs }.update (insertActions g A (enterTable r0 ‹Nat›) (a ||| AR.INSERTED)).st) :=
            AllEv.update (T := { ({ T with ents := ents } : RouteTable) with bitmaskAfs := afs }) h1 (fun e he => hr e (by rw [hst] at he; exact he))
          intro x hx
          refine h2 x ?_
          revert hx
          unfold RouteTable.noteInserted RouteTable.purgeInsert
          simp only
          split <;> exact fun hx => hx
        · intro x hx
          refine h x ?_
          revert hx
          unfold RouteTable.noteInserted RouteTable.purgeInsert
          simp only
          split <;> exact fun hx => hx

theorem clamp_event (r : Route) : (clampWildcards r).event = r.event := by
  unfold clampWildcards
  rfl

theorem prepare_event {g : EventConfig} {t : Int} {r r' : Route} {a : Flags} (h : insertPrepare g t r a = .ok r') : r'.event = r.event := by
  unfold insertPrepare at h
  simp only at h
  split at h
  · cases h
  · split at h
    · cases h
    · split at h
      · cases h
      · injection h with h; rw [← h]; exact clamp_event _

theorem AllEv.insert {g : EventConfig} (hg : IBit g.flags) {T : RouteTable} (h : AllEv R T) (A : RuleActs) {r0 : Route} (hr : ∀ e, r0.event = some e → R e)
    (now : Except Err Int) (id : Except Err Nat) (a : Flags) (res : InsRes) (hi : insert1 g A T r0 now id a = some res) : AllEv R res.T := by
  unfold insert1 at hi
  split at hi
  · split at hi <;> (injection hi with hi; rw [← hi]; exact h)
  · rename_i t
    split at hi
    · injection hi with hi; rw [← hi]; exact h
    · rename_i r hp
      have hev : ∀ e, r.event = some e → R e := fun e he => hr e (by rw [prepare_event hp] at he; exact he)
      have he : ∀ x, insertEvict g A t T r = some x → AllEv R x.1 := by
        intro x hx
        unfold insertEvict at hx
        split at hx
        · obtain ⟨y, hy, rfl⟩ := Option.map_eq_some_iff.1 hx
          exact stalePurge_inv (AllEv R) (fun T r h _ => h.removeRule r) h hy
        · injection hx with hx; rw [← hx]; exact h
      split at hi
      · cases hi
      · rename_i hx; injection hi with hi; rw [← hi]; exact he _ hx
      · rename_i hx; injection hi with hi; rw [← hi]; exact (he _ hx).commit hg A hev _ _

theorem AllEv.maxPurgeable {g : EventConfig} {T : RouteTable} (h : AllEv R T) (A : RuleActs) (now : Int) (fuel n : Nat) (x : RouteTable × Except Err Unit)
    (hx : maxPurgeableSet g A now fuel T n = some x) : AllEv R x.1 := by
  unfold maxPurgeableSet at hx
  simp only at hx
  split at hx
  · obtain ⟨y, hy, rfl⟩ := Option.map_eq_some_iff.1 hx
    exact stalePurge_inv (AllEv R) (fun T r h _ => h.removeRule r) (T := { T with maxPurgeableRoutes := n }) h hy
  · injection hx with hx; rw [← hx]; exact h

end WS.LT
