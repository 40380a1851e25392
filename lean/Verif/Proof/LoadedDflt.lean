import Verif.Proof.Loaded6
/-
Proofs for C84: the default event a document names is the event of that name, with everything the document says about it.
-/
namespace WS.Ld
open WS WS.Conf WS.Sax WS.Time WS.ConfNum WS.LT WS.Spec WS.Spec.LT WS.Spec.Ld WS.Spec.Load

/-- The default event is an object of the table of events. -/
def Current (c : Cx) : Prop := c.dfltStale = false ∧ ∃ e, c.routes.defaultEvent = some e ∧ e ∈ c.events

theorem Current.congr {c c' : Cx} (h : Current c) (h1 : c'.dfltStale = c.dfltStale) (h2 : c'.routes.defaultEvent = c.routes.defaultEvent)
    (h3 : ∀ e ∈ c.events, e ∈ c'.events) : Current c' := by
  obtain ⟨a, e, b, m⟩ := h
  exact ⟨h1.trans a, e, h2.trans b, h3 e m⟩

theorem Current.setEvent {c : Cx} (h : Current c) (e : Event) : Current (c.setEvent e) := by
  obtain ⟨a, x, b, m⟩ := h
  refine ⟨a, if x.label == e.label then e else x, ?_, ?_⟩
  · show (if c.dfltStale then c.routes.defaultEvent else c.routes.defaultEvent.map _) = _
    rw [a, b]; rfl
  · exact List.mem_map.2 ⟨x, m, rfl⟩

theorem eventInsert_current (H : Host) {c : Cx} (h : Current c) (l : List Byte) (p : Nat) (conf : Option EventConfig) :
    Current (eventInsertC H c l p conf).1 := by
  unfold eventInsertC
  split
  · exact h
  · split
    · exact h
    · split
      · exact h
      · obtain ⟨s, hs⟩ := allocId_cx H c
        split
        · rename_i c1 hc1
          have : c1 = { c with idState := s } := by rw [← hs, hc1]
          subst this
          exact h.congr rfl rfl (fun _ h => h)
        · rename_i c1 hc1
          have : c1 = { c with idState := s } := by rw [← hs, hc1]
          subst this
          split
          · exact h.congr rfl rfl (fun _ h => h)
          · rename_i es hes
            exact h.congr rfl rfl (fun e he => (eventSplice_perm hes).mem_iff.2 (List.mem_cons_of_mem _ he))

theorem actionAppend_current {c : Cx} (h : Current c) (l al : List Byte) (t : ActionType) : Current (actionAppendC c l t al).1 := by
  unfold actionAppendC
  split
  · exact h
  · split
    · exact h
    · split
      · exact h
      · split
        · exact h
        · exact h.setEvent _

theorem copyLoop_current {l : List Byte} {t : ActionType} (as : List Nat) : ∀ {c : Cx}, Current c → Current (copyLoop l t as c).1 := by
  induction as with
  | nil => intro c h; exact h
  | cons a as ih =>
    intro c h
    unfold copyLoop
    split
    · exact h
    · rename_i x _
      have := actionAppend_current h l x.1 t
      split
      · rename_i hx; rw [hx] at this; exact this
      · rename_i hx; rw [hx] at this; exact ih this

theorem routeInsert_current (H : Host) {w : World} (h : Current w.cx) (remote loc : Sa) (flags : Flags) (l : List Byte) :
    Current (routeInsertC H w remote loc flags l).1.cx := by
  unfold routeInsertC
  simp only
  split
  · exact h
  · split
    · exact h
    · split
      · exact h
      · rename_i res hres
        obtain ⟨s, hs⟩ := allocId_cx H w.cx
        rw [hs]
        exact h.congr rfl (insert1_dflt hres) (fun _ h => h)

theorem maxPurgeable_current (H : Host) {w : World} (h : Current w.cx) (n : Nat) : Current (maxPurgeableC H w n).1.cx := by
  unfold maxPurgeableC
  simp only
  split
  · exact h.congr rfl rfl (fun _ h => h)
  · split
    · exact h
    · rename_i T res hm
      have hd : T.defaultEvent = w.cx.routes.defaultEvent := by
        unfold maxPurgeableSet at hm
        simp only at hm
        split at hm
        · obtain ⟨y, hy, e⟩ := Option.map_eq_some_iff.1 hm
          have := stalePurge_inv (fun T' => T'.defaultEvent = w.cx.routes.defaultEvent) (fun T' r h _ => h)
            (T := { w.cx.routes with maxPurgeableRoutes := n }) rfl hy
          injection e with e1 e2
          rw [← e1]; exact this
        · injection hm with hm; injection hm with e1 e2; rw [← e1]
      exact h.congr rfl hd (fun _ h => h)

theorem libCall_current (H : Host) {w : World} (h : Current w.cx) (k : Call) : Current (libCall H w k).1.cx := by
  unfold libCall
  simp only
  split
  · split
    · exact h
    · exact h.congr rfl rfl (fun _ h => h)
  · rename_i p
    split
    · exact h
    · rename_i T hT
      refine h.congr rfl ?_ (fun _ h => h)
      unfold defaultPolicySet at hT
      split at hT
      · cases hT
      · cases hT; rfl
  · exact maxPurgeable_current H (w := { w with tick := w.tick + 1 }) h _
  · exact h.congr rfl rfl (fun _ h => h)
  · split
    · exact h
    · rename_i e he
      exact ⟨rfl, e, rfl, event_mem he⟩
  · exact routeInsert_current H (w := { w with tick := w.tick + 1 }) h _ _ _ _
  · exact eventInsert_current H h _ _ _
  · split
    · exact h
    · split
      · exact h
      · exact h.setEvent _
  · split
    · exact h
    · split
      · exact h
      · exact h
  · exact actionAppend_current h _ _ _
  · split
    · exact h
    · exact copyLoop_current _ h
  · split
    · exact h
    · exact h.congr rfl rfl (fun _ h => h)

theorem set_current {H : Host} {w w' : World} {l : List Byte} (h : libCall H w (.setDefaultEvent l) = (w', none)) : Current w'.cx := by
  unfold libCall at h
  simp only at h
  injection h with hw hr
  subst hw
  split
  · rename_i e he
    split at hr
    · cases hr
    · rename_i e' he'; rw [he] at he'; cases he'
  · rename_i e he
    exact ⟨rfl, e, rfl, event_mem he⟩

theorem made_current {H : Host} {cs : List Call} {w w' : World} (h : Made H.env cs w w') :
    (Current w.cx → Current w'.cx) ∧ ((∃ l, .setDefaultEvent l ∈ cs) → Current w'.cx) := by
  induction h with
  | nil a => exact ⟨id, fun ⟨l, hl⟩ => by cases hl⟩
  | @cons k ks a a1 a2 h1 _ ih =>
    have hk : Current a.cx → Current a1.cx := fun hc => by
      have := libCall_current H hc k
      rw [show libCall H a k = (a1, none) from h1] at this
      exact this
    refine ⟨fun hc => ih.1 (hk hc), fun ⟨l, hl⟩ => ?_⟩
    rcases List.mem_cons.1 hl with e | hl
    · subst e; exact ih.1 (set_current (H := H) h1)
    · exact ih.2 ⟨l, hl⟩
  | @refused k i e ks a a1 a2 h1 _ ih =>
    have hr := refused_store h1
    exact ⟨fun hc => ih.1 (by rw [hr]; exact hc), ih.2⟩

end WS.Ld
