import Verif.Props.LwipAsk
/-
C65: connections counted by the lwIP packet filter.
-/
namespace WS.Props
open WS WS.Spec WS.Spec.Lwip WS.Lwip

theorem starting_told {s : Sighting} {t : Route} {a : Flags} (hq : Question s t a) {c : EventConfig} (hc : LeavesCounting c) (clk : Except Err Int)
    (k : Nat) (hk : k = 2 ∨ k = 3 ∨ k = 8 ∨ k = 10) : (starting c clk (reported a)).getLsbD k = true ↔ ToldBit s k := by
  rw [starting_bits _ _ _ _ (by omega)]
  unfold configured
  rw [(hc k hk).1, (hc k hk).2]
  have h9 : (k == 9) = false := by simp; omega
  have hr : (reported a).getLsbD k = a.getLsbD k := by
    unfold reported
    split
    · rw [BitVec.getLsbD_and, BitVec.getLsbD_not, BitVec.getLsbD_or, BitVec.getLsbD_twoPow, BitVec.getLsbD_twoPow]
      have h4 : ¬ 4 = k := by omega
      have h5 : ¬ 5 = k := by omega
      have : k < 32 := by omega
      simp [h4, h5, this]
    · rfl
  rw [h9, hr]
  simpa using hq.2.2 k

/-- The connection count of the deciding rule after a dispatch. -/
theorem conn_after {s : Sighting} {t r : Route} {a : Flags} (hq : Question s t a) {c : EventConfig} (hc : LeavesCounting c) (clk : Except Err Int) :
    (if OverLimit c r (starting c clk (reported a)) then r.data.connectionCount else connectionsNow r (starting c clk (reported a))) =
      connectionsAfter c r s := by
  have b2 := starting_told hq hc clk 2 (by omega)
  have b3 := starting_told hq hc clk 3 (by omega)
  have b8 := starting_told hq hc clk 8 (by omega)
  have b10 := starting_told hq hc clk 10 (by omega)
  have t2 : ToldBit s 2 ↔ Opens s := by unfold ToldBit; simp
  have t3 : ToldBit s 3 ↔ Ends s := by unfold ToldBit; simp
  have t8 : ¬ ToldBit s 8 := by unfold ToldBit; omega
  have t10 : ¬ ToldBit s 10 := by unfold ToldBit; omega
  have hch : Charged (starting c clk (reported a)) := by
    refine ⟨?_, ?_⟩
    · cases h : (starting c clk (reported a)).getLsbD 8 with
      | false => rfl
      | true => exact absurd (b8.1 h) t8
    · cases h : (starting c clk (reported a)).getLsbD 10 with
      | false => rfl
      | true => exact absurd (b10.1 h) t10
  rw [t2] at b2
  rw [t3] at b3
  unfold OverLimit connectionsNow connectionsAfter
  simp only [hch, true_and, b2, b3]
  by_cases h23 : r.flags.getLsbD 23 = true
  · simp only [h23, if_true, Bool.true_eq_false, false_and, if_false]
  · have h23' : r.flags.getLsbD 23 = false := by cases h : r.flags.getLsbD 23 <;> simp_all
    rw [if_neg h23]
    simp only [h23', true_and, if_true]
    by_cases ho : Opens s
    · simp only [ho, true_and, if_true]
      by_cases hl : r.data.connectionCount < c.maxConnectionCount
      · rw [if_neg (by omega), if_pos hl]
      · rw [if_pos (by omega), if_neg hl]
    · simp only [ho, false_and, if_false]

/-! ## C65 — one event -/

/-- C65: the rule an event is decided by has one connection more when a connection is being accepted and its
limit allows, one less when an accepted connection has ended, and else as many as before (never if it does
not count connections).  Only this rule's count changes. -/
theorem C65_counts_partial {σ : Type} {E : DispEnv σ} (hE : Observing E) {resolve : List Byte → Except Err Event} {thr : Thr} {s : Sighting}
    {w w2 : World σ} {fuel : Nat} {e : ErrT} {r : Route} (hin : (w.T.ents.map (·.id)).Nodup) (h14 : ∀ x ∈ w.T.ents, x.flags.getLsbD 14 = true)
    (hh : Has s.layer s.reason = true) (hd : DecidedBy w s fuel r) (hc : LeavesCounting (configFor E w r)) (hup : thr.up = true)
    (h : filter E resolve true thr s.layer.ports (planOf s) w fuel = .ret w2 e) :
    (∃ r', w2.T.get? r.id = some r' ∧ r'.data.connectionCount = connectionsAfter (configFor E w r) r s ∧
      ∀ k, k ≠ 20 → k ≠ 22 → r'.flags.getLsbD k = r.flags.getLsbD k) ∧
    (∀ id, id ≠ r.id → w2.T.get? id = none ∨ w2.T.get? id = w.T.get? id) ∧
    (w2.T.ents.map (·.id)).Sublist (w.T.ents.map (·.id)) := by
  have hp := filter_ret_proper hh h
  obtain ⟨t, a, inx, hq, hl⟩ := hd
  obtain ⟨e1, e2, e3⟩ := filter_question E resolve thr w fuel hq hh hp hup
  rw [e3] at h
  cases hdp : E.dispatch1 resolve w (remoteOf s) (localOf s) t.flags none a fuel with
  | none => rw [hdp] at h; cases h
  | some d =>
    rw [hdp] at h
    simp only [Out.ret.injEq] at h
    obtain ⟨hw, -⟩ := h
    subst hw
    have hr := (lookup_sound w.T (some a) t fuel r inx hl).1
    obtain ⟨r', g1, g2, g3⟩ := dispatch1_conn hE hin hr (h14 r hr) e1 e2 hl hdp
    obtain ⟨f1, f2⟩ := dispatch1_frame hE hdp
    refine ⟨⟨r', g1, ?_, g3⟩, fun id hid => f2 id ?_, f1⟩
    · rw [g2]; exact conn_after hq hc E.clock
    · intro trig t' r'' inx' ht1 ht2 ht3 hc'
      have : trig = none := by cases ht1; rfl
      subst this
      rw [e1] at ht2
      cases ht2
      rw [hl] at ht3
      cases ht3
      exact hid hc'.symm

/-- C65: an event no rule decides, or not asked about, leaves every count alone (rules may expire). -/
theorem C65_others_unchanged {σ : Type} {E : DispEnv σ} (hE : Observing E) {resolve : List Byte → Except Err Event} {ctx : Bool} {thr : Thr} {s : Sighting}
    {w w2 : World σ} {fuel : Nat} {e : ErrT} {id : Nat} (hd : ∀ r, DecidedBy w s fuel r → r.id ≠ id)
    (h : filter E resolve ctx thr s.layer.ports (planOf s) w fuel = .ret w2 e) :
    (w2.T.get? id = none ∨ w2.T.get? id = w.T.get? id) ∧ (w2.T.ents.map (·.id)).Sublist (w.T.ents.map (·.id)) := by
  have same : w2 = w → (w2.T.get? id = none ∨ w2.T.get? id = w.T.get? id) ∧ (w2.T.ents.map (·.id)).Sublist (w.T.ents.map (·.id)) := by
    intro hw; rw [hw]; exact ⟨.inr rfl, List.Sublist.refl _⟩
  cases hctx : ctx with
  | false =>
    rw [C63_unfiltered E resolve ctx thr s w fuel (.inl hctx)] at h
    cases h; exact same rfl
  | true =>
    subst hctx
    cases hh : Has s.layer s.reason with
    | false =>
      rw [C63_unfiltered E resolve true thr s w fuel (.inr hh)] at h
      cases h; exact same rfl
    | true =>
      have hp := filter_ret_proper hh h
      cases hup : thr.up with
      | false =>
        rw [C63_no_thread_context E resolve thr s w fuel hh hp hup] at h
        cases h; exact same rfl
      | true =>
        obtain ⟨t, a, hq⟩ := question_exists s hh hp
        obtain ⟨e1, e2, e3⟩ := filter_question E resolve thr w fuel hq hh hp hup
        rw [e3] at h
        cases hdp : E.dispatch1 resolve w (remoteOf s) (localOf s) t.flags none a fuel with
        | none => rw [hdp] at h; cases h
        | some d =>
          rw [hdp] at h
          simp only [Out.ret.injEq] at h
          obtain ⟨hw, -⟩ := h
          subst hw
          obtain ⟨f1, f2⟩ := dispatch1_frame hE hdp
          refine ⟨f2 id ?_, f1⟩
          intro trig t' r inx ht1 ht2 ht3
          have : trig = none := by cases ht1; rfl
          subst this
          rw [e1] at ht2
          cases ht2
          exact hd r ⟨t, a, inx, hq, ht3⟩

/-! ## C65 — every history -/

theorem sublist_none {T T' : RouteTable} (h : (T'.ents.map (·.id)).Sublist (T.ents.map (·.id))) {id : Nat} (hn : T.get? id = none) : T'.get? id = none := by
  cases hg : T'.get? id with
  | none => rfl
  | some r =>
    obtain ⟨h1, h2⟩ := get?_some hg
    have : id ∈ T.ents.map (·.id) := h.subset (by rw [← h2]; exact List.mem_map_of_mem h1)
    obtain ⟨x, hx, hxid⟩ := List.mem_map.1 this
    exact absurd hxid (get?_none hn x hx)

/-- What a history keeps: identifiers stay unique, rules stay in the table. -/
structure Sane (T : RouteTable) : Prop where
  ids : (T.ents.map (·.id)).Nodup
  inTable : ∀ x ∈ T.ents, x.flags.getLsbD 14 = true

theorem le_sum_of_mem {l : List Nat} {n : Nat} (h : n ∈ l) : n ≤ l.sum := by
  induction l with
  | nil => cases h
  | cons x xs ih =>
    rw [List.sum_cons]
    cases h with
    | head => omega
    | tail _ h => have := ih h; omega

/-- One event keeps the table sane. -/
theorem sane_step {σ : Type} {E : DispEnv σ} (hE : Observing E) {resolve : List Byte → Except Err Event} {thr : Thr} {s : Sighting}
    {w w2 : World σ} {fuel : Nat} {e : ErrT} (hs : Sane w.T)
    (hc : ∀ r, DecidedBy w s fuel r → LeavesCounting (configFor E w r))
    (h : filter E resolve true thr s.layer.ports (planOf s) w fuel = .ret w2 e) : Sane w2.T := by
  have sub : (w2.T.ents.map (·.id)).Sublist (w.T.ents.map (·.id)) := by
    have := C65_others_unchanged hE (id := 1 + (w.T.ents.map (·.id)).sum) (s := s) (fuel := fuel) ?_ h
    · exact this.2
    · rintro r ⟨t, a, inx, _, hl⟩ he
      have hr := (lookup_sound w.T (some a) t fuel r inx hl).1
      have : r.id ≤ (w.T.ents.map (·.id)).sum := le_sum_of_mem (List.mem_map_of_mem hr)
      omega
  have hn : (w2.T.ents.map (·.id)).Nodup := hs.ids.sublist sub
  refine ⟨hn, fun x hx => ?_⟩
  have hg := get?_mem hn hx
  by_cases hd : ∃ r, DecidedBy w s fuel r ∧ r.id = x.id
  · obtain ⟨r, hd, hid⟩ := hd
    cases hh : Has s.layer s.reason with
    | false =>
      rw [C63_unfiltered E resolve true thr s w fuel (.inr hh)] at h
      cases h; exact hs.inTable x hx
    | true =>
      have hp := filter_ret_proper hh h
      cases hup : thr.up with
      | false =>
        rw [C63_no_thread_context E resolve thr s w fuel hh hp hup] at h
        cases h; exact hs.inTable x hx
      | true =>
        obtain ⟨⟨r', g1, _, g3⟩, _⟩ := C65_counts_partial hE hs.ids hs.inTable hh hd (hc r hd) hup h
        rw [hid, hg] at g1
        cases g1
        rw [g3 14 (by decide) (by decide)]
        obtain ⟨t, a, inx, _, hl⟩ := hd
        exact hs.inTable r (lookup_sound w.T (some a) t fuel r inx hl).1
  · obtain ⟨h1, _⟩ := C65_others_unchanged hE (id := x.id) (fun r hr he => hd ⟨r, hr, he⟩) h
    rcases h1 with h1 | h1
    · rw [hg] at h1; cases h1
    · rw [hg] at h1
      exact hs.inTable x (get?_some h1.symm).1

theorem decidedBy_unique {σ : Type} {w : World σ} {s : Sighting} {fuel : Nat} {r r' : Route} (h : DecidedBy w s fuel r) (h' : DecidedBy w s fuel r') : r = r' := by
  obtain ⟨t, a, inx, hq, hl⟩ := h
  obtain ⟨t', a', inx', hq', hl'⟩ := h'
  have ef : t.flags = t'.flags := BitVec.eq_of_getLsbD_eq (fun k _ => by rw [Bool.eq_iff_iff, hq.2.1 k, hq'.2.1 k])
  have ea : a = a' := BitVec.eq_of_getLsbD_eq (fun k _ => by rw [Bool.eq_iff_iff, hq.2.2 k, hq'.2.2 k])
  have et : t = t' := by rw [hq.1, hq'.1, ef]
  subst ea; subst et
  rw [hl] at hl'
  cases hl'
  rfl

/-- C65: over every history of events, a rule that counts connections has as many as it had plus those
accepted minus those ended — whatever else happens in between, and whatever the verdicts were. -/
theorem C65_history_partial {σ : Type} {id n m : Nat} {w w2 : World σ} (h : History id w n m w2) (hs : Sane w.T)
    {r : Route} (hr : w.T.get? id = some r) (h23 : r.flags.getLsbD 23 = false) {r2 : Route} (hr2 : w2.T.get? id = some r2) :
    m ≤ n ∧ r2.data.connectionCount + m = r.data.connectionCount + n := by
  suffices H : Sane w2.T ∧ m ≤ n ∧ (w2.T.get? id = none ∨ ∃ r2, w2.T.get? id = some r2 ∧ r2.flags.getLsbD 23 = false ∧
      r2.data.connectionCount + m = r.data.connectionCount + n) by
    obtain ⟨_, h1, h2 | ⟨x, h2, _, h3⟩⟩ := H
    · rw [hr2] at h2; cases h2
    · rw [hr2] at h2; cases h2; exact ⟨h1, h3⟩
  clear hr2 r2
  induction h with
  | start => exact ⟨hs, Nat.le_refl _, .inr ⟨r, hr, h23, rfl⟩⟩
  | @other n m w1 w2 E resolve thr s fuel e _ hE hc hno hf ih =>
    obtain ⟨is, im, ir⟩ := ih
    refine ⟨sane_step hE is hc hf, im, ?_⟩
    by_cases hd : ∃ x, DecidedBy w1 s fuel x ∧ x.id = id
    · obtain ⟨x, hd, hid⟩ := hd
      cases hh : Has s.layer s.reason with
      | false =>
        rw [C63_unfiltered E resolve true thr s w1 fuel (.inr hh)] at hf
        cases hf; exact ir
      | true =>
        have hp := filter_ret_proper hh hf
        cases hup : thr.up with
        | false =>
          rw [C63_no_thread_context E resolve thr s w1 fuel hh hp hup] at hf
          cases hf; exact ir
        | true =>
          obtain ⟨⟨r', g1, g2, g3⟩, _⟩ := C65_counts_partial hE is.ids is.inTable hh hd (hc x hd) hup hf
          obtain ⟨n1, n2⟩ := hno x hd hid
          have hxm := hd
          obtain ⟨t, a, inx, _, hl⟩ := hxm
          have hxg := get?_mem is.ids (lookup_sound w1.T (some a) t fuel x inx hl).1
          rw [hid] at hxg g1
          rcases ir with ir | ⟨y, y1, y2, y3⟩
          · rw [ir] at hxg; cases hxg
          · rw [y1] at hxg; cases hxg
            refine .inr ⟨r', g1, (g3 23 (by decide) (by decide)).trans y2, ?_⟩
            rw [g2]
            unfold connectionsAfter
            rw [if_neg (by rw [y2]; decide), if_neg n1, if_neg n2]
            exact y3
    · obtain ⟨h1, h2⟩ := C65_others_unchanged hE (id := id) (fun x hx he => hd ⟨x, hx, he⟩) hf
      rcases h1 with h1 | h1
      · exact .inl h1
      · rcases ir with ir | ⟨y, y1, y2, y3⟩
        · exact .inl (sublist_none h2 ir)
        · exact .inr ⟨y, h1.trans y1, y2, y3⟩
  | @opened n m w1 w2 E resolve thr s fuel e x _ hE hc hd hid ho hlim h16 hup hf ih =>
    obtain ⟨is, im, ir⟩ := ih
    have hh : Has s.layer s.reason = true := by rw [ho.1, ho.2]; rfl
    refine ⟨sane_step hE is (fun y hy => by rw [decidedBy_unique hy hd]; exact hc) hf, by omega, ?_⟩
    obtain ⟨⟨r', g1, g2, g3⟩, _⟩ := C65_counts_partial hE is.ids is.inTable hh hd hc hup hf
    have hxm := hd
    obtain ⟨t, a, inx, _, hl⟩ := hxm
    have hxg := get?_mem is.ids (lookup_sound w1.T (some a) t fuel x inx hl).1
    rw [hid] at hxg g1
    rcases ir with ir | ⟨y, y1, y2, y3⟩
    · rw [ir] at hxg; cases hxg
    · rw [y1] at hxg; cases hxg
      refine .inr ⟨r', g1, (g3 23 (by decide) (by decide)).trans y2, ?_⟩
      rw [g2]
      unfold connectionsAfter
      rw [if_neg (by rw [y2]; decide), if_pos ho, if_pos hlim, Nat.mod_eq_of_lt (by omega)]
      omega
  | @refused n m w1 w2 E resolve thr s fuel e x _ hE hc hd hid ho hlim hf ih =>
    obtain ⟨is, im, ir⟩ := ih
    have hh : Has s.layer s.reason = true := by rw [ho.1, ho.2]; rfl
    refine ⟨sane_step hE is (fun y hy => by rw [decidedBy_unique hy hd]; exact hc) hf, im, ?_⟩
    have hp := filter_ret_proper hh hf
    cases hup : thr.up with
    | false =>
      rw [C63_no_thread_context E resolve thr s w1 fuel hh hp hup] at hf
      cases hf; exact ir
    | true =>
      obtain ⟨⟨r', g1, g2, g3⟩, _⟩ := C65_counts_partial hE is.ids is.inTable hh hd hc hup hf
      have hxm := hd
      obtain ⟨t, a, inx, _, hl⟩ := hxm
      have hxg := get?_mem is.ids (lookup_sound w1.T (some a) t fuel x inx hl).1
      rw [hid] at hxg g1
      rcases ir with ir | ⟨y, y1, y2, y3⟩
      · rw [ir] at hxg; cases hxg
      · rw [y1] at hxg; cases hxg
        refine .inr ⟨r', g1, (g3 23 (by decide) (by decide)).trans y2, ?_⟩
        rw [g2]
        unfold connectionsAfter
        rw [if_neg (by rw [y2]; decide), if_pos ho, if_neg (by omega)]
        exact y3
  | @ended n m w1 w2 E resolve thr s fuel e x _ hE hc hd hid ho hlt hup hf ih =>
    obtain ⟨is, im, ir⟩ := ih
    have hh : Has s.layer s.reason = true := by
      obtain ⟨h1, h2 | h2, _⟩ := ho <;> rw [h1, h2] <;> rfl
    refine ⟨sane_step hE is (fun y hy => by rw [decidedBy_unique hy hd]; exact hc) hf, by omega, ?_⟩
    obtain ⟨⟨r', g1, g2, g3⟩, _⟩ := C65_counts_partial hE is.ids is.inTable hh hd hc hup hf
    have hxm := hd
    obtain ⟨t, a, inx, _, hl⟩ := hxm
    have hxg := get?_mem is.ids (lookup_sound w1.T (some a) t fuel x inx hl).1
    rw [hid] at hxg g1
    have hno : ¬ Opens s := by
      intro hx
      obtain ⟨_, h2 | h2, _⟩ := ho <;> rw [hx.2] at h2 <;> cases h2
    rcases ir with ir | ⟨y, y1, y2, y3⟩
    · rw [ir] at hxg; cases hxg
    · rw [y1] at hxg; cases hxg
      refine .inr ⟨r', g1, (g3 23 (by decide) (by decide)).trans y2, ?_⟩
      rw [g2]
      unfold connectionsAfter
      rw [if_neg (by rw [y2]; decide), if_neg hno, if_pos ho]
      omega

/-! ## C65 — what goes wrong -/

/-- Finding: a connection that is refused — here because the rule is penalty-boxed, or by default policy —
is counted all the same; lwIP makes no control block for it, so nothing ever uncounts it. -/
theorem C65_refused_is_counted :
    ran envQuiet synSsh (sshWorld (bit 20) AR.ACCEPT {}) = some (.abrt, some 1) ∧
    ran envQuiet synSsh (sshWorld 0 AR.REJECT {}) = some (.abrt, some 1) := by decide

/-- The greenlisting rule of `sshWorld`, but for interface 1 only, with `n` connections. -/
def ifaceWorld (n : Nat) : World Unit :=
  { T := { ents := [{ sshRule (bit 21) { connectionCount := n } with
        flags := (sshRule (bit 21) {}).flags &&& ~~~(bit 6 ||| bit 7),
        remote := { bits := 8, addr := [10#8], iface := 1 }, loc := { port := 22, iface := 1 } }],
           highestPriority := 65535, defaultPolicy := AR.REJECT }, ext := () }

/-- Finding: a connection is accepted on the interface its segment came in by, but closed on the interface its
control block is bound to — none, unless the application has bound it.  A rule for the interface counts the
accept, and not the end. -/
theorem C65_interface_rules_leak :
    ran envQuiet synSsh (ifaceWorld 0) = some (.ok, some 1) ∧
    eventNetif [1] (some { localIp := ⟨.v4, [10, 9, 9, 9]⟩, localPort := 22, remoteIp := ⟨.v4, [10, 1, 2, 3]⟩, remotePort := 4000, accepted := true }) none = none ∧
    ran envQuiet finSsh (ifaceWorld 1) = some (.abrt, some 1) := by
  refine ⟨?_, ?_, ?_⟩ <;> decide

/-- The world after an event. -/
def afterEvent (s : Sighting) (w : World Unit) : World Unit :=
  match filter envQuiet (fun _ => .error .itemNotFound) true {} s.layer.ports (planOf s) w 9 with
  | .stuck => w
  | .ret w2 _ => w2

theorem quiet_leaves (w : World Unit) (r : Route) (he : r.event = none) (hd : w.T.defaultEvent = none) : LeavesCounting (configFor envQuiet w r) := by
  intro k _
  unfold configFor
  rw [he, hd]
  exact ⟨BitVec.getLsbD_zero, BitVec.getLsbD_zero⟩

theorem decidedBy_of {w : World Unit} {s : Sighting} {r : Route} {f a inx : Flags} (hh : Has s.layer s.reason = true) (hp : Proper s)
    (hplan : planOf s = .ask { flags := f, ares := a, remote := remoteOf s, loc := localOf s })
    (hl : lookup w.T (questionOf s f) false (some a) 9 = some (.ok (r, inx))) : DecidedBy w s 9 r := by
  obtain ⟨f', a', h1, h2, h3, _⟩ := question_init s hh hp
  rw [hplan] at h1
  cases h1
  exact ⟨questionOf s f, a, inx, ⟨rfl, h2, h3⟩, hl⟩

/-- A history: accepted, then closed. -/
example : ∃ w2, History 1 (sshWorld (bit 21) AR.REJECT {}) 1 1 w2 := by
  have d1 : DecidedBy (sshWorld (bit 21) AR.REJECT {}) synSsh 9 (sshRule (bit 21) {}) :=
    decidedBy_of (f := bit 9 ||| bit 8 ||| bit 10) (a := bit 2) (inx := 242) rfl (by decide) (by decide) (by decide)
  have h1 : History 1 (sshWorld (bit 21) AR.REJECT {}) 1 0 (afterEvent synSsh (sshWorld (bit 21) AR.REJECT {})) :=
    .opened (E := envQuiet) (resolve := fun _ => .error .itemNotFound) (thr := {}) (s := synSsh) (fuel := 9) (e := .ok) .start envQuiet_observing
      (quiet_leaves _ _ rfl rfl) d1 rfl ⟨rfl, rfl⟩ (by decide) (by decide) rfl rfl
  refine ⟨afterEvent finSsh (afterEvent synSsh (sshWorld (bit 21) AR.REJECT {})), ?_⟩
  have d2 : DecidedBy (afterEvent synSsh (sshWorld (bit 21) AR.REJECT {})) finSsh 9 (((afterEvent synSsh (sshWorld (bit 21) AR.REJECT {})).T.get? 1).getD {}) :=
    decidedBy_of (f := bit 9 ||| bit 8 ||| bit 10) (a := bit 3) (inx := 50) rfl (by decide) (by decide) (by decide)
  exact .ended (E := envQuiet) (resolve := fun _ => .error .itemNotFound) (thr := {}) (s := finSsh) (fuel := 9) (e := .ok) h1 envQuiet_observing
      (quiet_leaves _ _ rfl rfl) d2 rfl ⟨rfl, .inl rfl, rfl⟩ (by decide) rfl rfl

/-- Accept and close with a rule for every interface: one connection, then none. -/
example :
    ran envQuiet synSsh (sshWorld (bit 21) AR.REJECT {}) = some (.ok, some 1) ∧
    ran envQuiet finSsh (sshWorld (bit 21) AR.REJECT { connectionCount := 1 }) = some (.ok, some 0) := by decide

end WS.Props
