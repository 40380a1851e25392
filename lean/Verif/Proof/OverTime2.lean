import Verif.Spec.OverTime
import Verif.Proof.OverTime1
import Verif.Props.Offender
import Verif.Props.Firewall
/-
Searching the table after a history, and counting offences (C89).
-/
namespace WS.Ot
open WS WS.Spec WS.Spec.Ld WS.Spec.Fw WS.Spec.Off WS.Spec.Ot WS.LT WS.Ld WS.Fw WS.Off WS.Props

variable {issued : Nat → Nat → Prop} {old : List Nat} {c : Cx} {p : Packet} {a : Flags} {σ : Type}

theorem kempt_of (hG : Good issued old c) : Kempt c.routes :=
  ⟨hG.table.core, fun r hr h0 => (hG.table.purge.mem r.id).2 ⟨r, hr, rfl, h0⟩⟩

theorem seen_same {r r' : Route} (h : SameRule r r') : Same (seen r) (seen r') := by
  refine ⟨?_, h.family, h.proto, h.remote, h.loc, fun k h20 h22 => ?_, h.expiry⟩
  · show r'.event.map _ = r.event.map _; rw [h.event]
  · show (r'.flags &&& _).getLsbD k = (r.flags &&& _).getLsbD k
    rw [BitVec.getLsbD_and, BitVec.getLsbD_and, h.flags k h20 h22]

theorem same_covers {x y : Seen} (h : Same x y) : Covers y p ↔ Covers x p := by
  have hf : ∀ k, k < 12 → y.flags.getLsbD k = x.flags.getLsbD k := fun k hk => h.flags k (by omega) (by omega)
  have e : ∀ k, k < 12 → (y.flags.getLsbD k = true ↔ x.flags.getLsbD k = true) := fun k hk => by rw [hf k hk]
  constructor
  · rintro ⟨h1, h2, h3, h4, h5, h6, h7, h8, h9⟩
    rw [hf _ (by decide)] at h2 h3 h4 h5 h6 h7 h8 h9
    rw [hf _ (by decide), hf 11 (by decide)] at h1
    rw [h.family] at h2; rw [h.remote] at h3 h7 h8; rw [h.proto] at h4; rw [h.loc] at h5 h6 h9
    exact ⟨h1, h2, h3, h4, h5, h6, h7, h8, h9⟩
  · rintro ⟨h1, h2, h3, h4, h5, h6, h7, h8, h9⟩
    rw [← hf _ (by decide)] at h2 h3 h4 h5 h6 h7 h8 h9
    rw [← hf _ (by decide), ← hf 11 (by decide)] at h1
    rw [← h.family] at h2; rw [← h.remote] at h3 h7 h8; rw [← h.proto] at h4; rw [← h.loc] at h5 h6 h9
    exact ⟨h1, h2, h3, h4, h5, h6, h7, h8, h9⟩

theorem same_exact {x y : Seen} (h : Same x y) (he : Exact y p) : Exact x p := by
  obtain ⟨h1, h2, h3, h4, h5, h6, h7, h8, h9, h10⟩ := he
  rw [h.family] at h1; rw [h.proto] at h2; rw [h.remote] at h3 h4 h7 h9; rw [h.loc] at h5 h6 h8 h10
  exact ⟨h1, h2, h3, h4, h5, h6, h7, h8, h9, h10⟩

theorem same_admits {v v' : View} {x y : Seen} (h : Same x y) (hv : v'.events = v.events) : Admits v' y a ↔ Admits v x a := by
  unfold Admits; rw [h.event, hv]

theorem same_rank {v v' : View} {x y : Seen} (h : Same x y) (hv : v'.events = v.events) : rank v' y = rank v x := by
  unfold rank; rw [h.event, hv]

theorem same_ordinary {x y : Seen} (h : Same x y) (ho : Ordinary x) : Ordinary y := by
  obtain ⟨h1, ⟨h2, h2'⟩, h3, h4⟩ := ho
  refine ⟨?_, ⟨?_, ?_⟩, by rw [h.remote]; exact h3, by rw [h.loc]; exact h4⟩
  · rw [h.flags _ (by decide) (by decide)]; exact h1
  · rw [h.flags _ (by decide) (by decide)]; exact h2
  · rw [h.flags _ (by decide) (by decide)]; exact h2'

theorem sane_later (hs : Sane c) {T : RouteTable} (h : Aged c.routes T) : Sane (later c T) := by
  refine ⟨h.kempt.core, fun r' hr' e he => ?_, hs.events⟩
  obtain ⟨r, hr, hsame⟩ := h.old r' hr'
  exact hs.linked r hr e (by rw [← hsame.event]; exact he)

theorem fit_later (hF : Fit (view c) p) {T : RouteTable} (h : Aged c.routes T) : Fit (view (later c T)) p := by
  have key : ∀ s ∈ (view (later c T)).rules, ∃ x ∈ (view c).rules, Same x s := by
    intro s hs
    obtain ⟨r', hr', rfl⟩ := List.mem_map.1 hs
    obtain ⟨r, hr, e⟩ := h.old r' hr'
    exact ⟨seen r, mem_seen hr, seen_same e⟩
  refine ⟨fun s hs => ?_, fun s hs => ?_, fun s hs => ?_⟩ <;> obtain ⟨x, hx, e⟩ := key s hs
  · exact same_ordinary e (hF.ordinary x hx)
  · intro hf
    rw [e.remote, e.loc]
    exact hF.fitting x hx (by rw [← e.family]; exact hf)
  · rw [e.remote, e.loc]; exact hF.tidy x hx

theorem settings_runs {g : EventConfig} {h : List (Visit σ)} : ∀ {w w' : WS.World σ}, Proper w → Fair g h → Runs w h w' → SameSettings w.T w'.T := by
  induction h with
  | nil => intro w w' _ _ hr; cases hr; exact ⟨rfl, rfl, rfl⟩
  | cons v h ih =>
    rintro w w' hP hF ⟨_, w1, h1, h2⟩
    have st := run_step (X := 1) (hF v (List.mem_cons_self ..)).1 hP (by decide) h1
    have := ih st.proper (fun u hu => hF u (List.mem_cons_of_mem _ hu)) h2
    exact ⟨this.1.trans st.settings.1, this.2.1.trans st.settings.2.1, this.2.2.trans st.settings.2.2⟩

theorem proper_of {w : WS.World σ} (hG : Good issued old c) (hT : w.T = c.routes) : Proper w :=
  ⟨by rw [hT]; exact hG.table.core.ids, by rw [hT]; exact hG.table.core.inTable⟩

theorem left_of (hG : Good issued old c) {g : EventConfig} {w w' : WS.World σ} {h : List (Visit σ)} (hT : w.T = c.routes) (hF : Fair g h) (hr : Runs w h w') :
    Left (view c) (view (later c w'.T)) := by
  have hk := kempt_of hG
  have ha := aged_runs (by rw [hT]; exact hk) hF hr
  have hset := settings_runs (proper_of hG hT) hF hr
  rw [hT] at ha hset
  refine ⟨fun y hy => ?_, fun x hx h0 => ?_, ?_, ?_, rfl⟩
  · obtain ⟨r', hr', rfl⟩ := List.mem_map.1 hy
    obtain ⟨r, hr, e⟩ := ha.old r' hr'
    exact ⟨seen r, mem_seen hr, seen_same e⟩
  · obtain ⟨r, hr, rfl⟩ := List.mem_map.1 hx
    have hnp : r.id ∉ c.routes.purgeList := fun hc => by
      obtain ⟨r2, hr2, e, h2⟩ := (hG.table.purge.mem r.id).1 hc
      rw [id_inj hG.table.core.ids hr2 hr e] at h2
      exact h2 h0
    obtain ⟨_, r', hr', e⟩ := ha.stay r hr hnp
    exact ⟨seen r', List.mem_map.2 ⟨r', hr', rfl⟩, seen_same e⟩
  · exact hset.1
  · show w'.T.defaultEvent.map _ = _; rw [hset.2.1]; rfl

/-- The rule the search finds in the later table. -/
theorem found_later (hG : Good issued old c) (hF : Fit (view c) p) (hp : Definite p) (hx : ¬ (a.getLsbD 4 = true ∧ a.getLsbD 5 = true)) {T : RouteTable}
    (h : Aged c.routes T) {ev : Option Event} {fuel : Nat} {res : Except Err (Route × Flags)} (hl : lookup T (targetOf ev p) false (some a) fuel = some res) :
    (∃ r inx, res = .ok (r, inx) ∧ r ∈ T.ents ∧ First (view (later c T)) a p (seen r)) ∨ (∃ e, res = .error e) ∧ Uncovered (view (later c T)) a p :=
  lookup_first (c := later c T) (sane_later hG.sane h) (fit_later hF h) hp hx hl

theorem pair_ne {α : Type} {R : α → α → Prop} {l : List α} (h : l.Pairwise R) : ∀ {x y : α}, x ∈ l → y ∈ l → x ≠ y → R x y ∨ R y x := by
  induction h with
  | nil => intro x y hx; cases hx
  | cons h1 _ ih =>
    intro x y hx hy hne
    rcases List.mem_cons.1 hx with e | hx' <;> rcases List.mem_cons.1 hy with e' | hy'
    · exact absurd (e.trans e'.symm) hne
    · exact .inl (e ▸ h1 _ hy')
    · exact .inr (e' ▸ h1 _ hx')
    · exact ih hx' hy' hne

/-- Two rules that look the same are the same. -/
theorem seen_inj (hG : Good issued [] c) {r r' : Route} (hr : r ∈ c.routes.ents) (hr' : r' ∈ c.routes.ents) (h : seen r = seen r') : r = r' := by
  by_cases he : r = r'
  · exact he
  · have hp := List.pairwise_map.1 (C84_no_twins hG)
    rcases pair_ne hp hr hr' he with g | g
    · exact absurd (h ▸ Twin.refl _) g
    · exact absurd (h ▸ Twin.refl _) g

/-- A rule that alone answers for a packet is the one that is found, as long as it does not expire. -/
theorem sole_found (hG : Good issued [] c) (hF : Fit (view c) p) (hp : Definite p) (hx : ¬ (a.getLsbD 4 = true ∧ a.getLsbD 5 = true)) {T : RouteTable}
    (h : Aged c.routes T) {r : Route} (hr : r ∈ c.routes.ents) (h0 : r.data.purgeAfter = 0) (hs : Sole (view c) a p (seen r)) {ev : Option Event} {fuel : Nat}
    {res : Except Err (Route × Flags)} (hl : lookup T (targetOf ev p) false (some a) fuel = some res) :
    ∃ r' inx, res = .ok (r', inx) ∧ r' ∈ T.ents ∧ SameRule r r' := by
  have hnp : r.id ∉ c.routes.purgeList := fun hc => by
    obtain ⟨r2, hr2, e, h2⟩ := (hG.table.purge.mem r.id).1 hc
    rw [id_inj hG.table.core.ids hr2 hr e] at h2
    exact h2 h0
  obtain ⟨_, r1, hr1, e1⟩ := h.stay r hr hnp
  have s1 := seen_same e1
  have m1 : seen r1 ∈ (view (later c T)).rules := List.mem_map.2 ⟨r1, hr1, rfl⟩
  have c1 := (same_covers (p := p) s1).2 hs.covers
  have d1 := (same_admits (a := a) (v := view c) (v' := view (later c T)) s1 rfl).2 hs.admits
  have x1 : ¬ Exact (seen r1) p := fun g => hs.inexact (same_exact s1 g)
  rcases found_later hG hF hp hx h hl with ⟨r', inx, e, hr', hf⟩ | ⟨_, hu⟩
  · refine ⟨r', inx, e, hr', ?_⟩
    obtain ⟨r0, hr0, e0⟩ := h.old r' hr'
    by_cases he : r0 = r
    · rw [← he]; exact e0
    · have s0 := seen_same e0
      have := hs.best (seen r0) (mem_seen hr0) (fun g => he (seen_inj hG hr0 hr g)) ((same_covers s0).1 hf.2.1)
        ((same_admits (v := view c) (v' := view (later c T)) s0 rfl).1 hf.2.2.1)
      have hle := hf.2.2.2 _ m1 c1 d1 x1
      rw [same_rank (v := view c) (v' := view (later c T)) s0 rfl, same_rank (v := view c) (v' := view (later c T)) s1 rfl] at hle
      omega
  · exact absurd (hu _ m1 c1 d1) x1

/-! ### Counting -/

theorem starting_neutral {g : EventConfig} (hN : Neutral g) (clk : Except Err Int) (s : Flags) (k : Nat) (hk : k < 6 ∨ k = 8 ∨ k = 10) :
    (starting g clk s).getLsbD k = s.getLsbD k := by
  obtain ⟨h1, h2⟩ := hN k hk
  unfold starting
  rw [BitVec.getLsbD_and, BitVec.getLsbD_or, BitVec.getLsbD_or, BitVec.getLsbD_not, h1, h2]
  have h9 : (if clockOK clk = true then 0#32 else BitVec.twoPow 32 9).getLsbD k = false := by
    split
    · exact BitVec.getLsbD_zero
    · rw [BitVec.getLsbD_twoPow]; simp; omega
  rw [h9]
  have : decide (k < 32) = true := by simp; omega
  rw [this]; simp

theorem strikes_append (X : Nat) (h h' : List (Visit σ)) : strikes X (h ++ h') = strikes X h + strikes X h' := by
  unfold strikes; rw [about_append, List.filter_append, List.length_append]

theorem strikes_cons (X : Nat) (v : Visit σ) (h : List (Visit σ)) :
    strikes X (v :: h) = (if v.reply.about = X ∧ v.ask.says.getLsbD 4 = true then 1 else 0) + strikes X h := by
  rw [show v :: h = [v] ++ h from rfl, strikes_append]
  congr 1
  unfold strikes about
  by_cases h1 : v.reply.about = X
  · rw [List.filter_cons_of_pos (by simpa using h1)]
    rcases h2 : v.ask.says.getLsbD 4 <;> simp only [List.filter_cons, List.filter_nil, h1, h2] <;> rfl
  · rw [List.filter_cons_of_neg (by simpa using h1), if_neg (fun g => h1 g.1)]; rfl

theorem strikes_prefix {X : Nat} {q h : List (Visit σ)} (hq : q <+: h) : strikes X q ≤ strikes X h := by
  obtain ⟨t, rfl⟩ := hq
  rw [strikes_append]; omega

theorem add_modest {g : EventConfig} (hN : Neutral g) {v : Visit σ} (hv : Modest v.ask) (n : Nat) :
    (Tally.mk n 0).add g (charge g v) = ⟨if v.ask.says.getLsbD 4 = true then bump n else n, 0⟩ := by
  obtain ⟨h2, h5, h8, h10⟩ := hv
  have e := fun k hk => starting_neutral hN v.ask.env.clock v.ask.says k hk
  have hch : Charged (charge g v) := ⟨(e 8 (by decide)).trans h8, (e 10 (by decide)).trans h10⟩
  have e5 : (charge g v).getLsbD 5 = false := (e 5 (by decide)).trans h5
  have e4 : (charge g v).getLsbD 4 = v.ask.says.getLsbD 4 := e 4 (by decide)
  unfold Tally.add
  rw [if_neg (by simpa using hch)]
  simp only [e5, e4]
  simp

theorem tally_modest {g : EventConfig} (hN : Neutral g) (X : Nat) {h : List (Visit σ)} : ∀ (n : Nat), (∀ v ∈ about X h, Modest v.ask) → n + strikes X h ≤ 65535 →
    tally g ⟨n, 0⟩ (about X h) = ⟨n + strikes X h, 0⟩ := by
  induction h with
  | nil => intro n _ _; rfl
  | cons v h ih =>
    intro n hp hle
    rw [strikes_cons] at hle ⊢
    by_cases hv : v.reply.about = X
    · rw [about_cons_pos hv] at hp ⊢
      show tally g ((Tally.mk n 0).add g (charge g v)) (about X h) = _
      rw [add_modest hN (hp v (List.mem_cons_self ..)) n]
      have hp' : ∀ u ∈ about X h, Modest u.ask := fun u hu => hp u (List.mem_cons_of_mem _ hu)
      cases h4 : v.ask.says.getLsbD 4 with
      | true =>
        simp only [hv, h4, and_self, if_true] at hle ⊢
        have hb : bump n = n + 1 := by unfold bump; rw [if_pos (by omega)]
        rw [hb, ih (n + 1) hp' (by omega)]
        congr 1; omega
      | false =>
        simp only [h4, Bool.false_eq_true, and_false, if_false] at hle ⊢
        rw [ih n hp' (by omega)]
        congr 1; omega
    · rw [about_cons_neg hv] at hp ⊢
      rw [if_neg (fun g => hv g.1)] at hle ⊢
      rw [ih n hp (by omega)]
      congr 1; omega

theorem guilty_modest (g : EventConfig) (n : Nat) : Guilty g ⟨n, 0⟩ ↔ 0 < g.derogatoryThreshold ∧ g.derogatoryThreshold ≤ n := by
  unfold Guilty
  split
  · exact Iff.rfl
  · simp only; omega

theorem not_refused {g : EventConfig} (hN : Neutral g) {v : Visit σ} (hv : Modest v.ask) : ¬ Refused g v := by
  rintro ⟨r, _, _, _, h2, _⟩
  have := (starting_neutral hN v.ask.env.clock v.ask.says 2 (by decide)).trans hv.1
  unfold charge at h2
  rw [this] at h2; cases h2

end WS.Ot
