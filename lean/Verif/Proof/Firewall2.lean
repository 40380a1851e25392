import Verif.Proof.Firewall1
import Verif.Props.DispatchApi
/-
What a lookup and a dispatch answer, in terms of what is in force.
-/
namespace WS.Fw
open WS WS.Spec WS.Spec.Ld WS.Spec.Fw WS.LT WS.Ld WS.Props

variable {c : Cx} {p : Packet} {a : Flags} {ev : Option Event}

/-- The rules in force are of the ordinary kind, and no longer than the packet's addresses. -/
structure Fit (v : View) (p : Packet) : Prop where
  ordinary : ∀ s ∈ v.rules, Ordinary s
  fitting : ∀ s ∈ v.rules, Fitting s p
  tidy : ∀ s ∈ v.rules, Tidy s.remote ∧ Tidy s.loc

theorem mem_seen {r : Route} (hr : r ∈ c.routes.ents) : seen r ∈ (view c).rules := List.mem_map.2 ⟨r, hr, rfl⟩

theorem covers_rule (hG : Sane c) (hF : Fit (view c) p) (hp : Definite p) {r : Route} (hr : r ∈ c.routes.ents) :
    Covers (seen r) p ↔ RuleMatches CidrMatch r (AnyEvent (targetOf ev p)) ∧ DirectionOK r (targetOf ev p) := by
  refine covers_iff hp (hG.core.sorted.wf r hr) (fun h => ?_)
  rcases h with h | h
  · exact hF.fitting _ (mem_seen hr) h
  · rw [(hF.ordinary _ (mem_seen hr)).family] at h; cases h

theorem lookup_first (hG : Sane c) (hF : Fit (view c) p) (hp : Definite p) (hx : ¬ (a.getLsbD 4 = true ∧ a.getLsbD 5 = true)) {fuel : Nat}
    {res : Except Err (Route × Flags)} (h : lookup c.routes (targetOf ev p) false (some a) fuel = some res) :
    (∃ r inx, res = .ok (r, inx) ∧ r ∈ c.routes.ents ∧ First (view c) a p (seen r)) ∨ (∃ e, res = .error e) ∧ Uncovered (view c) a p := by
  have hS := hG.core.sorted
  -- completeness
  have comp : ∀ x ∈ (view c).rules, Covers x p → Admits (view c) x a → ¬ Exact x p → ∃ b inx, res = .ok (b, inx) ∧ priority b ≤ rank (view c) x := by
    intro x hx' hcov hadm hne
    obtain ⟨r, hr, rfl⟩ := List.mem_map.1 hx'
    obtain ⟨hm, hd⟩ := (covers_rule (ev := ev) hG hF hp hr).1 hcov
    have ho := hF.ordinary _ hx'
    have hfam : r.family = p.family := by
      rcases hcov.family with g | g
      · rw [ho.family] at g; cases g
      · exact g
    have hb := hF.fitting _ hx' hfam
    have ht := hF.tidy _ hx'
    rw [rank_eq hG hr]
    refine C10_full_query_partial c.routes (targetOf ev p) r (some a) fuel res hS (fun x hx => ?_) (target_wf hp ev) (target_full hp ev) hr
      ⟨by rw [← seen_flag _ _ (by decide)]; exact ho.noMask.1, by rw [← seen_flag _ _ (by decide)]; exact ho.noMask.2⟩
      ⟨hd, (admits_iff hG hr a).1 hadm, fun he => ?_⟩ hm ho.remote ho.loc (hG.core.wildZero r hr)
      (padZero_of_tidy (hS.wf r hr).1 ho.remote ht.1) (padZero_of_tidy (hS.wf r hr).2 ho.loc ht.2) hb.1 hb.2 hfam (fun g => hne (exact_iff.2 g)) h
    · rw [← effPriority_eq]; exact hG.core.hpLe x hx
    · obtain ⟨a', e, h4, h5⟩ := he
      injection e with e; subst e
      exact absurd ⟨h4, h5⟩ hx
  cases res with
  | error e =>
    refine .inr ⟨⟨e, rfl⟩, fun x hx' hcov hadm => ?_⟩
    by_cases hne : Exact x p
    · exact hne
    · obtain ⟨_, _, g, _⟩ := comp x hx' hcov hadm hne; cases g
  | ok y =>
    obtain ⟨r, inx⟩ := y
    refine .inl ⟨r, inx, rfl, ?_⟩
    have hr := C09_returned_rule_in_table c.routes (targetOf ev p) r false (some a) fuel inx hS (target_wf hp ev) h
    have ho := hF.ordinary _ (mem_seen hr)
    have hm4 : ∀ x y : Nat, x % 4 = 0 → y % 8 = 0 → min x y % 4 = 0 := by intro x y h1 h2; rw [Nat.min_def]; split <;> omega
    have hpr := hp.remote
    have hpl := hp.loc
    obtain ⟨_, h1, h2, h3, _⟩ := C09_sound_partial c.routes (targetOf ev p) r (some a) fuel inx hS.wf (target_wf hp ev) hp.direction h
      ⟨by unfold wild; rw [← seen_flag r _ (by decide), ho.noMask.1]; exact hp.bare.1,
       by unfold wild; rw [← seen_flag r _ (by decide), ho.noMask.2]; exact hp.bare.2⟩
      (hm4 _ _ ho.remote (by show p.remote.bits % 8 = 0; omega)) (hm4 _ _ ho.loc (by show p.loc.bits % 8 = 0; omega))
    refine ⟨hr, mem_seen hr, (covers_rule hG hF hp hr).2 ⟨h1, h2⟩, (admits_iff hG hr a).2 h3, fun x hx' hcov hadm hne => ?_⟩
    obtain ⟨b, inx', e, hle⟩ := comp x hx' hcov hadm hne
    injection e with e; injection e with e1 e2; subst e1
    rw [rank_eq hG hr]; exact hle

theorem lookup_returns (hG : Sane c) (ho : ∀ s ∈ (view c).rules, Ordinary s) {fuel : Nat} (hf : (view c).rules.length + 1 < fuel) (t : Route) :
    ∃ res, lookup c.routes t false (some a) fuel = some res := by
  refine C10_terminates_partial c.routes t false (some a) fuel (.inl ?_) ?_
  · cases h : c.routes.lastAfWildcard with
    | none => rfl
    | some id =>
      obtain ⟨r, hr, _, h0⟩ := hG.core.lastAf id h
      have := (ho _ (mem_seen hr)).family
      rw [seen_flag _ _ (by decide), h0] at this; cases this
  · have : (view c).rules.length = c.routes.ents.length := List.length_map ..
    omega

/-- A rule nothing has been charged to yet. -/
def Unused (r : Route) : Prop := r.data.connectionCount = 0 ∧ r.data.derogatoryCount = 0 ∧ r.data.lastPenaltyboxTime = 0 ∧ r.data.commendableCount = 0

theorem starting_silent {g : EventConfig} (hN : Neutral g) (hs : Silent a) (clk : Except Err Int) (k : Nat)
    (hk : k = 0 ∨ k = 1 ∨ k = 2 ∨ k = 4 ∨ k = 5 ∨ k = 8 ∨ k = 10) : (starting g clk a).getLsbD k = false := by
  have hn := (hN k (by omega)).1
  unfold starting
  rw [BitVec.getLsbD_and, BitVec.getLsbD_or, BitVec.getLsbD_or, hs k hk, hn]
  have h9 : (if clockOK clk = true then 0#32 else BitVec.twoPow 32 9).getLsbD k = false := by
    split
    · exact BitVec.getLsbD_zero
    · rw [BitVec.getLsbD_twoPow]; simp; omega
  rw [h9]; rfl

theorem reported_silent (hx : ¬ (a.getLsbD 4 = true ∧ a.getLsbD 5 = true)) : reported a = a := by unfold reported; rw [if_neg hx]

section
variable {σ : Type} {E : DispEnv σ} {resolve : List Byte → Except Err Event} {w : WS.World σ} {label : Option (List Byte)} {trig : Option Event} {fuel : Nat} {res : DispRes σ}

theorem neutral_for (hG : Sane c) (hT : w.T = c.routes) (hg : E.g = c.global) (hQ : Quiet (view c))
    (hdef : ∀ e g, c.routes.defaultEvent = some e → e.config = some g → Neutral g) {r : Route} (hr : r ∈ c.routes.ents) : Neutral (configFor E w r) := by
  unfold configFor configOf
  rw [hT, hg]
  have hglob : Neutral c.global := fun k hk => hQ.1 k hk
  cases he : r.event with
  | some e =>
    rw [Option.some_or]
    cases hc : e.config with
    | none => simp only [Option.bind_some, hc]; exact hglob
    | some g =>
      simp only [Option.bind_some, hc]
      refine hQ.2 e.label e g ?_ hc
      exact at_of_mem hG.events (hG.linked r hr e he)
  | none =>
    rw [Option.none_or]
    cases hd : c.routes.defaultEvent with
    | none => exact hglob
    | some e =>
      cases hc : e.config with
      | none => simp only [Option.bind_some, hc]; exact hglob
      | some g => simp only [Option.bind_some, hc]; exact hdef e g hd hc

/-- A dispatch about a packet that finds a rule ends well, and reports the rule. -/
theorem found_ok (hp : Definite p) (htrig : triggerOf resolve p.flags label = .ok trig) {r : Route} {inx : Flags}
    (hlk : lookup w.T (targetOf trig p) false (some a) fuel = some (.ok (r, inx)))
    (h : E.dispatch1 resolve w p.from p.to p.flags label a fuel = some res) : res.ret = .ok .ok := by
  unfold DispEnv.dispatch1 at h
  simp only [htrig, init_packet hp, hlk] at h
  split at h
  · cases h
  · rename_i w2 a2 rs hd
    split at h
    · cases h
    · injection h with h
      subst h
      simp only
      unfold DispEnv.dispatch0 at hd
      have hm : (targetOf trig p).flags.has (RF.REMOTE_ADDR_BITMASK ||| RF.LOCAL_ADDR_BITMASK) = false := by
        rw [Props.has_or, has_rmask, has_lmask]
        show (p.flags.getLsbD 12 || p.flags.getLsbD 13) = false
        rw [hp.bare.1, hp.bare.2]; rfl
      rw [if_neg (by rw [hm]; decide)] at hd
      split at hd
      · cases hd
      · split at hd
        · cases hd
        · injection hd with hd
          injection hd with _ hd
          injection hd with _ hd
          subst hd; rfl

theorem answers_of (hE : Observing E) (hG : Sane c) (hT : w.T = c.routes) (hg : E.g = c.global) (hQ : Quiet (view c))
    (hdef : ∀ e g, c.routes.defaultEvent = some e → e.config = some g → Neutral g) (hp : Definite p) (hs : Silent a)
    (htrig : triggerOf resolve p.flags label = .ok trig) {r : Route} {inx : Flags} (hr : r ∈ c.routes.ents) (hu : Unused r)
    (hlk : lookup w.T (targetOf trig p) false (some a) fuel = some (.ok (r, inx)))
    (h : E.dispatch1 resolve w p.from p.to p.flags label a fuel = some res) : Answers (view c).policy (seen r) res.ares := by
  have hret := found_ok hp htrig hlk h
  have hN := neutral_for (E := E) (w := w) hG hT hg hQ hdef hr
  have hx : ¬ (a.getLsbD 4 = true ∧ a.getLsbD 5 = true) := by rw [hs 4 (by decide)]; rintro ⟨g, _⟩; cases g
  obtain ⟨c1, c2, c3, c4⟩ := C23_dispatch_by_addresses hE (by rw [hT]; exact hG.core.ids) (by rw [hT]; exact hr) (hG.core.inTable r hr) htrig
    (init_packet hp trig) hlk hret h
  rw [reported_silent hx] at c1 c2 c3 c4
  have hb := fun k hk => starting_silent (a := a) hN hs E.clock k hk
  generalize hS : starting (configFor E w r) E.clock a = s at c1 c2 c3 c4 hb
  have hch : Charged s := ⟨hb 8 (by decide), hb 10 (by decide)⟩
  have hol : ¬ OverLimit (configFor E w r) r s := by
    rintro ⟨_, _, g, _⟩; rw [hb 2 (by decide)] at g; cases g
  have hre : ¬ ReachesThreshold (configFor E w r) r s := by
    have hd : derogatoryNow (configFor E w r) r s = 0 := by
      unfold derogatoryNow
      rw [if_neg (by simpa using hch), if_neg (by rw [hb 5 (by decide)]; rintro ⟨g, _⟩; cases g), if_neg (by rw [hb 4 (by decide)]; decide)]
      exact hu.2.1
    rintro ⟨h0, g⟩
    rw [hd] at g
    split at g <;> omega
  have f20 := seen_flag r 20 (by decide)
  have f21 := seen_flag r 21 (by decide)
  refine ⟨fun g => ?_, fun g g' => ?_, fun g g' => ?_⟩
  · rw [f20] at g
    have := c1 ⟨g, fun hbe => hbe.2.1 hu.2.2.1, fun hc => by rw [hb 5 (by decide)] at hc; exact absurd hc.1 (by decide)⟩
    exact ⟨this.1, this.2.trans (hb 0 (by decide))⟩
  · rw [f20] at g; rw [f21] at g'
    have := c3 g hol hre g'
    exact ⟨this.1, this.2.trans (hb 1 (by decide))⟩
  · rw [f20] at g; rw [f21] at g'
    have := c4 g hol hre g' (hb 0 (by decide)) (hb 1 (by decide))
    rw [hT] at this
    exact this

end
end WS.Fw
