import Verif.Spec.Dispatch
import Verif.Props.TableState
import Verif.Props.Delete
/-
Proofs about dispatching (C20-C23).
-/
namespace WS
open WS.Spec

/-! ### Bits -/
theorem has_of_bit {m : Flags} {k : Nat} (hm : m = bit k) (hk : k < 32) (f : Flags) : f.has m = f.getLsbD k := by
  subst hm; exact Flags.has_bit f k hk
theorem hasAll_of_bit {m : Flags} {k : Nat} (hm : m = bit k) (hk : k < 32) (f : Flags) : f.hasAll m = f.getLsbD k := by
  subst hm; unfold Flags.hasAll bit; rw [BitVec.and_twoPow]
  cases h : f.getLsbD k
  · simp only [Bool.false_eq_true, if_false]
    have : ¬ (0#32 = BitVec.twoPow 32 k) := by
      intro hc
      have := congrArg (fun b => BitVec.getLsbD b k) hc
      simp [hk] at this
    simpa using this
  · simp

theorem has_mask_or (f a b : Flags) : f.has (a ||| b) = (f.has a || f.has b) := by
  unfold Flags.has
  rw [BitVec.and_or_distrib_left]
  by_cases h1 : f &&& a = 0#32 <;> by_cases h2 : f &&& b = 0#32
  · simp [h1, h2]
  · simp [h1, h2]
  · simp [h1, h2]
  · have h3 : (f &&& a ||| f &&& b) ≠ 0#32 := by
      intro hc
      rw [BitVec.or_eq_zero_iff] at hc
      exact h1 hc.1
    rw [bne_iff_ne.2 h3, bne_iff_ne.2 h1]; rfl

theorem getLsbD_or_bit (f : Flags) (j k : Nat) (hj : j < 32) : (f ||| bit j).getLsbD k = (f.getLsbD k || decide (j = k)) := by
  unfold bit
  rw [BitVec.getLsbD_or, BitVec.getLsbD_twoPow]
  by_cases h : j = k
  · subst h; simp [hj]
  · simp [h]

theorem bit_getLsbD (j k : Nat) (hj : j < 32) : (bit j).getLsbD k = decide (j = k) := by
  unfold bit
  rw [BitVec.getLsbD_twoPow]
  by_cases h : j = k
  · subst h; simp [hj]
  · simp [h]

theorem getLsbD_andNot_bit (f : Flags) (j k : Nat) (hj : j < 32) : (f &&& ~~~bit j).getLsbD k = (f.getLsbD k && !decide (j = k)) := by
  unfold bit
  rw [BitVec.getLsbD_and, BitVec.getLsbD_not, BitVec.getLsbD_twoPow]
  by_cases hk : k < 32
  · by_cases h : j = k
    · subst h; simp [hj]
    · simp [h, hk]
  · rw [BitVec.getLsbD_of_ge _ _ (by omega)]; simp

/-! ### The verdict on one rule -/

theorem inc16_eq (n : Nat) : inc16 n = bump n := rfl

theorem countDerogatory_spec (d : RouteMeta) (a : Flags) :
    countDerogatory d a = { d with derogatoryCount := if a.getLsbD 4 = true then bump d.derogatoryCount else d.derogatoryCount } := by
  unfold countDerogatory
  rw [has_of_bit (m := AR.DEROGATORY) (k := 4) rfl (by decide) a]
  cases a.getLsbD 4 <;> rfl

theorem countCommendable_spec (c : EventConfig) (d : RouteMeta) (a : Flags) :
    countCommendable c d a = { d with
      commendableCount := if a.getLsbD 5 = true then bump d.commendableCount else d.commendableCount
      derogatoryCount := if a.getLsbD 5 = true ∧ c.flags.getLsbD 1 = true then 0 else d.derogatoryCount } := by
  unfold countCommendable
  rw [has_of_bit (m := AR.COMMENDABLE) (k := 5) rfl (by decide) a,
    has_of_bit (m := EF.COMMENDABLE_CLEARS_DEROGATORY) (k := 1) rfl (by decide) c.flags]
  cases a.getLsbD 5 <;> cases c.flags.getLsbD 1 <;> rfl

theorem countConnection_spec (c : EventConfig) (f : Flags) (d : RouteMeta) (a : Flags) :
    countConnection c f d a =
      if f.getLsbD 23 = false ∧ a.getLsbD 2 = true ∧ c.maxConnectionCount ≤ d.connectionCount then none
      else some { d with connectionCount := (if f.getLsbD 23 = false then
          (if a.getLsbD 2 = true then (d.connectionCount + 1) % 65536
          else if a.getLsbD 3 = true then d.connectionCount - 1
          else d.connectionCount)
        else d.connectionCount) } := by
  have hmod : ∀ n : Nat, ¬ c.maxConnectionCount ≤ n → ¬ (n + 1) % 65536 > c.maxConnectionCount := by
    intro n hn h
    have := Nat.mod_le (n + 1) 65536
    omega
  unfold countConnection
  rw [has_of_bit (m := AR.CONNECT) (k := 2) rfl (by decide) a, has_of_bit (m := AR.DISCONNECT) (k := 3) rfl (by decide) a,
    has_of_bit (m := RF.DONT_COUNT_CURRENT_CONNECTIONS) (k := 23) rfl (by decide) f]
  cases f.getLsbD 23 <;> cases a.getLsbD 2 <;> cases a.getLsbD 3 <;>
    simp only [Bool.false_eq_true, if_false, if_true, true_and, and_true, false_and, and_false, reduceCtorEq] <;>
    by_cases hl : c.maxConnectionCount ≤ d.connectionCount <;> simp [hl, hmod]

/-- What counting does to a rule whose flags are the cached ones. -/
theorem countHit_spec (c : EventConfig) (r : Route) (a : Flags) :
    (countHit c r.flags r a).2.2 = decide (OverLimit c r a) ∧
    (countHit c r.flags r a).2.1 = (if OverLimit c r a then a ||| AR.REJECT else a) ∧
    (countHit c r.flags r a).1 = { r with data := { r.data with
      derogatoryCount := if OverLimit c r a then (if a.getLsbD 4 = true then bump r.data.derogatoryCount else r.data.derogatoryCount)
        else derogatoryNow c r a
      commendableCount := if OverLimit c r a then r.data.commendableCount else commendableNow r a
      connectionCount := if OverLimit c r a then r.data.connectionCount else connectionsNow r a } } := by
  unfold countHit derogatoryNow commendableNow connectionsNow OverLimit
  rw [hasAll_of_bit (m := AR.INSERTED) (k := 8) rfl (by decide) a, hasAll_of_bit (m := AR.FALLTHROUGH) (k := 10) rfl (by decide) a]
  by_cases hc : Charged a
  · have e : (a.getLsbD 8 || a.getLsbD 10) = false := by rw [hc.1, hc.2]; rfl
    rw [if_neg (by rw [e]; exact Bool.false_ne_true), countDerogatory_spec]
    simp only
    rw [countConnection_spec]
    simp only [hc, true_and, not_true_eq_false, if_false]
    by_cases hl : r.flags.getLsbD 23 = false ∧ a.getLsbD 2 = true ∧ c.maxConnectionCount ≤ r.data.connectionCount
    · rw [if_pos hl]; simp only [hl, and_self, decide_true, if_true]
    · rw [if_neg hl]
      simp only [if_neg hl, hl, decide_false, countCommendable_spec, true_and]
      by_cases b5 : a.getLsbD 5 = true ∧ c.flags.getLsbD 1 = true <;> simp [b5]
  · have e : (a.getLsbD 8 || a.getLsbD 10) = true := by
      unfold Charged at hc
      cases h8 : a.getLsbD 8 <;> cases h10 : a.getLsbD 10 <;> simp_all
    rw [if_pos e]
    simp [hc]

/-- The rule out of the box. -/
def released (r : Route) : Route := { r with flags := r.flags &&& ~~~RF.PENALTYBOXED }

theorem released_bit (r : Route) (k : Nat) : (released r).flags.getLsbD k = (r.flags.getLsbD k && !decide (20 = k)) :=
  getLsbD_andNot_bit r.flags 20 k (by decide)

theorem boxUpdate_clear (clk : Except Err Int) (r : Route) (cached a : Flags) (hb : r.flags.getLsbD 20 = true) :
    boxUpdate clk 0 RF.PENALTYBOXED r cached a = (released r, (released r).flags, a ||| AR.UPDATE) := by
  have hf : (r.flags ||| (0 : Flags)) &&& ~~~RF.PENALTYBOXED = (released r).flags := by
    unfold released
    have : r.flags ||| (0 : Flags) = r.flags := BitVec.or_zero
    rw [this]
  have h0 : ((released r).flags).has RF.PENALTYBOXED = false := by
    rw [has_of_bit (m := RF.PENALTYBOXED) (k := 20) rfl (by decide), released_bit]; simp
  have hne : (released r).flags ≠ r.flags := by
    intro hc
    have h1 := released_bit r 20
    rw [hc, hb] at h1
    simp at h1
  have e : updateFlags r 0 RF.PENALTYBOXED clk a = .ok (released r, a ||| AR.UPDATE, r.flags, (released r).flags) := by
    unfold updateFlags
    rw [if_neg (by decide), if_neg (by decide), if_neg (by intro h; exact absurd h.2 (by decide))]
    unfold Flags.setClear
    rw [hf]
    simp only [h0, Bool.false_eq_true, false_and, if_false, if_pos hne]
    cases clk <;> rfl
  unfold boxUpdate
  rw [e]

theorem unbox_spec (c : EventConfig) (now : Int) (clk : Except Err Int) (r : Route) (a : Flags) :
    unbox c now clk r r.flags a =
      if r.flags.getLsbD 20 = true ∧ ¬ BoxHeld c now r a then (released r, (released r).flags, a ||| AR.UPDATE)
      else (r, r.flags, a) := by
  have h0 : ((released r).flags).has RF.PENALTYBOXED = false := by
    rw [has_of_bit (m := RF.PENALTYBOXED) (k := 20) rfl (by decide), released_bit]; simp
  have e1 : unboxCommendable c clk r r.flags a =
      if r.flags.getLsbD 20 = true ∧ a.getLsbD 5 = true ∧ c.flags.getLsbD 1 = true then (released r, (released r).flags, a ||| AR.UPDATE)
      else (r, r.flags, a) := by
    unfold unboxCommendable
    rw [has_of_bit (m := RF.PENALTYBOXED) (k := 20) rfl (by decide) r.flags, hasAll_of_bit (m := AR.COMMENDABLE) (k := 5) rfl (by decide),
      hasAll_of_bit (m := EF.COMMENDABLE_CLEARS_DEROGATORY) (k := 1) rfl (by decide)]
    by_cases h : r.flags.getLsbD 20 = true ∧ a.getLsbD 5 = true ∧ c.flags.getLsbD 1 = true
    · rw [if_pos h, if_pos (by rw [h.1, h.2.1, h.2.2]; rfl), boxUpdate_clear _ _ _ _ h.1]
    · rw [if_neg h, if_neg]
      intro hc
      simp only [Bool.and_eq_true] at hc
      exact h ⟨hc.1.1, hc.1.2, hc.2⟩
  have e2 : unboxElapsed c now clk r r.flags a =
      if r.flags.getLsbD 20 = true ∧ BoxElapsed c now r then (released r, (released r).flags, a ||| AR.UPDATE)
      else (r, r.flags, a) := by
    unfold unboxElapsed
    rw [has_of_bit (m := RF.PENALTYBOXED) (k := 20) rfl (by decide) r.flags]
    by_cases h : r.flags.getLsbD 20 = true ∧ BoxElapsed c now r
    · rw [if_pos h, if_pos (by rw [h.1]; simp [h.2.1, h.2.2.1, h.2.2.2]), boxUpdate_clear _ _ _ _ h.1]
    · rw [if_neg h, if_neg]
      intro hc
      simp only [Bool.and_eq_true, decide_eq_true_eq] at hc
      exact h ⟨hc.1.1.1, hc.1.1.2, hc.1.2, hc.2⟩
  have e3 : unboxElapsed c now clk (released r) (released r).flags (a ||| AR.UPDATE) = (released r, (released r).flags, a ||| AR.UPDATE) := by
    unfold unboxElapsed
    rw [h0]; rfl
  unfold unbox
  simp only
  rw [e1]
  by_cases h1 : r.flags.getLsbD 20 = true ∧ a.getLsbD 5 = true ∧ c.flags.getLsbD 1 = true
  · rw [if_pos h1]
    simp only
    rw [e3, if_pos ⟨h1.1, fun h => h.2.2 h1.2⟩]
  · rw [if_neg h1]
    simp only
    rw [e2]
    by_cases h2 : r.flags.getLsbD 20 = true ∧ BoxElapsed c now r
    · rw [if_pos h2, if_pos ⟨h2.1, fun h => h.2.1 h2.2⟩]
    · rw [if_neg h2, if_neg]
      exact fun h => h.2 ⟨h.1, fun he => h2 ⟨h.1, he⟩, fun hc => h1 ⟨h.1, hc⟩⟩

/-- The rule in the box. -/
def boxed (clk : Except Err Int) (r : Route) : Route :=
  { r with flags := r.flags ||| RF.PENALTYBOXED, data := { r.data with
      lastPenaltyboxTime := (match clk with | .ok t => t | .error _ => r.data.lastPenaltyboxTime) } }

theorem boxed_bit (clk : Except Err Int) (r : Route) (k : Nat) : (boxed clk r).flags.getLsbD k = (r.flags.getLsbD k || decide (20 = k)) :=
  getLsbD_or_bit r.flags 20 k (by decide)

theorem updateFlags_box (clk : Except Err Int) (r : Route) (a : Flags) (hb : r.flags.getLsbD 20 = false) :
    updateFlags r RF.PENALTYBOXED 0 clk a = .ok (boxed clk r, a ||| AR.UPDATE, r.flags, (boxed clk r).flags) := by
  have hf : (r.flags ||| RF.PENALTYBOXED) &&& ~~~(0 : Flags) = r.flags ||| RF.PENALTYBOXED := by
    have : ~~~(0 : Flags) = BitVec.allOnes 32 := by decide
    rw [this, BitVec.and_allOnes]
  have hb2 : (boxed clk r).flags = r.flags ||| RF.PENALTYBOXED := rfl
  have h1 : (r.flags ||| RF.PENALTYBOXED).has RF.PENALTYBOXED = true := by
    rw [has_of_bit (m := RF.PENALTYBOXED) (k := 20) rfl (by decide), ← hb2, boxed_bit]; simp
  have h2 : r.flags.has RF.PENALTYBOXED = false := by
    rw [has_of_bit (m := RF.PENALTYBOXED) (k := 20) rfl (by decide), hb]
  have hne : r.flags ||| RF.PENALTYBOXED ≠ r.flags := by
    intro hc
    have h1 := boxed_bit clk r 20
    rw [hb2, hc, hb] at h1
    simp at h1
  unfold updateFlags
  rw [if_neg (by decide), if_neg (by decide), if_neg (by intro h; exact absurd h.2 (by decide))]
  unfold Flags.setClear
  rw [hf]
  simp only [h1, h2, and_self, if_true, if_pos hne]
  cases clk <;> rfl

/-- The port reset bit. -/
theorem portReset_bit (f a : Flags) (k : Nat) :
    (if a.has AR.REJECT && f.has RF.PORT_RESET then a ||| AR.PORT_RESET else a).getLsbD k =
      (a.getLsbD k || (decide (12 = k) && a.getLsbD 1 && f.getLsbD 24)) := by
  rw [has_of_bit (m := AR.REJECT) (k := 1) rfl (by decide), has_of_bit (m := RF.PORT_RESET) (k := 24) rfl (by decide)]
  split
  · rename_i h
    simp only [Bool.and_eq_true] at h
    rw [show AR.PORT_RESET = bit 12 from rfl, getLsbD_or_bit _ _ _ (by decide), h.1, h.2]
    simp
  · rename_i h
    simp only [Bool.and_eq_true, not_and, Bool.not_eq_true] at h
    cases h1 : a.getLsbD 1
    · simp
    · rw [h h1]; simp

/-- The counted rule. -/
def counted (c : EventConfig) (r : Route) (a : Flags) : Route :=
  { r with data := { r.data with
      derogatoryCount := derogatoryNow c r a
      commendableCount := commendableNow r a
      connectionCount := connectionsNow r a } }

/-- The verdict on a rule that is not boxed (any more) and whose flags are the cached ones. -/
theorem judge_spec (c : EventConfig) (pol : Flags) (clk : Except Err Int) (r : Route) (a : Flags) :
    judge c pol clk r r.flags a =
      if r.flags.getLsbD 20 = true then (r, r.flags, a ||| AR.REJECT)
      else if derogatoryExceeds c r.data = true then
        ({ boxed clk r with data := { (boxed clk r).data with derogatoryCount := 0, commendableCount := 0 } },
          (boxed clk r).flags, a ||| AR.UPDATE ||| AR.REJECT)
      else if r.flags.getLsbD 21 = true then (r, r.flags, a ||| AR.ACCEPT)
      else if a.getLsbD 0 = true ∨ a.getLsbD 1 = true then (r, r.flags, a)
      else (r, r.flags, a ||| (AR.FALLTHROUGH ||| pol)) := by
  have h01 : a.has (AR.ACCEPT ||| AR.REJECT) = (a.getLsbD 0 || a.getLsbD 1) := by
    rw [has_mask_or, has_of_bit (m := AR.ACCEPT) (k := 0) rfl (by decide), has_of_bit (m := AR.REJECT) (k := 1) rfl (by decide)]
  unfold judge
  rw [has_of_bit (m := RF.PENALTYBOXED) (k := 20) rfl (by decide) r.flags, has_of_bit (m := RF.GREENLISTED) (k := 21) rfl (by decide) r.flags, h01]
  by_cases hb : r.flags.getLsbD 20 = true
  · rw [if_pos hb, if_pos hb]
  · rw [if_neg hb, if_neg hb]
    have hb' : r.flags.getLsbD 20 = false := by cases h : r.flags.getLsbD 20 <;> simp_all
    by_cases he : derogatoryExceeds c r.data = true
    · rw [if_pos he, if_pos he, updateFlags_box _ _ _ hb']
    · rw [if_neg he, if_neg he]
      by_cases hg : r.flags.getLsbD 21 = true
      · rw [if_pos hg, if_pos hg]
      · rw [if_neg hg, if_neg hg]
        by_cases hv : a.getLsbD 0 = true ∨ a.getLsbD 1 = true
        · rw [if_pos hv, if_pos (by simpa using hv)]
        · rw [if_neg hv, if_neg (by simpa using hv)]

theorem derogatoryExceeds_iff (c : EventConfig) (r : Route) (a : Flags) (d : RouteMeta)
    (hd : d.derogatoryCount = derogatoryNow c r a) (hm : d.commendableCount = commendableNow r a) :
    derogatoryExceeds c d = true ↔ ReachesThreshold c r a := by
  unfold derogatoryExceeds ReachesThreshold
  rw [has_of_bit (m := EF.DEROGATORY_THRESHOLD_IGNORE_COMMENDABLE) (k := 0) rfl (by decide), hd, hm]
  cases c.flags.getLsbD 0 <;> simp [ge_iff_le]

/-- What the whole counting and verdict amounts to, for a rule whose flags are the cached ones. -/
theorem decideRule_spec (c : EventConfig) (pol : Flags) (now : Int) (clk : Except Err Int) (r : Route) (a : Flags) :
    (OverLimit c r a →
      (decideRule c pol now clk r.flags r a).1 = { r with data := { r.data with
        derogatoryCount := if a.getLsbD 4 = true then bump r.data.derogatoryCount else r.data.derogatoryCount } } ∧
      ∀ k, (decideRule c pol now clk r.flags r a).2.getLsbD k = (a.getLsbD k || decide (1 = k) || (decide (12 = k) && r.flags.getLsbD 24))) ∧
    (¬ OverLimit c r a → BoxHeld c now r a →
      (decideRule c pol now clk r.flags r a).1 = counted c r a ∧
      ∀ k, (decideRule c pol now clk r.flags r a).2.getLsbD k = (a.getLsbD k || decide (1 = k) || (decide (12 = k) && r.flags.getLsbD 24))) ∧
    (¬ OverLimit c r a → ¬ BoxHeld c now r a → ReachesThreshold c r a →
      (∀ k, (decideRule c pol now clk r.flags r a).1.flags.getLsbD k = (r.flags.getLsbD k || decide (20 = k))) ∧
      (decideRule c pol now clk r.flags r a).1.data.derogatoryCount = 0 ∧ (decideRule c pol now clk r.flags r a).1.data.commendableCount = 0 ∧
      (∀ t, clk = .ok t → (decideRule c pol now clk r.flags r a).1.data.lastPenaltyboxTime = t) ∧
      ∀ k, (decideRule c pol now clk r.flags r a).2.getLsbD k =
        (a.getLsbD k || decide (1 = k) || decide (11 = k) || (decide (12 = k) && r.flags.getLsbD 24))) ∧
    (¬ OverLimit c r a → ¬ BoxHeld c now r a → ¬ ReachesThreshold c r a →
      (decideRule c pol now clk r.flags r a).1 = { counted c r a with flags := (decideRule c pol now clk r.flags r a).1.flags } ∧
      (∀ k, (decideRule c pol now clk r.flags r a).1.flags.getLsbD k = (r.flags.getLsbD k && !decide (20 = k))) ∧
      (r.flags.getLsbD 21 = true → ∀ k, (decideRule c pol now clk r.flags r a).2.getLsbD k =
        (a.getLsbD k || decide (0 = k) || (decide (11 = k) && r.flags.getLsbD 20) || (decide (12 = k) && a.getLsbD 1 && r.flags.getLsbD 24))) ∧
      (r.flags.getLsbD 21 = false → a.getLsbD 0 = true ∨ a.getLsbD 1 = true → ∀ k, (decideRule c pol now clk r.flags r a).2.getLsbD k =
        (a.getLsbD k || (decide (11 = k) && r.flags.getLsbD 20) || (decide (12 = k) && a.getLsbD 1 && r.flags.getLsbD 24))) ∧
      (r.flags.getLsbD 21 = false → a.getLsbD 0 = false → a.getLsbD 1 = false → ∀ k, (decideRule c pol now clk r.flags r a).2.getLsbD k =
        (a.getLsbD k || decide (10 = k) || pol.getLsbD k || (decide (11 = k) && r.flags.getLsbD 20) ||
          (decide (12 = k) && pol.getLsbD 1 && r.flags.getLsbD 24)))) := by
  obtain ⟨k1, k2, k3⟩ := countHit_spec c r a
  by_cases hl : OverLimit c r a
  · refine ⟨fun _ => ?_, fun h => absurd hl h, fun h => absurd hl h, fun h => absurd hl h⟩
    have hd : decideRule c pol now clk r.flags r a = ((countHit c r.flags r a).1,
        if (a ||| AR.REJECT).has AR.REJECT && r.flags.has RF.PORT_RESET then a ||| AR.REJECT ||| AR.PORT_RESET else a ||| AR.REJECT) := by
      unfold decideRule
      simp only [k1, decide_eq_true hl, if_true, k2, if_pos hl]
    rw [hd]
    refine ⟨?_, fun k => ?_⟩
    · rw [k3]; simp only [if_pos hl]
    · rw [portReset_bit, show AR.REJECT = bit 1 from rfl, getLsbD_or_bit _ _ _ (by decide), getLsbD_or_bit _ _ _ (by decide)]
      simp
  · have hcd : (countHit c r.flags r a).1 = counted c r a := by
      rw [k3]; unfold counted; simp only [if_neg hl]
    have hdd : decideRule c pol now clk r.flags r a =
        (let u := unbox c now clk (counted c r a) (counted c r a).flags a
         let x := judge c pol clk u.1 u.2.1 u.2.2
         (x.1, if x.2.2.has AR.REJECT && x.2.1.has RF.PORT_RESET then x.2.2 ||| AR.PORT_RESET else x.2.2)) := by
      unfold decideRule
      have hf : (counted c r a).flags = r.flags := rfl
      simp only [k1, decide_eq_false hl, Bool.false_eq_true, if_false, k2, if_neg hl, hcd, hf]
    have hheld : BoxHeld c now (counted c r a) a ↔ BoxHeld c now r a := Iff.rfl
    have hcf : (counted c r a).flags = r.flags := rfl
    have hexc : derogatoryExceeds c (counted c r a).data = true ↔ ReachesThreshold c r a := derogatoryExceeds_iff c r a _ rfl rfl
    refine ⟨fun h => absurd h hl, fun _ hh => ?_, fun _ hh ht => ?_, fun _ hh ht => ?_⟩
    · -- held
      have e : decideRule c pol now clk r.flags r a = (counted c r a,
          if (a ||| AR.REJECT).has AR.REJECT && r.flags.has RF.PORT_RESET then a ||| AR.REJECT ||| AR.PORT_RESET else a ||| AR.REJECT) := by
        rw [hdd, unbox_spec, if_neg (fun h => h.2 (hheld.2 hh))]
        simp only
        rw [judge_spec, if_pos (by rw [hcf]; exact hh.1), hcf]
      rw [e]
      refine ⟨rfl, fun k => ?_⟩
      rw [portReset_bit, show AR.REJECT = bit 1 from rfl, getLsbD_or_bit _ _ _ (by decide), getLsbD_or_bit _ _ _ (by decide)]
      simp
    all_goals
      -- after the release
      obtain ⟨r1, a1, hu, hr20, hrk, hrd, ha⟩ : ∃ r1 a1, unbox c now clk (counted c r a) (counted c r a).flags a = (r1, r1.flags, a1) ∧
          r1.flags.getLsbD 20 = false ∧ (∀ k, r1.flags.getLsbD k = (r.flags.getLsbD k && !decide (20 = k))) ∧
          r1 = { counted c r a with flags := r1.flags } ∧ (∀ k, a1.getLsbD k = (a.getLsbD k || (decide (11 = k) && r.flags.getLsbD 20))) := by
        rw [unbox_spec]
        by_cases hb : r.flags.getLsbD 20 = true
        · rw [if_pos ⟨by rw [hcf]; exact hb, fun h => hh (hheld.1 h)⟩]
          refine ⟨_, _, rfl, ?_, fun k => ?_, rfl, fun k => ?_⟩
          · rw [released_bit]; simp
          · rw [released_bit, hcf]
          · rw [show AR.UPDATE = bit 11 from rfl, getLsbD_or_bit _ _ _ (by decide), hb]; simp
        · have hb' : r.flags.getLsbD 20 = false := by cases h : r.flags.getLsbD 20 <;> simp_all
          rw [if_neg (by rw [hcf]; exact fun h => hb h.1)]
          refine ⟨_, _, rfl, by rw [hcf]; exact hb', fun k => ?_, rfl, fun k => ?_⟩
          · rw [hcf]
            by_cases hk : 20 = k
            · subst hk; rw [hb']; rfl
            · simp [hk]
          · rw [hb']; simp
      have hr24 : r1.flags.getLsbD 24 = r.flags.getLsbD 24 := by rw [hrk 24]; simp
      have hr21 : r1.flags.getLsbD 21 = r.flags.getLsbD 21 := by rw [hrk 21]; simp
      have ha0 : a1.getLsbD 0 = a.getLsbD 0 := by rw [ha 0]; simp
      have ha1 : a1.getLsbD 1 = a.getLsbD 1 := by rw [ha 1]; simp
      have hexc1 : derogatoryExceeds c r1.data = true ↔ ReachesThreshold c r a := by rw [hrd]; exact hexc
      rw [hdd, hu]
      simp only
      rw [judge_spec, if_neg (by rw [hr20]; exact Bool.false_ne_true)]
    · rw [if_pos (hexc1.2 ht)]
      refine ⟨fun k => ?_, rfl, rfl, fun t h => ?_, fun k => ?_⟩
      · show (boxed clk r1).flags.getLsbD k = _
        rw [boxed_bit, hrk]
        by_cases hk : 20 = k <;> simp [hk]
      · subst h; rfl
      · rw [portReset_bit]
        simp only [show AR.REJECT = bit 1 from rfl, show AR.UPDATE = bit 11 from rfl, getLsbD_or_bit _ _ _ (by decide : 1 < 32),
          getLsbD_or_bit _ _ _ (by decide : 11 < 32), boxed_bit, hr24, ha]
        rw [show decide True = true from rfl, show decide ((20 : Nat) = 24) = false from rfl]
        generalize a.getLsbD k = x1; generalize a.getLsbD 1 = x2; generalize r.flags.getLsbD 24 = x3; generalize r.flags.getLsbD 20 = x4
        generalize decide (1 = k) = x5; generalize decide (11 = k) = x6; generalize decide (12 = k) = x7; generalize decide (11 = 1) = x8
        revert x1 x2 x3 x4 x5 x6 x7 x8; decide
    · rw [if_neg (fun h => ht (hexc1.1 h)), hr21, ha0, ha1]
      by_cases hg : r.flags.getLsbD 21 = true
      · rw [if_pos hg]
        refine ⟨?_, hrk, fun _ k => ?_, fun h => ?_, fun h => ?_⟩
        · simp only; exact hrd
        · rw [portReset_bit]
          simp only [show AR.ACCEPT = bit 0 from rfl, getLsbD_or_bit _ _ _ (by decide : 0 < 32), hr24, ha]
          rw [show decide ((0 : Nat) = 1) = false from rfl, show decide ((11 : Nat) = 1) = false from rfl]
          generalize a.getLsbD k = x1; generalize a.getLsbD 1 = x2; generalize r.flags.getLsbD 24 = x3; generalize r.flags.getLsbD 20 = x4
          generalize decide (0 = k) = x5; generalize decide (11 = k) = x6; generalize decide (12 = k) = x7
          revert x1 x2 x3 x4 x5 x6 x7; decide
        · rw [hg] at h; cases h
        · rw [hg] at h; cases h
      · rw [if_neg hg]
        by_cases hv : a.getLsbD 0 = true ∨ a.getLsbD 1 = true
        · rw [if_pos hv]
          refine ⟨?_, hrk, fun h => absurd h hg, fun _ _ k => ?_, fun _ h0 h1 => ?_⟩
          · simp only; exact hrd
          · rw [portReset_bit, ha, hr24, ha1]
          · rw [h0, h1] at hv; simp at hv
        · rw [if_neg hv]
          refine ⟨?_, hrk, fun h => absurd h hg, fun _ h => absurd h hv, fun _ h0 h1 k => ?_⟩
          · simp only; exact hrd
          · rw [portReset_bit]
            simp only [show AR.FALLTHROUGH = bit 10 from rfl, BitVec.getLsbD_or, bit_getLsbD _ _ (by decide : 10 < 32), hr24, ha, h1]
            rw [show decide ((10 : Nat) = 1) = false from rfl, show decide ((11 : Nat) = 1) = false from rfl]
            generalize a.getLsbD k = x1; generalize pol.getLsbD 1 = x2; generalize r.flags.getLsbD 24 = x3; generalize r.flags.getLsbD 20 = x4
            generalize decide (10 = k) = x5; generalize decide (11 = k) = x6; generalize decide (12 = k) = x7; generalize pol.getLsbD k = x8
            revert x1 x2 x3 x4 x5 x6 x7 x8; decide

theorem updateFlags_id {r : Route} {s c : Flags} {now : Except Err Int} {a : Flags} {x : Route × Flags × Flags × Flags}
    (h : updateFlags r s c now a = .ok x) : x.1.id = r.id := by
  unfold updateFlags at h
  split at h
  · cases h
  split at h
  · cases h
  split at h
  · cases h
  cases h
  rfl

theorem boxUpdate_id (clk : Except Err Int) (s c : Flags) (r : Route) (cached a : Flags) : (boxUpdate clk s c r cached a).1.id = r.id := by
  unfold boxUpdate
  cases h : updateFlags r s c clk a with
  | ok x => exact updateFlags_id h
  | error e => rfl

theorem decideRule_id (c : EventConfig) (pol : Flags) (now : Int) (clk : Except Err Int) (f : Flags) (r : Route) (a : Flags) :
    (decideRule c pol now clk f r a).1.id = r.id := by
  have h1 : (countHit c f r a).1.id = r.id := by
    unfold countHit
    split
    · rfl
    · simp only
      split <;> rfl
  have h2 : ∀ (r : Route) (f a : Flags), (unbox c now clk r f a).1.id = r.id := by
    intro r f a
    have e1 : (unboxCommendable c clk r f a).1.id = r.id := by
      unfold unboxCommendable
      split
      · exact boxUpdate_id _ _ _ _ _ _
      · rfl
    unfold unbox unboxElapsed
    simp only
    split
    · rw [boxUpdate_id]; exact e1
    · exact e1
  have h3 : ∀ (r : Route) (f a : Flags), (judge c pol clk r f a).1.id = r.id := by
    intro r f a
    unfold judge
    split
    · rfl
    split
    · cases h : updateFlags r RF.PENALTYBOXED 0 clk a with
      | ok x => exact updateFlags_id h
      | error e => rfl
    split
    · rfl
    split <;> rfl
  unfold decideRule
  simp only
  split
  · exact h1
  · rw [h3, h2]; exact h1

/-! ### Dispatches whose handlers only observe -/

/-- The two states have the same rules. -/
def SameRules {σ : Type} (w w' : World σ) : Prop := w'.T = w.T ∧ w'.eph = w.eph ∧ w'.fall = w.fall

theorem SameRules.get {σ : Type} {w w' : World σ} (h : SameRules w w') (ref : RuleRef) : w'.get ref = w.get ref := by
  obtain ⟨h1, h2, h3⟩ := h
  cases ref <;> simp [World.get, h1, h2, h3]

theorem SameRules.trans {σ : Type} {a b c : World σ} (h : SameRules a b) (h' : SameRules b c) : SameRules a c :=
  ⟨h'.1.trans h.1, h'.2.1.trans h.2.1, h'.2.2.trans h.2.2⟩

theorem runActions_obs {σ : Type} {E : DispEnv σ} (hE : Observing E) (ref : RuleRef) (ty : ActionType) (l : List Nat) (w : World σ) (a : Flags) :
    SameRules w (runActions (E.env ref) ty l w a).st ∧ ∀ k, k ≠ 6 → (runActions (E.env ref) ty l w a).ares.getLsbD k = a.getLsbD k := by
  induction l generalizing w a with
  | nil => exact ⟨⟨rfl, rfl, rfl⟩, fun _ _ => rfl⟩
  | cons i rest ih =>
    unfold runActions
    split
    · exact ih w a
    · have hent : SameRules w ((E.env ref).enter w i) := by
        unfold ActEnv.enter
        split <;> exact ⟨rfl, rfl, rfl⟩
      have hh := hE ty i ref ((E.env ref).enter w i) a
      have hs : SameRules w (E.handler ty i ref ((E.env ref).enter w i) a).1 := hent.trans ⟨hh.1, hh.2.1, hh.2.2.1⟩
      show SameRules w (match (E.handler ty i ref ((E.env ref).enter w i) a).2.2 with
        | some e => _ | none => _ : RunRes (World σ)).st ∧ ∀ k, k ≠ 6 → (match (E.handler ty i ref ((E.env ref).enter w i) a).2.2 with
        | some e => _ | none => _ : RunRes (World σ)).ares.getLsbD k = a.getLsbD k
      split
      · exact ⟨hs, hh.2.2.2⟩
      · split
        · exact ⟨hs, hh.2.2.2⟩
        · have := ih (E.handler ty i ref ((E.env ref).enter w i) a).1 (E.handler ty i ref ((E.env ref).enter w i) a).2.1
          exact ⟨hs.trans this.1, fun k hk => (this.2 k hk).trans (hh.2.2.2 k hk)⟩

theorem listDispatch_obs {σ : Type} {E : DispEnv σ} (hE : Observing E) (ref : RuleRef) (ty : ActionType) (h1 : ty ≠ .insert) (h2 : ty ≠ .delete)
    (e : Event) (w : World σ) (a : Flags) :
    SameRules w (listDispatch (E.env ref) E.g e ty w a).st ∧ ∀ k, k ≠ 6 → (listDispatch (E.env ref) E.g e ty w a).ares.getLsbD k = a.getLsbD k := by
  unfold listDispatch
  split
  · exact ⟨⟨rfl, rfl, rfl⟩, fun _ _ => rfl⟩
  · cases ty <;> first | exact absurd rfl h1 | exact absurd rfl h2 | skip
    all_goals
      simp only
      split
      · exact ⟨⟨rfl, rfl, rfl⟩, fun _ _ => rfl⟩
      · exact runActions_obs hE ref _ _ w a

theorem runList_obs {σ : Type} {E : DispEnv σ} (hE : Observing E) (ref : RuleRef) (ty : ActionType) (h1 : ty ≠ .insert) (h2 : ty ≠ .delete)
    (e : Option Event) (w : World σ) (a : Flags) :
    SameRules w (E.runList e ty ref w a).1 ∧ ∀ k, k ≠ 6 → (E.runList e ty ref w a).2.1.getLsbD k = a.getLsbD k := by
  unfold DispEnv.runList
  cases e with
  | none => exact ⟨⟨rfl, rfl, rfl⟩, fun _ _ => rfl⟩
  | some ev =>
    simp only
    split
    · exact listDispatch_obs hE ref ty h1 h2 ev w a
    · exact ⟨⟨rfl, rfl, rfl⟩, fun _ _ => rfl⟩

theorem andNotStop_bit (a : Flags) (k : Nat) (hk : k ≠ 6) : (a &&& ~~~AR.STOP).getLsbD k = a.getLsbD k := by
  rw [show AR.STOP = bit 6 from rfl, getLsbD_andNot_bit _ _ _ (by decide)]
  have : ¬ 6 = k := fun h => hk h.symm
  simp [this]

theorem conclude_obs {σ : Type} {E : DispEnv σ} (hE : Observing E) (e : Option Event) (ref : RuleRef) (w : World σ) (a : Flags) :
    SameRules w (E.conclude e ref w a).1 ∧ ∀ k, k ≠ 6 → (E.conclude e ref w a).2.getLsbD k = a.getLsbD k := by
  have hclr : ∀ (ev : Option Event) (ty : ActionType) (a : Flags) (k : Nat), k ≠ 6 →
      (match ev with | some x => if (x.actions ty).length > 0 then a &&& ~~~AR.STOP else a | none => a).getLsbD k = a.getLsbD k := by
    intro ev ty a k hk
    cases ev with
    | none => rfl
    | some x =>
      simp only
      split
      · exact andNotStop_bit a k hk
      · rfl
  unfold DispEnv.conclude
  simp only
  generalize hu : (if a.hasAll AR.UPDATE = true then E.runList e .update ref w
    (match e with | some x => if (x.actions .update).length > 0 then a &&& ~~~AR.STOP else a | none => a) else (w, a, false)) = u
  have h1 : SameRules w u.1 ∧ ∀ k, k ≠ 6 → u.2.1.getLsbD k = a.getLsbD k := by
    subst hu
    split
    · have := runList_obs hE ref .update (by decide) (by decide) e w
        (match e with | some x => if (x.actions .update).length > 0 then a &&& ~~~AR.STOP else a | none => a)
      exact ⟨this.1, fun k hk => (this.2 k hk).trans (hclr e .update a k hk)⟩
    · exact ⟨⟨rfl, rfl, rfl⟩, fun _ _ => rfl⟩
  clear hu
  have h2 := runList_obs hE ref .decision (by decide) (by decide) e u.1
    (match e with | some x => if (x.actions .decision).length > 0 then u.2.1 &&& ~~~AR.STOP else u.2.1 | none => u.2.1)
  exact ⟨h1.1.trans h2.1, fun k hk => ((h2.2 k hk).trans (hclr e .decision u.2.1 k hk)).trans (h1.2 k hk)⟩

/-- The rule after a hit: time of last hit and expiry may have changed. -/
def Touched (r r1 : Route) : Prop :=
  r1 = { r with data := { r.data with lastHitTime := r1.data.lastHitTime, purgeAfter := r1.data.purgeAfter } }

theorem get?_removeRule (T : RouteTable) (r : Route) (id : Nat) : (T.removeRule r).get? id = if id = r.id then none else T.get? id := by
  show (T.ents.filter (fun x => x.id != r.id)).find? (fun x => x.id == id) = _
  rw [List.find?_filter]
  by_cases h : id = r.id
  · rw [if_pos h, List.find?_eq_none]
    intro x _
    subst h
    cases hx : x.id == r.id <;> simp_all
  · rw [if_neg h]
    show _ = T.ents.find? _
    congr 1
    funext x
    by_cases hx : x.id = id
    · subst hx; simp [h]
    · have : (x.id == id) = false := by simpa using hx
      simp [this]

theorem get?_update (T : RouteTable) (r r1 : Route) (id : Nat) (h : T.get? id = some r) (hid : r1.id = r.id) : (T.update r1).get? id = some r1 := by
  have hr := get?_some h
  show (T.ents.map (fun x => if x.id = r1.id then r1 else x)).find? (fun x => x.id == id) = some r1
  rw [find?_map_id T.ents (fun x => if x.id = r1.id then r1 else x) (by intro x _; split <;> simp_all) id]
  show (T.get? id).map _ = _
  rw [h]
  simp [hid]

/-- The parts of the table a purge does not touch. -/
def SameSettings (T T' : RouteTable) : Prop :=
  T'.defaultPolicy = T.defaultPolicy ∧ T'.defaultEvent = T.defaultEvent ∧ T'.fallthroughRoute = T.fallthroughRoute

theorem hitExpiry_get (T : RouteTable) (r : Route) (id : Nat) (idle lh : Int) (h : T.get? id = some r) :
    ∃ r1, (T.hitExpiry r idle lh).get? id = some r1 ∧ Touched r r1 ∧ SameSettings T (T.hitExpiry r idle lh) := by
  unfold RouteTable.hitExpiry
  simp only
  split
  · have := get?_update T r { r with data := { r.data with purgeAfter := lh + idle + 60000000 } } id h rfl
    split
    · exact ⟨_, this, rfl, rfl, rfl, rfl⟩
    · exact ⟨_, this, rfl, rfl, rfl, rfl⟩
  · exact ⟨r, h, rfl, rfl, rfl, rfl⟩

theorem stampHit_touched (clk : Except Err Int) (r : Route) : Touched r (stampHit clk r) ∧ (stampHit clk r).id = r.id := by
  cases clk <;> exact ⟨rfl, rfl⟩

theorem Touched.trans {a b c : Route} (h : Touched a b) (h' : Touched b c) : Touched a c := by
  unfold Touched at h h' ⊢
  rw [h', h]

theorem clockAres_bit (clk : Except Err Int) (a : Flags) (k : Nat) :
    (clockAres clk a).getLsbD k = (a.getLsbD k || (k == 9 && !clockOK clk)) := by
  cases clk with
  | ok t => simp [clockAres, clockOK]
  | error e =>
    unfold clockAres
    simp only
    rw [show AR.ERROR = bit 9 from rfl, getLsbD_or_bit _ _ _ (by decide)]
    by_cases hk : k = 9
    · subst hk; simp [clockOK]
    · have : ¬ 9 = k := fun h => hk h.symm
      simp [hk, this]

theorem refresh_spec {σ : Type} (E : DispEnv σ) (idle : Int) (ref : RuleRef) (r : Route) (w : World σ) (hr : w.get ref = some r) :
    (∃ r2, (E.refresh idle ref r w).get ref = some r2 ∧ Touched r r2) ∧ SameSettings w.T (E.refresh idle ref r w).T ∧
    (E.refresh idle ref r w).fall = w.fall ∧ (E.refresh idle ref r w).eph = w.eph := by
  unfold DispEnv.refresh
  cases ref with
  | entry id =>
    simp only
    split
    · obtain ⟨r2, h1, h2, h3⟩ := hitExpiry_get w.T r id idle r.data.lastHitTime hr
      exact ⟨⟨r2, h1, h2⟩, h3, rfl, rfl⟩
    · exact ⟨⟨r, hr, rfl⟩, ⟨rfl, rfl, rfl⟩, rfl, rfl⟩
  | ephemeral => exact ⟨⟨r, hr, rfl⟩, ⟨rfl, rfl, rfl⟩, rfl, rfl⟩
  | fallthrough => exact ⟨⟨r, hr, rfl⟩, ⟨rfl, rfl, rfl⟩, rfl, rfl⟩

theorem purge_spec {σ : Type} {E : DispEnv σ} {w w' : World σ} (h : E.purge w = some w') :
    (∀ ref, w'.get ref = none ∨ w'.get ref = w.get ref) ∧ SameSettings w.T w'.T ∧ w'.fall = w.fall ∧ w'.eph = w.eph := by
  have hid : (∀ ref, w.get ref = none ∨ w.get ref = w.get ref) ∧ SameSettings w.T w.T ∧ w.fall = w.fall ∧ w.eph = w.eph :=
    ⟨fun _ => .inr rfl, ⟨rfl, rfl, rfl⟩, rfl, rfl⟩
  unfold DispEnv.purge at h
  split at h
  · split at h
    · rename_i t _ _
      cases hp : stalePurge E.g E.purgeActs .opportunistic t 1 w.T 0 with
      | none => rw [hp] at h; cases h
      | some x =>
        rw [hp] at h
        cases h
        have hinv := stalePurge_inv (fun T => SameSettings w.T T ∧ (∀ id, T.get? id = none ∨ T.get? id = w.T.get? id))
          (fun T y hT _ => ⟨hT.1, fun id => by
            rw [get?_removeRule]
            split
            · exact .inl rfl
            · exact hT.2 id⟩)
          (T := w.T) ⟨⟨rfl, rfl, rfl⟩, fun id => .inr rfl⟩ hp
        refine ⟨fun ref => ?_, hinv.1, rfl, rfl⟩
        cases ref with
        | entry id => exact hinv.2 id
        | ephemeral => exact .inr rfl
        | fallthrough => exact .inr rfl
    · cases h; exact hid
  · cases h; exact hid

theorem put_get {σ : Type} {w : World σ} {ref : RuleRef} {r r1 : Route} (hr : w.get ref = some r) (hid : r1.id = r.id) :
    (w.put ref r1).get ref = some r1 := by
  cases ref with
  | entry id => exact get?_update w.T r r1 id hr hid
  | ephemeral => rfl
  | fallthrough => rfl

theorem arrive_spec {σ : Type} {E : DispEnv σ} {idle : Int} {ref : RuleRef} {w : World σ} {a : Flags} {w1 : World σ} {a1 : Flags} {r : Route}
    (hr : w.get ref = some r) (h : E.arrive idle ref w a = some (w1, a1)) :
    (w1.get ref = none ∨ ∃ r1, w1.get ref = some r1 ∧ Touched r r1) ∧ SameSettings w.T w1.T ∧ (ref ≠ .fallthrough → w1.fall = w.fall) ∧
    ∀ k, a1.getLsbD k = (a.getLsbD k || (k == 9 && !clockOK E.clock)) := by
  unfold DispEnv.arrive at h
  rw [hr] at h
  simp only at h
  cases hp : E.purge (E.refresh idle ref (stampHit E.clock r) (w.put ref (stampHit E.clock r))) with
  | none => rw [hp] at h; cases h
  | some w2 =>
    rw [hp] at h
    cases h
    obtain ⟨p1, p2, p3, p4⟩ := purge_spec hp
    obtain ⟨t1, t2⟩ := stampHit_touched E.clock r
    obtain ⟨⟨r2, q1, q2⟩, q3, q4, q5⟩ := refresh_spec E idle ref (stampHit E.clock r) (w.put ref (stampHit E.clock r)) (put_get hr t2)
    refine ⟨?_, ?_, fun hf => ?_, fun k => clockAres_bit _ _ _⟩
    · rcases p1 ref with h | h
      · exact .inl h
      · exact .inr ⟨r2, h.trans q1, t1.trans q2⟩
    · have : SameSettings w.T (w.put ref (stampHit E.clock r)).T := by cases ref <;> exact ⟨rfl, rfl, rfl⟩
      exact ⟨(p2.1.trans q3.1).trans this.1, (p2.2.1.trans q3.2.1).trans this.2.1, (p2.2.2.trans q3.2.2).trans this.2.2⟩
    · rw [p3, q4]; cases ref <;> first | rfl | exact absurd rfl hf

theorem configured_bits (c : EventConfig) (a : Flags) (k : Nat) (hk : k < 32) :
    (applyResBits c a).getLsbD k = ((a.getLsbD k || c.resBitsToAdd.getLsbD k) && !c.resBitsToClear.getLsbD k) := by
  unfold applyResBits
  rw [BitVec.getLsbD_and, BitVec.getLsbD_or, BitVec.getLsbD_not]
  simp [hk]

/-- A dispatch with observing handlers that does not switch to the fallthrough rule: the verdict is
taken on the rule, with its own flags. -/
theorem dispatch0_obs {σ : Type} {E : DispEnv σ} (hE : Observing E) {trigger : Option Event} {target : Route} {ref : RuleRef} {w : World σ}
    {a : Flags} {w' : World σ} {a' : Flags} {r : Route} (hr : w.get ref = some r)
    (hin : r.flags.getLsbD 14 = true ∨ w.T.fallthroughRoute = none)
    (h : E.dispatch0 trigger target ref w a = some (w', a', .ok ())) :
    ∃ r1 a1, Touched r r1 ∧
      (∀ k, k ≠ 6 → k < 32 → a1.getLsbD k = configured (configOf E.g (r.event.or w.T.defaultEvent)) E.clock a k) ∧
      w'.get ref = some (decideRule (configOf E.g (r.event.or w.T.defaultEvent)) w.T.defaultPolicy
        (clockNow E.clock) E.boxClock r1.flags r1 a1).1 ∧
      ∀ k, k ≠ 6 → a'.getLsbD k = (decideRule (configOf E.g (r.event.or w.T.defaultEvent)) w.T.defaultPolicy
        (clockNow E.clock) E.boxClock r1.flags r1 a1).2.getLsbD k := by
  unfold DispEnv.dispatch0 at h
  split at h
  · cases h
  cases hp : E.prelude trigger ref w a with
  | none => rw [hp] at h; cases h
  | some x =>
    obtain ⟨c, v⟩ := x
    rw [hp] at h
    simp only at h
    cases hvg : v.w.get v.ref with
    | none => rw [hvg] at h; cases h
    | some r2 =>
      rw [hvg] at h
      simp only at h
      -- the prelude
      have hpre : c = configOf E.g (r.event.or w.T.defaultEvent) ∧ v.ref = ref ∧ Touched r r2 ∧ v.cached = r.flags ∧
          v.w.T.defaultPolicy = w.T.defaultPolicy ∧
          (∀ k, k ≠ 6 → k < 32 → v.ares.getLsbD k = configured c E.clock a k) := by
        unfold DispEnv.prelude at hp
        rw [hr] at hp
        simp only at hp
        cases ha : E.arrive (configOf E.g (r.event.or w.T.defaultEvent)).routeIdleTimeForPurge ref w a with
        | none => rw [ha] at hp; cases hp
        | some y =>
          obtain ⟨w1, a1⟩ := y
          rw [ha] at hp
          simp only at hp
          obtain ⟨q1, q2, _, q4⟩ := arrive_spec hr ha
          have hpost := runList_obs hE ref .post (by decide) (by decide) trigger w1 a1
          generalize E.runList trigger .post ref w1 a1 = po at hp hpost
          obtain ⟨w2, a2, ran⟩ := po
          simp only at hp hpost
          generalize ha2' : (if ran = true then a2 &&& ~~~AR.STOP else a2) = a2' at hp
          have ha2 : ∀ k, k ≠ 6 → a2'.getLsbD k = a1.getLsbD k := by
            intro k hk
            subst ha2'
            split
            · rw [andNotStop_bit _ _ hk]; exact hpost.2 k hk
            · exact hpost.2 k hk
          cases hrc : (if ran = true then w2.get ref else some r) with
          | none => rw [hrc] at hp; cases hp
          | some rc =>
            rw [hrc] at hp
            simp only at hp
            have hrcf : rc.flags = r.flags := by
              split at hrc
              · rw [hpost.1.get] at hrc
                rcases q1 with q1 | ⟨r1, q1, q1t⟩
                · rw [q1] at hrc; cases hrc
                · rw [q1] at hrc; cases hrc; rw [q1t]
              · cases hrc; rfl
            have hsw : (!rc.flags.hasAll RF.IN_TABLE && w2.T.fallthroughRoute.isSome) = false := by
              rw [hasAll_of_bit (m := RF.IN_TABLE) (k := 14) rfl (by decide), hrcf, hpost.1.1, q2.2.2]
              rcases hin with h | h
              · rw [h]; rfl
              · rw [h]; simp
            rw [hsw] at hp
            simp only [Bool.false_eq_true, if_false] at hp
            have hm := runList_obs hE ref .match_ (by decide) (by decide) (r.event.or w.T.defaultEvent) w2
              (applyResBits (configOf E.g (r.event.or w.T.defaultEvent)) a2')
            generalize E.runList (r.event.or w.T.defaultEvent) .match_ ref w2
              (applyResBits (configOf E.g (r.event.or w.T.defaultEvent)) a2') = m at hp hm
            obtain ⟨w3, a3, ran2⟩ := m
            simp only at hp hm
            have hall : SameRules w1 w3 := hpost.1.trans hm.1
            generalize hcc : configOf E.g (r.event.or w.T.defaultEvent) = cc at hp hm
            have hfin : ∀ a4 : Flags, (∀ k, k ≠ 6 → a4.getLsbD k = a3.getLsbD k) → ∀ k, k ≠ 6 → k < 32 →
                a4.getLsbD k = configured cc E.clock a k := by
              intro a4 h4 k hk hk2
              rw [h4 k hk, hm.2 k hk, configured_bits _ _ _ hk2, ha2 k hk, q4]
              rfl
            have hget : ∀ rr, w3.get ref = some rr → Touched r rr := by
              intro rr hh
              rw [hall.get] at hh
              rcases q1 with q1 | ⟨r1, q1, q1t⟩
              · rw [q1] at hh; cases hh
              · rw [q1] at hh; cases hh; exact q1t
            have hpol : w3.T.defaultPolicy = w.T.defaultPolicy := by rw [hall.1]; exact q2.1
            split at hp
            · rename_i hran
              cases hg3 : w3.get ref with
              | none => rw [hg3] at hp; cases hp
              | some rm =>
                rw [hg3] at hp
                cases hp
                simp only at hvg
                rw [hg3] at hvg; cases hvg
                refine ⟨rfl, rfl, hget _ hg3, ?_, hpol, ?_⟩
                · show r2.flags = _
                  rw [hget _ hg3]
                · exact hfin _ (fun k hk => andNotStop_bit _ _ hk)
            · rename_i hran
              cases hp
              simp only at hvg
              refine ⟨rfl, rfl, hget _ hvg, hrcf, hpol, hfin _ (fun k hk => rfl)⟩
      obtain ⟨h1, h2, h3, h4, h5, h6⟩ := hpre
      cases h
      have hr2 : r2.flags = r.flags := by rw [h3]
      have hcon := conclude_obs hE v.event v.ref (v.w.put v.ref (decideRule c v.w.T.defaultPolicy
        (clockNow E.clock) E.boxClock v.cached r2 v.ares).1)
        (decideRule c v.w.T.defaultPolicy (clockNow E.clock) E.boxClock v.cached r2 v.ares).2
      refine ⟨r2, v.ares, h3, fun k hk hk2 => by rw [← h1]; exact h6 k hk hk2, ?_, ?_⟩
      · rw [← h1, hr2, ← h4, ← h5, ← h2, hcon.1.get]
        have hid : ∀ x y z u f q aa, (decideRule x y z u f q aa).1.id = q.id := decideRule_id
        rw [h2] at hvg ⊢
        cases ref with
        | entry id => exact get?_update v.w.T r2 _ id hvg (hid _ _ _ _ _ _ _)
        | ephemeral => rfl
        | fallthrough => rfl
      · intro k hk
        rw [← h1, hr2, ← h4, ← h5]
        exact hcon.2 k hk

/-! ### Independence of the stop bit and of hit time and expiry -/

/-- Same results apart from the stop bit. -/
def SameButStop (a b : Flags) : Prop := ∀ k, k ≠ 6 → k < 32 → a.getLsbD k = b.getLsbD k

theorem charged_congr {a b : Flags} (h : SameButStop a b) : Charged a ↔ Charged b := by
  unfold Charged; rw [h 8 (by decide) (by decide), h 10 (by decide) (by decide)]

theorem overLimit_congr {c : EventConfig} {r r1 : Route} (ht : Touched r r1) {a b : Flags} (h : SameButStop a b) :
    OverLimit c r1 a ↔ OverLimit c r b := by
  unfold OverLimit; rw [charged_congr h, h 2 (by decide) (by decide), ht]

theorem boxElapsed_congr {c : EventConfig} {now : Int} {r r1 : Route} (ht : Touched r r1) : BoxElapsed c now r1 ↔ BoxElapsed c now r := by
  unfold BoxElapsed; rw [ht]

theorem boxHeld_congr {c : EventConfig} {now : Int} {r r1 : Route} (ht : Touched r r1) {a b : Flags} (h : SameButStop a b) :
    BoxHeld c now r1 a ↔ BoxHeld c now r b := by
  unfold BoxHeld; rw [boxElapsed_congr ht, h 5 (by decide) (by decide), ht]

theorem derogatoryNow_congr {c : EventConfig} {r r1 : Route} (ht : Touched r r1) {a b : Flags} (h : SameButStop a b) :
    derogatoryNow c r1 a = derogatoryNow c r b := by
  unfold derogatoryNow
  simp only [charged_congr h, h 5 (by decide) (by decide), h 4 (by decide) (by decide)]
  rw [ht]

theorem commendableNow_congr {r r1 : Route} (ht : Touched r r1) {a b : Flags} (h : SameButStop a b) :
    commendableNow r1 a = commendableNow r b := by
  unfold commendableNow
  simp only [charged_congr h, h 5 (by decide) (by decide)]
  rw [ht]

theorem reaches_congr {c : EventConfig} {r r1 : Route} (ht : Touched r r1) {a b : Flags} (h : SameButStop a b) :
    ReachesThreshold c r1 a ↔ ReachesThreshold c r b := by
  unfold ReachesThreshold
  rw [derogatoryNow_congr ht h, commendableNow_congr ht h]

theorem starting_bits (c : EventConfig) (clk : Except Err Int) (a : Flags) (k : Nat) (hk : k < 32) :
    (starting c clk a).getLsbD k = configured c clk a k := by
  unfold starting configured
  rw [BitVec.getLsbD_and, BitVec.getLsbD_or, BitVec.getLsbD_or, BitVec.getLsbD_not]
  cases hc : clockOK clk
  · by_cases h : k = 9
    · subst h; simp
    · have : ¬ 9 = k := fun h' => h h'.symm
      simp only [Bool.false_eq_true, if_false, BitVec.getLsbD_twoPow]
      have h9 : (k == 9) = false := by simpa using h
      simp [hk, h9, this]
  · simp [hk]

/-- What a dispatch with observing handlers amounts to, in terms of the rule and the results it
starts from. -/
theorem dispatch0_full {σ : Type} {E : DispEnv σ} (hE : Observing E) {trigger : Option Event} {target : Route} {ref : RuleRef} {w : World σ}
    {a : Flags} {w' : World σ} {a' : Flags} {r : Route} (hr : w.get ref = some r)
    (hin : r.flags.getLsbD 14 = true ∨ w.T.fallthroughRoute = none)
    (h : E.dispatch0 trigger target ref w a = some (w', a', .ok ())) :
    ∃ r1 a1, Touched r r1 ∧ SameButStop a1 (starting (configFor E w r) E.clock a) ∧
      w'.get ref = some (decideRule (configOf E.g (r.event.or w.T.defaultEvent)) w.T.defaultPolicy
        (clockNow E.clock) E.boxClock r1.flags r1 a1).1 ∧
      ∀ k, k ≠ 6 → a'.getLsbD k = (decideRule (configOf E.g (r.event.or w.T.defaultEvent)) w.T.defaultPolicy
        (clockNow E.clock) E.boxClock r1.flags r1 a1).2.getLsbD k := by
  obtain ⟨r1, a1, h1, h2, h3, h4⟩ := dispatch0_obs hE hr hin h
  exact ⟨r1, a1, h1, fun k hk hk2 => by rw [h2 k hk hk2, starting_bits _ _ _ _ hk2]; rfl, h3, h4⟩

end WS
