import Verif.Model.FreeRtos
/-
C75: semaphores on FreeRTOS keep their deadlines.
-/
namespace WS.Props
open WS WS.Time WS.FreeRtos

/-- A point in time as nanoseconds. -/
def nanos (x : FreeRtos.Ts) : Int := x.sec * 1000000000 + x.nsec

/-- What the clock shows at tick `t`. -/
def clockAt (hz t : Nat) : Int := nanos (now hz t)

def ValidTs (x : FreeRtos.Ts) : Prop := 0 ≤ x.nsec ∧ x.nsec < 1000000000

theorem valid_iff (x : FreeRtos.Ts) : valid x = true ↔ ValidTs x := by
  unfold valid ValidTs NS; simp

/-- C75: the comparison is the order in time. -/
theorem C75_compare (x y : FreeRtos.Ts) (hx : ValidTs x) (hy : ValidTs y) :
    (FreeRtos.compare x y = 1 ↔ nanos y < nanos x) ∧ (FreeRtos.compare x y = 0 ↔ x = y) ∧ (FreeRtos.compare x y = -1 ↔ nanos x < nanos y) ∧
    (FreeRtos.compare x y = 1 ∨ FreeRtos.compare x y = 0 ∨ FreeRtos.compare x y = -1) := by
  obtain ⟨xs, xn⟩ := x
  obtain ⟨ys, yn⟩ := y
  unfold ValidTs at hx hy
  unfold FreeRtos.compare nanos
  simp only [FreeRtos.Ts.mk.injEq] at *
  refine ⟨?_, ?_, ?_, ?_⟩ <;> (split; omega; split; omega; split; omega; split; omega; omega)

/-- C75: a difference is exact, and refused if negative. -/
theorem C75_subtract (x y : FreeRtos.Ts) (hx : ValidTs x) (hy : ValidTs y) (h1 : InI64 x.sec) (h2 : 0 ≤ y.sec) (h3 : InI64 y.sec) :
    (nanos x < nanos y → subtract x y = .etimedout) ∧
    (nanos y ≤ nanos x → ∃ d, subtract x y = .ok d ∧ ValidTs d ∧ 0 ≤ d.sec ∧ d.sec ≤ x.sec - y.sec ∧ nanos d = nanos x - nanos y) := by
  obtain ⟨c1, c2, c3, c4⟩ := C75_compare x y hx hy
  constructor
  · intro h
    unfold subtract
    rw [if_pos (c3.2 h)]
  · intro h
    unfold subtract
    rw [if_neg (fun g => by have := c3.1 g; omega)]
    by_cases g : FreeRtos.compare x y = 0
    · rw [if_pos g]
      have := c2.1 g
      subst this
      exact ⟨_, rfl, by unfold ValidTs; decide, by decide, by show (0 : Int) ≤ _; omega, by unfold nanos; simp⟩
    · rw [if_neg g]
      have g1 : nanos y < nanos x := by
        rcases c4 with e | e | e
        · exact c1.1 e
        · exact absurd e g
        · have := c3.1 e; omega
      unfold ValidTs at hx hy
      unfold InI64 I64_MIN I64_MAX at h1 h3
      have n1 : nanos x = x.sec * 1000000000 + x.nsec := rfl
      have n2 : nanos y = y.sec * 1000000000 + y.nsec := rfl
      have s1 : chk (x.sec - y.sec) = .ok (x.sec - y.sec) := by unfold chk I64_MIN I64_MAX; rw [if_pos (by omega)]
      have s2 : chk (x.nsec - y.nsec) = .ok (x.nsec - y.nsec) := by unfold chk I64_MIN I64_MAX; rw [if_pos (by omega)]
      rw [s1, s2]
      dsimp only
      unfold NS
      by_cases hn : x.nsec - y.nsec < 0
      · rw [if_pos hn, if_pos hn, if_neg (by omega)]
        exact ⟨_, rfl, by unfold ValidTs; dsimp only; omega, by dsimp only; omega, by dsimp only; omega, by unfold nanos; dsimp only; omega⟩
      · rw [if_neg hn, if_neg hn, if_neg (by omega)]
        exact ⟨_, rfl, by unfold ValidTs; dsimp only; omega, by dsimp only; omega, by dsimp only; omega, by unfold nanos; dsimp only; omega⟩

/-- C75: the clock shows the time of the tick to the nanosecond (rounded down). -/
theorem C75_now (hz t : Nat) (h : 0 < hz) (h' : hz ≤ 1000000000) :
    clockAt hz t = ((t * 1000000000 / hz : Nat) : Int) ∧ ValidTs (now hz t) ∧ 0 ≤ (now hz t).sec := by
  have hlt := Nat.mod_lt t h
  have hm : (t % hz) * 1000000000 % 2 ^ 64 = (t % hz) * 1000000000 := Nat.mod_eq_of_lt (by omega)
  have hd := Nat.div_add_mod t hz
  have e : t * 1000000000 / hz = t / hz * 1000000000 + (t % hz) * 1000000000 / hz := by
    have : t * 1000000000 = (t % hz) * 1000000000 + hz * (t / hz * 1000000000) := by
      conv => lhs; rw [← hd]
      rw [Nat.add_mul, Nat.mul_assoc]; omega
    rw [this, Nat.add_mul_div_left _ _ h]; omega
  have hb : (t % hz) * 1000000000 / hz < 1000000000 := by
    rw [Nat.div_lt_iff_lt_mul h, Nat.mul_comm 1000000000 hz]
    exact Nat.mul_lt_mul_of_pos_right hlt (by decide)
  refine ⟨?_, ?_, ?_⟩
  · unfold clockAt nanos now
    rw [hm, e]
    simp only [Int.natCast_add, Int.natCast_mul]
    rfl
  · unfold ValidTs now
    rw [hm]
    exact ⟨Int.natCast_nonneg _, Int.ofNat_lt.2 hb⟩
  · unfold now; dsimp only; omega

/-- Rounding up. -/
theorem ceil_bounds (n f : Nat) (hf : 0 < f) :
    n ≤ (n / f + if n % f ≠ 0 then 1 else 0) * f ∧ (0 < n → (n / f + (if n % f ≠ 0 then 1 else 0)) * f < n + f) ∧
    n / f + (if n % f ≠ 0 then 1 else 0) ≤ n := by
  have h1 := Nat.div_add_mod n f
  have h2 := Nat.mod_lt n hf
  have h3 : n / f * f ≤ n := Nat.div_mul_le_self n f
  rw [Nat.mul_comm] at h1
  refine ⟨?_, ?_, ?_⟩
  · split <;> (rw [Nat.add_mul]; omega)
  · intro h0
    split <;> (rw [Nat.add_mul]; omega)
  · split
    · have h5 : n / f ≤ n / f * f := Nat.le_mul_of_pos_right _ hf
      omega
    · exact Nat.div_le_self ..

/-- What `toTicks` gives for a proper interval, and how it relates to the interval. -/
theorem toTicks_spec (hz tb : Nat) (h : 0 < hz) (h' : hz ≤ 1000000000) (x : FreeRtos.Ts) (hx : ValidTs x) (hs : 0 ≤ x.sec) :
    ∃ n : Nat, (hz : Int) * nanos x ≤ n * 1000000000 ∧
      (1000000000 % hz = 0 → 0 < nanos x → (n : Int) * 1000000000 < hz * nanos x + 1000000000) ∧
      (toTicks hz tb x = .ub ∨ (n : Int) < 2 ^ 63) ∧
      ((n : Int) < 2 ^ 63 → toTicks hz tb x = if tb = 32 ∧ n ≥ 2 ^ 32 then .einval (some (n % 2 ^ tb)) else .ok (some (n % 2 ^ tb))) := by
  obtain ⟨s, hs'⟩ : ∃ s : Nat, x.sec = s := ⟨x.sec.toNat, by omega⟩
  obtain ⟨k, hk⟩ : ∃ k : Nat, x.nsec = k := ⟨x.nsec.toNat, by unfold ValidTs at hx; omega⟩
  have hk9 : k < 1000000000 := by unfold ValidTs at hx; omega
  generalize hf : 1000000000 / hz = f
  have hfp : 0 < f := by rw [← hf]; exact Nat.div_pos h' h
  have hfz : f * hz ≤ 1000000000 := by rw [← hf]; exact Nat.div_mul_le_self ..
  have hnp : nsPerTick hz = (f : Int) := by
    unfold nsPerTick NS
    rw [← hf]
    rfl
  generalize hq : (k / f + if k % f ≠ 0 then 1 else 0) = q
  obtain ⟨b1, b2, b3⟩ := ceil_bounds k f hfp
  rw [hq] at b1 b2 b3
  have hterm : (x.nsec.tdiv (nsPerTick hz) + if x.nsec.tmod (nsPerTick hz) ≠ 0 then 1 else 0 : Int) = (q : Int) := by
    rw [hk, hnp, ← hq]
    have e1 : (k : Int).tdiv (f : Int) = ((k / f : Nat) : Int) := rfl
    have e2 : (k : Int).tmod (f : Int) = ((k % f : Nat) : Int) := rfl
    rw [e1, e2]
    by_cases g : k % f = 0
    · rw [if_neg (by rw [g]; simp), if_neg (by simp [g])]; rfl
    · rw [if_pos (by omega), if_pos (by omega)]; omega
  have hv : valid x = true := (valid_iff x).2 hx
  have key : ∀ r, r = toTicks hz tb x → r = (match chk ((hz : Int) * x.sec) with
      | .ok t =>
        match chk (t + (q : Int)) with
        | .ok total =>
          if total < 0 then .einval (some (total % 2 ^ tb).toNat)
          else if tb = 32 ∧ total > 2 ^ 32 - 1 then .einval (some (total % 2 ^ tb).toNat)
          else .ok (some (total % 2 ^ tb).toNat)
        | _ => .ub
      | _ => .ub) := by
    intro r hr
    rw [hr]
    unfold toTicks
    rw [hv, if_neg (by decide), hterm]
    rfl
  have key := key _ rfl
  have htot : (hz : Int) * x.sec + q = ((hz * s + q : Nat) : Int) := by rw [hs']; simp
  have hmod : (((hz * s + q : Nat) : Int) % 2 ^ tb).toNat = (hz * s + q) % 2 ^ tb := by
    have : ((2 : Int) ^ tb) = ((2 ^ tb : Nat) : Int) := by simp
    rw [this, ← Int.natCast_emod]
    rfl
  have hnn : nanos x = ((s * 1000000000 + k : Nat) : Int) := by unfold nanos; rw [hs', hk]; simp
  refine ⟨hz * s + q, ?_, ?_, ?_, ?_⟩
  · rw [hnn]
    have : hz * (s * 1000000000 + k) ≤ (hz * s + q) * 1000000000 := by
      have e1 : k * hz ≤ q * f * hz := Nat.mul_le_mul_right _ b1
      have e2 : q * (f * hz) ≤ q * 1000000000 := Nat.mul_le_mul_left _ hfz
      rw [Nat.mul_assoc] at e1
      rw [Nat.mul_add, Nat.add_mul, ← Nat.mul_assoc, Nat.mul_comm hz k]
      omega
    have h2 := Int.ofNat_le.2 this
    rw [Int.natCast_mul, Int.natCast_mul (hz * s + q)] at h2
    exact h2
  · intro hdvd hpos
    have hfe : f * hz = 1000000000 := by
      have := Nat.div_add_mod 1000000000 hz
      rw [hdvd, Nat.mul_comm, hf] at this
      exact this
    rw [hnn]
    have : (hz * s + q) * 1000000000 < hz * (s * 1000000000 + k) + 1000000000 := by
      rw [Nat.mul_add, Nat.add_mul, ← Nat.mul_assoc]
      have : q * 1000000000 < hz * k + 1000000000 := by
        by_cases hk0 : 0 < k
        · have e := Nat.mul_lt_mul_of_pos_right (b2 hk0) h
          rw [Nat.mul_assoc, hfe, Nat.add_mul, hfe, Nat.mul_comm k hz] at e
          exact e
        · have : q = 0 := by omega
          rw [this, Nat.zero_mul]
          exact Nat.lt_of_lt_of_le (by decide : 0 < 1000000000) (Nat.le_add_left ..)
      rw [Nat.add_assoc]
      exact Nat.add_lt_add_left this _
    have h2 := Int.ofNat_lt.2 this
    rw [Int.natCast_mul, Int.natCast_add (hz * (s * 1000000000 + k)), Int.natCast_mul hz (s * 1000000000 + k)] at h2
    exact h2
  · rw [key]
    cases hc : chk ((hz : Int) * x.sec) with
    | ok t =>
      have ht : t = (hz : Int) * x.sec := by
        unfold chk at hc; split at hc <;> cases hc; rfl
      dsimp only
      rw [ht, htot]
      cases hc2 : chk ((hz * s + q : Nat) : Int) with
      | ok t2 =>
        have ht2 : t2 = ((hz * s + q : Nat) : Int) := by
          unfold chk at hc2; split at hc2 <;> cases hc2; rfl
        refine Or.inr ?_
        unfold chk I64_MIN I64_MAX at hc2
        split at hc2
        · omega
        · cases hc2
      | err e => exact Or.inl rfl
      | ub => exact Or.inl rfl
    | err e => exact Or.inl rfl
    | ub => exact Or.inl rfl
  · intro hlt
    have c1 : chk ((hz : Int) * x.sec) = .ok ((hz : Int) * x.sec) := by
      have : (hz : Int) * x.sec = ((hz * s : Nat) : Int) := by rw [hs']; simp
      unfold chk I64_MIN I64_MAX
      rw [if_pos (by rw [this]; omega)]
    have c2 : chk ((hz * s + q : Nat) : Int) = .ok ((hz * s + q : Nat) : Int) := by
      unfold chk I64_MIN I64_MAX
      rw [if_pos (by omega)]
    rw [key, c1]
    dsimp only
    rw [htot, c2]
    dsimp only
    rw [hmod, if_neg (by omega)]
    by_cases g : tb = 32 ∧ hz * s + q ≥ 2 ^ 32
    · rw [if_pos g, if_pos ⟨g.1, by omega⟩]
    · rw [if_neg g, if_neg (fun g' => g ⟨g'.1, by omega⟩)]

theorem clock_mono (hz : Nat) (h : 0 < hz) (h' : hz ≤ 1000000000) {s t : Nat} (hst : s ≤ t) : clockAt hz s ≤ clockAt hz t := by
  rw [(C75_now hz s h h').1, (C75_now hz t h h').1]
  exact Int.ofNat_le.2 (Nat.div_le_div_right (Nat.mul_le_mul_right _ hst))

/-- After enough ticks the clock has moved on by the interval. -/
theorem clock_add (hz : Nat) (h : 0 < hz) (h' : hz ≤ 1000000000) (t n : Nat) (d : Int) (hd : (hz : Int) * d ≤ n * 1000000000) :
    clockAt hz t + d ≤ clockAt hz (t + n) := by
  rw [(C75_now hz t h h').1, (C75_now hz _ h h').1]
  rcases Int.lt_or_le d 0 with g | g
  · have : t * 1000000000 / hz ≤ (t + n) * 1000000000 / hz := Nat.div_le_div_right (Nat.mul_le_mul_right _ (by omega))
    have := Int.ofNat_le.2 this
    omega
  · obtain ⟨k, rfl⟩ := Int.eq_ofNat_of_zero_le g
    have hk : hz * k ≤ n * 1000000000 := Int.ofNat_le.1 (by rw [Int.natCast_mul, Int.natCast_mul]; exact hd)
    have e : t * 1000000000 / hz + k ≤ (t + n) * 1000000000 / hz := by
      rw [← Nat.add_mul_div_left _ _ h]
      exact Nat.div_le_div_right (by rw [Nat.add_mul]; omega)
    have := Int.ofNat_le.2 e
    rw [Int.natCast_add] at this
    exact this

/-- The number of ticks for a deadline. -/
theorem delta_spec (hz tb : Nat) (h : 0 < hz) (h' : hz ≤ 1000000000) (a : FreeRtos.Ts) (ha : ValidTs a) (hs : InI64 a.sec) (t1 : Nat) (ht : t1 < 2 ^ 63) :
    (nanos a < clockAt hz t1 → deltaTicks hz tb a (now hz t1) = .etimedout) ∧
    (clockAt hz t1 ≤ nanos a → ∃ n : Nat, (hz : Int) * (nanos a - clockAt hz t1) ≤ n * 1000000000 ∧
      (1000000000 % hz = 0 → clockAt hz t1 < nanos a → (n : Int) * 1000000000 < hz * (nanos a - clockAt hz t1) + 1000000000) ∧
      (deltaTicks hz tb a (now hz t1) = .ub ∨ (n : Int) < 2 ^ 63) ∧
      ((n : Int) < 2 ^ 63 → deltaTicks hz tb a (now hz t1) = if tb = 32 ∧ n ≥ 2 ^ 32 then .einval (some (n % 2 ^ tb)) else .ok (some (n % 2 ^ tb)))) := by
  obtain ⟨n1, n2, n3⟩ := C75_now hz t1 h h'
  have n4 : InI64 (now hz t1).sec := by
    unfold InI64 I64_MIN I64_MAX now
    have := Nat.div_le_self t1 hz
    dsimp only
    generalize t1 / hz = z at this ⊢
    omega
  obtain ⟨s1, s2⟩ := C75_subtract a (now hz t1) ha n2 hs n3 n4
  constructor
  · intro g
    unfold deltaTicks
    rw [s1 g]
  · intro g
    obtain ⟨d, d1, d2, d3, -, d4⟩ := s2 g
    obtain ⟨n, k1, k2, k3, k4⟩ := toTicks_spec hz tb h h' d d2 d3
    rw [d4] at k1 k2
    have e : deltaTicks hz tb a (now hz t1) = toTicks hz tb d := by unfold deltaTicks; rw [d1]
    refine ⟨n, k1, fun q1 q2 => k2 q1 ?_, ?_, ?_⟩
    · have : nanos (now hz t1) = clockAt hz t1 := rfl
      omega
    · rw [e]; exact k3
    · rw [e]; exact k4

theorem waitEnd_failed {tb : Nat} {avail : Option Nat} {t0 delay : Nat} {e e' : Err} {t : Nat} (h : waitEnd tb avail t0 delay e = .failed e' t) :
    e' = e ∧ t = t0 + delay ∧ delay ≠ 2 ^ tb - 1 ∧ (∀ u, avail = some u → t0 + delay ≤ u ∧ t0 < u) ∨ e' = e ∧ t = t0 + delay ∧ avail = none ∧ delay ≠ 2 ^ tb - 1 := by
  unfold waitEnd take at h
  cases avail with
  | none =>
    dsimp only at h
    by_cases g : delay = 2 ^ tb - 1
    · rw [if_pos g] at h; cases h
    · rw [if_neg g] at h; cases h; exact Or.inr ⟨rfl, rfl, rfl, g⟩
  | some u =>
    dsimp only at h
    by_cases g : u ≤ t0
    · rw [if_pos g] at h; cases h
    · rw [if_neg g] at h
      by_cases g2 : delay = 2 ^ tb - 1 ∨ u < t0 + delay
      · rw [if_pos g2] at h; cases h
      · rw [if_neg g2] at h
        cases h
        refine Or.inl ⟨rfl, rfl, fun q => g2 (Or.inl q), ?_⟩
        intro v hv
        cases hv
        exact ⟨by omega, by omega⟩

/-- C75: a wait that reports a time-out has not ended before its deadline. -/
theorem C75_not_early (hz tb : Nat) (h : 0 < hz) (h' : hz ≤ 1000000000) (htb : tb = 32 ∨ tb = 64) (a : FreeRtos.Ts) (hs : InI64 a.sec)
    (t1 t0 : Nat) (ht : t1 < 2 ^ 63) (h10 : t1 ≤ t0) (avail : Option Nat) (t : Nat) (hf : timedwait hz tb avail t1 t0 (some a) = .failed .timedOut t) :
    ValidTs a ∧ t0 ≤ t ∧ nanos a ≤ clockAt hz t := by
  unfold timedwait at hf
  by_cases hv : valid a = true
  · have ha := (valid_iff a).1 hv
    refine ⟨ha, ?_⟩
    dsimp only at hf
    rw [hv, if_neg (by decide)] at hf
    obtain ⟨d1, d2⟩ := delta_spec hz tb h h' a ha hs t1 ht
    rcases Int.lt_or_le (nanos a) (clockAt hz t1) with g | g
    · rw [d1 g] at hf
      dsimp only at hf
      have : t = t0 := by rcases waitEnd_failed hf with ⟨-, q, -⟩ | ⟨-, q, -⟩ <;> exact q
      rw [this]
      have := clock_mono hz h h' h10
      exact ⟨Nat.le_refl _, by omega⟩
    · obtain ⟨n, k1, -, k3, k4⟩ := d2 g
      rcases k3 with k3 | k3
      · rw [k3] at hf; cases hf
      · rw [k4 k3] at hf
        by_cases c : tb = 32 ∧ n ≥ 2 ^ 32
        · rw [if_pos c] at hf
          dsimp only at hf
          rcases waitEnd_failed hf with ⟨q, -⟩ | ⟨q, -⟩ <;> cases q
        · rw [if_neg c] at hf
          dsimp only [Option.getD] at hf
          have hn : n % 2 ^ tb = n := Nat.mod_eq_of_lt (by
            rcases htb with rfl | rfl
            · rcases Nat.lt_or_ge n (2 ^ 32) with q | q
              · exact q
              · exact absurd ⟨rfl, q⟩ c
            · omega)
          rw [hn] at hf
          have : t = t0 + n := by rcases waitEnd_failed hf with ⟨-, q, -⟩ | ⟨-, q, -⟩ <;> exact q
          rw [this]
          refine ⟨by omega, ?_⟩
          have e1 := clock_add hz h h' t0 n (nanos a - clockAt hz t1) k1
          have e2 := clock_mono hz h h' h10
          omega
  · dsimp only at hf
    rw [Bool.not_eq_true] at hv
    rw [hv, if_pos (by decide)] at hf
    rcases waitEnd_failed hf with ⟨q, -⟩ | ⟨q, -⟩ <;> cases q

theorem waitEnd_available {tb t0 delay u : Nat} {e : Err} (hu : u ≤ t0) : waitEnd tb (some u) t0 delay e = .taken t0 := by
  unfold waitEnd take
  dsimp only
  rw [if_pos hu]

/-- C75: a semaphore that is free is taken, whatever the deadline, without waiting. -/
theorem C75_takes_available (hz tb : Nat) (t1 t0 u : Nat) (hu : u ≤ t0) (a : Option FreeRtos.Ts) :
    timedwait hz tb (some u) t1 t0 a = .taken t0 ∨ timedwait hz tb (some u) t1 t0 a = .ub := by
  unfold timedwait
  cases a with
  | none => exact Or.inl (waitEnd_available hu)
  | some a =>
    dsimp only
    split
    · exact Or.inl (waitEnd_available hu)
    · split
      · exact Or.inr rfl
      · exact Or.inl (waitEnd_available hu)
      · exact Or.inl (waitEnd_available hu)
      · exact Or.inl (waitEnd_available hu)

/-- A deadline at most 2³²−2 ticks ahead. -/
def Near (hz t1 : Nat) (a : FreeRtos.Ts) : Prop := (hz : Int) * (nanos a - clockAt hz t1) ≤ (2 ^ 32 - 2) * 1000000000

/-- A wait with a near deadline is a wait for some number of ticks, reported as a time-out when it fails. -/
theorem near_wait (hz tb : Nat) (h : 0 < hz) (h' : hz ≤ 1000000000) (hd : 1000000000 % hz = 0) (htb : tb = 32 ∨ tb = 64) (a : FreeRtos.Ts)
    (ha : ValidTs a) (hs : InI64 a.sec) (t1 t0 : Nat) (ht : t1 < 2 ^ 63) (hn : Near hz t1 a) (avail : Option Nat) :
    ∃ n : Nat, n < 2 ^ tb - 1 ∧ timedwait hz tb avail t1 t0 (some a) = waitEnd tb avail t0 n .timedOut ∧
      (nanos a ≤ clockAt hz t1 → n = 0) ∧ (clockAt hz t1 < nanos a → (n : Int) * 1000000000 < hz * (nanos a - clockAt hz t1) + 1000000000) := by
  obtain ⟨d1, d2⟩ := delta_spec hz tb h h' a ha hs t1 ht
  have hv := (valid_iff a).2 ha
  have e : timedwait hz tb avail t1 t0 (some a) = (match deltaTicks hz tb a (now hz t1) with
      | .ub => .ub
      | .etimedout => waitEnd tb avail t0 0 .timedOut
      | .einval d => waitEnd tb avail t0 (d.getD (2 ^ tb - 1)) .invalidArg
      | .ok d => waitEnd tb avail t0 (d.getD (2 ^ tb - 1)) .timedOut) := by
    unfold timedwait
    dsimp only
    rw [hv, if_neg (by decide)]
    rfl
  rw [e]
  have h0 : 0 < 2 ^ tb - 1 := by rcases htb with rfl | rfl <;> decide
  rcases Int.lt_or_le (nanos a) (clockAt hz t1) with g | g
  · rw [d1 g]
    exact ⟨0, h0, rfl, fun _ => rfl, fun q => by omega⟩
  · obtain ⟨n, k1, k2, k3, k4⟩ := d2 g
    rcases Int.lt_or_eq_of_le g with g' | g'
    · have kk := k2 hd g'
      unfold Near at hn
      have hlt : n < 2 ^ 32 - 1 := by omega
      rw [k4 (by omega), if_neg (by omega)]
      have hm : n % 2 ^ tb = n := Nat.mod_eq_of_lt (by rcases htb with rfl | rfl <;> omega)
      rw [hm]
      exact ⟨n, by rcases htb with rfl | rfl <;> omega, rfl, fun q => by omega, fun _ => kk⟩
    · -- the deadline is now: the difference is zero
      have : subtract a (now hz t1) = .ok ⟨0, 0⟩ := by
        have c := C75_compare a (now hz t1) ha (C75_now hz t1 h h').2.1
        have c0 : FreeRtos.compare a (now hz t1) = 0 := by
          rcases c.2.2.2 with q | q | q
          · have := c.1.1 q; unfold clockAt at g'; omega
          · exact q
          · have := c.2.2.1.1 q; unfold clockAt at g'; omega
        unfold subtract
        rw [if_neg (by rw [c0]; decide), if_pos c0]
      have z : toTicks hz tb ⟨0, 0⟩ = .ok (some 0) := by
        unfold toTicks
        rw [show valid ⟨0, 0⟩ = true from by decide, if_neg (by decide)]
        dsimp only
        rw [Int.mul_zero, show chk 0 = .ok 0 from by decide]
        dsimp only
        rw [Int.zero_tdiv, Int.zero_tmod, if_neg (by decide), show chk (0 + (0 + 0)) = .ok 0 from by decide]
        dsimp only
        rw [if_neg (by decide), if_neg (by omega), Int.zero_emod]
        rfl
      have : deltaTicks hz tb a (now hz t1) = .ok (some 0) := by unfold deltaTicks; rw [this]; exact z
      rw [this]
      exact ⟨0, h0, rfl, fun _ => rfl, fun q => by omega⟩

/-- C75: a semaphore that becomes free before the deadline is taken then.  Partial: the deadline is at most 2³²−2 ticks ahead and the tick
rate divides 10⁹; the findings below show what happens with other deadlines. -/
theorem C75_takes_in_time_partial (hz tb : Nat) (h : 0 < hz) (h' : hz ≤ 1000000000) (hd : 1000000000 % hz = 0) (htb : tb = 32 ∨ tb = 64) (a : FreeRtos.Ts)
    (ha : ValidTs a) (hs : InI64 a.sec) (t1 t0 : Nat) (ht : t1 < 2 ^ 63) (h10 : t1 ≤ t0) (hn : Near hz t1 a) (u : Nat) (hu : clockAt hz u < nanos a) :
    timedwait hz tb (some u) t1 t0 (some a) = .taken (max u t0) := by
  obtain ⟨n, n1, n2, -⟩ := near_wait hz tb h h' hd htb a ha hs t1 t0 ht hn (some u)
  rcases Nat.lt_or_ge t0 u with g | g
  · cases hw : waitEnd tb (some u) t0 n .timedOut with
    | failed e t =>
      exfalso
      rcases waitEnd_failed hw with ⟨q1, q2, -, q3⟩ | ⟨-, -, q, -⟩
      · have := C75_not_early hz tb h h' htb a hs t1 t0 ht h10 (some u) t (by rw [n2, hw, q1])
        have q3 := q3 u rfl
        have := clock_mono hz h h' (show t ≤ u by omega)
        omega
      · cases q
    | forever =>
      exfalso
      unfold waitEnd take at hw
      dsimp only at hw
      rw [if_neg (by omega)] at hw
      by_cases q : n = 2 ^ tb - 1 ∨ u < t0 + n
      · rw [if_pos q] at hw; cases hw
      · rw [if_neg q] at hw; cases hw
    | ub =>
      exfalso
      unfold waitEnd take at hw
      dsimp only at hw
      rw [if_neg (by omega)] at hw
      by_cases q : n = 2 ^ tb - 1 ∨ u < t0 + n
      · rw [if_pos q] at hw; cases hw
      · rw [if_neg q] at hw; cases hw
    | taken t =>
      unfold waitEnd take at hw
      dsimp only at hw
      rw [if_neg (by omega)] at hw
      by_cases q : n = 2 ^ tb - 1 ∨ u < t0 + n
      · rw [if_pos q] at hw; cases hw
        rw [n2]
        unfold waitEnd take
        dsimp only
        rw [if_neg (by omega), if_pos q, Nat.max_eq_left (by omega)]
      · rw [if_neg q] at hw; cases hw
  · rw [n2, waitEnd_available g, Nat.max_eq_right g]

/-- C75: a wait does not go on past its deadline by a tick or more (when the clock does not move between the reading and the wait). -/
theorem C75_ends_in_time_partial (hz tb : Nat) (h : 0 < hz) (h' : hz ≤ 1000000000) (hd : 1000000000 % hz = 0) (htb : tb = 32 ∨ tb = 64) (a : FreeRtos.Ts)
    (ha : ValidTs a) (hs : InI64 a.sec) (t1 : Nat) (ht : t1 < 2 ^ 63) (hn : Near hz t1 a) (avail : Option Nat) :
    ∃ t, (timedwait hz tb avail t1 t1 (some a) = .taken t ∨ timedwait hz tb avail t1 t1 (some a) = .failed .timedOut t) ∧
      t1 ≤ t ∧ (t = t1 ∨ clockAt hz t < nanos a + 1000000000 / hz) := by
  obtain ⟨n, n1, n2, n3, n4⟩ := near_wait hz tb h h' hd htb a ha hs t1 t1 ht hn avail
  have hend : ∀ t, t1 ≤ t → t ≤ t1 + n → t = t1 ∨ clockAt hz t < nanos a + 1000000000 / hz := by
    intro t q1 q2
    rcases Int.lt_or_le (clockAt hz t1) (nanos a) with g | g
    · right
      have n4 := n4 g
      have hm := clock_mono hz h h' q2
      generalize hf : 1000000000 / hz = f
      have hfz : hz * f = 1000000000 := by
        have := Nat.div_add_mod 1000000000 hz
        rw [hd, hf] at this
        exact this
      have hfI : (1000000000 : Int) / (hz : Int) = (f : Int) := by rw [← hf]; rfl
      rw [hfI]
      have c1 : clockAt hz t1 = ((t1 * f : Nat) : Int) := by
        rw [(C75_now hz t1 h h').1, ← hfz, Nat.mul_comm hz f, ← Nat.mul_assoc, Nat.mul_div_cancel _ h]
      have c2 : clockAt hz (t1 + n) = ((t1 * f + n * f : Nat) : Int) := by
        rw [(C75_now hz (t1 + n) h h').1, ← hfz, Nat.mul_comm hz f, ← Nat.mul_assoc, Nat.mul_div_cancel _ h, Nat.add_mul]
      have hh : ((n * f : Nat) : Int) < nanos a - clockAt hz t1 + f := by
        have hG : (1000000000 : Int) = (hz : Int) * (f : Int) := by rw [← Int.natCast_mul, hfz]; rfl
        rw [hG] at n4
        have e : (hz : Int) * ((n * f : Nat) : Int) < hz * (nanos a - clockAt hz t1 + f) := by
          rw [Int.mul_add, Int.natCast_mul, ← Int.mul_assoc, Int.mul_comm (hz : Int) n, Int.mul_assoc]
          exact n4
        exact Int.lt_of_mul_lt_mul_left e (by omega)
      rw [c2] at hm
      rw [c1] at hh
      generalize t1 * f = A at hm hh
      generalize n * f = B at hm hh
      omega
    · left
      have := n3 g
      omega
  rw [n2]
  unfold waitEnd take
  cases avail with
  | none =>
    dsimp only
    rw [if_neg (by omega)]
    exact ⟨t1 + n, Or.inr rfl, by omega, hend _ (by omega) (by omega)⟩
  | some u =>
    dsimp only
    by_cases g : u ≤ t1
    · rw [if_pos g]
      exact ⟨t1, Or.inl rfl, by omega, Or.inl rfl⟩
    · rw [if_neg g]
      by_cases g2 : n = 2 ^ tb - 1 ∨ u < t1 + n
      · rw [if_pos g2]
        exact ⟨u, Or.inl rfl, by omega, hend _ (by omega) (by omega)⟩
      · rw [if_neg g2]
        exact ⟨t1 + n, Or.inr rfl, by omega, hend _ (by omega) (by omega)⟩

/-- C75: `sem_trywait` never waits: it takes a free semaphore, and otherwise says that it is not free. -/
theorem C75_trywait (hz tb : Nat) (h : 0 < hz) (h' : hz ≤ 1000000000) (hd : 1000000000 % hz = 0) (htb : tb = 32 ∨ tb = 64) (t1 t0 : Nat) (ht : t1 < 2 ^ 63)
    (avail : Option Nat) :
    trywait hz tb avail t1 t0 = if ∃ u, avail = some u ∧ u ≤ t0 then .taken t0 else .failed .busy t0 := by
  have hc : 0 ≤ clockAt hz t1 := by rw [(C75_now hz t1 h h').1]; exact Int.natCast_nonneg _
  have hn0 : nanos ⟨0, 0⟩ = 0 := rfl
  have hN : Near hz t1 ⟨0, 0⟩ := by
    unfold Near
    rw [hn0]
    have : (hz : Int) * (0 - clockAt hz t1) ≤ 0 := Int.mul_nonpos_of_nonneg_of_nonpos (by omega) (by omega)
    omega
  obtain ⟨n, -, n2, n3, -⟩ := near_wait hz tb h h' hd htb ⟨0, 0⟩ (by unfold ValidTs; decide) (by unfold InI64; decide) t1 t0 ht hN avail
  have := n3 (by rw [hn0]; exact hc)
  subst this
  unfold trywait
  rw [n2]
  unfold waitEnd take
  have hz1 : ¬ (0 = 2 ^ tb - 1) := by rcases htb with rfl | rfl <;> decide
  cases avail with
  | none =>
    dsimp only
    rw [if_neg hz1, if_neg (by rintro ⟨u, hu, -⟩; cases hu)]
    rfl
  | some u =>
    dsimp only
    by_cases g : u ≤ t0
    · rw [if_pos g, if_pos ⟨u, rfl, g⟩]
    · rw [if_neg g, if_neg (by omega), if_neg (by rintro ⟨v, hv, q⟩; cases hv; exact g q)]
      rfl

/-- C75: `sem_wait` takes the semaphore as soon as it is free, and waits for ever if it never is. -/
theorem C75_wait (hz tb t0 : Nat) (avail : Option Nat) :
    wait hz tb avail t0 = (match avail with | some u => .taken (max u t0) | none => .forever) := by
  unfold wait timedwait waitEnd take
  cases avail with
  | none => dsimp only; rw [if_pos rfl]
  | some u =>
    dsimp only
    by_cases g : u ≤ t0
    · rw [if_pos g]; dsimp only; rw [Nat.max_eq_right g]
    · rw [if_neg g, if_pos (Or.inl rfl)]; dsimp only; rw [Nat.max_eq_left (by omega)]

/-- C75, finding: a deadline further off than the ticks can count is not waited for: with 1000 ticks a second, one 4294968 seconds (49 days)
ahead ends after 704 milliseconds with EINVAL. -/
theorem C75_finding_far_deadline :
    timedwait 1000 32 none 0 0 (some ⟨4294968, 0⟩) = .failed .invalidArg 704 ∧ clockAt 1000 704 = 704000000 := by decide +kernel

/-- C75, finding: a deadline that many ticks ahead as `portMAX_DELAY` is is never met: the wait does not end. -/
theorem C75_finding_never_ends : timedwait 1000 32 none 0 0 (some ⟨4294967, 295000000⟩) = .forever := by decide +kernel

/-- C75, finding: the check for ticks that do not fit is made for 32-bit ticks only.  With 16-bit ticks a deadline 66 seconds ahead times out
after less than half a second. -/
theorem C75_finding_16_bit_ticks :
    timedwait 1000 16 none 0 0 (some ⟨66, 0⟩) = .failed .timedOut 464 ∧ clockAt 1000 464 < nanos ⟨66, 0⟩ := by decide +kernel

/-- C75, finding: seconds times tick rate may overflow: undefined. -/
theorem C75_finding_overflow : timedwait 1000 64 none 0 0 (some ⟨9223372036854776, 0⟩) = .ub := by decide +kernel

/-- C75: the clock counts the ticks since the start across every wrap-around of the kernel's counter: after `t` ticks, with a counter of `tb` bits
(fewer than 64) that has wrapped `t / 2 ^ tb` times and shows `t % 2 ^ tb`, the count is `t`. -/
theorem C75_tick_count (tb t : Nat) (htb : tb < 64) (ht : t < 2 ^ 64) : tickCount tb (t / 2 ^ tb) (t % 2 ^ tb) = some t := by
  unfold tickCount
  rw [if_pos htb, Nat.mul_comm, Nat.div_add_mod, Nat.mod_eq_of_lt ht]

example : tickCount 32 3 5 = some 12884901893 := by decide

/-- C75, finding: with 64-bit ticks the clock itself is undefined (a shift by 64). -/
theorem C75_finding_clock_64 (o e : Nat) : tickCount 64 o e = none := by unfold tickCount; rw [if_neg (by decide)]

/-! Instances: 1000 ticks a second, a deadline one and a half ticks after tick 5. -/
example : timedwait 1000 32 none 5 5 (some ⟨0, 6500000⟩) = .failed .timedOut 7 := by decide +kernel
example : nanos ⟨0, 6500000⟩ ≤ clockAt 1000 7 :=
  (C75_not_early 1000 32 (by decide) (by decide) (Or.inl rfl) ⟨0, 6500000⟩ (by unfold InI64; decide) 5 5 (by decide) (by decide) none 7 (by decide +kernel)).2.2
example : timedwait 1000 32 (some 6) 5 5 (some ⟨0, 6500000⟩) = .taken 6 :=
  C75_takes_in_time_partial 1000 32 (by decide) (by decide) (by decide) (Or.inl rfl) ⟨0, 6500000⟩ (by unfold ValidTs; decide) (by unfold InI64; decide) 5 5
    (by decide) (by decide) (by unfold Near; decide +kernel) 6 (by decide +kernel)
example : trywait 1000 32 (some 9) 5 5 = .failed .busy 5 := by
  rw [C75_trywait 1000 32 (by decide) (by decide) (by decide) (Or.inl rfl) 5 5 (by decide), if_neg]
  rintro ⟨u, hu, q⟩; cases hu; omega
example : subtract ⟨3, 100⟩ ⟨1, 200⟩ = .ok ⟨1, 999999900⟩ := by decide

end WS.Props
