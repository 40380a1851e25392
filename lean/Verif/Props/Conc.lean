import Verif.Proof.Conc
/-
Properties C18 (connection limit under any interleaving) and C19 (counters never wrap), and the
atomicity part of C28 (flag updates).
-/
namespace WS.Props
open WS

/-! ## C18 -/

/-- C18 for limits with `M + threads ≤ 65535`: for any number of threads and any schedule of their
atomic steps, at every point the connections admitted and not yet disconnected number at most `M`,
and no disconnect is ever refused.  (The schedule is arbitrary, so "at every point" is covered by
its prefixes.)  Missing from the full claim: limits close to or above the 16-bit counter's range,
for which it is false (`C18_race_at_65535`, `C18_no_limit_above_65535`). -/
theorem C18_limit_partial (M n : Nat) (h : M + n ≤ 65535) (sched : List (Nat × Conn.Req)) :
    (Conn.run M (Conn.init n) sched).2.count .admitted
      ≤ M + (Conn.run M (Conn.init n) sched).2.count .disconnected ∧
    Conn.Outcome.underflow ∉ (Conn.run M (Conn.init n) sched).2 := by
  obtain ⟨h1, h2, h3⟩ := Conn.run_inv h sched (Conn.init_inv M n)
  have h0 : Conn.live (Conn.init n) = 0 := by
    have := (Conn.init_inv 0 n).bound
    exact Nat.le_zero.1 this
  refine ⟨?_, h2⟩
  have hb : Conn.live _ ≤ M := h1.bound
  omega
example : (Conn.run 1 (Conn.init 2) [(0, .connect), (1, .connect), (0, .connect), (1, .connect), (1, .connect)]).2
    = [.admitted, .rejected] := by decide

/-- C18: a rejected connect leaves no trace: whenever no dispatch is in progress, the rule's
counter is exactly the number of admitted minus the number of disconnected connections. -/
theorem C18_quiescent_partial (M n : Nat) (h : M + n ≤ 65535) (sched : List (Nat × Conn.Req))
    (hq : ∀ p ∈ (Conn.run M (Conn.init n) sched).1.pcs, p = Conn.PC.idle) :
    (Conn.run M (Conn.init n) sched).1.count + (Conn.run M (Conn.init n) sched).2.count .disconnected
      = (Conn.run M (Conn.init n) sched).2.count .admitted := by
  obtain ⟨h1, h2, h3⟩ := Conn.run_inv h sched (Conn.init_inv M n)
  have h0 : Conn.live (Conn.init n) = 0 := by
    have := (Conn.init_inv 0 n).bound
    exact Nat.le_zero.1 this
  have ho : Conn.nOver (Conn.run M (Conn.init n) sched).1.pcs = 0 := by
    unfold Conn.nOver
    rw [List.countP_eq_zero]
    intro p hp
    rw [hq p hp]; simp
  have hc := h1.count
  rw [ho] at hc
  unfold Conn.live at h3 h0
  omega
example : (Conn.run 2 (Conn.init 2) [(0, .connect), (0, .connect), (1, .disconnect), (1, .disconnect)]).1
    = { count := 0, pcs := [.idle, .idle], open_ := 0 } := by decide

theorem Conn.run_append (max : Nat) (st : Conn.St) (as bs : List (Nat × Conn.Req)) :
    Conn.run max st (as ++ bs) =
      ((Conn.run max (Conn.run max st as).1 bs).1,
        (Conn.run max st as).2 ++ (Conn.run max (Conn.run max st as).1 bs).2) := by
  induction as generalizing st with
  | nil => simp [Conn.run]
  | cons a as ih => simp [Conn.run, ih]

/-- One undisturbed connect on thread 0. -/
theorem Conn.connect_once (max c o : Nat) (rest : List Conn.PC) (hlt : c < max)
    (hmax : (c + 1) % 65536 ≤ max) :
    Conn.run max { count := c, pcs := .idle :: rest, open_ := o } [(0, .connect), (0, .connect)]
      = ({ count := (c + 1) % 65536, pcs := .idle :: rest, open_ := o + 1 }, [.admitted]) := by
  have h1 : ¬ c ≥ max := by omega
  have h2 : ¬ (c + 1) % 65536 > max := by omega
  simp [Conn.run, Conn.step, h1, h2]

theorem Conn.fill (max k : Nat) (rest : List Conn.PC) (hk : ∀ j, j < k → j % 65536 < max)
    (h0 : 0 < max) :
    Conn.run max { count := 0, pcs := .idle :: rest, open_ := 0 } (List.replicate (2 * k) (0, .connect))
      = ({ count := k % 65536, pcs := .idle :: rest, open_ := k }, List.replicate k .admitted) := by
  induction k with
  | zero => rfl
  | succ k ih =>
    rw [show 2 * (k + 1) = 2 * k + 2 by omega, ← List.replicate_append_replicate, Conn.run_append, ih (fun j hj => hk j (by omega))]
    have hk' := hk k (by omega)
    rw [show List.replicate 2 ((0 : Nat), Conn.Req.connect) = [(0, .connect), (0, .connect)] from rfl,
      Conn.connect_once max (k % 65536) k rest hk' (by omega)]
    simp [List.replicate_succ']

/-- Finding: with the limit set to 65535, two threads racing at 65534 connections both get in: the
second increment wraps the 16-bit counter to 0. -/
theorem C18_race_at_65535 : ∃ sched,
    65535 < (Conn.run 65535 (Conn.init 2) sched).2.count .admitted ∧
    .disconnected ∉ (Conn.run 65535 (Conn.init 2) sched).2 ∧
    (Conn.run 65535 (Conn.init 2) sched).1.count = 0 := by
  refine ⟨List.replicate (2 * 65534) (0, .connect) ++ [(0, .connect), (1, .connect), (0, .connect), (1, .connect)], ?_⟩
  have hf := Conn.fill 65535 65534 [.idle] (fun j hj => by omega) (by omega)
  have hi : Conn.init 2 = { count := 0, pcs := .idle :: [.idle], open_ := 0 } := rfl
  rw [Conn.run_append, hi, hf]
  have : Conn.run 65535 { count := 65534 % 65536, pcs := [.idle, .idle], open_ := 65534 }
      [(0, .connect), (1, .connect), (0, .connect), (1, .connect)]
      = ({ count := 0, pcs := [.idle, .idle], open_ := 65536 }, [.admitted, .admitted]) := by
    decide
  rw [this]
  refine ⟨?_, ?_, rfl⟩
  · rw [List.count_append, List.count_replicate_self]; decide
  · intro hm
    rcases List.mem_append.1 hm with h | h
    · exact absurd (List.eq_of_mem_replicate h) (by decide)
    · revert h; decide

/-- Finding: a limit above 65535 (the configuration field has 32 bits) limits nothing: a single
thread can be granted any number of connections. -/
theorem C18_no_limit_above_65535 (M : Nat) (hM : 65535 < M) (k : Nat) : ∃ sched,
    (Conn.run M (Conn.init 1) sched).2.count .admitted = k ∧
    .disconnected ∉ (Conn.run M (Conn.init 1) sched).2 := by
  refine ⟨List.replicate (2 * k) (0, .connect), ?_⟩
  have hi : Conn.init 1 = { count := 0, pcs := .idle :: [], open_ := 0 } := rfl
  rw [hi, Conn.fill M k [] (fun j _ => by omega) (by omega)]
  exact ⟨List.count_replicate_self, by simp [List.mem_replicate]⟩

/-- Finding: the transient overshoot can reject a connect although no connection is live and the
limit is 1. -/
theorem C18_spurious_rejection : ∃ sched o,
    (Conn.run 1 (Conn.init 3) sched).1.open_ = 0 ∧
    Conn.step 1 (Conn.run 1 (Conn.init 3) sched).1 2 .connect
      = ((Conn.run 1 (Conn.init 3) sched).1, some o) ∧ o = .rejected ∧
    (Conn.run 1 (Conn.init 3) sched).2 = [.admitted, .disconnected] :=
  ⟨[(0, .connect), (1, .connect), (0, .connect), (1, .connect), (0, .disconnect), (0, .disconnect)],
    .rejected, by decide, by decide, rfl, by decide⟩

/-! ## C19 -/

/-- C19/C28: the atomic macros are linearizable.  For any number of threads, any operations and any
schedule, executing the completed operations one after the other, in the order of completion, gives
the same reported results and the same final value. -/
theorem C19_linearizable (max v : Nat) (n : Nat) (sched : List Atomic.Choice) :
    let r := Atomic.run max { value := v, pcs := List.replicate n .idle } sched
    Atomic.seqRun max v (r.2.map (·.op)) = (r.1.value, r.2.map (·.result)) :=
  Atomic.run_lin max { value := v, pcs := List.replicate n .idle } sched
example : (Atomic.run 65535 ⟨65534, [.idle, .idle]⟩ [(0, .inc 1), (1, .inc 1), (1, .inc 1), (0, .inc 1)])
    = (⟨65535, [.idle, .idle]⟩, [⟨.inc 1, 65535⟩, ⟨.inc 1, 0⟩]) := by decide

/-- C19: an increment either adds exactly `x`, or — exactly when the sum would exceed the type's
maximum — leaves the counter as it was and reports 0. -/
theorem C19_increment_saturates (max v x : Nat) (hv : v ≤ max) :
    (v + x ≤ max → (Atomic.Op.inc x).eval max v = (v + x, v + x)) ∧
    (max < v + x → (Atomic.Op.inc x).eval max v = (v, 0)) := by
  constructor
  · intro h; simp only [Atomic.Op.eval]; rw [if_neg (by omega)]
  · intro h; simp only [Atomic.Op.eval]; rw [if_pos (by omega)]

/-- C19: a decrement either subtracts exactly `x`, or — exactly when it would go below zero —
leaves the counter as it was and reports the type's maximum. -/
theorem C19_decrement_saturates (max v x : Nat) :
    (x ≤ v → (Atomic.Op.dec x).eval max v = (v - x, v - x)) ∧
    (v < x → (Atomic.Op.dec x).eval max v = (v, max)) := by
  constructor
  · intro h; simp only [Atomic.Op.eval]; rw [if_neg (by omega)]
  · intro h; simp only [Atomic.Op.eval]; rw [if_pos (by omega)]

/-- C19: under any schedule of safe increments, decrements and resets by any number of threads the
counter stays within its type. -/
theorem C19_in_range (max v n : Nat) (hv : v ≤ max) (sched : List Atomic.Choice)
    (hops : ∀ c ∈ sched, ∀ s k, c.2 ≠ .updateFlags s k) :
    (Atomic.run max { value := v, pcs := List.replicate n .idle } sched).1.value ≤ max := by
  have key : ∀ (cs : List Atomic.Choice) (st : Atomic.St), st.value ≤ max →
      (∀ c ∈ cs, ∀ s k, c.2 ≠ .updateFlags s k) →
      (∀ op pre, Atomic.PC.cas op pre ∈ st.pcs → ∀ s k, op ≠ .updateFlags s k) →
      (Atomic.run max st cs).1.value ≤ max := by
    intro cs
    induction cs with
    | nil => intro st h _ _; exact h
    | cons c cs ih =>
      intro st hle hc hp
      simp only [Atomic.run]
      have hl := Atomic.step_lin max st c
      have hpcs : ∀ op pre, Atomic.PC.cas op pre ∈ (Atomic.step max st c).1.pcs →
          ∀ s k, op ≠ .updateFlags s k := by
        have hset : ∀ pc, (∀ op pre, pc = Atomic.PC.cas op pre → ∀ s k, op ≠ .updateFlags s k) →
            ∀ op pre, Atomic.PC.cas op pre ∈ st.pcs.set c.1 pc → ∀ s k, op ≠ .updateFlags s k := by
          intro pc hpc op pre hm
          rcases List.mem_or_eq_of_mem_set hm with h | h
          · exact hp op pre h
          · exact hpc op pre h.symm
        have har : ∀ v o, (∀ s k, o ≠ Atomic.Op.updateFlags s k) → ∀ op pre,
            (Atomic.afterRead max v o).1 = Atomic.PC.cas op pre → ∀ s k, op ≠ .updateFlags s k := by
          intro v o ho op pre h
          unfold Atomic.afterRead at h
          dsimp only at h
          split at h
          · cases h
          · cases h; exact ho
        unfold Atomic.step
        cases hq : st.pcs[c.1]? with
        | none => exact hp
        | some pc =>
          cases pc with
          | idle => exact hset _ (har _ _ (hc c List.mem_cons_self))
          | cas op pre =>
            dsimp only
            split
            · exact hset _ (by intro _ _ h; cases h)
            · exact hset _ (har _ _ (hp op pre (List.mem_of_getElem? hq)))
      refine ih _ ?_ (fun x hx => hc x (List.mem_cons_of_mem _ hx)) hpcs
      cases hd : (Atomic.step max st c).2 with
      | none => rw [hd] at hl; dsimp only at hl; omega
      | some d =>
        rw [hd] at hl
        dsimp only at hl
        have hop : ∀ s k, d.op ≠ .updateFlags s k := by
          have har : ∀ v o d, (Atomic.afterRead max v o).2 = some d → d.op = o := by
            intro v o d h
            unfold Atomic.afterRead at h
            dsimp only at h
            split at h
            · cases h; rfl
            · cases h
          unfold Atomic.step at hd
          cases hq : st.pcs[c.1]? with
          | none => rw [hq] at hd; cases hd
          | some pc =>
            rw [hq] at hd
            cases pc with
            | idle => rw [har _ _ _ hd]; exact hc c List.mem_cons_self
            | cas op pre =>
              dsimp only at hd
              split at hd
              · cases hd; exact hp op pre (List.mem_of_getElem? hq)
              · rw [har _ _ _ hd]; exact hp op pre (List.mem_of_getElem? hq)
        have := Atomic.eval_le max st.value d.op hle hop
        rw [hl] at this
        exact this
  refine key sched _ hv hops ?_
  intro op pre h
  exact absurd (List.eq_of_mem_replicate h) (by simp)
example : (Atomic.run 65535 ⟨65535, [.idle]⟩ [(0, .inc 1)]).1.value = 65535 := by decide

/-- C19 for the derogatory and commendable counters (16 bit), for every non-zero amount in `int`
range: out of range is refused with OVERFLOW_AVERTED and no change, everything else is exact.
Missing from the full claim: an amount of 0 (see `C19_zero_misreported`). -/
theorem C19_increment_count_partial (v : Nat) (hv : v ≤ 65535) (k : Int) (hk : k ≠ 0) :
    ((v : Int) + k < 0 ∨ 65535 < (v : Int) + k →
      Atomic.incrementCount v k = (v, .error .overflowAverted)) ∧
    (0 ≤ (v : Int) + k ∧ (v : Int) + k ≤ 65535 →
      Atomic.incrementCount v k = (((v : Int) + k).toNat, .ok ((v : Int) + k).toNat)) := by
  unfold Atomic.incrementCount
  by_cases hp : k > 0
  · rw [if_pos hp]
    constructor
    · intro h
      rw [(C19_increment_saturates 65535 v k.toNat hv).2 (by omega)]; simp
    · intro h
      rw [(C19_increment_saturates 65535 v k.toNat hv).1 (by omega)]
      dsimp only
      rw [if_neg (by omega), show v + k.toNat = ((v : Int) + k).toNat by omega]
  · rw [if_neg hp]
    constructor
    · intro h
      rw [(C19_decrement_saturates 65535 v (-k).toNat).2 (by omega)]; simp
    · intro h
      rw [(C19_decrement_saturates 65535 v (-k).toNat).1 (by omega)]
      dsimp only
      rw [if_neg (by omega), show v - (-k).toNat = ((v : Int) + k).toNat by omega]
example : Atomic.incrementCount 65530 6 = (65530, .error .overflowAverted) := by decide
example : Atomic.incrementCount 3 (-3) = (0, .ok 0) := by decide

/-- Finding: adding 0 to a counter at 65535 is reported as an overflow. -/
theorem C19_zero_misreported : Atomic.incrementCount 65535 0 = (65535, .error .overflowAverted) := by decide

/-- C19 for the hit counter: it counts exactly up to its maximum, stays there, and then the rule is
flagged not to count hits. -/
theorem C19_hitcount (f : Flags) (hit : Nat) (hh : hit ≤ 4294967295) (hf : f.has RF.DONT_COUNT_HITS = false) :
    (hit < 4294967295 → Atomic.incrementHitcount f hit = (f, hit + 1)) ∧
    (hit = 4294967295 → Atomic.incrementHitcount f hit = (f ||| RF.DONT_COUNT_HITS, hit)) := by
  unfold Atomic.incrementHitcount
  rw [hf]
  constructor
  · intro h
    rw [(C19_increment_saturates 4294967295 hit 1 hh).1 (by omega)]
    simp
  · intro h
    rw [(C19_increment_saturates 4294967295 hit 1 hh).2 (by omega)]
    simp
example : Atomic.incrementHitcount 0 7 = (0, 8) := by decide

/-- Finding: the connection counter is incremented with a plain wrapping add; with a limit above
65535 it wraps to 0 with 65536 connections live. -/
theorem C19_connection_count_wraps (M : Nat) (hM : 65535 < M) : ∃ sched,
    (Conn.run M (Conn.init 1) sched).1.count = 0 ∧ (Conn.run M (Conn.init 1) sched).1.open_ = 65536 := by
  refine ⟨List.replicate (2 * 65536) (0, .connect), ?_⟩
  have hi : Conn.init 1 = { count := 0, pcs := .idle :: [], open_ := 0 } := rfl
  rw [hi, Conn.fill M 65536 [] (fun j _ => by omega) (by omega)]
  exact ⟨rfl, rfl⟩

/-- C19 for the connection counter when the limit leaves room for the threads: it never wraps. -/
theorem C19_connection_count_partial (M n : Nat) (h : M + n ≤ 65535) (sched : List (Nat × Conn.Req)) :
    (Conn.run M (Conn.init n) sched).1.count ≤ M + n := by
  obtain ⟨h1, _, _⟩ := Conn.run_inv h sched (Conn.init_inv M n)
  have hc := h1.count
  have hb := h1.bound
  have : Conn.nOver (Conn.run M (Conn.init n) sched).1.pcs ≤ n := by
    exact Nat.le_trans List.countP_le_length (Nat.le_of_eq h1.len)
  omega

/-! ## C28, atomicity -/

/-- C28: concurrent flag updates compose: with any number of threads updating disjoint or
overlapping bits under any schedule, the final word is the sequential composition of the completed
updates, each reporting the word right after its own update. -/
theorem C28_flag_updates_linearizable (v : Flags) (n : Nat) (sched : List Atomic.Choice) :
    let r := Atomic.run 4294967295 { value := v.toNat, pcs := List.replicate n .idle } sched
    Atomic.seqRun 4294967295 v.toNat (r.2.map (·.op)) = (r.1.value, r.2.map (·.result)) :=
  Atomic.run_lin 4294967295 { value := v.toNat, pcs := List.replicate n .idle } sched

/-- C28: one such update: every bit of the word becomes (old or set) and not clear — where a bit is in
both masks it ends up clear — and the word reported is the word stored. -/
theorem C28_atomic_update_bits (max : Nat) (v set clear : Flags) (i : Nat) (hi : i < 32) :
    (BitVec.ofNat 32 ((Atomic.Op.updateFlags set clear).eval max v.toNat).1).getLsbD i =
      ((v.getLsbD i || set.getLsbD i) && !clear.getLsbD i) ∧
    ((Atomic.Op.updateFlags set clear).eval max v.toNat).2 = ((Atomic.Op.updateFlags set clear).eval max v.toNat).1 := by
  refine ⟨?_, rfl⟩
  show (BitVec.ofNat 32 (((BitVec.ofNat 32 v.toNat ||| set) &&& ~~~clear).toNat)).getLsbD i = _
  rw [BitVec.ofNat_toNat, BitVec.ofNat_toNat, BitVec.setWidth_eq, BitVec.setWidth_eq, BitVec.getLsbD_and,
    BitVec.getLsbD_or, BitVec.getLsbD_not]
  simp [hi]

example : (Atomic.Op.updateFlags 6 2).eval 4294967295 1 = (5, 5) := by decide

end WS.Props
