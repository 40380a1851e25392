import Verif.Spec.Deadline
import Verif.Props.Codec
/-
C92: deadlines in the form the system's waits take.
-/
namespace WS.Props
open WS WS.Time WS.Spec.Deadline

theorem chk_ok {x : Int} (h : I64_MIN ≤ x ∧ x ≤ I64_MAX) : chk x = .ok x := by unfold chk; rw [if_pos h]

/-- C92: a reading of the system's clock is taken to the microsecond below. -/
theorem C92_now {x : Int × Int} (h : Reading x) : ∃ t, builtinGet (some x) = .ok t ∧ 0 ≤ t ∧ t * 1000 ≤ nanos x ∧ nanos x < t * 1000 + 1000 := by
  obtain ⟨⟨h1, h2⟩, h3, h4⟩ := h
  obtain ⟨s, n⟩ := x
  simp only at h1 h2 h3 h4
  have hd := tdiv_cases n 1000
  refine ⟨s * 1000000 + n.tdiv 1000, ?_, by omega, ?_, ?_⟩
  · unfold builtinGet
    simp only
    rw [chk_ok (by unfold I64_MIN I64_MAX; omega)]
    show chk _ = _
    rw [chk_ok (by unfold I64_MIN I64_MAX; omega)]
  · unfold nanos; simp only; omega
  · unfold nanos; simp only; omega

/-- C92: a time of the library, not before the epoch, is converted into the same instant in the system's form. -/
theorem C92_to_timespec {clock : Option (Int × Int)} {t : Int} (h0 : 0 ≤ t) (h : InI64 t) :
    ∃ x, toTimespec (builtin clock) t = .ok (some x) ∧ Normal x ∧ nanos x = t * 1000 := by
  unfold InI64 I64_MIN I64_MAX at h
  have hd := tdiv_cases t 1000000
  have hm := tmod_eq t 1000000
  refine ⟨(t.tdiv 1000000, t.tmod 1000000 * 1000), ?_, ?_, ?_⟩
  · unfold toTimespec builtin toEpoch
    simp only
    rw [if_neg (by unfold I64_MAX; omega), chk_ok (by unfold I64_MIN I64_MAX; omega)]
    simp only [Res.bind]
    rw [chk_ok (by unfold I64_MIN I64_MAX; omega)]
  · unfold Normal; simp only; omega
  · unfold nanos; simp only; omega

/-- C92: the deadline `td` microseconds from now: in the system's form, and exactly `td` after the reading of the clock taken to the microsecond below;
so it is less than a microsecond early, and never late.  For deadlines within the range of the library's times. -/
theorem C92_deadline {x : Int × Int} (h : Reading x) {td : Int} (h0 : 0 ≤ td) (hr : td ≤ 9223372036854775807 - x.1 * 1000000 - 999999) :
    ∃ y, deadline (builtin (some x)) td = .ok (some y) ∧ Normal y ∧ nanos y ≤ nanos x + td * 1000 ∧ nanos x + td * 1000 < nanos y + 1000 := by
  obtain ⟨t, g1, g2, g3, g4⟩ := C92_now h
  obtain ⟨⟨h1, h2⟩, h3, h4⟩ := h
  have hb : t + td ≤ 9223372036854775807 := by unfold nanos at g3; omega
  obtain ⟨y, k1, k2, k3⟩ := C92_to_timespec (clock := some x) (t := t + td) (by omega) (by unfold InI64 I64_MIN I64_MAX; omega)
  refine ⟨y, ?_, k2, by omega, by omega⟩
  unfold deadline
  have e1 : (builtin (some x)).get = .ok t := g1
  have e2 : (builtin (some x)).add t td = .ok (t + td) := chk_ok (by unfold I64_MIN I64_MAX; omega)
  rw [e1]
  simp only [Res.bind]
  rw [e2]
  exact k1

/-- C92: a later reading and a longer delay give no earlier deadline. -/
theorem C92_monotone {x x' : Int × Int} (h : Reading x) (h' : Reading x') {td td' : Int} (h0 : 0 ≤ td) (hr : td ≤ 9223372036854775807 - x.1 * 1000000 - 999999)
    (hr' : td' ≤ 9223372036854775807 - x'.1 * 1000000 - 999999) (hx : nanos x ≤ nanos x') (ht : td ≤ td') {y y' : Int × Int}
    (hy : deadline (builtin (some x)) td = .ok (some y)) (hy' : deadline (builtin (some x')) td' = .ok (some y')) : nanos y ≤ nanos y' := by
  have key : ∀ {z : Int × Int} {d : Int} {w : Int × Int}, Reading z → 0 ≤ d → d ≤ 9223372036854775807 - z.1 * 1000000 - 999999 →
      deadline (builtin (some z)) d = .ok (some w) → ∃ t, t * 1000 ≤ nanos z ∧ nanos z < t * 1000 + 1000 ∧ nanos w = (t + d) * 1000 := by
    intro z d w hz hd hb hw
    obtain ⟨t, g1, g2, g3, g4⟩ := C92_now hz
    obtain ⟨⟨h1, h2⟩, h3, h4⟩ := hz
    have hb' : t + d ≤ 9223372036854775807 := by unfold nanos at g3; omega
    obtain ⟨y, k1, k2, k3⟩ := C92_to_timespec (clock := some z) (t := t + d) (by omega) (by unfold InI64 I64_MIN I64_MAX; omega)
    refine ⟨t, g3, g4, ?_⟩
    unfold deadline at hw
    have e1 : (builtin (some z)).get = .ok t := g1
    have e2 : (builtin (some z)).add t d = .ok (t + d) := chk_ok (by unfold I64_MIN I64_MAX; omega)
    rw [e1] at hw
    simp only [Res.bind] at hw
    rw [e2] at hw
    simp only at hw
    rw [k1] at hw
    cases hw
    exact k3
  obtain ⟨t, a1, a2, a3⟩ := key h h0 hr hy
  obtain ⟨t', b1, b2, b3⟩ := key h' (Int.le_trans h0 ht) hr' hy'
  omega

/-- C92: the deadline in one step is the time in the library's form converted: for every set of clock callbacks, as long as the clock reads the same. -/
theorem C92_two_steps (cb : Callbacks) (td : Int) : deadline cb td = (nowPlusDelta cb td).bind (toTimespec cb) := by
  unfold deadline nowPlusDelta
  cases cb.get <;> rfl

/-- C92: converted back, the deadline is the library's time for it. -/
theorem C92_back {cb : Callbacks} (hcb : cb.toEpoch = toEpoch) {td t : Int} (h : nowPlusDelta cb td = .ok t) (ht : InI64 t) :
    ∃ s n, deadline cb td = .ok (some (s, n)) ∧ fromEpoch s n = .ok t := by
  obtain ⟨s, n, h1, _, _, _, h2⟩ := C35_to_from t ht
  refine ⟨s, n, ?_, h2⟩
  rw [C92_two_steps, h]
  show toTimespec cb t = _
  unfold toTimespec
  rw [hcb, h1]

/-- C92: if the clock cannot be read, the error is returned and no deadline is stored. -/
theorem C92_no_clock (cb : Callbacks) (td : Int) {e : Err} (h : cb.get = .err e) : deadline cb td = .err e ∧ nowPlusDelta cb td = .err e := by
  unfold deadline nowPlusDelta
  rw [h]
  exact ⟨rfl, rfl⟩

/-- C92: with the built-in callbacks a system clock that cannot be read is such an error. -/
theorem C92_builtin_no_clock (td : Int) : nowPlusDelta (builtin none) td = .err .sysOpFatal ∧ deadline (builtin none) td = .err .sysOpFatal := ⟨rfl, rfl⟩

example : builtinGet none = .err .sysOpFatal := rfl
example : Reading (1700000000, 999999999) := by unfold Reading Normal; decide
example : deadline (builtin (some (1700000000, 999999999))) 1 = .ok (some (1700000001, 0)) := by decide

/-- C92, finding: a time before the epoch is converted into nanoseconds below 0, which the system's waits refuse (EINVAL). -/
theorem C92_before_epoch : toTimespec (builtin none) (-1) = .ok (some (0, -1000)) ∧ ¬ Normal (0, -1000) := by
  refine ⟨by decide, fun h => ?_⟩
  unfold Normal at h
  omega

/-- C92, finding: if the host's conversion fails, success is returned all the same, and the deadline is whatever lay on the stack. -/
theorem C92_failure_ignored (cb : Callbacks) (t : Int) {e : Err} (h : cb.toEpoch t = .err e) : toTimespec cb t = .ok none := by
  unfold toTimespec; rw [h]

/-- C92, finding: a delay that would mean "for ever" overflows (undefined behaviour) instead of being refused. -/
theorem C92_overflow {now : Int} (h : 0 < now) (clock : Option (Int × Int)) (hc : builtinGet clock = .ok now) :
    deadline (builtin clock) 9223372036854775807 = .ub := by
  unfold deadline
  have e1 : (builtin clock).get = .ok now := hc
  rw [e1]
  show (addTime now 9223372036854775807).bind _ = _
  unfold addTime chk I64_MAX
  rw [if_neg (by omega)]
  rfl

end WS.Props
