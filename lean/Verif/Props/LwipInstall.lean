import Verif.Props.LwipConn
/-
C66: installing and removing the lwIP callbacks.
-/
namespace WS.Props
open WS WS.Spec WS.Spec.Lwip WS.Lwip

/-! ## One installer -/

/-- What an installer does: nothing but holding the lock; or all it should. -/
theorem install_ok {E : InstEnv} {k c mask : Nat} {u : Bool} {set : Slots → Slots} {s : Inst} (h : (install E k c mask u set s).2 = true) :
    (install E k c mask u set s).1.slots = set s.slots ∧ (install E k c mask u set s).1.held = s.held ∧
      (mask ≠ 0 → c ∈ (install E k c mask u set s).1.hooked) ∧ (∀ x ∈ s.hooked, x ∈ (install E k c mask u set s).1.hooked) ∧
      (∀ x ∈ (install E k c mask u set s).1.hooked, x = c ∨ x ∈ s.hooked) := by
  have hh : ∀ (s : Inst), (fun x => if x = c then (if x = c then s.held x + 1 else s.held x) - 1 else if x = c then s.held x + 1 else s.held x) = s.held := by
    intro s; funext x; by_cases hx : x = c <;> simp [hx]
  unfold install at *
  split at h
  · cases h
  · rename_i hl
    rw [if_neg hl]
    by_cases hm : mask = 0
    · simp only [hm, if_true, ne_eq, not_true, false_implies, true_and, Inst.take, Inst.drop] at *
      exact ⟨hh s, fun x hx => hx, fun x hx => Or.inr hx⟩
    · simp only [hm, if_false] at *
      by_cases hc : c ∈ s.hooked
      · simp only [pushHook, Inst.take, Inst.drop, hc, if_true] at *
        exact ⟨trivial, hh s, fun _ => hc, fun x hx => hx, fun x hx => Or.inr hx⟩
      · by_cases hp : E.push k = true
        · simp only [pushHook, Inst.take, Inst.drop, hc, hp, if_true, if_false] at *
          refine ⟨trivial, hh s, fun _ => by simp, fun x hx => by simp [hx], fun x hx => by simpa using hx⟩
        · simp [pushHook, Inst.take, hc, hp] at h

theorem install_fail {E : InstEnv} {k c mask : Nat} {u : Bool} {set : Slots → Slots} {s : Inst} (h : (install E k c mask u set s).2 = false) :
    (install E k c mask u set s).1.slots = s.slots ∧ (install E k c mask u set s).1.hooked = s.hooked ∧
      ((u = true ∨ E.lock = false) → (install E k c mask u set s).1.held = s.held) ∧ (E.lock = true → mask ≠ 0 ∧ E.push k = false ∧ c ∉ s.hooked) := by
  have hh : ∀ (s : Inst), (fun x => if x = c then (if x = c then s.held x + 1 else s.held x) - 1 else if x = c then s.held x + 1 else s.held x) = s.held := by
    intro s; funext x; by_cases hx : x = c <;> simp [hx]
  unfold install at *
  by_cases hl : E.lock = true
  · simp only [hl, Bool.not_true, Bool.false_eq_true, if_false] at *
    by_cases hm : mask = 0
    · simp [hm] at h
    · rw [if_neg hm] at h ⊢
      by_cases hc : c ∈ s.hooked
      · simp [pushHook, Inst.take, hc] at h
      · by_cases hp : E.push k = true
        · simp [pushHook, Inst.take, hc, hp] at h
        · have hp' : E.push k = false := by cases h : E.push k <;> simp_all
          refine ⟨?_, ?_, ?_, fun _ => ⟨hm, hp', hc⟩⟩
          · cases u <;> simp [pushHook, Inst.take, Inst.drop, hc, hp']
          · cases u <;> simp [pushHook, Inst.take, Inst.drop, hc, hp']
          · rintro (rfl | h)
            · simp [pushHook, Inst.take, Inst.drop, hc, hp']; exact hh s
            · cases h
  · have hl' : E.lock = false := by cases h : E.lock <;> simp_all
    simp [hl']

/-- Removal always succeeds once the lock is obtained. -/
theorem install_zero {E : InstEnv} (hl : E.lock = true) (k c : Nat) (u : Bool) (set : Slots → Slots) (s : Inst) :
    (install E k c 0 u set s).2 = true ∧ (install E k c 0 u set s).1.hooked = s.hooked := by
  simp [install, hl, Inst.take, Inst.drop]

/-! ## All of them -/

theorem thenInstall_true {f : Inst → Inst × Bool} {x : Inst × Bool} (h : (thenInstall f x).2 = true) :
    x.2 = true ∧ thenInstall f x = f x.1 := by
  unfold thenInstall at *
  split at h
  · rename_i hx; exact ⟨hx, by rw [if_pos hx]⟩
  · rename_i hx; exact absurd h hx

/-- The callbacks of the layers, installed for context `c`. -/
def slotsFor (c : Nat) (m : Masks) (t : Slots) : Slots :=
  { eth := slotFor c m.eth, ip4 := slotFor c m.ip, ip6 := slotFor c m.ip,
    icmp4 := if m.icmp = 0 then { t.icmp4 with fn := false } else slotFor c m.icmp, icmp6 := slotFor c m.icmp,
    tcp := slotFor c (tcpMask m.tcp), udp := slotFor c m.udp }

theorem installAll_ok {E : InstEnv} {c : Nat} {m : Masks} {s : Inst} (h : (installAll E c m s).2 = true) :
    (installAll E c m s).1.slots = slotsFor c m s.slots ∧ (installAll E c m s).1.held = s.held ∧
      (m ≠ {} → c ∈ (installAll E c m s).1.hooked) ∧ (∀ x ∈ s.hooked, x ∈ (installAll E c m s).1.hooked) ∧
      (∀ x ∈ (installAll E c m s).1.hooked, x = c ∨ x ∈ s.hooked) := by
  unfold installAll at *
  split at h
  · cases h
  · rename_i hl
    rw [if_neg hl]
    simp only at h ⊢
    obtain ⟨h4, e5⟩ := thenInstall_true h
    obtain ⟨h3, e4⟩ := thenInstall_true h4
    obtain ⟨h2, e3⟩ := thenInstall_true h3
    obtain ⟨h1, e2⟩ := thenInstall_true h2
    rw [h, if_pos rfl, e5]
    rw [e5] at h
    rw [e4] at h4 h ⊢
    rw [e3] at h3 h4 h ⊢
    rw [e2] at h2 h3 h4 h ⊢
    obtain ⟨a1, b1, c1, d1, f1⟩ := install_ok h1
    obtain ⟨a2, b2, c2, d2, f2⟩ := install_ok h2
    obtain ⟨a3, b3, c3, d3, f3⟩ := install_ok h3
    obtain ⟨a4, b4, c4, d4, f4⟩ := install_ok h4
    obtain ⟨a5, b5, c5, d5, f5⟩ := install_ok h
    refine ⟨?_, ?_, ?_, ?_, ?_⟩
    · show (installUdp E 4 c m.udp _).1.slots = _
      unfold installUdp
      rw [a5]
      unfold installTcp
      rw [a4]
      unfold installIcmp
      rw [a3]
      unfold installIp
      rw [a2]
      unfold installEth
      rw [a1]
      rfl
    · have : (installUdp E 4 c m.udp (installTcp E 3 c m.tcp (installIcmp E 2 c m.icmp (installIp E 1 c m.ip (installEth E 0 c m.eth (s.take c)).1).1).1).1).1.held =
          (s.take c).held := by
        exact ((b5.trans b4).trans b3).trans (b2.trans b1)
      unfold Inst.drop
      simp only [this]
      funext x
      by_cases hx : x = c <;> simp [hx, Inst.take]
    · intro hm
      show c ∈ (installUdp E 4 c m.udp _).1.hooked
      by_cases m1 : m.udp = 0
      · apply d5
        by_cases m2 : m.tcp = 0
        · apply d4
          by_cases m3 : m.icmp = 0
          · apply d3
            by_cases m4 : m.ip = 0
            · apply d2
              by_cases m5 : m.eth = 0
              · exfalso; apply hm; cases m; simp_all
              · exact c1 m5
            · exact c2 m4
          · exact c3 m3
        · exact c4 m2
      · exact c5 m1
    · intro x hx
      exact d5 x (d4 x (d3 x (d2 x (d1 x hx))))
    · intro x hx
      have := f5 x hx
      rcases this with rfl | hx
      · exact Or.inl rfl
      rcases f4 x hx with rfl | hx
      · exact Or.inl rfl
      rcases f3 x hx with rfl | hx
      · exact Or.inl rfl
      rcases f2 x hx with rfl | hx
      · exact Or.inl rfl
      exact f1 x hx

theorem removeAll_slots {E : InstEnv} (hl : E.lock = true) (c : Nat) (s : Inst) :
    (removeAll E c s).slots = slotsFor c {} s.slots ∧ (removeAll E c s).hooked = s.hooked ∧ (removeAll E c s).held = s.held := by
  have h : ∀ u set (s : Inst), (install E 0 c 0 u set s).1.slots = set s.slots ∧ (install E 0 c 0 u set s).1.hooked = s.hooked ∧
      (install E 0 c 0 u set s).1.held = s.held := by
    intro u set s
    obtain ⟨h1, h2⟩ := install_zero hl 0 c u set s
    obtain ⟨a, b, -⟩ := install_ok h1
    exact ⟨a, h2, b⟩
  unfold removeAll installUdp installTcp installIcmp installIp installEth
  refine ⟨?_, ?_, ?_⟩
  · rw [(h _ _ _).1, (h _ _ _).1, (h _ _ _).1, (h _ _ _).1, (h _ _ _).1]; rfl
  · rw [(h _ _ _).2.1, (h _ _ _).2.1, (h _ _ _).2.1, (h _ _ _).2.1, (h _ _ _).2.1]
  · rw [(h _ _ _).2.2, (h _ _ _).2.2, (h _ _ _).2.2, (h _ _ _).2.2, (h _ _ _).2.2]

theorem slotsFor_none (c : Nat) (t : Slots) (l : Layer) : (slotOf (slotsFor c {} t) l).fn = false := by
  cases l <;> rfl

theorem testBit_e0 (k : Nat) : (0xe0 : Nat).testBit k = true ↔ k = 5 ∨ k = 6 ∨ k = 7 := by
  by_cases h : k < 8
  · have : ∀ k : Fin 8, (0xe0 : Nat).testBit k = true ↔ (k : Nat) = 5 ∨ (k : Nat) = 6 ∨ (k : Nat) = 7 := by decide
    exact this ⟨k, h⟩
  · have : (0xe0 : Nat).testBit k = false := Nat.testBit_lt_two_pow (Nat.lt_of_lt_of_le (by decide : 0xe0 < 2 ^ 8) (Nat.pow_le_pow_right (by decide) (by omega)))
    rw [this]
    simp
    omega

theorem tcpMask_bit (m k : Nat) : (tcpMask m).testBit k = true ↔
    m.testBit k = true ∨ ((k = 5 ∨ k = 6 ∨ k = 7) ∧ (m.testBit 5 = true ∨ m.testBit 6 = true ∨ m.testBit 7 = true)) := by
  have hz : m &&& 0xe0 ≠ 0 ↔ (m.testBit 5 = true ∨ m.testBit 6 = true ∨ m.testBit 7 = true) := by
    constructor
    · intro h
      obtain ⟨i, hi⟩ := Nat.exists_testBit_of_ne_zero h
      rw [Nat.testBit_and, Bool.and_eq_true] at hi
      rcases (testBit_e0 i).1 hi.2 with rfl | rfl | rfl
      · exact Or.inl hi.1
      · exact Or.inr (Or.inl hi.1)
      · exact Or.inr (Or.inr hi.1)
    · intro h h0
      have hb : ∀ i, (m &&& 0xe0).testBit i = false := by intro i; rw [h0]; exact Nat.zero_testBit i
      have hb5 := hb 5
      have hb6 := hb 6
      have hb7 := hb 7
      rw [Nat.testBit_and] at hb5 hb6 hb7
      rw [(testBit_e0 5).2 (by omega)] at hb5
      rw [(testBit_e0 6).2 (by omega)] at hb6
      rw [(testBit_e0 7).2 (by omega)] at hb7
      simp only [Bool.and_true] at hb5 hb6 hb7
      rcases h with h | h | h
      · rw [h] at hb5; cases hb5
      · rw [h] at hb6; cases hb6
      · rw [h] at hb7; cases hb7
  unfold tcpMask
  by_cases h : m &&& 0xe0 ≠ 0
  · rw [if_pos h, Nat.testBit_or, Bool.or_eq_true, testBit_e0]
    have := hz.1 h
    constructor
    · rintro (a | a)
      · exact Or.inl a
      · exact Or.inr ⟨a, this⟩
    · rintro (a | ⟨a, -⟩)
      · exact Or.inl a
      · exact Or.inr a
  · rw [if_neg h]
    constructor
    · exact Or.inl
    · rintro (a | ⟨-, b⟩)
      · exact a
      · exact absurd (hz.2 b) h

theorem counting_num (r : Reason) : Counting r ↔ r.num = 5 ∨ r.num = 6 ∨ r.num = 7 := by
  cases r <;> decide

theorem counting_any (m : Nat) : (∃ q, Counting q ∧ m.testBit q.num = true) ↔ (m.testBit 5 = true ∨ m.testBit 6 = true ∨ m.testBit 7 = true) := by
  constructor
  · rintro ⟨q, hq, h⟩
    rcases hq with rfl | rfl | rfl
    · exact Or.inl h
    · exact Or.inr (Or.inl h)
    · exact Or.inr (Or.inr h)
  · rintro (h | h | h)
    · exact ⟨.accepting, Or.inl rfl, h⟩
    · exact ⟨.closed, Or.inr (Or.inl rfl), h⟩
    · exact ⟨.remoteReset, Or.inr (Or.inr rfl), h⟩

theorem gate_slotFor (c m : Nat) (r : Reason) : gate (slotFor c m) false r = true ↔ m.testBit r.num = true := by
  unfold gate slotFor
  by_cases h : m = 0
  · subst h; simp
  · simp [h]

theorem arg_slotFor (c m : Nat) (r : Reason) (h : gate (slotFor c m) false r = true) : (slotFor c m).arg = some c := by
  unfold gate slotFor at *
  split at h
  · simp at h
  · rename_i hm; rw [if_neg hm]

/-! ## C66 — installing and removing -/

/-- C66: after a successful installation, an event of a layer reaches this context's callback exactly if it
was asked for — where asking for one of the events that count TCP connections asks for all of them. -/
theorem C66_installed {E : InstEnv} {c : Nat} {m : Masks} {s : Inst} (h : (installAll E c m s).2 = true) (l : Layer) (r : Reason) :
    (Wanted m l r → Reaches (installAll E c m s).1.slots c l r) ∧
    (¬ Wanted m l r → ∀ busy, gate (slotOf (installAll E c m s).1.slots l) busy r = false) := by
  rw [(installAll_ok h).1]
  have hg : gate (slotOf (slotsFor c m s.slots) l) false r = true ↔ Wanted m l r := by
    unfold Wanted
    cases l with
    | tcp =>
      show gate (slotFor c (tcpMask m.tcp)) false r = true ↔ m.tcp.testBit r.num = true ∨ _
      rw [gate_slotFor, tcpMask_bit, counting_any, counting_num]
      simp
    | icmp4 =>
      show gate (if m.icmp = 0 then _ else slotFor c m.icmp) false r = true ↔ m.icmp.testBit r.num = true ∨ _
      by_cases hi : m.icmp = 0
      · rw [if_pos hi, hi]; simp [gate]
      · rw [if_neg hi, gate_slotFor]; simp
    | ethernet => show gate (slotFor c m.eth) false r = true ↔ m.eth.testBit r.num = true ∨ _; rw [gate_slotFor]; simp
    | ip4 => show gate (slotFor c m.ip) false r = true ↔ m.ip.testBit r.num = true ∨ _; rw [gate_slotFor]; simp
    | ip6 => show gate (slotFor c m.ip) false r = true ↔ m.ip.testBit r.num = true ∨ _; rw [gate_slotFor]; simp
    | icmp6 => show gate (slotFor c m.icmp) false r = true ↔ m.icmp.testBit r.num = true ∨ _; rw [gate_slotFor]; simp
    | udp => show gate (slotFor c m.udp) false r = true ↔ m.udp.testBit r.num = true ∨ _; rw [gate_slotFor]; simp
  refine ⟨fun hw => ⟨hg.2 hw, ?_⟩, fun hw busy => ?_⟩
  · have h1 := hg.2 hw
    revert h1
    cases l with
    | icmp4 =>
      show gate (if m.icmp = 0 then { s.slots.icmp4 with fn := false } else slotFor c m.icmp) false r = true → (if m.icmp = 0 then { s.slots.icmp4 with fn := false } else slotFor c m.icmp : Slot).arg = some c
      by_cases hi : m.icmp = 0
      · rw [if_pos hi]; simp [gate]
      · rw [if_neg hi]; exact arg_slotFor _ _ r
    | ethernet => exact arg_slotFor _ _ r
    | ip4 => exact arg_slotFor _ _ r
    | ip6 => exact arg_slotFor _ _ r
    | icmp6 => exact arg_slotFor _ _ r
    | tcp => exact arg_slotFor _ _ r
    | udp => exact arg_slotFor _ _ r
  · cases hb : gate (slotOf (slotsFor c m s.slots) l) busy r with
    | false => rfl
    | true =>
      exfalso
      apply hw
      apply hg.1
      unfold gate at *
      revert hb
      cases (slotOf (slotsFor c m s.slots) l).fn <;> cases (slotOf (slotsFor c m s.slots) l).mask.testBit r.num <;> cases busy <;> simp

/-- C66: no counting of connections can be unbalanced by the choice of masks: whichever way the callbacks
were installed, of the three counting events a TCP callback gets all or none. -/
theorem C66_balanced {E : InstEnv} {k c m : Nat} {s : Inst} (h : (installTcp E k c m s).2 = true) {r q : Reason} (hr : Counting r) (hq : Counting q) :
    gate (installTcp E k c m s).1.slots.tcp false r = gate (installTcp E k c m s).1.slots.tcp false q := by
  have e := (install_ok h).1
  have e' : (installTcp E k c m s).1.slots.tcp = slotFor c (tcpMask m) := by
    unfold installTcp; rw [e]
  rw [e']
  have : ∀ x, Counting x → (gate (slotFor c (tcpMask m)) false x = true ↔ (m.testBit 5 = true ∨ m.testBit 6 = true ∨ m.testBit 7 = true)) := by
    intro x hx
    rw [gate_slotFor, tcpMask_bit]
    have hn := (counting_num x).1 hx
    constructor
    · rintro (a | ⟨-, b⟩)
      · rcases hn with e | e | e <;> rw [e] at a
        · exact Or.inl a
        · exact Or.inr (Or.inl a)
        · exact Or.inr (Or.inr a)
      · exact b
    · intro b; exact Or.inr ⟨hn, b⟩
  rw [Bool.eq_iff_iff, this r hr, this q hq]

/-- C66: an installation that fails leaves no callback at all — or, if it did not even get the lock, every
callback as it was. -/
theorem C66_all_or_nothing {E : InstEnv} {c : Nat} {m : Masks} {s : Inst} (h : (installAll E c m s).2 = false) :
    (E.lock = true → Silent (installAll E c m s).1.slots) ∧ (E.lock = false → (installAll E c m s).1 = s) := by
  refine ⟨fun hl => ?_, fun hl => by simp [installAll, hl]⟩
  intro l busy r
  unfold installAll at h ⊢
  rw [hl] at h ⊢
  simp only [Bool.not_true, Bool.false_eq_true, if_false] at h ⊢
  simp only [h, Bool.false_eq_true, if_false]
  show gate (slotOf (removeAll E c _).slots l) busy r = false
  rw [(removeAll_slots hl c _).1]
  unfold gate
  rw [slotsFor_none]
  rfl

/-- C66: asking for no events removes every callback. -/
theorem C66_removed {E : InstEnv} (hl : E.lock = true) (c : Nat) (s : Inst) :
    (installAll E c {} s).2 = true ∧ Silent (installAll E c {} s).1.slots := by
  have h : (installAll E c {} s).2 = true := by
    unfold installAll
    rw [hl]
    simp only [Bool.not_true, Bool.false_eq_true, if_false]
    have z : ∀ k u set (s : Inst), (install E k c 0 u set s).2 = true := fun k u set s => (install_zero hl k c u set s).1
    simp only [thenInstall, installUdp, installTcp, installIcmp, installIp, installEth, z, if_true]
  refine ⟨h, ?_⟩
  intro l busy r
  rw [(installAll_ok h).1]
  unfold gate
  rw [slotsFor_none]
  rfl

/-- C66: after a context has been shut down, its callbacks are gone; so are, if it had ever installed any,
all others (`C66_other_contexts_removed`). -/
theorem C66_shutdown (c : Nat) (s : Inst) (h : c ∈ s.hooked) :
    Silent (shutdown c s).slots ∧ c ∉ (shutdown c s).hooked ∧ (shutdown c s).held = s.held := by
  unfold shutdown
  rw [if_pos h]
  unfold cleanup
  have hl : ({} : InstEnv).lock = true := rfl
  refine ⟨(C66_removed hl c s).2, by simp, (installAll_ok (C66_removed hl c s).1).2.1⟩

/-! ### Over time -/

/-- The callback belongs to a context that has registered the handler. -/
def SlotOk (hooked : List Nat) (x : Slot) : Prop := x.fn = true → ∃ c, x.arg = some c ∧ c ∈ hooked

/-- Every callback does, and the contexts that have are not gone. -/
def InstOk (P : Nat → Prop) (s : Inst) : Prop := (∀ l, SlotOk s.hooked (slotOf s.slots l)) ∧ ∀ x ∈ s.hooked, P x

theorem slotOk_for {hooked : List Nat} {c mask : Nat} (h : mask ≠ 0 → c ∈ hooked) : SlotOk hooked (slotFor c mask) := by
  unfold slotFor
  intro hf
  split at hf
  · cases hf
  · rename_i hm; rw [if_neg hm]; exact ⟨c, rfl, h hm⟩

theorem install_okay {P : Nat → Prop} {E : InstEnv} {k c mask : Nat} {u : Bool} {set : Slots → Slots} {s : Inst} (hc : P c) (hs : InstOk P s)
    (hset : ∀ hooked : List Nat, (mask ≠ 0 → c ∈ hooked) → ∀ l, SlotOk hooked (slotOf s.slots l) → SlotOk hooked (slotOf (set s.slots) l)) :
    InstOk P (install E k c mask u set s).1 := by
  cases h : (install E k c mask u set s).2 with
  | true =>
    obtain ⟨a, -, b, d, f⟩ := install_ok h
    refine ⟨fun l => ?_, fun x hx => ?_⟩
    · rw [a]
      apply hset _ b l
      intro hf
      obtain ⟨c', e1, e2⟩ := hs.1 l hf
      exact ⟨c', e1, d c' e2⟩
    · rcases f x hx with rfl | hx
      · exact hc
      · exact hs.2 x hx
  | false =>
    obtain ⟨a, b, -⟩ := install_fail h
    refine ⟨fun l => ?_, fun x hx => ?_⟩
    · rw [a, b]; exact hs.1 l
    · rw [b] at hx; exact hs.2 x hx

theorem tcpMask_ne {m : Nat} (h : tcpMask m ≠ 0) : m ≠ 0 := by
  intro h0; apply h; rw [h0]; rfl

theorem eth_okay {P : Nat → Prop} {E : InstEnv} {k c m : Nat} {s : Inst} (hc : P c) (hs : InstOk P s) : InstOk P (installEth E k c m s).1 := by
  apply install_okay hc hs
  intro hk hm l hl
  cases l <;> first | exact hl | exact slotOk_for hm
theorem ip_okay {P : Nat → Prop} {E : InstEnv} {k c m : Nat} {s : Inst} (hc : P c) (hs : InstOk P s) : InstOk P (installIp E k c m s).1 := by
  apply install_okay hc hs
  intro hk hm l hl
  cases l <;> first | exact hl | exact slotOk_for hm
theorem icmp_okay {P : Nat → Prop} {E : InstEnv} {k c m : Nat} {s : Inst} (hc : P c) (hs : InstOk P s) : InstOk P (installIcmp E k c m s).1 := by
  apply install_okay hc hs
  intro hk hm l hl
  cases l <;> first | exact hl | exact slotOk_for hm | skip
  show SlotOk hk (if m = 0 then { s.slots.icmp4 with fn := false } else slotFor c m)
  by_cases h0 : m = 0
  · rw [if_pos h0]; intro hf; cases hf
  · rw [if_neg h0]; exact slotOk_for hm
theorem tcp_okay {P : Nat → Prop} {E : InstEnv} {k c m : Nat} {s : Inst} (hc : P c) (hs : InstOk P s) : InstOk P (installTcp E k c m s).1 := by
  apply install_okay hc hs
  intro hk hm l hl
  cases l <;> first | exact hl | exact slotOk_for (fun h => hm (tcpMask_ne h))
theorem udp_okay {P : Nat → Prop} {E : InstEnv} {k c m : Nat} {s : Inst} (hc : P c) (hs : InstOk P s) : InstOk P (installUdp E k c m s).1 := by
  apply install_okay hc hs
  intro hk hm l hl
  cases l <;> first | exact hl | exact slotOk_for hm

theorem thenInstall_okay {P : Nat → Prop} {f : Inst → Inst × Bool} {x : Inst × Bool} (hf : ∀ s, InstOk P s → InstOk P (f s).1) (hx : InstOk P x.1) :
    InstOk P (thenInstall f x).1 := by
  unfold thenInstall
  split
  · exact hf _ hx
  · exact hx

theorem all_okay {P : Nat → Prop} {E : InstEnv} {c : Nat} {m : Masks} {s : Inst} (hc : P c) (hs : InstOk P s) : InstOk P (installAll E c m s).1 := by
  unfold installAll
  split
  · exact hs
  · have hx : InstOk P (thenInstall (installUdp E 4 c m.udp) (thenInstall (installTcp E 3 c m.tcp)
      (thenInstall (installIcmp E 2 c m.icmp) (thenInstall (installIp E 1 c m.ip) (installEth E 0 c m.eth (s.take c)))))).1 :=
      thenInstall_okay (fun _ => udp_okay hc) (thenInstall_okay (fun _ => tcp_okay hc) (thenInstall_okay (fun _ => icmp_okay hc)
        (thenInstall_okay (fun _ => ip_okay hc) (eth_okay hc (show InstOk P (s.take c) from hs)))))
    simp only
    generalize thenInstall (installUdp E 4 c m.udp) _ = x at hx ⊢
    show InstOk P (if x.2 = true then x.1 else removeAll E c x.1)
    split
    · exact hx
    · exact udp_okay hc (tcp_okay hc (icmp_okay hc (ip_okay hc (eth_okay hc hx))))

theorem life_okay {gone : List Nat} {s : Inst} (h : Life gone s) : InstOk (fun c => c ∉ gone) s := by
  induction h with
  | start =>
    refine ⟨fun l hf => ?_, fun x hx => ?_⟩
    · have : (slotOf ({} : Inst).slots l).fn = false := by cases l <;> rfl
      rw [this] at hf
      cases hf
    · cases hx
  | all E c m _ hc ih => exact all_okay hc ih
  | eth E k c m _ hc ih => exact eth_okay hc ih
  | ip E k c m _ hc ih => exact ip_okay hc ih
  | icmp E k c m _ hc ih => exact icmp_okay hc ih
  | tcp E k c m _ hc ih => exact tcp_okay hc ih
  | udp E k c m _ hc ih => exact udp_okay hc ih
  | @shut gone s c _ hc ih =>
    unfold shutdown
    by_cases hk : c ∈ s.hooked
    · rw [if_pos hk]
      unfold cleanup
      refine ⟨fun l hf => ?_, fun x hx => ?_⟩
      · exfalso
        have hr := (C66_removed (E := {}) rfl c s).1
        change (slotOf (installAll {} c {} s).1.slots l).fn = true at hf
        rw [(installAll_ok hr).1, slotsFor_none] at hf
        cases hf
      · have ha := all_okay (E := {}) (m := {}) hc ih
        simp only [List.mem_filter, bne_iff_ne, ne_eq] at hx
        intro hm
        rcases List.mem_cons.1 hm with e | hm
        · exact hx.2 e
        · exact ha.2 x hx.1 hm
    · rw [if_neg hk]
      refine ⟨ih.1, fun x hx hm => ?_⟩
      rcases List.mem_cons.1 hm with e | hm
      · exact hk (e ▸ hx)
      · exact ih.2 x hx hm

/-- C66: whatever contexts install, fail to install, and are shut down, in whatever order: no event ever
reaches a callback with a context that has been shut down, or with none. -/
theorem C66_no_dangling_context {gone : List Nat} {s : Inst} (h : Life gone s) (l : Layer) (busy : Bool) (r : Reason)
    (hg : gate (slotOf s.slots l) busy r = true) : ∃ c, (slotOf s.slots l).arg = some c ∧ c ∉ gone := by
  obtain ⟨h1, h2⟩ := life_okay h
  have hf : (slotOf s.slots l).fn = true := by
    unfold gate at hg
    revert hg
    cases (slotOf s.slots l).fn <;> simp
  obtain ⟨c, e, hc⟩ := h1 l hf
  exact ⟨c, e, h2 c hc⟩

/-- C66: the installer gives back the lock when it succeeds, and when an earlier call, or the Ethernet or IP
layer in this one, has registered the handler. -/
theorem C33_lwip_lock_returned_partial {E : InstEnv} {c : Nat} {m : Masks} {s : Inst}
    (h : (installAll E c m s).2 = true ∨ c ∈ s.hooked ∨ m.eth ≠ 0 ∨ m.ip ≠ 0 ∨ (m.icmp = 0 ∧ m.tcp = 0)) : (installAll E c m s).1.held = s.held := by
  by_cases hok : (installAll E c m s).2 = true
  · exact (installAll_ok hok).2.1
  · have hk : c ∈ s.hooked ∨ m.eth ≠ 0 ∨ m.ip ≠ 0 ∨ (m.icmp = 0 ∧ m.tcp = 0) := by
      rcases h with h | h
      · exact absurd h hok
      · exact h
    by_cases hl : E.lock = true
    · have hx : ∀ x : Inst × Bool, x.1.held = (s.take c).held → ((if x.2 = true then x.1 else removeAll E c x.1).drop c).held = s.held := by
        intro x hx
        have : (if x.2 = true then x.1 else removeAll E c x.1).held = (s.take c).held := by
          split
          · exact hx
          · rw [(removeAll_slots hl c _).2.2]; exact hx
        unfold Inst.drop
        simp only [this]
        funext y
        by_cases hy : y = c <;> simp [hy, Inst.take]
      unfold installAll
      rw [hl]
      simp only [Bool.not_true, Bool.false_eq_true, if_false]
      apply hx
      -- one step: balance is kept if the installer unlocks, or cannot fail
      have step : ∀ {k mask : Nat} {u : Bool} {set : Slots → Slots} {t : Inst}, (u = true ∨ c ∈ t.hooked ∨ mask = 0) → (install E k c mask u set t).1.held = t.held := by
        intro k mask u set t hu
        cases hi : (install E k c mask u set t).2 with
        | true => exact (install_ok hi).2.1
        | false =>
          obtain ⟨-, -, a, b⟩ := install_fail hi
          obtain ⟨b1, b2, b3⟩ := b hl
          rcases hu with rfl | hu | hu
          · exact a (Or.inl rfl)
          · exact absurd hu b3
          · exact absurd hu b1
      -- after the first two layers: balanced; and, if still going, either registered or nothing to register
      have key : ∀ (f : Inst → Inst × Bool) (x : Inst × Bool) (H : Nat → Nat), x.1.held = H → (x.2 = true → (f x.1).1.held = x.1.held) →
          (thenInstall f x).1.held = H := by
        intro f x H hH hf
        unfold thenInstall
        split
        · rename_i hx; rw [hf hx, hH]
        · exact hH
      have mono : ∀ {k mask : Nat} {u : Bool} {set : Slots → Slots} {t : Inst}, c ∈ t.hooked → c ∈ (install E k c mask u set t).1.hooked := by
        intro k mask u set t ht
        cases hi : (install E k c mask u set t).2 with
        | true => exact (install_ok hi).2.2.2.1 c ht
        | false => rw [(install_fail hi).2.1]; exact ht
      have b1 : (installEth E 0 c m.eth (s.take c)).1.held = (s.take c).held := step (Or.inl rfl)
      have b2 := key (installIp E 1 c m.ip) _ _ b1 (fun _ => step (Or.inl rfl))
      have hreg : (thenInstall (installIp E 1 c m.ip) (installEth E 0 c m.eth (s.take c))).2 = true →
          c ∈ (thenInstall (installIp E 1 c m.ip) (installEth E 0 c m.eth (s.take c))).1.hooked ∨ (m.icmp = 0 ∧ m.tcp = 0) := by
        intro ht
        obtain ⟨t1, t2⟩ := thenInstall_true ht
        rw [t2] at ht ⊢
        rcases hk with hk | hk | hk | hk
        · exact Or.inl (mono (mono hk))
        · exact Or.inl (mono ((install_ok t1).2.2.1 hk))
        · exact Or.inl ((install_ok ht).2.2.1 hk)
        · exact Or.inr hk
      generalize thenInstall (installIp E 1 c m.ip) (installEth E 0 c m.eth (s.take c)) = x2 at b2 hreg ⊢
      have b3 : (thenInstall (installIcmp E 2 c m.icmp) x2).1.held = (s.take c).held := by
        refine key _ _ _ b2 (fun ht => step ?_)
        rcases hreg ht with hr | hr
        · exact Or.inr (Or.inl hr)
        · exact Or.inr (Or.inr hr.1)
      have hreg3 : (thenInstall (installIcmp E 2 c m.icmp) x2).2 = true → c ∈ (thenInstall (installIcmp E 2 c m.icmp) x2).1.hooked ∨ m.tcp = 0 := by
        intro ht
        obtain ⟨t1, t2⟩ := thenInstall_true ht
        rw [t2]
        rcases hreg t1 with hr | hr
        · exact Or.inl (mono hr)
        · exact Or.inr hr.2
      generalize thenInstall (installIcmp E 2 c m.icmp) x2 = x3 at b3 hreg3 ⊢
      have b4 : (thenInstall (installTcp E 3 c m.tcp) x3).1.held = (s.take c).held := by
        refine key _ _ _ b3 (fun ht => step ?_)
        rcases hreg3 ht with hr | hr
        · exact Or.inr (Or.inl hr)
        · exact Or.inr (Or.inr hr)
      exact key _ _ _ b4 (fun _ => step (Or.inl rfl))
    · have hl' : E.lock = false := by cases h : E.lock <;> simp_all
      simp [installAll, hl']

/-! ### Findings -/

/-- C66, finding: if the first layer to register the handler is ICMP or TCP and there is no memory for it,
the caller gets an error and is left holding the context's lock. -/
theorem C33_finding_lwip_lock_kept (c : Nat) (m : Masks) (he : m.eth = 0) (hi : m.ip = 0) (hn : m.icmp ≠ 0 ∨ m.tcp ≠ 0) :
    ∃ E : InstEnv, E.lock = true ∧ (installAll E c m {}).2 = false ∧ (installAll E c m {}).1.held c = 1 := by
  refine ⟨{ push := fun _ => false }, rfl, ?_⟩
  cases m with
  | mk e i ic t u =>
    simp only at he hi hn
    subst he; subst hi
    by_cases h : ic = 0
    · have ht : t ≠ 0 := by rcases hn with h' | h'; exact absurd h h'; exact h'
      subst h
      simp [installAll, thenInstall, installEth, installIp, installIcmp, installTcp, install, pushHook, Inst.take, Inst.drop, ht, removeAll, installUdp]
    · simp [installAll, thenInstall, installEth, installIp, installIcmp, installTcp, install, pushHook, Inst.take, Inst.drop, h, removeAll, installUdp]

/-- C66, finding: shutting down one context that has installed callbacks removes the callbacks of another:
its traffic passes unfiltered from then on. -/
theorem C66_other_contexts_removed {E : InstEnv} {c d : Nat} {m : Masks} {s : Inst} (hd : d ∈ s.hooked) (h : (installAll E c m s).2 = true) :
    Silent (shutdown d (installAll E c m s).1).slots :=
  (C66_shutdown d _ ((installAll_ok h).2.2.2.1 d hd)).1

/-- C66, finding: while the callback of a layer runs, further events of that layer are not asked about. -/
theorem C66_reentrant_unfiltered (x : Slot) (r : Reason) : gate x true r = false := by
  simp [gate]

/-- C66, finding: removing the callbacks leaves the ICMPv4 argument behind (no callback uses it). -/
theorem C66_icmp4_argument_left : ∃ s : Inst, Life [7] s ∧ s.slots.icmp4.fn = false ∧ s.slots.icmp4.arg = some 7 := by
  refine ⟨shutdown 7 (installAll {} 7 { icmp := 0x100 } {}).1, .shut 7 (.all _ _ _ .start (by simp)) (by simp), ?_, ?_⟩ <;> decide

/-! ### Examples -/

/-- All TCP accepts and received UDP packets, asked for by context 3. -/
def someMasks : Masks := { tcp := 0x20, udp := 0x100 }

example : (installAll {} 3 someMasks {}).2 = true := by decide
example : Reaches (installAll {} 3 someMasks {}).1.slots 3 .tcp .closed ∧ ¬ Wanted someMasks .tcp .receiving :=
  ⟨(C66_installed (by decide) .tcp .closed).1 (Or.inr ⟨rfl, by decide, .accepting, by decide, by decide⟩),
   by rintro (h | ⟨-, h, -⟩) <;> revert h <;> decide⟩
example : Life [3] (shutdown 3 (installAll {} 5 someMasks (installAll {} 3 someMasks {}).1).1) :=
  .shut 3 (.all _ _ _ (.all _ _ _ .start (by simp)) (by simp)) (by simp)
example : (installAll { push := fun k => k = 0 } 3 someMasks {}).2 = false ∧ (installAll { push := fun k => k = 0 } 3 someMasks {}).1.held 3 = 1 := by decide
example : 3 ∈ (installAll {} 3 someMasks {}).1.hooked ∧ (installAll {} 5 someMasks (installAll {} 3 someMasks {}).1).2 = true := by decide
example : gate (installAll {} 5 someMasks (installAll {} 3 someMasks {}).1).1.slots.tcp false .accepting = true ∧
    gate (shutdown 3 (installAll {} 5 someMasks (installAll {} 3 someMasks {}).1).1).slots.tcp false .accepting = false := by decide

end WS.Props
