import Verif.Spec.Atomic
import Verif.Model.ConnCount
namespace WS.Conn

@[simp] def PC.isDisc : PC → Bool
  | .disc _ => true
  | _ => false
@[simp] def PC.isOver : PC → Bool
  | .over => true
  | _ => false

/-- number of threads in a disconnect -/
def nDisc (l : List PC) : Nat := l.countP PC.isDisc
/-- number of threads whose increment overshot -/
def nOver (l : List PC) : Nat := l.countP PC.isOver

structure Inv (max n : Nat) (st : St) : Prop where
  len : st.pcs.length = n
  count : st.count = st.open_ + nDisc st.pcs + nOver st.pcs
  bound : st.open_ + nDisc st.pcs ≤ max

theorem nDisc_set {l : List PC} {i : Nat} {p q : PC} (h : l[i]? = some p) :
    nDisc (l.set i q) = (nDisc l - if p.isDisc = true then 1 else 0)
      + if q.isDisc = true then 1 else 0 := by
  obtain ⟨hi, hp⟩ := List.getElem?_eq_some_iff.1 h
  unfold nDisc; rw [List.countP_set hi, hp]

theorem nOver_set {l : List PC} {i : Nat} {p q : PC} (h : l[i]? = some p) :
    nOver (l.set i q) = (nOver l - if p.isOver = true then 1 else 0)
      + if q.isOver = true then 1 else 0 := by
  obtain ⟨hi, hp⟩ := List.getElem?_eq_some_iff.1 h
  unfold nOver; rw [List.countP_set hi, hp]

theorem sum_lt {l : List PC} {i : Nat} (h : l[i]? = some .idle ∨ l[i]? = some .checked) :
    nOver l < l.length := by
  obtain ⟨p, hp, hq⟩ : ∃ p, l[i]? = some p ∧ (p = .idle ∨ p = .checked) := by
    rcases h with h | h <;> exact ⟨_, h, by simp⟩
  have : nOver (l.set i .over) ≤ (l.set i .over).length := List.countP_le_length
  rw [nOver_set hp, List.length_set] at this
  rcases hq with rfl | rfl <;> simp at this <;> omega

theorem disc_pos {l : List PC} {i pre : Nat} (h : l[i]? = some (.disc pre)) : 0 < nDisc l := by
  unfold nDisc
  rw [List.countP_pos_iff]
  exact ⟨_, List.mem_of_getElem? h, rfl⟩

theorem over_pos {l : List PC} {i : Nat} (h : l[i]? = some .over) : 0 < nOver l := by
  unfold nOver
  rw [List.countP_pos_iff]
  exact ⟨_, List.mem_of_getElem? h, rfl⟩

/-- connections admitted and not yet disconnected -/
def live (st : St) : Nat := st.open_ + nDisc st.pcs

/-- what one step guarantees -/
def Good (max n : Nat) (st : St) (r : St × Option Outcome) : Prop :=
  Inv max n r.1 ∧ r.2 ≠ some .underflow ∧
    live r.1 + (if r.2 = some .disconnected then 1 else 0)
      = live st + (if r.2 = some .admitted then 1 else 0)

theorem step_inv {max n : Nat} (hmn : max + n ≤ 65535) {st : St} (h : Inv max n st) (i : Nat) (rq : Req) :
    Good max n st (step max st i rq) := by
  obtain ⟨hl, hc, hb⟩ := h
  have hov : nOver st.pcs ≤ st.pcs.length := List.countP_le_length
  unfold step
  cases hp : st.pcs[i]? with
  | none => exact ⟨⟨hl, hc, hb⟩, by simp, by simp⟩
  | some pc =>
    cases pc with
    | idle =>
      have hlt := sum_lt (Or.inl hp)
      cases rq with
      | connect =>
        dsimp only
        by_cases hm : st.count ≥ max
        · rw [if_pos hm]; exact ⟨⟨hl, hc, hb⟩, by simp, by simp⟩
        · rw [if_neg hm]
          refine ⟨⟨by simpa using hl, ?_, ?_⟩, by simp, ?_⟩
          · simp only [nDisc_set hp, nOver_set hp]; simpa using hc
          · simp only [nDisc_set hp]; simpa using hb
          · simp only [live, nDisc_set hp]; simp
      | disconnect =>
        dsimp only
        by_cases hm : st.open_ = 0
        · rw [if_pos hm]; exact ⟨⟨hl, hc, hb⟩, by simp, by simp⟩
        · rw [if_neg hm]
          have : ¬ st.count < 1 := by omega
          simp only [discRead, this, if_false]
          refine ⟨⟨by simpa using hl, ?_, ?_⟩, by simp, ?_⟩
          · simp only [nDisc_set hp, nOver_set hp]; simp; omega
          · simp only [nDisc_set hp]; simp; omega
          · simp only [live, nDisc_set hp]; simp; omega
    | checked =>
      have hlt := sum_lt (Or.inr hp)
      dsimp only
      have hmod : (st.count + 1) % 65536 = st.count + 1 := Nat.mod_eq_of_lt (by omega)
      rw [hmod]
      by_cases hm : st.count + 1 > max
      · rw [if_pos hm]
        refine ⟨⟨by simpa using hl, ?_, ?_⟩, by simp, ?_⟩
        · simp only [nDisc_set hp, nOver_set hp]; simp; omega
        · simp only [nDisc_set hp]; simp; omega
        · simp only [live, nDisc_set hp]; simp
      · rw [if_neg hm]
        refine ⟨⟨by simpa using hl, ?_, ?_⟩, by simp, ?_⟩
        · simp only [nDisc_set hp, nOver_set hp]; simp; omega
        · simp only [nDisc_set hp]; simp; omega
        · simp only [live, nDisc_set hp]; simp; omega
    | over =>
      have hpos := over_pos hp
      dsimp only
      have hmod : (st.count + 65535) % 65536 = st.count - 1 := by omega
      rw [hmod]
      refine ⟨⟨by simpa using hl, ?_, ?_⟩, by simp, ?_⟩
      · simp only [nDisc_set hp, nOver_set hp]; simp; omega
      · simp only [nDisc_set hp]; simp; omega
      · simp only [live, nDisc_set hp]; simp
    | disc pre =>
      have hpos := disc_pos hp
      dsimp only
      by_cases hm : st.count = pre
      · rw [if_pos hm]
        refine ⟨⟨by simpa using hl, ?_, ?_⟩, by simp, ?_⟩
        · simp only [nDisc_set hp, nOver_set hp]; simp; omega
        · simp only [nDisc_set hp]; simp; omega
        · simp only [live, nDisc_set hp]; simp; omega
      · rw [if_neg hm]
        have : ¬ st.count < 1 := by omega
        simp only [discRead, this, if_false]
        refine ⟨⟨by simpa using hl, ?_, ?_⟩, by simp, ?_⟩
        · simp only [nDisc_set hp, nOver_set hp]; simp; omega
        · simp only [nDisc_set hp]; simp; omega
        · simp only [live, nDisc_set hp]; simp; omega

theorem init_inv (max n : Nat) : Inv max n (init n) := by
  have h1 : nDisc (List.replicate n PC.idle) = 0 := by simp [nDisc, List.countP_replicate]
  have h2 : nOver (List.replicate n PC.idle) = 0 := by simp [nOver, List.countP_replicate]
  exact ⟨by simp [init], by simp [init, h1, h2], by simp [init, h1]⟩

theorem run_inv {max n : Nat} (hmn : max + n ≤ 65535) (cs : List (Nat × Req)) {st : St} (h : Inv max n st) :
    Inv max n (run max st cs).1 ∧ Outcome.underflow ∉ (run max st cs).2 ∧
    live (run max st cs).1 + (run max st cs).2.count .disconnected
      = live st + (run max st cs).2.count .admitted := by
  induction cs generalizing st with
  | nil => exact ⟨h, by simp [run], by simp [run]⟩
  | cons c cs ih =>
    obtain ⟨h1, h2, h3⟩ := step_inv hmn h c.1 c.2
    obtain ⟨h4, h5, h6⟩ := ih h1
    simp only [run]
    refine ⟨h4, ?_, ?_⟩
    · intro hm
      rcases List.mem_append.1 hm with hm | hm
      · exact h2 (by simpa using hm)
      · exact h5 hm
    · rw [List.count_append, List.count_append]
      cases ho : (step max st c.1 c.2).2 with
      | none => rw [ho] at h3; simp at h3 ⊢; omega
      | some o =>
        rw [ho] at h3
        cases o <;> simp at h3 ⊢ <;> omega

end WS.Conn

namespace WS.Atomic

theorem step_lin (max : Nat) (st : St) (c : Choice) :
    match (step max st c).2 with
    | none => (step max st c).1.value = st.value
    | some d => d.op.eval max st.value = ((step max st c).1.value, d.result) := by
  have har : ∀ v op, match (afterRead max v op).2 with
      | none => True
      | some d => d.op.eval max v = (v, d.result) := by
    intro v op
    unfold afterRead
    cases he : op.eval max v with
    | mk v' r =>
      dsimp only
      by_cases h : v' = v
      · rw [if_pos h]; dsimp only; rw [he, h]
      · rw [if_neg h]; trivial
  unfold step
  cases hp : st.pcs[c.1]? with
  | none => rfl
  | some pc =>
    cases pc with
    | idle =>
      dsimp only
      have := har st.value c.2
      cases hd : (afterRead max st.value c.2).2 with
      | none => rfl
      | some d => rw [hd] at this; exact this
    | cas op pre =>
      dsimp only
      by_cases hm : st.value = pre
      · rw [if_pos hm, hm]
      · rw [if_neg hm]
        have := har st.value op
        cases hd : (afterRead max st.value op).2 with
        | none => rfl
        | some d => rw [hd] at this; exact this

theorem run_lin (max : Nat) (st : St) (cs : List Choice) :
    seqRun max st.value ((run max st cs).2.map (·.op))
      = ((run max st cs).1.value, (run max st cs).2.map (·.result)) := by
  induction cs generalizing st with
  | nil => rfl
  | cons c cs ih =>
    have h := step_lin max st c
    have ih' := ih (step max st c).1
    simp only [run]
    cases hd : (step max st c).2 with
    | none =>
      rw [hd] at h
      dsimp only at h
      rw [h] at ih'
      simpa using ih'
    | some d =>
      rw [hd] at h
      dsimp only at h
      simp only [Option.toList_some, List.singleton_append, List.map_cons, seqRun, h, ih']

theorem eval_le (max v : Nat) (op : Op) (hv : v ≤ max) (hop : ∀ s c, op ≠ .updateFlags s c) :
    (op.eval max v).1 ≤ max := by
  cases op with
  | updateFlags s c => exact absurd rfl (hop s c)
  | reset => simp [Op.eval]
  | inc x => simp only [Op.eval]; split <;> simp <;> omega
  | dec x => simp only [Op.eval]; split <;> simp <;> omega

end WS.Atomic
