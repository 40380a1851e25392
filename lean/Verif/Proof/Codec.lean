import Verif.Model.ErrCode
import Verif.Model.Time
import Verif.Model.Base64
import Verif.Spec.Base64
namespace WS.ErrCode

theorem pack_eq (m l s : Nat) (hm : m ≤ 255) (hl : l ≤ 65535) (hs : s ≤ 127) :
    pack m l s = m + l * 256 + s * 16777216 := by
  unfold pack
  have e1 : m &&& 255 = m := by
    rw [show (255:Nat) = 2^8 - 1 from rfl, Nat.and_two_pow_sub_one_eq_mod]; omega
  have e2 : l &&& 65535 = l := by
    rw [show (65535:Nat) = 2^16 - 1 from rfl, Nat.and_two_pow_sub_one_eq_mod]; omega
  have e3 : s &&& 127 = s := by
    rw [show (127:Nat) = 2^7 - 1 from rfl, Nat.and_two_pow_sub_one_eq_mod]; omega
  rw [e1, e2, e3]
  rw [Nat.or_comm m, ← Nat.shiftLeft_add_eq_or_of_lt (show m < 2^8 by omega)]
  rw [Nat.or_comm]
  rw [← Nat.shiftLeft_add_eq_or_of_lt (show l <<< 8 + m < 2^24 by
    rw [Nat.shiftLeft_eq]; omega)]
  simp only [Nat.shiftLeft_eq]; omega

theorem and255 (n : Nat) : n &&& 255 = n % 256 := by
  rw [show (255:Nat) = 2^8 - 1 from rfl, Nat.and_two_pow_sub_one_eq_mod]
theorem and65535 (n : Nat) : n &&& 65535 = n % 65536 := by
  rw [show (65535:Nat) = 2^16 - 1 from rfl, Nat.and_two_pow_sub_one_eq_mod]

end WS.ErrCode

namespace WS.Time

theorem tdiv_cases (t k : Int) :
    (0 ≤ t ∧ t.tdiv k = t / k) ∨ (t < 0 ∧ t.tdiv k = -((-t) / k)) := by
  by_cases h : 0 ≤ t
  · left; exact ⟨h, Int.tdiv_eq_ediv_of_nonneg h⟩
  · right
    refine ⟨by omega, ?_⟩
    have := Int.neg_tdiv (-t) k
    rw [Int.neg_neg] at this
    rw [this, Int.tdiv_eq_ediv_of_nonneg (by omega)]

theorem tmod_eq (t k : Int) : t.tmod k = t - k * t.tdiv k := Int.tmod_def t k

end WS.Time

namespace WS.Base64
open WS.Spec.Base64

theorem lut_alphabet (v : Nat) (h : v < 64) : lut (alphabet v) = .val v := by
  unfold alphabet lut
  repeat' split
  all_goals first | omega | (simp only [Cls.val.injEq]; omega) | (exfalso; omega)

theorem or_shift (d v : Nat) (hd : d < 67108864) (hv : v < 64) : u32 (d <<< 6) ||| v = d * 64 + v := by
  unfold u32
  rw [Nat.mod_eq_of_lt (by rw [Nat.shiftLeft_eq]; omega)]
  rw [← Nat.shiftLeft_add_eq_or_of_lt (show v < 2^6 by omega), Nat.shiftLeft_eq]

/-- One value character that does not complete a group. -/
theorem loop_val (ij : Bool) (v : Nat) (cs : List Nat) (st : St) (hv : v < 64)
    (hd : st.decoded < 67108864) (hb : st.bits + 6 ≠ 24) :
    loop ij (alphabet v :: cs) st =
      loop ij cs { st with decoded := st.decoded * 64 + v, bits := st.bits + 6 } := by
  rw [loop.eq_def]
  simp only [lut_alphabet v hv, or_shift st.decoded v hd hv, if_neg hb]

theorem loop_val24 (ij : Bool) (v : Nat) (cs : List Nat) (st : St) (hv : v < 64)
    (hd : st.decoded < 262144) (hb : st.bits = 18) :
    loop ij (alphabet v :: cs) st =
      loop ij cs { st with decoded := 0, bits := 0, out := st.out ++
        [(st.decoded * 64 + v) / 65536, (st.decoded * 64 + v) / 256 % 256,
         (st.decoded * 64 + v) % 256] } := by
  rw [loop.eq_def]
  simp only [lut_alphabet v hv, or_shift st.decoded v (by omega) hv, hb]
  simp only [Nat.shiftRight_eq_div_pow]
  simp only [if_true]
  congr 2
  simp only [List.append_cancel_left_eq, List.cons.injEq, and_true]
  omega

theorem lut_pad : lut 61 = .pad := by decide

theorem loop_pad_nil (ij : Bool) (st : St) :
    loop ij [61] st = .ok { st with pads := st.pads + 1, decoded := u32 (st.decoded <<< 6) } := by
  rw [loop.eq_def]; simp only [lut_pad]; rw [loop.eq_def]

theorem loop_pad_pad (ij : Bool) (st : St) (cs : List Nat) :
    loop ij (61 :: 61 :: cs) st =
      loop ij (61 :: cs) { st with pads := st.pads + 1, decoded := u32 (st.decoded <<< 6) } := by
  rw [loop.eq_def]; simp only [lut_pad]; rfl

/-- The decode loop plus tail inverts the reference encoder. -/
theorem decode_core (ij pad : Bool) (bs : List Nat) (hb : ∀ b ∈ bs, b < 256) (acc : List Nat) :
    (match loop ij (encode pad bs) { out := acc } with
     | .error e => (.error e : Except (Err × List Nat) (List Nat))
     | .ok st => finish st) = .ok (acc ++ bs) := by
  match bs, hb with
  | [], _ => simp [encode, loop, finish]
  | [a], hb =>
    have ha : a < 256 := hb a (by simp)
    cases pad
    · simp only [encode, Bool.false_eq_true, if_false, List.append_nil]
      rw [loop_val _ _ _ _ (by omega) (by simp) (by simp), loop_val _ _ _ _ (by omega)
        (by simp; omega) (by simp), loop]
      simp only [finish, u32, Nat.shiftLeft_eq, Nat.shiftRight_eq_div_pow]
      simp
      omega
    · simp only [encode, if_true, List.cons_append, List.nil_append]
      rw [loop_val _ _ _ _ (by omega) (by simp) (by simp), loop_val _ _ _ _ (by omega)
        (by simp; omega) (by simp), loop_pad_pad, loop_pad_nil]
      simp only [finish, u32, Nat.shiftLeft_eq, Nat.shiftRight_eq_div_pow]
      simp
      omega
  | [a, b], hb =>
    have ha : a < 256 := hb a (by simp)
    have hb' : b < 256 := hb b (by simp)
    cases pad
    · simp only [encode, Bool.false_eq_true, if_false, List.append_nil]
      rw [loop_val _ _ _ _ (by omega) (by simp) (by simp), loop_val _ _ _ _ (by omega)
        (by simp; omega) (by simp), loop_val _ _ _ _ (by omega) (by simp; omega) (by simp), loop]
      simp only [finish, u32, Nat.shiftLeft_eq, Nat.shiftRight_eq_div_pow]
      simp
      omega
    · simp only [encode, if_true, List.cons_append, List.nil_append]
      rw [loop_val _ _ _ _ (by omega) (by simp) (by simp), loop_val _ _ _ _ (by omega)
        (by simp; omega) (by simp), loop_val _ _ _ _ (by omega) (by simp; omega) (by simp),
        loop_pad_nil]
      simp only [finish, u32, Nat.shiftLeft_eq, Nat.shiftRight_eq_div_pow]
      simp
      omega
  | a :: b :: c :: rest, hb =>
    have ha : a < 256 := hb a (by simp)
    have hb' : b < 256 := hb b (by simp)
    have hc : c < 256 := hb c (by simp)
    simp only [encode, List.cons_append, List.nil_append]
    rw [loop_val _ _ _ _ (by omega) (by simp) (by simp), loop_val _ _ _ _ (by omega)
        (by simp; omega) (by simp), loop_val _ _ _ _ (by omega) (by simp; omega) (by simp),
        loop_val24 _ _ _ _ (by omega) (by simp; omega) (by simp)]
    have ih := decode_core ij pad rest (fun x hx => hb x (by simp [hx])) (acc ++ [a, b, c])
    have e : ((((0 * 64 + a / 4) * 64 + (a % 4 * 16 + b / 16)) * 64 + (b % 16 * 4 + c / 64)) * 64 + c % 64)
        = a * 65536 + b * 256 + c := by omega
    simp only [e]
    rw [show (a * 65536 + b * 256 + c) / 65536 = a by omega,
        show (a * 65536 + b * 256 + c) / 256 % 256 = b by omega,
        show (a * 65536 + b * 256 + c) % 256 = c by omega]
    simpa using ih

/-- Number of `=`-free value characters and pads bound the bytes written. -/
theorem lut_val_lt {c v : Nat} (h : lut c = .val v) : v < 64 := by
  unfold lut at h
  repeat' split at h
  all_goals first | (simp at h; done) | (simp only [Cls.val.injEq] at h; omega)

theorem lut_pad_iff {c : Nat} : lut c = .pad ↔ c = 61 := by
  constructor
  · intro h
    unfold lut at h
    repeat' split at h
    all_goals first | assumption | (simp at h; done)
  · rintro rfl; decide

theorem loop_junk {ij : Bool} {c : Nat} {cs : List Nat} {st : St} (h : lut c = .junk) :
    loop ij (c :: cs) st = if ij then loop ij cs st else .error (.invalidArg, st.out) := by
  rw [loop.eq_def]; simp only [h]

theorem loop_value {ij : Bool} {c v : Nat} {cs : List Nat} {st : St} (h : lut c = .val v) :
    loop ij (c :: cs) st =
      if st.bits + 6 = 24 then
        loop ij cs { st with decoded := 0, bits := 0, out := st.out ++
          [((u32 (st.decoded <<< 6) ||| v) >>> 16) % 256, ((u32 (st.decoded <<< 6) ||| v) >>> 8) % 256,
           (u32 (st.decoded <<< 6) ||| v) % 256] }
      else loop ij cs { st with decoded := u32 (st.decoded <<< 6) ||| v, bits := st.bits + 6 } := by
  rw [loop.eq_def]; simp only [h]

theorem loop_append (ij : Bool) (u v : List Nat) (st : St) (hu : ∀ c ∈ u, c ≠ 61) :
    loop ij (u ++ v) st = (loop ij u st).bind (loop ij v) := by
  induction u generalizing st with
  | nil => simp [loop, Except.bind]
  | cons c u ih =>
    have hc : c ≠ 61 := hu c (by simp)
    have ih' := fun st => ih st (fun x hx => hu x (by simp [hx]))
    rw [List.cons_append]
    cases hl : lut c with
    | pad => exact absurd (lut_pad_iff.1 hl) hc
    | junk => rw [loop_junk hl, loop_junk hl]; split <;> simp_all [Except.bind]
    | val v' => rw [loop_value hl, loop_value hl]; split <;> rw [ih']

def okBits (n : Nat) : Prop := n = 0 ∨ n = 6 ∨ n = 12 ∨ n = 18

/-- Bytes written while reading pad-free text. -/
theorem loop_nopad_len (ij : Bool) (u : List Nat) (st : St) (hu : ∀ c ∈ u, c ≠ 61)
    (hb : okBits st.bits) :
    (∀ st', loop ij u st = .ok st' → st'.pads = st.pads ∧ okBits st'.bits ∧
        st'.out.length % 3 = st.out.length % 3 ∧
        8 * st'.out.length + st'.bits ≤ 8 * st.out.length + st.bits + 6 * u.length) ∧
    (∀ e o, loop ij u st = .error (e, o) → o.length % 3 = st.out.length % 3 ∧
      8 * o.length ≤ 8 * st.out.length + st.bits + 6 * u.length) := by
  induction u generalizing st with
  | nil => simp [loop, hb]
  | cons c u ih =>
    have hc : c ≠ 61 := hu c (by simp)
    have ih' := fun st => ih st (fun x hx => hu x (by simp [hx]))
    cases hl : lut c with
    | pad => exact absurd (lut_pad_iff.1 hl) hc
    | junk =>
      rw [loop_junk hl]
      cases ij with
      | true =>
        simp only [if_true, List.length_cons]
        obtain ⟨h1, h2⟩ := ih' st hb
        refine ⟨fun st' h => ?_, fun e o h => ?_⟩
        · have := h1 st' h; refine ⟨this.1, this.2.1, by omega, by omega⟩
        · have := h2 e o h; omega
      | false =>
        simp only [Bool.false_eq_true, if_false]
        refine ⟨fun st' h => by simp at h, fun e o h => ?_⟩
        simp only [Except.error.injEq, Prod.mk.injEq] at h
        obtain ⟨-, rfl⟩ := h
        exact ⟨rfl, by omega⟩
    | val v' =>
      rw [loop_value hl]
      split
      · rename_i h24
        obtain ⟨h1, h2⟩ := ih' _ (show okBits ({ st with decoded := 0, bits := 0, out := st.out ++
          [((u32 (st.decoded <<< 6) ||| v') >>> 16) % 256, ((u32 (st.decoded <<< 6) ||| v') >>> 8) % 256,
           (u32 (st.decoded <<< 6) ||| v') % 256] } : St).bits from Or.inl rfl)
        simp only [List.length_append, List.length_cons, List.length_nil] at h1 h2 ⊢
        refine ⟨fun st' h => ?_, fun e o h => ?_⟩
        · have := h1 st' h; refine ⟨this.1, this.2.1, by omega, by omega⟩
        · have := h2 e o h; omega
      · rename_i h24
        obtain ⟨h1, h2⟩ := ih' { st with decoded := u32 (st.decoded <<< 6) ||| v', bits := st.bits + 6 } (by
          rcases hb with hb | hb | hb | hb
          · exact Or.inr (Or.inl (by simp only; omega))
          · exact Or.inr (Or.inr (Or.inl (by simp only; omega)))
          · exact Or.inr (Or.inr (Or.inr (by simp only; omega)))
          · omega)
        simp only [List.length_cons] at h1 h2 ⊢
        refine ⟨fun st' h => ?_, fun e o h => ?_⟩
        · have := h1 st' h; refine ⟨this.1, this.2.1, by omega, by omega⟩
        · have := h2 e o h; omega

/-- Reading text that starts with a pad never writes in the loop; it succeeds only if the
whole rest is padding. -/
theorem loop_pads (ij : Bool) (w : List Nat) (st : St) :
    (∃ d, loop ij (61 :: w) st = .ok { st with pads := st.pads + w.length + 1, decoded := d } ∧
      w = List.replicate w.length 61) ∨ loop ij (61 :: w) st = .error (.invalidArg, st.out) := by
  induction w generalizing st with
  | nil => left; exact ⟨_, loop_pad_nil ij st, rfl⟩
  | cons d w ih =>
    by_cases hd : d = 61
    · subst hd
      rw [loop_pad_pad]
      rcases ih { st with pads := st.pads + 1, decoded := u32 (st.decoded <<< 6) } with ⟨d, h, hw⟩ | h
      · left
        refine ⟨d, ?_, ?_⟩
        · rw [h]; simp only [List.length_cons]; congr 2; omega
        · rw [List.length_cons, List.replicate_succ, ← hw]
      · right; rw [h]
    · right
      rw [loop.eq_def]
      simp only [lut_pad]
      rw [if_neg (fun h => hd (lut_pad_iff.1 h))]

/-- Splitting a text at its first `=`. -/
theorem split_pad (t : List Nat) :
    t = beforePad t ++ fromPad t ∧ (∀ c ∈ beforePad t, c ≠ 61) ∧
      (fromPad t = [] ∨ ∃ w, fromPad t = 61 :: w) := by
  unfold beforePad fromPad
  induction t with
  | nil => simp
  | cons a t ih =>
    by_cases h : a = 61
    · subst h; simp
    · simp only [List.takeWhile_cons, List.dropWhile_cons, bne_iff_ne, ne_eq, h, not_false_eq_true,
        if_true, List.cons_append]
      obtain ⟨h1, h2, h3⟩ := ih
      refine ⟨by rw [← h1], ?_, h3⟩
      intro c hc
      rcases List.mem_cons.1 hc with rfl | hc
      · exact h
      · exact h2 c hc

theorem bufspc_ge (src : List Nat) : (src.length + 3) / 4 * 3 - 2 ≤ bufspc src := by
  unfold bufspc; split <;> split <;> (try split) <;> (try split) <;> omega

theorem finish_len (st : St) (hb : okBits st.bits) :
    (∀ o, finish st = .ok o → (st.pads = 0 ∧ 8 * o.length ≤ 8 * st.out.length + st.bits) ∨
        (st.pads = 1 ∧ o.length = st.out.length + 2) ∨ (st.pads = 2 ∧ o.length = st.out.length + 1)) ∧
    (∀ e o, finish st = .error (e, o) → o = st.out) := by
  obtain ⟨decoded, bits, pads, out⟩ := st
  unfold finish
  match pads with
  | 0 =>
    rcases hb with hb | hb | hb | hb <;> simp only at hb <;> subst hb <;>
      refine ⟨fun o h => ?_, fun e o h => ?_⟩ <;> simp at h <;> grind
  | 1 => refine ⟨fun o h => ?_, fun e o h => ?_⟩ <;> simp at h <;> grind
  | 2 => refine ⟨fun o h => ?_, fun e o h => ?_⟩ <;> simp at h <;> grind
  | p + 3 => refine ⟨fun o h => ?_, fun e o h => ?_⟩ <;> simp at h <;> grind

theorem bufspc_nopad (u : List Nat) (h : ∀ c ∈ u, c ≠ 61) : bufspc u = (u.length + 3) / 4 * 3 := by
  unfold bufspc
  have : ∀ i : Nat, u[i]? ≠ some 61 := by
    intro i hi; exact h 61 (List.mem_of_getElem? hi) rfl
  simp [this]

theorem bufspc_onepad (u : List Nat) (h : ∀ c ∈ u, c ≠ 61) :
    (u.length + 4) / 4 * 3 - 1 ≤ bufspc (u ++ [61]) := by
  unfold bufspc
  simp only [List.length_append, List.length_cons, List.length_nil]
  have e : ¬ (u ++ [61])[u.length + (0 + 1) - 2]? = some 61 ∨ u.length = 0 := by
    by_cases hu : u.length = 0
    · right; exact hu
    · left
      rw [List.getElem?_append_left (by omega)]
      intro hi; exact h 61 (List.mem_of_getElem? hi) rfl
  split <;> split <;> (try split) <;> (try split) <;> first | omega | (rcases e with e | e <;> simp_all)

/-- All bytes written by a decode, successful or not, fit in the stated buffer. -/
theorem decode_written_le (src : List Nat) (spc : Nat) (ij : Bool) :
    (stored (decode src spc ij)).length ≤ spc := by
  unfold decode
  by_cases hspc : bufspc src > spc
  · simp [hspc, stored]
  rw [if_neg hspc]
  obtain ⟨hs, hu, hv⟩ := split_pad src
  generalize beforePad src = u at *
  generalize fromPad src = v at *
  subst hs
  obtain ⟨hok, herr⟩ := loop_nopad_len ij u {} hu (Or.inl rfl)
  simp only [List.length_nil] at hok herr
  rw [loop_append ij u v {} hu]
  have hg := bufspc_ge (u ++ v)
  simp only [List.length_append] at hg
  cases hl : loop ij u {} with
  | error e =>
    obtain ⟨e, o⟩ := e
    have herr := herr e o hl
    simp only [Except.bind, stored]
    rcases hv with hv | ⟨w, hv⟩
    · subst hv
      simp only [List.append_nil] at *
      rw [bufspc_nopad u hu] at hspc
      omega
    · subst hv
      simp only [List.length_cons] at hg; omega
  | ok st =>
    obtain ⟨hp, hbits, hmod, hlen⟩ := hok st hl
    simp only [Except.bind]
    rcases hv with hv | ⟨w, hv⟩
    · subst hv
      simp only [List.append_nil] at *
      rw [bufspc_nopad u hu] at hspc
      rw [loop]
      obtain ⟨f1, f2⟩ := finish_len st hbits
      simp only
      cases hf : finish st with
      | ok o =>
        simp only [stored]
        have := f1 o hf
        rw [hp] at this
        unfold okBits at hbits
        omega
      | error e =>
        obtain ⟨e, o⟩ := e
        simp only [stored]
        rw [f2 e o hf]; omega
    · subst hv
      simp only [List.length_cons] at hg
      rcases loop_pads ij w st with ⟨d, h, hw⟩ | h
      · rw [h]
        obtain ⟨f1, f2⟩ := finish_len { st with pads := st.pads + w.length + 1, decoded := d } hbits
        simp only at f1 f2 ⊢
        cases hf : finish { st with pads := st.pads + w.length + 1, decoded := d } with
        | ok o =>
          simp only [stored]
          have := f1 o hf
          rw [hp] at this
          rcases this with ⟨h', _⟩ | ⟨h1, h2⟩ | ⟨h1, h2⟩
          · omega
          · have hw0 : w.length = 0 := by omega
            have : w = [] := List.length_eq_zero_iff.1 hw0
            subst this
            have := bufspc_onepad u hu
            omega
          · omega
        | error e =>
          obtain ⟨e, o⟩ := e
          simp only [stored]
          rw [f2 e o hf]; omega
      · rw [h]
        simp only [stored]
        omega

theorem isB64_lut (c : Nat) (hc : c ≠ 61) : isBase64Char c = true ↔ lut c ≠ .junk := by
  unfold isBase64Char lut
  simp only [Bool.or_eq_true, Bool.and_eq_true, decide_eq_true_eq, beq_iff_eq]
  repeat' split
  all_goals first | omega | (simp; omega)

/-- With junk ignored, dropping junk ahead of the padding does not change the loop's result. -/
theorem loop_filter (u : List Nat) (st : St) (hu : ∀ c ∈ u, c ≠ 61) :
    loop true (u.filter isBase64Char) st = loop true u st := by
  induction u generalizing st with
  | nil => rfl
  | cons c u ih =>
    have hc : c ≠ 61 := hu c (by simp)
    have ih' := fun st => ih st (fun x hx => hu x (by simp [hx]))
    by_cases hj : isBase64Char c = true
    · rw [List.filter_cons_of_pos hj]
      cases hl : lut c with
      | pad => exact absurd (lut_pad_iff.1 hl) hc
      | junk => exact absurd hl ((isB64_lut c hc).1 hj)
      | val v => rw [loop_value hl, loop_value hl]; split <;> rw [ih']
    · rw [List.filter_cons_of_neg hj, ih']
      have : lut c = .junk := by
        by_cases h : lut c = .junk
        · exact h
        · exact absurd ((isB64_lut c hc).2 h) hj
      rw [loop_junk this]; rfl

end WS.Base64
