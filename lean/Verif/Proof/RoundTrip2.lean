import Verif.Proof.RoundTrip
/-
Auxiliary lemmas for C57: addresses are read back.
-/
namespace WS.RoundTrip
open WS WS.Sax WS.Conf WS.Spec WS.Spec.Load WS.Spec.RoundTrip

variable {α : Type}

/-- A lower-case hexadecimal digit. -/
def hexCh (k : Nat) : Byte := (ascii "0123456789abcdef").getD k 0

theorem hexCh_hex {k : Nat} (h : k < 16) : Spec.Json.Hex (hexCh k) k := by
  by_cases h10 : k < 10
  · have e : hexCh k = BitVec.ofNat 8 (0x30 + k) := by
      rcases k with _ | _ | _ | _ | _ | _ | _ | _ | _ | _ | k <;> first | decide | omega
    rw [e]; exact .digit k h10
  · have e : hexCh k = BitVec.ofNat 8 (0x61 + (k - 10)) := by
      obtain ⟨j, rfl⟩ : ∃ j, k = 10 + j := ⟨k - 10, by omega⟩
      rcases j with _ | _ | _ | _ | _ | _ | j <;> first | decide | omega
    have := Spec.Json.Hex.lower (k - 10) (by omega)
    rw [e]
    have e2 : 10 + (k - 10) = k := by omega
    rwa [e2] at this

theorem hexCh_digit {k : Nat} (h : k < 16) : Spec.Conf.DigitOf (hexCh k) k := by
  by_cases h10 : k < 10
  · refine Or.inl ⟨h10, ?_⟩
    rcases k with _ | _ | _ | _ | _ | _ | _ | _ | _ | _ | k <;> first | decide | omega
  · refine Or.inr ⟨by omega, by omega, Or.inl ?_⟩
    obtain ⟨j, rfl⟩ : ∃ j, k = 10 + j := ⟨k - 10, by omega⟩
    rcases j with _ | _ | _ | _ | _ | _ | j <;> first | decide | omega

theorem hexCh_plain {k : Nat} (h : k < 16) : PlainByte (hexCh k) := by
  rcases k with _ | _ | _ | _ | _ | _ | _ | _ | _ | _ | _ | _ | _ | _ | _ | _ | k <;> first | decide | omega

theorem hexByte_eq (b : Byte) : hexByte b = [hexCh (b.toNat / 16), hexCh (b.toNat % 16)] := rfl

theorem hexByte_plain (b : Byte) : ∀ c ∈ hexByte b, PlainByte c := by
  have := b.isLt
  intro c hc
  rw [hexByte_eq] at hc
  simp only [List.mem_cons, List.not_mem_nil, or_false] at hc
  rcases hc with rfl | rfl
  · exact hexCh_plain (by omega)
  · exact hexCh_plain (by omega)

theorem hexByte_reads (b : Byte) : HexByte (hexByte b) b := by
  have hb := b.isLt
  have := HexByte.two (hexCh_hex (k := b.toNat / 16) (by omega)) (hexCh_hex (k := b.toNat % 16) (by omega))
  have e : BitVec.ofNat 8 (b.toNat / 16 * 16 + b.toNat % 16) = b := by
    apply BitVec.eq_of_toNat_eq
    rw [BitVec.toNat_ofNat]
    omega
  rwa [e] at this

theorem link_reads : ∀ (bs : List Byte), bs ≠ [] → HexBytes (joined (ascii ":") (bs.map hexByte)) bs ∧
    (∀ c ∈ joined (ascii ":") (bs.map hexByte), PlainByte c) ∧ (joined (ascii ":") (bs.map hexByte)).length ≤ 3 * bs.length
  | [], h => absurd rfl h
  | [b], _ => ⟨.last (hexByte_reads b), hexByte_plain b, by simp [joined, Spec.hexByte]⟩
  | b :: b' :: bs, _ => by
    obtain ⟨h1, h2, h3⟩ := link_reads (b' :: bs) (by simp)
    have e : ascii ":" = [Spec.Json.ch ':'] := by decide
    simp only [List.map_cons, joined] at h1 h2 h3 ⊢
    rw [e] at h1 h2 h3 ⊢
    refine ⟨?_, ?_, ?_⟩
    · have := HexBytes.more (hexByte_reads b) h1
      simpa [List.append_assoc] using this
    · intro c hc
      rcases List.mem_append.1 hc with hc | hc
      · rcases List.mem_append.1 hc with hc | hc
        · exact hexByte_plain b c hc
        · rw [List.mem_singleton.1 hc]; decide
      · exact h2 c hc
    · simp only [List.length_append, List.length_cons, List.length_nil] at h3 ⊢
      have : (hexByte b).length = 2 := rfl
      omega

/-- Hexadecimal digits of bytes, as a number. -/
theorem hex_positional : ∀ (bs : List Byte) {t : List Byte} {n : Nat}, Spec.Conf.Positional 16 t n →
    Spec.Conf.Positional 16 (t ++ bs.flatMap hexByte) (bs.foldl (fun n b => n * 256 + b.toNat) n)
  | [], t, n, h => by simpa using h
  | b :: bs, t, n, h => by
    have hb := b.isLt
    have h1 := Spec.Conf.Positional.snoc h (hexCh_digit (k := b.toNat / 16) (by omega)) (by omega)
    have h2 := Spec.Conf.Positional.snoc h1 (hexCh_digit (k := b.toNat % 16) (by omega)) (by omega)
    have h3 := hex_positional bs h2
    have e : (n * 16 + b.toNat / 16) * 16 + b.toNat % 16 = n * 256 + b.toNat := by omega
    rw [e] at h3
    simpa [hexByte_eq] using h3

theorem can_reads (E : Env α) (w x y z : Byte) (len : Nat) (masked : Bool) (hl : len ≤ 32) (q : List Byte) :
    Address E len masked AF_CAN (.str (ascii "0x" ++ [w, x, y, z].flatMap hexByte) q) [w, x, y, z] 32 AF_CAN := by
  have h0 := hex_positional [w, x, y, z] (Spec.Conf.Positional.nil (base := 16))
  have hw := w.isLt
  have hx := x.isLt
  have hy := y.isLt
  have hz := z.isLt
  generalize hn : [w, x, y, z].foldl (fun n b => n * 256 + b.toNat) 0 = n at h0
  simp only [List.foldl_cons, List.foldl_nil] at hn
  have e : ascii "0x" = [Spec.Json.ch '0', Spec.Json.ch 'x'] := by decide
  have hu : UInt 32 13 (.str (ascii "0x" ++ [w, x, y, z].flatMap hexByte) q) n := by
    refine ⟨_, .str _ _, by simp [e, Spec.hexByte], by omega, Or.inr ⟨n, ⟨[], [], Spec.Json.ch '0' :: Spec.Json.ch 'x' :: [w, x, y, z].flatMap hexByte, n, ?_, by simp, ?_, Or.inl ⟨rfl, rfl⟩⟩, by omega, by omega, by omega⟩⟩
    · rw [e]; rfl
    · exact .hex (Or.inl rfl) h0 (by simp [Spec.hexByte])
  have := Address.can (E := E) (len := len) (masked := masked) hu (by split <;> omega)
  have e1 : [BitVec.ofNat 8 (n / 2 ^ 24), BitVec.ofNat 8 (n / 2 ^ 16), BitVec.ofNat 8 (n / 2 ^ 8), BitVec.ofNat 8 n] = [w, x, y, z] := by
    refine List.cons_eq_cons.2 ⟨?_, List.cons_eq_cons.2 ⟨?_, List.cons_eq_cons.2 ⟨?_, List.cons_eq_cons.2 ⟨?_, rfl⟩⟩⟩⟩ <;>
      (apply BitVec.eq_of_toNat_eq; rw [BitVec.toNat_ofNat]; omega)
  rwa [e1] at this

/-- The number of address bits of a family. -/
def sizeOf' (fam : Nat) : Nat := if fam = 10 then 128 else if fam = 118 then 48 else 32

theorem padded_length {n : Nat} {a : List Byte} (h : a.length ≤ n) : (padded n a).length = n := by
  simp [padded]; omega

/-- The text of an address is a plain text from which the address is read back, padded to the size of the family. -/
theorem addr_reads {F : FmtEnv} {E : Env α} (hb : ReadsBack F E) {fam bits : Nat} (hok : AddrOk F fam bits) {a t : List Byte}
    (hlen : bitsToBytes bits ≤ a.length) (ht : AddrText F fam a bits t) (q : List Byte) :
    Plain t ∧ t.length ≤ 16384 ∧ ∀ len masked, (fam = 29 → len ≤ 32) →
      Address E len masked fam (.str t q) (padded (sizeOf' fam / 8) (a.take (bitsToBytes bits))) (sizeOf' fam) fam := by
  obtain ⟨hf, hok⟩ := hok
  have hB : bitsToBytes bits = (bits + 7) / 8 := by unfold bitsToBytes; rw [Nat.shiftRight_eq_div_pow]
  unfold AddrText at ht
  rw [hf] at ht
  simp only at ht
  rw [hB] at hlen ⊢
  rcases hok with ⟨rfl, h⟩ | ⟨rfl, h⟩ | ⟨rfl, h8, h⟩ | ⟨rfl, rfl⟩
  · have ht' : t = F.ntop4 (padded 4 (a.take ((bits + 7) / 8))) := by
      rcases ht with ⟨h', _⟩ | ⟨_, _, h'⟩ | ⟨h', _⟩ | ⟨h', _⟩ | ⟨h', _⟩ <;> first | exact h' | (exact absurd h' (by decide))
    have hl : (padded 4 (a.take ((bits + 7) / 8))).length = 4 := padded_length (by simp; omega)
    obtain ⟨h1, h2, h3⟩ := hb.ntop4 _ hl
    rw [← ht'] at h1 h2 h3
    exact ⟨h1, by omega, fun len masked _ => .inet h2 h3⟩
  · have ht' : t = F.ntop6 (padded 16 (a.take ((bits + 7) / 8))) := by
      rcases ht with ⟨h', _⟩ | ⟨h', _⟩ | ⟨_, _, h'⟩ | ⟨h', _⟩ | ⟨h', _⟩ <;> first | exact h' | (exact absurd h' (by decide))
    have hl : (padded 16 (a.take ((bits + 7) / 8))).length = 16 := padded_length (by simp; omega)
    obtain ⟨h1, h2, h3⟩ := hb.ntop6 _ hl
    rw [← ht'] at h1 h2 h3
    exact ⟨h1, by omega, fun len masked _ => .inet6 h2 h3⟩
  · have ht' : t = ascii "0x" ++ ((padded 4 (a.take (bits / 8))).take 4).flatMap hexByte := by
      rcases ht with ⟨h', _⟩ | ⟨h', _⟩ | ⟨h', _⟩ | ⟨h', _⟩ | ⟨_, h'⟩ <;> first | exact h' | (exact absurd h' (by decide))
    have e8 : (bits + 7) / 8 = bits / 8 := by omega
    rw [e8]
    have hl : (padded 4 (a.take (bits / 8))).length = 4 := padded_length (by simp; omega)
    rw [List.take_of_length_le (by omega)] at ht'
    have hs : sizeOf' 29 / 8 = 4 := by decide
    have hs' : sizeOf' 29 = 32 := by decide
    rw [hs, hs']
    match hp : padded 4 (a.take (bits / 8)), hl with
    | [w, x, y, z], _ =>
      rw [hp] at ht'
      subst ht'
      have e : ascii "0x" = [Spec.Json.ch '0', Spec.Json.ch 'x'] := by decide
      refine ⟨plain_bytes ?_, by simp [e, Spec.hexByte], fun len masked h => can_reads E w x y z len masked (h rfl) q⟩
      intro b hb
      rcases List.mem_append.1 hb with hb | hb
      · rw [e] at hb
        simp only [List.mem_cons, List.not_mem_nil, or_false] at hb
        rcases hb with rfl | rfl <;> decide
      · obtain ⟨c, _, hc⟩ := List.mem_flatMap.1 hb
        exact hexByte_plain c b hc
  · have ht' : t = joined (ascii ":") ((a.take (48 / 8)).map hexByte) := by
      rcases ht with ⟨_, h'⟩ | ⟨h', _⟩ | ⟨h', _⟩ | ⟨h', _⟩ | ⟨h', _⟩ <;> first | exact h' | (exact absurd h' (by decide))
    have hl : (a.take 6).length = 6 := by simp; omega
    have hne : a.take 6 ≠ [] := by intro h; rw [h] at hl; cases hl
    obtain ⟨h1, h2, h3⟩ := link_reads (a.take 6) hne
    have e : t = joined (ascii ":") ((a.take 6).map hexByte) := ht'
    rw [← e] at h1 h2 h3
    refine ⟨plain_bytes h2, by omega, fun len masked _ => ?_⟩
    have := Address.link (E := E) (len := len) (masked := masked) (after := q) (Or.inl (rfl : (118 : Nat) = AF_LINK48)) h1 (Or.inl hl)
    have e2 : padded (sizeOf' 118 / 8) (a.take ((48 + 7) / 8)) = a.take 6 := by
      have : sizeOf' 118 / 8 = 6 := by decide
      rw [this]
      show a.take 6 ++ List.replicate (6 - (a.take 6).length) 0 = a.take 6
      rw [hl]; simp
    rw [e2]
    rw [if_pos hl, hl] at this
    exact this

end WS.RoundTrip
