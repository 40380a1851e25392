import Verif.Proof.RoundTrip2
import Verif.Proof.RouteOps
/-
Auxiliary lemmas for C57: endpoints are read back.
-/
namespace WS.RoundTrip
open WS WS.Sax WS.Conf WS.Spec WS.Spec.Load WS.Spec.RoundTrip

variable {α : Type}

theorem setFlag_bit (b : Bool) (f : Flags) (k i : Nat) (hk : k < 32) :
    (setFlag b f (bit k)).getLsbD i = if i = k then b else f.getLsbD i := by
  unfold setFlag bit
  cases b
  · simp only [Bool.false_eq_true, if_false, BitVec.getLsbD_and, BitVec.getLsbD_not, BitVec.getLsbD_twoPow]
    by_cases h : i = k
    · subst h; simp [hk]
    · have : ¬ k = i := fun e => h e.symm
      simp only [h, this, decide_false, Bool.and_false, Bool.not_false, Bool.and_true, if_false]
      by_cases hi : i < 32
      · simp [hi]
      · simp [hi, BitVec.getLsbD_of_ge f i (by omega)]
  · simp only [if_true, BitVec.getLsbD_or, BitVec.getLsbD_twoPow]
    by_cases h : i = k
    · subst h; simp [hk]
    · have : ¬ k = i := fun e => h e.symm
      simp [h, this]

theorem setFlag_same {b : Bool} {f : Flags} {k : Nat} (hk : k < 32) (h : f.getLsbD k = b) : setFlag b f (bit k) = f := by
  apply BitVec.eq_of_getLsbD_eq
  intro i _
  rw [setFlag_bit b f k i hk]
  split
  · rename_i e; rw [e, h]
  · rfl

/-- The number of the flag bits of an endpoint. -/
def awBit : Side → Nat | .remote => 1 | .local => 4
def pwBit : Side → Nat | .remote => 5 | .local => 3
def iwBit : Side → Nat | .remote => 6 | .local => 7
def bmBit : Side → Nat | .remote => 12 | .local => 13

theorem awBit_lt (s : Side) : awBit s < 32 := by cases s <;> decide
theorem pwBit_lt (s : Side) : pwBit s < 32 := by cases s <;> decide
theorem iwBit_lt (s : Side) : iwBit s < 32 := by cases s <;> decide
theorem bmBit_lt (s : Side) : bmBit s < 32 := by cases s <;> decide
theorem aw_eq (s : Side) : s.addrWild = bit (awBit s) := by cases s <;> rfl
theorem pw_eq (s : Side) : s.portWild = bit (pwBit s) := by cases s <;> rfl
theorem iw_eq (s : Side) : s.ifaceWild = bit (iwBit s) := by cases s <;> rfl
theorem bm_eq (s : Side) : s.bitmask = bit (bmBit s) := by cases s <;> rfl

/-- The rule with new flags and a new endpoint. -/
def put (side : Side) (r : RouteUC) (fl : Flags) (sa : Sa) : RouteUC := { r with flags := fl }.setSa side sa

theorem put_sa (side : Side) (r : RouteUC) (fl : Flags) (sa : Sa) : (put side r fl sa).sa side = sa := by cases side <;> rfl
theorem put_flags (side : Side) (r : RouteUC) (fl : Flags) (sa : Sa) : (put side r fl sa).flags = fl := by cases side <;> rfl
theorem put_put (side : Side) (r : RouteUC) (fl fl' : Flags) (sa sa' : Sa) :
    { put side r fl sa with flags := fl' }.setSa side sa' = put side r fl' sa' := by cases side <;> rfl
theorem put_set (side : Side) (r : RouteUC) (fl : Flags) (sa sa' : Sa) :
    (put side r fl sa).setSa side sa' = put side r fl sa' := by cases side <;> rfl
theorem put_self (side : Side) (r : RouteUC) : put side r r.flags (r.sa side) = r := by cases side <;> rfl

/-! ### One member at a time -/

theorem members_snoc' {R : List Byte → J → RouteUC → RouteUC → Prop} {ms ns : List (List Byte × J)} {x y z : RouteUC}
    (h1 : Members R ms x y) (h2 : Members R ns y z) : Members R (ms ++ ns) x z := by
  induction h1 with
  | nil => exact h2
  | cons h3 h4 _ ih => exact .cons h3 h4 (ih h2)

theorem members_one {R : List Byte → J → RouteUC → RouteUC → Prop} {k : String} {v : J} {x y : RouteUC}
    (hk : (ascii k).length < 32) (hn : name (ascii k) = ascii k) (h : R (ascii k) v x y) : Members R [(ascii k, v)] x y :=
  .cons hk (by rw [hn]; exact h) (.nil _)

theorem step_port {E : Env α} {side : Side} {r : RouteUC} {fl : Flags} {sa : Sa} (hf : sa.family ≠ 0) (hw : fl.getLsbD (pwBit side) = false)
    {n : Nat} (hn : n < 65536) (a : List Byte) :
    Members (EndpointMember E side) [(ascii "port", .num (decimal n) a)] (put side r fl sa) (put side r fl { sa with port := n }) := by
  have := EndpointMember.port (E := E) (side := side) (r := put side r fl sa) (v := .num (decimal n) a) (n := n)
    (by rw [put_sa]; exact hf) (.number (uint_decimal (k := 5) (by omega) (by omega) (by omega) (by omega) (by omega) a))
  rw [put_sa, put_flags, put_put, pw_eq, setFlag_same (pwBit_lt side) hw] at this
  exact members_one (by decide) (by decide) this

theorem step_iface {E : Env α} {side : Side} {r : RouteUC} {fl : Flags} {sa : Sa} (hw : fl.getLsbD (iwBit side) = false)
    {n : Nat} (hn : n < 256) (a : List Byte) :
    Members (EndpointMember E side) [(ascii "interface", .num (decimal n) a)] (put side r fl sa) (put side r fl { sa with iface := n }) := by
  have := EndpointMember.interface (E := E) (side := side) (r := put side r fl sa) (v := .num (decimal n) a) (n := n)
    (uint_decimal (k := 3) (by omega) (by omega) (by omega) (by omega) (by omega) a)
  rw [put_sa, put_flags, put_put, iw_eq, setFlag_same (iwBit_lt side) hw] at this
  exact members_one (by decide) (by decide) this

theorem step_prefix {E : Env α} {side : Side} {r : RouteUC} {fl : Flags} {sa : Sa} (hf : sa.family ≠ 0) (hw : fl.getLsbD (bmBit side) = false)
    {n : Nat} (hn : n < 65536) (a : List Byte) :
    Members (EndpointMember E side) [(ascii "prefix-bits", .num (decimal n) a)] (put side r fl sa) (put side r fl { sa with addrLen := n }) := by
  have := EndpointMember.prefixBits (E := E) (side := side) (r := put side r fl sa) (v := .num (decimal n) a) (n := n)
    (by rw [put_sa]; exact hf) (by rw [put_flags, bm_eq, Flags.has_bit _ _ (bmBit_lt side)]; exact hw)
    (uint_decimal (k := 5) (by omega) (by omega) (by omega) (by omega) (by omega) a)
  rw [put_sa, put_set] at this
  exact members_one (by decide) (by decide) this

theorem step_address {E : Env α} {side : Side} {r : RouteUC} {fl : Flags} {sa : Sa} (hw : fl.getLsbD (awBit side) = false)
    (h0 : sa.addrLen = 0) {t q b : List Byte} {n : Nat} (hb : b.length ≤ sa.addr.length)
    (h : ∀ len masked, (sa.family = 29 → len ≤ 32) → Address E len masked sa.family (.str t q) b n sa.family) :
    Members (EndpointMember E side) [(ascii "address", .str t q)] (put side r fl sa)
      (put side r fl { sa with addr := b ++ sa.addr.drop b.length, addrLen := n }) := by
  have := EndpointMember.address (E := E) (side := side) (r := put side r fl sa) (v := .str t q) (b := b) (bits := n) (fam := sa.family)
    (addr := b ++ sa.addr.drop b.length)
    (by rw [put_sa, put_flags]; exact h _ _ (fun _ => by omega))
    (by rw [put_sa]
        exact ⟨[], sa.addr.take b.length, sa.addr.drop b.length, by simp, rfl, by simp; omega, rfl⟩)
  rw [put_sa, put_flags, put_put, aw_eq, setFlag_same (awBit_lt side) hw, if_pos h0] at this
  exact members_one (by decide) (by decide) this

theorem step_mask {E : Env α} {side : Side} {r : RouteUC} {fl : Flags} {sa : Sa} (hf : sa.family ≠ 0) {size : Nat}
    (hs : E.famMaxBits sa.family = .ok size) (h8 : size % 8 = 0) (h64 : size ≤ 64) (h0 : sa.addrLen = size)
    (h29 : sa.family = 29 → size ≤ 32) {t q b : List Byte} {n : Nat} (hb : b.length = size / 8) (hl : 16 ≤ sa.addr.length)
    (h : ∀ len masked, (sa.family = 29 → len ≤ 32) → Address E len masked sa.family (.str t q) b n sa.family) :
    Members (EndpointMember E side) [(ascii "bitmask", .str t q)] (put side r fl sa)
      (put side r (setFlag true fl (bit (bmBit side)))
        { sa with addr := sa.addr.take (size / 8) ++ b ++ sa.addr.drop (size / 8 + size / 8), addrLen := size * 2 }) := by
  have := EndpointMember.bitmask (E := E) (side := side) (r := put side r fl sa) (v := .str t q) (b := b) (bits := n) (fam := sa.family)
    (size := size) (addr0 := sa.addr) (addr := sa.addr.take (size / 8) ++ b ++ sa.addr.drop (size / 8 + size / 8))
    (by rw [put_sa]; exact hf) (by rw [put_sa]; exact hs) h8 h64
    (by rw [put_sa]; exact Or.inl ⟨Or.inr h0, rfl⟩)
    (by rw [put_sa]; exact h _ _ (fun h => by rw [h0]; exact h29 h))
    (by refine ⟨sa.addr.take (size / 8), (sa.addr.drop (size / 8)).take (size / 8), sa.addr.drop (size / 8 + size / 8), ?_, ?_, ?_, rfl⟩
        · rw [List.append_assoc, ← List.drop_drop, List.take_append_drop, List.take_append_drop]
        · simp; omega
        · simp; omega)
  rw [put_sa, put_flags, put_put, bm_eq] at this
  exact members_one (by decide) (by decide) this

/-! ### An endpoint -/

/-- The members of an endpoint object, with their trees. -/
def endEntries (r : Route) (e : Endpoint) (aw pw iw bm : Nat) (at_ : List Byte → Nat → List Byte) (q f : List Byte) : List Entry :=
  (if r.flags.getLsbD aw then []
   else if r.flags.getLsbD bm then
     [⟨"address", jString (at_ e.addr (e.bits / 2)), .str (at_ e.addr (e.bits / 2)) q⟩,
      ⟨"bitmask", jString (at_ (e.addr.drop ((e.bits / 2 + 7) / 8)) (e.bits / 2)), .str (at_ (e.addr.drop ((e.bits / 2 + 7) / 8)) (e.bits / 2)) q⟩]
   else [⟨"address", jString (at_ e.addr e.bits), .str (at_ e.addr e.bits) q⟩, ⟨"prefix-bits", decimal e.bits, .num (decimal e.bits) f⟩]) ++
  (if r.flags.getLsbD pw then [] else [⟨"port", decimal e.port, .num (decimal e.port) f⟩]) ++
  (if r.flags.getLsbD iw then [] else [⟨"interface", decimal e.iface, .num (decimal e.iface) f⟩])

theorem endEntries_text (r : Route) (e : Endpoint) (aw pw iw bm : Nat) (at_ : List Byte → Nat → List Byte) (q f : List Byte) :
    (endEntries r e aw pw iw bm at_ q f).map Entry.member = endpointMembers r e aw pw iw bm at_ := by
  unfold endEntries endpointMembers
  cases r.flags.getLsbD aw <;> cases r.flags.getLsbD bm <;> cases r.flags.getLsbD pw <;> cases r.flags.getLsbD iw <;> rfl

/-- The texts of an endpoint's addresses, as far as it has any. -/
def EndText (F : FmtEnv) (r : Route) (e : Endpoint) (aw bm : Nat) (at_ : List Byte → Nat → List Byte) : Prop :=
  r.flags.getLsbD aw = false →
    if r.flags.getLsbD bm then
      AddrText F r.family e.addr (e.bits / 2) (at_ e.addr (e.bits / 2)) ∧
      AddrText F r.family (e.addr.drop ((e.bits / 2 + 7) / 8)) (e.bits / 2) (at_ (e.addr.drop ((e.bits / 2 + 7) / 8)) (e.bits / 2))
    else AddrText F r.family e.addr e.bits (at_ e.addr e.bits)

theorem bytes_div (n : Nat) : bitsToBytes n = (n + 7) / 8 := by unfold bitsToBytes; rw [Nat.shiftRight_eq_div_pow]

/-- Sizes of a masked address. -/
theorem mask_sizes {F : FmtEnv} {E : Env α} {fam bits : Nat} (h : MaskOk F E fam bits) :
    fam ≠ 0 ∧ AddrOk F fam (bits / 2) ∧ bits / 2 = sizeOf' fam ∧ bits / 2 % 8 = 0 ∧ bits / 2 ≤ 64 ∧ (fam = 29 → bits / 2 ≤ 32) ∧
      bits / 2 * 2 = bits ∧ bitsToBytes (bits / 2) = bits / 2 / 8 ∧ bitsToBytes bits = bits / 2 / 8 + bits / 2 / 8 ∧ 8 ≤ bits / 2 ∧
      bits % 16 = 0 ∧ bits ≤ 128 := by
  obtain ⟨hf, h, hm⟩ := h
  rw [bytes_div, bytes_div]
  rcases h with ⟨rfl, rfl⟩ | ⟨rfl, rfl⟩ | ⟨rfl, rfl⟩
  · exact ⟨by decide, ⟨hf, Or.inl ⟨rfl, by decide⟩⟩, by decide⟩
  · exact ⟨by decide, ⟨hf, Or.inr (Or.inr (Or.inl ⟨rfl, by decide⟩))⟩, by decide⟩
  · exact ⟨by decide, ⟨hf, Or.inr (Or.inr (Or.inr ⟨rfl, by decide⟩))⟩, by decide⟩

theorem addr_sizes {F : FmtEnv} {fam bits : Nat} (h : AddrOk F fam bits) : fam ≠ 0 ∧ sizeOf' fam / 8 ≤ 16 ∧ bitsToBytes bits ≤ sizeOf' fam / 8 ∧ bits ≤ 128 := by
  obtain ⟨_, h⟩ := h
  rw [bytes_div]
  rcases h with ⟨rfl, h⟩ | ⟨rfl, h⟩ | ⟨rfl, _, h⟩ | ⟨rfl, rfl⟩
  · refine ⟨by decide, by decide, ?_, by omega⟩; have : sizeOf' 2 / 8 = 4 := by decide
    omega
  · refine ⟨by decide, by decide, ?_, by omega⟩; have : sizeOf' 10 / 8 = 16 := by decide
    omega
  · refine ⟨by decide, by decide, ?_, by omega⟩; have : sizeOf' 29 / 8 = 4 := by decide
    omega
  · exact ⟨by decide, by decide, by decide, by decide⟩

theorem padded_full {n : Nat} {a : List Byte} (h : a.length = n) : padded n a = a := by
  simp [padded, h]

/-- The members of an endpoint object are well-formed texts. -/
theorem end_good {F : FmtEnv} {E : Env α} (hb : ReadsBack F E) {r : Route} {e : Endpoint} {aw pw iw bm : Nat}
    {at_ : List Byte → Nat → List Byte} (hok : EndOk F E r e aw bm) (ht : EndText F r e aw bm at_) (q f : List Byte)
    (h1 : e.bits < 65536) (h2 : e.port < 65536) (h3 : e.iface < 256) (d : Nat) :
    ∀ x ∈ endEntries r e aw pw iw bm at_ q f, x.Good d := by
  obtain ⟨hl, hok⟩ := hok
  intro x hx
  unfold endEntries at hx
  rcases List.mem_append.1 hx with hx | hx
  · rcases List.mem_append.1 hx with hx | hx
    · cases ha : r.flags.getLsbD aw with
      | true => rw [ha] at hx; cases hx
      | false =>
        have hok := hok ha
        have ht := ht ha
        rw [ha] at hx
        cases hm : r.flags.getLsbD bm with
        | true =>
          rw [hm] at hx hok ht
          simp only [if_true, Bool.false_eq_true, if_false] at hok ht hx
          obtain ⟨_, ho, _, _, _, _, _, s7, s8, _⟩ := mask_sizes hok
          rw [s8] at hl
          obtain ⟨p1, p2, _⟩ := addr_reads hb ho (by omega) ht.1 q
          obtain ⟨p3, p4, _⟩ := addr_reads hb ho (by rw [← bytes_div]; simp; omega) ht.2 q
          simp only [List.mem_cons, List.not_mem_nil, or_false] at hx
          rcases hx with rfl | rfl
          · exact ⟨by show ∀ b ∈ ascii "address", PlainByte b; decide, by show (ascii "address").length ≤ 32; decide, tx_string p1 p2 q⟩
          · exact ⟨by show ∀ b ∈ ascii "bitmask", PlainByte b; decide, by show (ascii "bitmask").length ≤ 32; decide, tx_string p3 p4 q⟩
        | false =>
          rw [hm] at hx hok ht
          simp only [Bool.false_eq_true, if_false] at hok ht hx
          obtain ⟨p1, p2, _⟩ := addr_reads hb hok (by omega) ht q
          simp only [List.mem_cons, List.not_mem_nil, or_false] at hx
          rcases hx with rfl | rfl
          · exact ⟨by show ∀ b ∈ ascii "address", PlainByte b; decide, by show (ascii "address").length ≤ 32; decide, tx_string p1 p2 q⟩
          · exact ⟨by show ∀ b ∈ ascii "prefix-bits", PlainByte b; decide, by show (ascii "prefix-bits").length ≤ 32; decide, tx_decimal h1 f⟩
    · cases hp : r.flags.getLsbD pw with
      | true => rw [hp] at hx; cases hx
      | false =>
        rw [hp] at hx
        rw [List.mem_singleton.1 hx]
        exact ⟨by show ∀ b ∈ ascii "port", PlainByte b; decide, by show (ascii "port").length ≤ 32; decide, tx_decimal h2 f⟩
  · cases hp : r.flags.getLsbD iw with
    | true => rw [hp] at hx; cases hx
    | false =>
      rw [hp] at hx
      rw [List.mem_singleton.1 hx]
      exact ⟨by show ∀ b ∈ ascii "interface", PlainByte b; decide, by show (ascii "interface").length ≤ 32; decide, tx_decimal (by omega) f⟩

/-- What the loader has of an endpoint after reading its object. -/
def Holds (r : Route) (e : Endpoint) (aw pw iw : Nat) (sa0 sa : Sa) : Prop :=
  sa.family = sa0.family ∧ sa.proto = sa0.proto ∧ sa.port = (if r.flags.getLsbD pw then 0 else e.port) ∧
  sa.iface = (if r.flags.getLsbD iw then 0 else e.iface) ∧ sa.addrLen = (if r.flags.getLsbD aw then 0 else e.bits) ∧
  (r.flags.getLsbD aw = false → sa.addr.take (bitsToBytes e.bits) = e.addr)

/-- The object of an endpoint is read back. -/
theorem end_reads {F : FmtEnv} {E : Env α} (hb : ReadsBack F E) {r : Route} {e : Endpoint} {side : Side}
    {at_ : List Byte → Nat → List Byte} (hok : EndOk F E r e (awBit side) (bmBit side)) (ht : EndText F r e (awBit side) (bmBit side) at_)
    (q f : List Byte) (h1 : e.bits < 65536) (h2 : e.port < 65536) (h3 : e.iface < 256)
    (r0 : RouteUC) (sa0 : Sa) (hsa : r0.sa side = sa0) (s1 : sa0.port = 0) (s2 : sa0.addrLen = 0) (s3 : sa0.iface = 0) (s4 : sa0.addr.length = 16)
    (hfam : r.flags.getLsbD (awBit side) = false → sa0.family = r.family)
    (hfam0 : r.flags.getLsbD (pwBit side) = false → sa0.family ≠ 0)
    (f1 : r0.flags.getLsbD (awBit side) = r.flags.getLsbD (awBit side)) (f2 : r0.flags.getLsbD (pwBit side) = r.flags.getLsbD (pwBit side))
    (f3 : r0.flags.getLsbD (iwBit side) = r.flags.getLsbD (iwBit side)) (f4 : r0.flags.getLsbD (bmBit side) = false) :
    ∃ sa, Holds r e (awBit side) (pwBit side) (iwBit side) sa0 sa ∧
      Members (EndpointMember E side) ((endEntries r e (awBit side) (pwBit side) (iwBit side) (bmBit side) at_ q f).map Entry.pair) r0
        (put side r0 (setFlag (!r.flags.getLsbD (awBit side) && r.flags.getLsbD (bmBit side)) r0.flags (bit (bmBit side))) sa) := by
  obtain ⟨hl, hok⟩ := hok
  -- the address
  have ha : ∃ sa, sa.family = sa0.family ∧ sa.proto = sa0.proto ∧ sa.port = 0 ∧ sa.iface = 0 ∧
      sa.addrLen = (if r.flags.getLsbD (awBit side) then 0 else e.bits) ∧
      (r.flags.getLsbD (awBit side) = false → sa.addr.take (bitsToBytes e.bits) = e.addr) ∧
      Members (EndpointMember E side) ((if r.flags.getLsbD (awBit side) then ([] : List Entry)
        else if r.flags.getLsbD (bmBit side) then
          [⟨"address", jString (at_ e.addr (e.bits / 2)), .str (at_ e.addr (e.bits / 2)) q⟩,
            ⟨"bitmask", jString (at_ (e.addr.drop ((e.bits / 2 + 7) / 8)) (e.bits / 2)), .str (at_ (e.addr.drop ((e.bits / 2 + 7) / 8)) (e.bits / 2)) q⟩]
        else [⟨"address", jString (at_ e.addr e.bits), .str (at_ e.addr e.bits) q⟩, ⟨"prefix-bits", decimal e.bits, .num (decimal e.bits) f⟩]).map Entry.pair)
        r0 (put side r0 (setFlag (!r.flags.getLsbD (awBit side) && r.flags.getLsbD (bmBit side)) r0.flags (bit (bmBit side))) sa) := by
    cases ha : r.flags.getLsbD (awBit side) with
    | true =>
      refine ⟨sa0, rfl, rfl, s1, s3, by simp [s2], by simp, ?_⟩
      simp only [Bool.not_true, Bool.false_and, if_true, List.map_nil]
      rw [setFlag_same (bmBit_lt side) f4, ← hsa, put_self]
      exact .nil _
    | false =>
      have hok := hok ha
      have ht := ht ha
      have hfam := hfam ha
      rw [ha] at f1
      cases hm : r.flags.getLsbD (bmBit side) with
      | true =>
        rw [hm] at hok ht
        simp only [if_true, Bool.false_eq_true, if_false, Bool.not_false, Bool.true_and, List.map_cons, List.map_nil] at hok ht ⊢
        obtain ⟨m1, m2, m3, m4, m5, m6, m7, m8, m9, m10, m11, m12⟩ := mask_sizes hok
        rw [m9] at hl
        obtain ⟨_, _, p1⟩ := addr_reads hb m2 (by omega) ht.1 q
        obtain ⟨_, _, p2⟩ := addr_reads hb m2 (by rw [← bytes_div]; simp; omega) ht.2 q
        rw [← m3] at p1 p2
        rw [← bytes_div, m8] at p2
        rw [m8] at p1
        rw [padded_full (by simp; omega)] at p1 p2
        rw [← hfam] at p1 p2
        have hA : (e.addr.take (e.bits / 2 / 8)).length = e.bits / 2 / 8 := by simp; omega
        have hB : (e.addr.drop (e.bits / 2 / 8)).take (e.bits / 2 / 8) = e.addr.drop (e.bits / 2 / 8) := by
          apply List.take_of_length_le; simp; omega
        rw [hB] at p2
        have g1 := step_address (side := side) (r := r0) (fl := r0.flags) (sa := sa0) f1 s2 (by rw [hA]; omega) p1
        rw [hA] at g1
        have g2 := step_mask (side := side) (r := r0) (fl := r0.flags) (size := e.bits / 2)
          (sa := { sa0 with addr := e.addr.take (e.bits / 2 / 8) ++ sa0.addr.drop (e.bits / 2 / 8), addrLen := e.bits / 2 })
          (by show sa0.family ≠ 0; rw [hfam]; exact m1) (by show E.famMaxBits sa0.family = _; rw [hfam]; exact hok.2.2) m4 m5 rfl
          (fun h => m6 (by rw [← hfam]; exact h)) (by simp; omega) (by simp; omega) p2
        have h12 := members_snoc' g1 g2
        refine ⟨{ sa0 with
          addr := (e.addr.take (e.bits / 2 / 8) ++ sa0.addr.drop (e.bits / 2 / 8)).take (e.bits / 2 / 8) ++ e.addr.drop (e.bits / 2 / 8) ++
            (e.addr.take (e.bits / 2 / 8) ++ sa0.addr.drop (e.bits / 2 / 8)).drop (e.bits / 2 / 8 + e.bits / 2 / 8)
          addrLen := e.bits / 2 * 2 }, ?_, ?_, ?_, ?_, ?_, ?_, ?_⟩
        rotate_right
        · rw [← hsa, put_self] at h12
          rw [← hsa, ← bytes_div, m8]
          exact h12
        · rfl
        · rfl
        · exact s1
        · exact s3
        · show e.bits / 2 * 2 = e.bits; exact m7
        · intro _
          rw [m9]
          show List.take _ (List.take _ _ ++ _ ++ _) = _
          rw [List.take_append_of_le_length (by simp; omega), List.take_left' hA, List.take_of_length_le (by simp; omega), List.take_append_drop]
      | false =>
        rw [hm] at hok ht
        simp only [Bool.false_eq_true, if_false, Bool.not_false, Bool.true_and, List.map_cons, List.map_nil] at hok ht ⊢
        obtain ⟨m1, m2, m3, m4⟩ := addr_sizes hok
        obtain ⟨_, _, p1⟩ := addr_reads hb hok (by omega) ht q
        rw [← hfam] at p1 m1 m2 m3
        rw [← hl, List.take_of_length_le (Nat.le_refl _)] at p1
        rw [← hl] at m3
        have hP := padded_length m3
        have g1 := step_address (side := side) (r := r0) (fl := r0.flags) (sa := sa0) f1 s2 (by rw [hP]; omega) p1
        have g2 := step_prefix (E := E) (side := side) (r := r0) (fl := r0.flags)
          (sa := { sa0 with addr := padded (sizeOf' sa0.family / 8) e.addr ++ sa0.addr.drop (padded (sizeOf' sa0.family / 8) e.addr).length, addrLen := sizeOf' sa0.family })
          m1 f4 h1 f
        have h12 := members_snoc' g1 g2
        refine ⟨{ sa0 with
          addr := padded (sizeOf' sa0.family / 8) e.addr ++ sa0.addr.drop (padded (sizeOf' sa0.family / 8) e.addr).length
          addrLen := e.bits }, ?_, ?_, ?_, ?_, ?_, ?_, ?_⟩
        rotate_right
        · rw [← hsa, put_self] at h12
          rw [setFlag_same (bmBit_lt side) f4, ← hsa]
          exact h12
        · rfl
        · rfl
        · exact s1
        · exact s3
        · rfl
        · intro _
          rw [← hl]
          show List.take _ (padded _ _ ++ _) = _
          unfold padded
          rw [List.append_assoc, List.take_left' rfl]
  obtain ⟨sa, a1, a2, a3, a4, a5, a6, a7⟩ := ha
  have b1 : ∃ sa', sa' = { sa with port := if r.flags.getLsbD (pwBit side) then 0 else e.port } ∧
      ∀ fl, fl.getLsbD (pwBit side) = r0.flags.getLsbD (pwBit side) →
      Members (EndpointMember E side) ((if r.flags.getLsbD (pwBit side) then ([] : List Entry) else
        [⟨"port", decimal e.port, .num (decimal e.port) f⟩]).map Entry.pair) (put side r0 fl sa) (put side r0 fl sa') := by
    refine ⟨_, rfl, fun fl hfl => ?_⟩
    cases hp : r.flags.getLsbD (pwBit side) with
    | true =>
      simp only [if_true, List.map_nil]
      have : { sa with port := 0 } = sa := by cases sa; simp only at a3; rw [a3]
      rw [this]; exact .nil _
    | false =>
      simp only [Bool.false_eq_true, if_false]
      exact step_port (by rw [a1]; exact hfam0 hp) (by rw [hfl, f2, hp]) h2 f
  obtain ⟨sa', rfl, b2⟩ := b1
  have c2 : ∀ fl, fl.getLsbD (iwBit side) = r0.flags.getLsbD (iwBit side) →
      Members (EndpointMember E side) ((if r.flags.getLsbD (iwBit side) then ([] : List Entry) else
        [⟨"interface", decimal e.iface, .num (decimal e.iface) f⟩]).map Entry.pair)
        (put side r0 fl { sa with port := if r.flags.getLsbD (pwBit side) then 0 else e.port })
        (put side r0 fl { sa with port := if r.flags.getLsbD (pwBit side) then 0 else e.port, iface := if r.flags.getLsbD (iwBit side) then 0 else e.iface }) := by
    intro fl hfl
    cases hp : r.flags.getLsbD (iwBit side) with
    | true =>
      simp only [if_true, List.map_nil]
      have : { sa with port := if r.flags.getLsbD (pwBit side) = true then 0 else e.port, iface := 0 } =
          { sa with port := if r.flags.getLsbD (pwBit side) then 0 else e.port } := by cases sa; simp only at a4; rw [a4]
      rw [this]; exact .nil _
    | false =>
      simp only [Bool.false_eq_true, if_false]
      exact step_iface (sa := { sa with port := if r.flags.getLsbD (pwBit side) then 0 else e.port }) (by rw [hfl, f3, hp]) h3 f
  refine ⟨{ sa with port := if r.flags.getLsbD (pwBit side) then 0 else e.port, iface := if r.flags.getLsbD (iwBit side) then 0 else e.iface },
    ⟨a1, a2, rfl, rfl, a5, a6⟩, ?_⟩
  unfold endEntries
  rw [List.map_append, List.map_append]
  refine members_snoc' (members_snoc' a7 (b2 _ ?_)) (c2 _ ?_)
  · rw [setFlag_bit _ _ _ _ (bmBit_lt side), if_neg (by cases side <;> decide)]
  · rw [setFlag_bit _ _ _ _ (bmBit_lt side), if_neg (by cases side <;> decide)]

end WS.RoundTrip
