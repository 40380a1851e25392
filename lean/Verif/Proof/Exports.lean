import Verif.Model.Exports
import Verif.Proof.RouteHist3
/-
Rule objects in memory: the stores of `fillData` and what the accessors then read.
-/
namespace WS
open Spec

theorem writeAt_get {d : List Byte} {p : Nat} {b : List Byte} (h : p + b.length ≤ d.length) (i : Nat) :
    (writeAt d p b)[i]? = if p ≤ i ∧ i < p + b.length then b[i - p]? else d[i]? := by
  unfold writeAt
  rw [List.append_assoc, List.getElem?_append, List.getElem?_append, List.length_take, List.getElem?_take, List.getElem?_drop]
  by_cases h1 : i < p
  · have : i < min p d.length := by omega
    rw [if_pos this, if_pos h1, if_neg (by omega)]
  · rw [if_neg (by omega)]
    have e : min p d.length = p := by omega
    rw [e]
    by_cases h2 : i < p + b.length
    · rw [if_pos (by omega), if_pos (by omega)]
    · rw [if_neg (by omega), if_neg (by omega)]
      congr 1; omega

theorem writeAt_length {d : List Byte} {p : Nat} {b : List Byte} (h : p + b.length ≤ d.length) : (writeAt d p b).length = d.length := by
  unfold writeAt
  simp only [List.length_append, List.length_take, List.length_drop]
  omega

/-- Bytes `p` to `p + n`. -/
def slice (d : List Byte) (p n : Nat) : List Byte := (d.drop p).take n

theorem slice_get (d : List Byte) (p n i : Nat) : (slice d p n)[i]? = if i < n then d[p + i]? else none := by
  unfold slice
  rw [List.getElem?_take, List.getElem?_drop]

theorem slice_write_same {d : List Byte} {p : Nat} {b : List Byte} (h : p + b.length ≤ d.length) : slice (writeAt d p b) p b.length = b := by
  apply List.ext_getElem?
  intro i
  rw [slice_get, writeAt_get h]
  by_cases hi : i < b.length
  · rw [if_pos hi, if_pos (by omega)]
    congr 1; omega
  · rw [if_neg hi]; exact (List.getElem?_eq_none (by omega)).symm

theorem slice_write_other {d : List Byte} {p q n : Nat} {b : List Byte} (h : p + b.length ≤ d.length)
    (ho : q + n ≤ p ∨ p + b.length ≤ q) : slice (writeAt d p b) q n = slice d q n := by
  apply List.ext_getElem?
  intro i
  rw [slice_get, slice_get, writeAt_get h]
  by_cases hi : i < n
  · rw [if_pos hi, if_pos hi, if_neg (by omega)]
  · rw [if_neg hi, if_neg hi]

theorem slice_length {d : List Byte} {p n : Nat} (h : p + n ≤ d.length) : (slice d p n).length = n := by
  unfold slice; simp only [List.length_take, List.length_drop]; omega

theorem maskAddr_length {a : List Byte} {n : Nat} : (maskAddr a n).length = min (a.take n).length (a.drop n).length + (a.drop n).length := by
  unfold maskAddr
  rw [List.length_append, List.length_zipWith]

theorem maskAddr_length' {a : List Byte} {n : Nat} (h : a.length = 2 * n) : (maskAddr a n).length = a.length := by
  rw [maskAddr_length, List.length_take, List.length_drop]; omega

theorem padAddr_length' (a : List Byte) (bits : Nat) : (padAddr a bits).length = a.length := by
  unfold padAddr
  split
  · rfl
  · exact List.length_set ..

/-- Normalised bytes of an address. -/
def normBytes (a : List Byte) (bits : Nat) (m : Bool) : List Byte :=
  if m then maskAddr a (bitsToBytes bits / 2) else padAddr a bits

theorem bytes_even {bits : Nat} (h : bits % 16 = 0) : bitsToBytes bits = 2 * (bitsToBytes bits / 2) := by
  unfold bitsToBytes
  rw [Nat.shiftRight_eq_div_pow]
  omega

theorem normBytes_length {a : List Byte} {bits : Nat} {m : Bool} (ha : a.length = bitsToBytes bits) (hm : m = true → bits % 16 = 0) :
    (normBytes a bits m).length = a.length := by
  unfold normBytes
  cases m with
  | true => exact maskAddr_length' (by rw [ha]; exact bytes_even (hm rfl))
  | false => exact padAddr_length' a bits

theorem initEndpoint_eq (e : Endpoint) (m : Bool) : initEndpoint e m = { e with addr := normBytes e.addr e.bits m } := rfl

theorem normaliseAt_spec {d : List Byte} {p bits : Nat} {m : Bool} (h : p + bitsToBytes bits ≤ d.length) (hm : m = true → bits % 16 = 0) :
    (normaliseAt d p bits m).length = d.length ∧
    slice (normaliseAt d p bits m) p (bitsToBytes bits) = normBytes (slice d p (bitsToBytes bits)) bits m ∧
    ∀ q n, q + n ≤ p ∨ p + bitsToBytes bits ≤ q → slice (normaliseAt d p bits m) q n = slice d q n := by
  have hl : (slice d p (bitsToBytes bits)).length = bitsToBytes bits := slice_length h
  have hn : (normBytes (slice d p (bitsToBytes bits)) bits m).length = bitsToBytes bits := (normBytes_length hl hm).trans hl
  have e : normaliseAt d p bits m = writeAt d p (normBytes (slice d p (bitsToBytes bits)) bits m) := rfl
  rw [e]
  have hw : p + (normBytes (slice d p (bitsToBytes bits)) bits m).length ≤ d.length := by rw [hn]; exact h
  refine ⟨writeAt_length hw, ?_, fun q n ho => slice_write_other hw (by rw [hn]; exact ho)⟩
  have := slice_write_same hw
  rwa [hn] at this

theorem privArea_length {x : RouteExports} {off : Nat} (hs : x.privSize ≤ off) (hp : ∀ p, x.priv = some p → x.privSize ≤ p.length) :
    (privArea x off).length = off := by
  unfold privArea
  cases h : x.priv with
  | none => simp
  | some p =>
    have := hp p h
    simp only [List.length_append, List.length_take, List.length_replicate]
    omega

theorem slice_nil (d : List Byte) (p : Nat) : slice d p 0 = [] := by unfold slice; rw [List.take_zero]

/-- What the stores leave: private data, remote address, local address, each in its place. -/
theorem fillData_spec {x : RouteExports} {off : Nat} {mem : List Byte}
    (hm : off + bitsToBytes x.remote.bits + bitsToBytes x.loc.bits ≤ mem.length) (hs : x.privSize ≤ off)
    (hp : ∀ p, x.priv = some p → x.privSize ≤ p.length) (hr : x.remote.WF) (hl : x.loc.WF)
    (hrm : x.flags.has RF.REMOTE_ADDR_BITMASK = true → x.remote.bits % 16 = 0)
    (hlm : x.flags.has RF.LOCAL_ADDR_BITMASK = true → x.loc.bits % 16 = 0) :
    (fillData x off mem).length = mem.length ∧
    slice (fillData x off mem) 0 off = privArea x off ∧
    slice (fillData x off mem) off (bitsToBytes x.remote.bits) = normBytes x.remote.addr x.remote.bits (x.flags.has RF.REMOTE_ADDR_BITMASK) ∧
    slice (fillData x off mem) (off + bitsToBytes x.remote.bits) (bitsToBytes x.loc.bits) =
      normBytes x.loc.addr x.loc.bits (x.flags.has RF.LOCAL_ADDR_BITMASK) := by
  have hpl := privArea_length hs hp
  unfold fillData
  simp only []
  generalize hd1 : (if off > 0 then writeAt mem 0 (privArea x off) else mem) = d1
  have a1 : d1.length = mem.length ∧ slice d1 0 off = privArea x off := by
    subst hd1
    split
    · have hw : 0 + (privArea x off).length ≤ mem.length := by omega
      refine ⟨writeAt_length hw, ?_⟩
      have := slice_write_same hw
      rwa [hpl] at this
    · have : off = 0 := by omega
      subst this
      exact ⟨rfl, by rw [slice_nil]; exact (List.length_eq_zero_iff.1 hpl).symm⟩
  generalize hd2 : (if x.remote.bits > 0 then writeAt d1 off x.remote.addr else d1) = d2
  have zero : ∀ e : Endpoint, e.WF → ¬ e.bits > 0 → e.addr = [] ∧ bitsToBytes e.bits = 0 := by
    intro e he h0
    have : e.bits = 0 := by omega
    unfold Endpoint.WF at he
    rw [this] at he ⊢
    exact ⟨List.length_eq_zero_iff.1 he, rfl⟩
  have a2 : d2.length = mem.length ∧ slice d2 0 off = privArea x off ∧ slice d2 off (bitsToBytes x.remote.bits) = x.remote.addr := by
    subst hd2
    by_cases h0 : x.remote.bits > 0
    · rw [if_pos h0]
      have hw : off + x.remote.addr.length ≤ d1.length := by rw [hr, a1.1]; omega
      refine ⟨(writeAt_length hw).trans a1.1, ?_, ?_⟩
      · rw [slice_write_other hw (by omega)]; exact a1.2
      · have := slice_write_same hw
        rwa [hr] at this
    · rw [if_neg h0]
      obtain ⟨e1, e2⟩ := zero _ hr h0
      refine ⟨a1.1, a1.2, ?_⟩
      rw [e1, e2]; exact slice_nil _ _
  generalize hd3 : (if x.loc.bits > 0 then writeAt d2 (off + bitsToBytes x.remote.bits) x.loc.addr else d2) = d3
  have a3 : d3.length = mem.length ∧ slice d3 0 off = privArea x off ∧ slice d3 off (bitsToBytes x.remote.bits) = x.remote.addr ∧
      slice d3 (off + bitsToBytes x.remote.bits) (bitsToBytes x.loc.bits) = x.loc.addr := by
    subst hd3
    by_cases h0 : x.loc.bits > 0
    · rw [if_pos h0]
      have hw : off + bitsToBytes x.remote.bits + x.loc.addr.length ≤ d2.length := by rw [hl, a2.1]; omega
      refine ⟨(writeAt_length hw).trans a2.1, ?_, ?_, ?_⟩
      · rw [slice_write_other hw (by omega)]; exact a2.2.1
      · rw [slice_write_other hw (by omega)]; exact a2.2.2
      · have := slice_write_same hw
        rwa [hl] at this
    · rw [if_neg h0]
      obtain ⟨e1, e2⟩ := zero _ hl h0
      refine ⟨a2.1, a2.2.1, a2.2.2, ?_⟩
      rw [e1, e2]; exact slice_nil _ _
  obtain ⟨n1, n2, n3⟩ := normaliseAt_spec (d := d3) (p := off) (bits := x.remote.bits) (m := x.flags.has RF.REMOTE_ADDR_BITMASK)
    (by rw [a3.1]; omega) hrm
  generalize normaliseAt d3 off x.remote.bits (x.flags.has RF.REMOTE_ADDR_BITMASK) = d4 at *
  obtain ⟨m1, m2, m3⟩ := normaliseAt_spec (d := d4) (p := off + bitsToBytes x.remote.bits) (bits := x.loc.bits) (m := x.flags.has RF.LOCAL_ADDR_BITMASK)
    (by rw [n1, a3.1]; omega) hlm
  refine ⟨by rw [m1, n1, a3.1], ?_, ?_, ?_⟩
  · rw [m3 0 off (by omega), n3 0 off (by omega)]; exact a3.2.1
  · rw [m3 off _ (by omega), n2, a3.2.2.1]
  · rw [m2, n3 _ _ (by omega), a3.2.2.2]

end WS
