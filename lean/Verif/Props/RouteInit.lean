import Verif.Proof.RouteHist3
/-
Property C13: creation of a rule validates wildcards and widths, and normalises the fields.
-/
namespace WS.Props
open WS Spec

theorem has_or (f a b : Flags) : f.has (a ||| b) = (f.has a || f.has b) := by
  unfold Flags.has
  rw [BitVec.and_or_distrib_left]
  by_cases h1 : f &&& a = 0#32 <;> by_cases h2 : f &&& b = 0#32
  · simp [h1, h2]
  · simp [h1, h2]
  · simp [h1, h2]
  · have h3 : (f &&& a ||| f &&& b) ≠ 0#32 := by
      intro hc
      rw [BitVec.or_eq_zero_iff] at hc
      exact h1 hc.1
    rw [bne_iff_ne.2 h3, bne_iff_ne.2 h1]; rfl

/-- What the arguments of a rule creation must satisfy: at least one direction (bits 10, 11), masked
addresses (bits 12, 13) of whole bytes for address and mask, consistent wildcards, and no more than
65535 bytes of addresses. -/
structure CreateOK (remote loc : SockAddr) (flags : Flags) : Prop where
  size : (remote.ep.bits + 7) / 8 + (loc.ep.bits + 7) / 8 ≤ 65535
  direction : flags.getLsbD 10 = true ∨ flags.getLsbD 11 = true
  remoteMask : flags.getLsbD 12 = true → remote.ep.bits % 16 = 0
  localMask : flags.getLsbD 13 = true → loc.ep.bits % 16 = 0
  sensical : Sensical flags

theorem bitsToBytes_eq (n : Nat) : bitsToBytes n = (n + 7) / 8 := by
  unfold bitsToBytes; rw [Nat.shiftRight_eq_div_pow]

theorem has_direction (f : Flags) : f.has (RF.DIRECTION_IN ||| RF.DIRECTION_OUT) = (f.getLsbD 10 || f.getLsbD 11) := by
  rw [has_or]; unfold RF.DIRECTION_IN RF.DIRECTION_OUT
  rw [Flags.has_bit _ _ (by decide), Flags.has_bit _ _ (by decide)]

theorem has_rmask (f : Flags) : f.has RF.REMOTE_ADDR_BITMASK = f.getLsbD 12 := Flags.has_bit _ _ (by decide)
theorem has_lmask (f : Flags) : f.has RF.LOCAL_ADDR_BITMASK = f.getLsbD 13 := Flags.has_bit _ _ (by decide)

theorem routeInit_cases (ev : Option Event) (remote loc : SockAddr) (flags : Flags) :
    (CreateOK remote loc flags ∧ routeInit ev remote loc flags = .ok
      { event := ev, flags := flags, family := remote.family, proto := remote.proto,
        remote := initEndpoint remote.ep (flags.getLsbD 12), loc := initEndpoint loc.ep (flags.getLsbD 13) }) ∨
    (¬ CreateOK remote loc flags ∧ (remote.ep.bits + 7) / 8 + (loc.ep.bits + 7) / 8 ≤ 65535 ∧
      routeInit ev remote loc flags = .error .invalidArg) ∨
    (¬ CreateOK remote loc flags ∧ ¬ (remote.ep.bits + 7) / 8 + (loc.ep.bits + 7) / 8 ≤ 65535 ∧
      routeInit ev remote loc flags = .error .numericArgTooBig) := by
  unfold routeInit
  rw [has_direction, has_rmask, has_lmask, bitsToBytes_eq, bitsToBytes_eq]
  by_cases h1 : (remote.ep.bits + 7) / 8 + (loc.ep.bits + 7) / 8 > 65535
  · rw [if_pos h1]
    exact Or.inr (Or.inr ⟨fun h => by have := h.size; omega, by omega, rfl⟩)
  rw [if_neg h1]
  have hs : (remote.ep.bits + 7) / 8 + (loc.ep.bits + 7) / 8 ≤ 65535 := by omega
  by_cases h2 : flags.getLsbD 10 = true ∨ flags.getLsbD 11 = true
  · have e2 : ¬ (!(flags.getLsbD 10 || flags.getLsbD 11)) = true := by
      rcases h2 with h | h
      · rw [h]; simp
      · rw [h]; simp
    rw [if_neg e2]
    by_cases h3 : flags.getLsbD 12 = true ∧ remote.ep.bits % 16 ≠ 0
    · rw [if_pos h3]
      exact Or.inr (Or.inl ⟨fun h => h3.2 (h.remoteMask h3.1), hs, rfl⟩)
    rw [if_neg h3]
    by_cases h4 : flags.getLsbD 13 = true ∧ loc.ep.bits % 16 ≠ 0
    · rw [if_pos h4]
      exact Or.inr (Or.inl ⟨fun h => h4.2 (h.localMask h4.1), hs, rfl⟩)
    rw [if_neg h4]
    by_cases h5 : flagsSensical flags = true
    · rw [h5]
      simp only [Bool.not_true, Bool.false_eq_true, if_false]
      exact Or.inl ⟨⟨hs, h2, fun h => Classical.byContradiction (fun hc => h3 ⟨h, hc⟩),
        fun h => Classical.byContradiction (fun hc => h4 ⟨h, hc⟩), (flagsSensical_iff _).1 h5⟩, trivial⟩
    · have : flagsSensical flags = false := by simpa using h5
      rw [this]
      simp only [Bool.not_false, if_true]
      exact Or.inr (Or.inl ⟨fun h => h5 ((flagsSensical_iff _).2 h.sensical), hs, trivial⟩)
  · have e2 : (!(flags.getLsbD 10 || flags.getLsbD 11)) = true := by
      have h10 : flags.getLsbD 10 = false := by cases h : flags.getLsbD 10 <;> simp_all
      have h11 : flags.getLsbD 11 = false := by cases h : flags.getLsbD 11 <;> simp_all
      rw [h10, h11]; rfl
    rw [if_pos e2]
    exact Or.inr (Or.inl ⟨fun h => h2 h.direction, hs, rfl⟩)

/-- C13: a rule is created exactly when both endpoints have the same family and protocol and the
arguments pass the checks. -/
theorem C13_create_iff (ev : Option Event) (remote loc : SockAddr) (flags : Flags) :
    (∃ r, routeNewForInsert ev remote loc flags = .ok r) ↔
      remote.family = loc.family ∧ remote.proto = loc.proto ∧ CreateOK remote loc flags := by
  unfold routeNewForInsert
  by_cases h : remote.family ≠ loc.family ∨ remote.proto ≠ loc.proto
  · rw [if_pos h]
    constructor
    · rintro ⟨r, hr⟩; cases hr
    · rintro ⟨h1, h2, _⟩
      rcases h with h | h
      · exact absurd h1 h
      · exact absurd h2 h
  · rw [if_neg h]
    have hf : remote.family = loc.family := Classical.byContradiction (fun hc => h (Or.inl hc))
    have hp : remote.proto = loc.proto := Classical.byContradiction (fun hc => h (Or.inr hc))
    rcases routeInit_cases ev remote loc flags with ⟨h1, h2⟩ | ⟨h1, _, h2⟩ | ⟨h1, _, h2⟩
    · exact ⟨fun _ => ⟨hf, hp, h1⟩, fun _ => ⟨_, h2⟩⟩
    · rw [h2]; exact ⟨fun ⟨r, hr⟩ => (by cases hr), fun hc => absurd hc.2.2 h1⟩
    · rw [h2]; exact ⟨fun ⟨r, hr⟩ => (by cases hr), fun hc => absurd hc.2.2 h1⟩

/-- C13: a refused creation reports `INVALID_ARG`, or `NUMERIC_ARG_TOO_BIG` for addresses of more
than 65535 bytes. -/
theorem C13_create_error (ev : Option Event) (remote loc : SockAddr) (flags : Flags) (e : Err)
    (h : routeNewForInsert ev remote loc flags = .error e) :
    e = .invalidArg ∨ (e = .numericArgTooBig ∧ 65535 < (remote.ep.bits + 7) / 8 + (loc.ep.bits + 7) / 8) := by
  unfold routeNewForInsert at h
  split at h
  · injection h with h; exact Or.inl h.symm
  · rcases routeInit_cases ev remote loc flags with ⟨_, h2⟩ | ⟨_, _, h2⟩ | ⟨_, hs, h2⟩
    · rw [h2] at h; cases h
    · rw [h2] at h; injection h with h; exact Or.inl h.symm
    · rw [h2] at h; injection h with h; exact Or.inr ⟨h.symm, by omega⟩

/-- C13: the created rule has the fields that were passed. -/
theorem C13_created_fields (ev : Option Event) (remote loc : SockAddr) (flags : Flags) (r : Route)
    (h : routeInit ev remote loc flags = .ok r) :
    r.event = ev ∧ r.flags = flags ∧ r.family = remote.family ∧ r.proto = remote.proto ∧
    r.remote.port = remote.ep.port ∧ r.remote.bits = remote.ep.bits ∧ r.remote.iface = remote.ep.iface ∧
    r.loc.port = loc.ep.port ∧ r.loc.bits = loc.ep.bits ∧ r.loc.iface = loc.ep.iface ∧ r.data = {} := by
  rcases routeInit_cases ev remote loc flags with ⟨_, h2⟩ | ⟨_, _, h2⟩ | ⟨_, _, h2⟩ <;> rw [h2] at h
  · injection h with h; subst h
    exact ⟨rfl, rfl, rfl, rfl, rfl, rfl, rfl, rfl, rfl, rfl, rfl⟩
  · cases h
  · cases h

/-! ### Padding -/

theorem padByte_bit (b : Byte) (k : Nat) (hk : k < 8) (j : Nat) (hj : j < 8) :
    (padByte b k).getLsbD j = (b.getLsbD j && decide (k ≤ j)) := by
  have hall : ∀ (b : Byte) (k j : Fin 8), (padByte b k.val).getLsbD j.val = (b.getLsbD j.val && decide (k.val ≤ j.val)) := by
    intro b k j
    have hz : (b &&& (0xff#8 >>> (8 - k.val)) ≠ 0) ∨ (b &&& (0xff#8 >>> (8 - k.val)) = 0) := by
      by_cases h : b &&& (0xff#8 >>> (8 - k.val)) = 0
      · exact Or.inr h
      · exact Or.inl h
    have hff : ∀ i : Nat, (0xff#8).getLsbD i = decide (i < 8) := by
      intro i
      by_cases hi : i < 8
      · have : ∀ i : Fin 8, (0xff#8).getLsbD i.val = true := by decide
        rw [this ⟨i, hi⟩]; simp [hi]
      · rw [BitVec.getLsbD_of_ge _ _ (by omega)]; simp [hi]
    unfold padByte
    rcases hz with hz | hz
    · rw [if_pos hz]
      rw [BitVec.getLsbD_and, BitVec.getLsbD_shiftLeft, hff]
      have hk := k.isLt; have hj := j.isLt
      by_cases hkj : k.val ≤ j.val
      · have : ¬ j.val < k.val := by omega
        have h2 : j.val - k.val < 8 := by omega
        simp [hkj, this, hj, h2]
      · have : j.val < k.val := by omega
        simp [hkj, this]
    · rw [if_neg (by simpa using hz)]
      by_cases hkj : k.val ≤ j.val
      · simp [hkj]
      · have hb := congrArg (fun x => BitVec.getLsbD x j.val) hz
        simp only [BitVec.getLsbD_and, BitVec.getLsbD_ushiftRight] at hb
        rw [hff] at hb
        have : 8 - k.val + j.val < 8 := by omega
        simp only [this, decide_true, Bool.and_true] at hb
        rw [hb]; simp
  exact hall b ⟨k, hk⟩ ⟨j, hj⟩

theorem addrBit_set_last (a : List Byte) (n : Nat) (hn : a.length = n) (h0 : 0 < n) (b : Byte) (i : Nat) :
    addrBit (a.set (n - 1) b) i = if i / 8 = n - 1 then b.getMsbD (i % 8) else addrBit a i := by
  unfold addrBit
  by_cases h : i / 8 = n - 1
  · rw [if_pos h, h]
    rw [List.getD_eq_getElem?_getD, List.getElem?_set_self (by omega)]; rfl
  · rw [if_neg h]
    rw [List.getD_eq_getElem?_getD, List.getElem?_set_ne (by omega), ← List.getD_eq_getElem?_getD]

/-- Which bits of a stored prefix address survive (`k` left-over bits in the last byte: the code
clears the low `k` bits of that byte; the padding is its low `8 - k` bits). -/
theorem padAddr_bit (e : Endpoint) (hwf : e.WF) (i : Nat) (hi : i < 8 * e.addr.length) :
    addrBit (padAddr e.addr e.bits) i =
      (addrBit e.addr i && decide (i / 8 < e.bits / 8 ∨ i % 8 < 8 - e.bits % 8)) := by
  unfold Endpoint.WF at hwf
  rw [bitsToBytes_eq] at hwf
  unfold padAddr
  by_cases h : e.bits % 8 = 0
  · rw [if_pos h]
    have : i / 8 < e.bits / 8 := by omega
    simp [this]
  · rw [if_neg h]
    have hb : bitsToBytes e.bits = e.addr.length := by rw [bitsToBytes_eq, hwf]
    rw [hb, addrBit_set_last _ _ rfl (by omega)]
    by_cases h2 : i / 8 = e.addr.length - 1
    · rw [if_pos h2]
      have hge : ¬ i / 8 < e.bits / 8 := by omega
      have h8 : i % 8 < 8 := Nat.mod_lt _ (by decide)
      have e1 : ∀ x : Byte, x.getMsbD (i % 8) = x.getLsbD (7 - i % 8) := by
        intro x; unfold BitVec.getMsbD
        have : 8 - 1 - i % 8 = 7 - i % 8 := by omega
        simp [h8]
      rw [e1, padByte_bit _ _ (by omega) _ (by omega)]
      unfold addrBit
      rw [e1, h2]
      have : decide (e.bits % 8 ≤ 7 - i % 8) = decide (i / 8 < e.bits / 8 ∨ i % 8 < 8 - e.bits % 8) := by
        apply decide_eq_decide.2
        constructor
        · intro h; right; omega
        · rintro (h | h) <;> omega
      rw [this, h2]
    · rw [if_neg h2]
      have : i / 8 < e.bits / 8 := by omega
      simp [this]

/-- C13, padding: for prefix lengths that are a multiple of four the stored address is the given one
with exactly the bits after the prefix cleared (remote side; `C13_padding_local_partial` for the
local one).
Missing from the full claim: other prefix lengths — `C13_padding_wrong`, `C13_prefix_damaged`. -/
theorem C13_padding_partial (ev : Option Event) (remote loc : SockAddr) (flags : Flags) (r : Route)
    (h : routeInit ev remote loc flags = .ok r) (hwf : remote.ep.WF) (hm : flags.getLsbD 12 = false)
    (h4 : remote.ep.bits % 4 = 0) (i : Nat) (hi : i < 8 * remote.ep.addr.length) :
    r.remote.addr.length = remote.ep.addr.length ∧
    addrBit r.remote.addr i = if i < remote.ep.bits then addrBit remote.ep.addr i else false := by
  rcases routeInit_cases ev remote loc flags with ⟨_, h2⟩ | ⟨_, _, h2⟩ | ⟨_, _, h2⟩ <;> rw [h2] at h
  · injection h with h; subst h
    refine ⟨?_, ?_⟩
    · simp only [initEndpoint, hm, Bool.false_eq_true, if_false]
      unfold padAddr; split <;> simp
    · simp only [initEndpoint, hm, Bool.false_eq_true, if_false]
      rw [padAddr_bit _ hwf _ hi]
      have : decide (i / 8 < remote.ep.bits / 8 ∨ i % 8 < 8 - remote.ep.bits % 8) = decide (i < remote.ep.bits) := by
        unfold Endpoint.WF at hwf; rw [bitsToBytes_eq] at hwf
        apply decide_eq_decide.2
        constructor
        · rintro (h | h) <;> omega
        · intro h; omega
      rw [this]
      by_cases hlt : i < remote.ep.bits <;> simp [hlt]
  · cases h
  · cases h

theorem C13_padding_local_partial (ev : Option Event) (remote loc : SockAddr) (flags : Flags) (r : Route)
    (h : routeInit ev remote loc flags = .ok r) (hwf : loc.ep.WF) (hm : flags.getLsbD 13 = false)
    (h4 : loc.ep.bits % 4 = 0) (i : Nat) (hi : i < 8 * loc.ep.addr.length) :
    r.loc.addr.length = loc.ep.addr.length ∧
    addrBit r.loc.addr i = if i < loc.ep.bits then addrBit loc.ep.addr i else false := by
  rcases routeInit_cases ev remote loc flags with ⟨_, h2⟩ | ⟨_, _, h2⟩ | ⟨_, _, h2⟩ <;> rw [h2] at h
  · injection h with h; subst h
    refine ⟨?_, ?_⟩
    · simp only [initEndpoint, hm, Bool.false_eq_true, if_false]
      unfold padAddr; split <;> simp
    · simp only [initEndpoint, hm, Bool.false_eq_true, if_false]
      rw [padAddr_bit _ hwf _ hi]
      have : decide (i / 8 < loc.ep.bits / 8 ∨ i % 8 < 8 - loc.ep.bits % 8) = decide (i < loc.ep.bits) := by
        unfold Endpoint.WF at hwf; rw [bitsToBytes_eq] at hwf
        apply decide_eq_decide.2
        constructor
        · rintro (h | h) <;> omega
        · intro h; omega
      rw [this]
      by_cases hlt : i < loc.ep.bits <;> simp [hlt]
  · cases h
  · cases h

example : ∃ r, routeInit none { family := 2, proto := 6, ep := { bits := 12, addr := [10, 0xff] } } { family := 2, proto := 6 } (bit 10) = .ok r ∧
    r.remote.addr = [10, 0xf0] := ⟨_, rfl, by decide⟩

/-- C13 fails for a prefix length with remainder 2 modulo 8: a padding bit stays set
(10.0.0.0/10 given with bit 13 set keeps it). -/
theorem C13_padding_wrong : ∃ r, routeInit none { family := 2, ep := { bits := 10, addr := [10, 0x04] } } { family := 2 } (bit 10) = .ok r ∧
    r.remote.bits = 10 ∧ addrBit r.remote.addr 13 = true := ⟨_, rfl, rfl, by decide⟩

/-- C13 fails for a prefix length with remainder 6 modulo 8: a bit of the prefix is cleared
(10.60.0.0/14 becomes 10.0.0.0/14). -/
theorem C13_prefix_damaged : ∃ r, routeInit none { family := 2, ep := { bits := 14, addr := [10, 0x3c] } } { family := 2 } (bit 10) = .ok r ∧
    r.remote.bits = 14 ∧ addrBit [10, 0x3c] 10 = true ∧ addrBit r.remote.addr 10 = false := ⟨_, rfl, rfl, by decide, by decide⟩

/-- C13: with address masks the stored address is the given one masked, byte by byte, and the mask is
stored as given. -/
theorem C13_masked (ev : Option Event) (remote loc : SockAddr) (flags : Flags) (r : Route)
    (h : routeInit ev remote loc flags = .ok r) (hwf : remote.ep.WF) (hm : flags.getLsbD 12 = true) (n : Nat)
    (hn : n = remote.ep.addr.length / 2) :
    r.remote.addr.length = remote.ep.addr.length ∧
    (∀ i, i < n → r.remote.addr.getD i 0 = remote.ep.addr.getD i 0 &&& remote.ep.addr.getD (n + i) 0) ∧
    (∀ i, n ≤ i → r.remote.addr.getD i 0 = remote.ep.addr.getD i 0) := by
  rcases routeInit_cases ev remote loc flags with ⟨hok, h2⟩ | ⟨_, _, h2⟩ | ⟨_, _, h2⟩ <;> rw [h2] at h
  · injection h with h; subst h
    simp only [initEndpoint, hm, if_true]
    unfold Endpoint.WF at hwf
    have h16 := hok.remoteMask hm
    rw [bitsToBytes_eq] at hwf
    have hb : bitsToBytes remote.ep.bits / 2 = n := by rw [bitsToBytes_eq]; omega
    rw [hb]
    have h2n : remote.ep.addr.length = 2 * n := by omega
    unfold maskAddr
    have hl : (List.zipWith (fun x m => x &&& m) (remote.ep.addr.take n) (remote.ep.addr.drop n)).length = n := by
      simp; omega
    refine ⟨?_, ?_, ?_⟩
    · rw [List.length_append, hl]; simp; omega
    · intro i hi
      rw [List.getD_eq_getElem?_getD, List.getElem?_append_left (by omega)]
      rw [List.getElem?_zipWith, List.getElem?_take_of_lt hi, List.getElem?_drop]
      have h1 : remote.ep.addr[i]? = some remote.ep.addr[i] := List.getElem?_eq_getElem (by omega)
      have h3 : remote.ep.addr[n + i]? = some remote.ep.addr[n + i] := List.getElem?_eq_getElem (by omega)
      rw [List.getD_eq_getElem?_getD, List.getD_eq_getElem?_getD, h1, h3]; rfl
    · intro i hi
      rw [List.getD_eq_getElem?_getD, List.getElem?_append_right (by omega), hl, List.getElem?_drop,
        List.getD_eq_getElem?_getD]
      congr 2; omega
  · cases h
  · cases h

example : ∃ r, routeInit none { family := 2, ep := { bits := 32, addr := [10, 7, 0xff, 0x01] } } { family := 2 } (bit 10 ||| bit 12) = .ok r ∧
    r.remote.addr = [10, 1, 0xff, 0x01] := ⟨_, rfl, by decide⟩

/-- C13: every rule of every table that calls can produce has consistent wildcards, zero in every
wildcard field, and address buffers of the size its lengths call for. -/
theorem C13_table_rules (g : EventConfig) (b : Bool) (T : RouteTable) (h : Reach g b T) (r : Route) (hr : r ∈ T.ents) :
    Sensical r.flags ∧ WildZero r ∧ r.WF :=
  ⟨h.inv.1.core.sens r hr, h.inv.1.core.wildZero r hr, h.inv.1.core.sorted.wf r hr⟩

/-- C13 does not hold for directions: the configuration may strip the direction flags from a rule
after they have been checked, and the rule enters the table with neither. -/
theorem C13_direction_lost : ∃ (g : EventConfig) (r : Route) (res : InsRes), g.routeFlagsToAdd = 0 ∧
    routeInit none { family := 2 } { family := 2 } (bit 10) = .ok r ∧
    insert1 g {} {} r (.ok 1) (.ok 1) 0 = some res ∧ res.res = .ok .inserted ∧
    ∃ x ∈ res.T.ents, x.flags.getLsbD 10 = false ∧ x.flags.getLsbD 11 = false :=
  ⟨{ routeFlagsToClear := bit 10 ||| bit 11 }, _, _, rfl, rfl, rfl, by decide, _, List.mem_singleton.2 rfl, by decide, by decide⟩

end WS.Props
