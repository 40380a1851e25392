import Verif.Proof.RouteMatch
/-
Properties C01 (rule order), C06 (CIDR), C07 (bitmask), C08 (wildcards), C12 (specificity).
-/
namespace WS.Props
open WS Spec

/-! Concrete rules used to show that hypotheses can be met. -/

/-- Remote 10.0.0.0/8 with TCP, local port 22, under an event with priority 3. -/
def rSsh : Route :=
  { family := 2, proto := 6, flags := RF.DIRECTION_IN ||| RF.SA_LOCAL_ADDR_WILDCARD ||| RF.SA_REMOTE_PORT_WILDCARD,
    remote := { bits := 8, addr := [10#8] }, loc := { port := 22 },
    event := some { label := [0x65#8], priority := 3 } }
/-- A packet 10.1.2.3:40000 → 192.168.0.1:22. -/
def qSsh : Route :=
  { family := 2, proto := 6, flags := RF.DIRECTION_IN,
    remote := { bits := 32, addr := [10#8, 1#8, 2#8, 3#8], port := 40000 },
    loc := { bits := 32, addr := [192#8, 168#8, 0#8, 1#8], port := 22 },
    event := some { label := [0x65#8], priority := 3 } }

/-! ## C01 — the table order is a strict total order on keys -/

theorem flags_masked_eq (a b : Flags) :
    (a &&& RF.IMMUTABLE_FLAGS).toNat = (b &&& RF.IMMUTABLE_FLAGS).toNat ↔
      ∀ k, k < 14 → a.getLsbD k = b.getLsbD k := by
  have hm : RF.IMMUTABLE_FLAGS = BitVec.ofNat 32 (2 ^ 14 - 1) := by decide
  have hb : ∀ k, k < 32 → RF.IMMUTABLE_FLAGS.getLsbD k = decide (k < 14) := by
    intro k hk
    rw [hm, BitVec.getLsbD_ofNat, Nat.testBit_two_pow_sub_one]
    simp [hk]
  rw [BitVec.toNat_inj]
  constructor
  · intro h k hk
    have := congrArg (fun x => BitVec.getLsbD x k) h
    simpa [hb k (by omega), hk] using this
  · intro h
    apply BitVec.eq_of_getLsbD_eq
    intro k hk
    rw [BitVec.getLsbD_and, BitVec.getLsbD_and, hb k hk]
    by_cases h14 : k < 14
    · simp [h14, h k h14]
    · simp [h14]

/-- C01: two rules compare equal exactly when every key field is the same. -/
theorem C01_eq_iff (l r : Route) (hl : l.WF) (hr : r.WF) :
    routeKeyCmp l r = .eq ↔ SameKey l r := by
  rw [routeKeyCmp_eq l r hl hr]
  unfold exactLex compareLex compareOn
  simp only [Ordering.then_eq_eq]
  have cn : ∀ a b : Nat, compare a b = .eq ↔ a = b := fun a b => Nat.compare_eq_eq
  have cl : ∀ a b : List Nat, compare a b = .eq ↔ a = b := fun a b =>
    ⟨Std.LawfulEqCmp.eq_of_compare, fun h => h ▸ Std.ReflCmp.compare_self⟩
  have bk : ∀ a b : List Byte, bytesKey a = bytesKey b ↔ a = b := fun a b => ⟨bytesKey_inj, congrArg _⟩
  have ek : eventKey l = eventKey r ↔ l.event.map (·.label) = r.event.map (·.label) := by
    unfold eventKey
    cases l.event <;> cases r.event <;> simp [bk]
  simp only [cn, cl, bk, ek, flags_masked_eq, effPriority_eq]
  constructor
  · rintro ⟨a, b, c, d, e, f, g, h, i, j, k, m, n⟩
    exact ⟨a, d, b, c, f, g, h, e, i, j, k, m, n⟩
  · rintro ⟨a, d, b, c, f, g, h, e, i, j, k, m, n⟩
    exact ⟨a, b, c, d, e, f, g, h, i, j, k, m, n⟩

/-- C01: swapping the arguments reverses the result (so exactly one of `<`, `=`, `>` holds, and a
rule compares equal to itself). -/
theorem C01_swap (l r : Route) (hl : l.WF) (hr : r.WF) :
    routeKeyCmp r l = (routeKeyCmp l r).swap := by
  rw [routeKeyCmp_eq l r hl hr, routeKeyCmp_eq r l hr hl]
  exact Std.OrientedCmp.eq_swap

/-- C01: strictly-before is transitive. -/
theorem C01_lt_trans (a b c : Route) (ha : a.WF) (hb : b.WF) (hc : c.WF)
    (h1 : routeKeyCmp a b = .lt) (h2 : routeKeyCmp b c = .lt) : routeKeyCmp a c = .lt := by
  rw [routeKeyCmp_eq _ _ ‹_› ‹_›] at *
  exact Std.TransCmp.lt_trans h1 h2

/-- C01: before-or-equal is transitive. -/
theorem C01_le_trans (a b c : Route) (ha : a.WF) (hb : b.WF) (hc : c.WF)
    (h1 : routeKeyCmp a b ≠ .gt) (h2 : routeKeyCmp b c ≠ .gt) : routeKeyCmp a c ≠ .gt := by
  rw [routeKeyCmp_eq _ _ ‹_› ‹_›] at *
  have h1' : (exactLex a b).isLE := by cases h : exactLex a b <;> simp_all
  have h2' : (exactLex b c).isLE := by cases h : exactLex b c <;> simp_all
  have := Std.TransCmp.isLE_trans h1' h2'
  cases h : exactLex a c <;> simp_all

/-- C01: rules with equal keys are interchangeable in every comparison. -/
theorem C01_congr (a b c : Route) (ha : a.WF) (hb : b.WF) (hc : c.WF) (h : SameKey a b) :
    routeKeyCmp a c = routeKeyCmp b c := by
  have h := (C01_eq_iff a b ha hb).2 h
  rw [routeKeyCmp_eq _ _ ‹_› ‹_›] at *
  rw [routeKeyCmp_eq _ _ ‹_› ‹_›]
  exact Std.TransCmp.congr_left h

example : rSsh.WF ∧ qSsh.WF ∧ routeKeyCmp rSsh qSsh = .lt ∧
    routeKeyCmp qSsh { qSsh with family := 10 } = .lt ∧ ¬ SameKey rSsh qSsh := by
  refine ⟨by decide, by decide, by decide, by decide, fun h => ?_⟩
  exact absurd h.remoteBits (by decide)

/-! ## C06 — CIDR matching -/

/-- C06, full statement restricted to prefix lengths that are multiples of 4: two addresses match
exactly when they are equal at equal length, one is empty, or the shorter prefix agrees bit by
bit.  For the remaining lengths the claim is false of the code: `C06_not_cidr_22`,
`C06_not_cidr_17`. -/
theorem C06_cidr_partial (l r : Endpoint) (hl : l.WF) (hr : r.WF)
    (h4 : min l.bits r.bits % 4 = 0) :
    (cmpAddrsPrefixful l.addr l.bits r.addr r.bits false true).1 = .eq ↔ CidrMatch l r := by
  have := (addrCmpM_prefix l r hl hr false).1
  rw [codeCidr_eq l r (by omega)] at this
  simpa [addrCmpM] using this

example : (⟨0, 20, 0, [10#8, 1#8, 0xf0#8]⟩ : Endpoint).WF ∧
    CidrMatch ⟨0, 20, 0, [10#8, 1#8, 0xf0#8]⟩ ⟨0, 32, 0, [10#8, 1#8, 0xf7#8, 9#8]⟩ := by
  refine ⟨by decide, ?_⟩
  unfold CidrMatch PrefixAgree
  simp only [show ¬ (20 = 32) by decide, if_false]
  right; right; decide

/-- C06, every prefix length: the code compares not the first `n` bits but the first
`8·⌊n/8⌋ + (8 − n mod 8)` bits (`n` itself when `n` is a multiple of 8). -/
theorem C06_actual_prefix (l r : Endpoint) (hl : l.WF) (hr : r.WF) (hne : l.bits ≠ r.bits)
    (h0 : l.bits ≠ 0) (h0' : r.bits ≠ 0) :
    (cmpAddrsPrefixful l.addr l.bits r.addr r.bits false true).1 = .eq ↔
      PrefixAgree (if min l.bits r.bits % 8 = 0 then min l.bits r.bits
        else 8 * (min l.bits r.bits / 8) + (8 - min l.bits r.bits % 8)) l.addr r.addr :=
  prefixful_subnet_iff l r hl hr hne h0 h0'

/-- C06 is false of the code for a /22 rule: 10.1.0.0/22 also matches 10.1.63.1 … -/
theorem C06_not_cidr_22 :
    ∃ rule pkt : Endpoint, rule.WF ∧ pkt.WF ∧ rule.bits = 22 ∧ pkt.bits = 32 ∧
      (cmpAddrsPrefixful rule.addr rule.bits pkt.addr pkt.bits false true).1 = .eq ∧
      ¬ CidrMatch rule pkt := by
  refine ⟨⟨0, 22, 0, [10#8, 1#8, 0#8]⟩, ⟨0, 32, 0, [10#8, 1#8, 63#8, 1#8]⟩, by decide, by decide,
    rfl, rfl, by decide, ?_⟩
  unfold CidrMatch PrefixAgree
  simp only [show ¬ (22 = 32) by decide, if_false]
  decide

/-- … and a /17 rule misses addresses inside it: 10.1.0.0/17 does not match 10.1.2.3. -/
theorem C06_not_cidr_17 :
    ∃ rule pkt : Endpoint, rule.WF ∧ pkt.WF ∧ rule.bits = 17 ∧ pkt.bits = 32 ∧
      (cmpAddrsPrefixful rule.addr rule.bits pkt.addr pkt.bits false true).1 ≠ .eq ∧
      CidrMatch rule pkt := by
  refine ⟨⟨0, 17, 0, [10#8, 1#8, 0#8]⟩, ⟨0, 32, 0, [10#8, 1#8, 2#8, 3#8]⟩, by decide, by decide,
    rfl, rfl, by decide, ?_⟩
  unfold CidrMatch PrefixAgree
  simp only [show ¬ (17 = 32) by decide, if_false]
  right; right; decide

/-! ## C07 — bitmask matching -/

/-- C07: a target of `n` bits (whole bytes) against a rule holding an `n`-bit address and an
`n`-bit mask matches exactly when target AND mask equals the address, byte by byte, whichever
side the rule is on. -/
theorem C07_bitmask (rule target : Endpoint) (hr : rule.WF) (ht : target.WF)
    (h0 : target.bits ≠ 0) (h8 : target.bits % 8 = 0) (hw : rule.bits = 2 * target.bits) :
    ((cmpAddrsBitmaskful rule.addr rule.bits target.addr target.bits false true).1 = .eq ↔
      MaskAgree rule.addr target.addr) ∧
    ((cmpAddrsBitmaskful target.addr target.bits rule.addr rule.bits false true).1 = .eq ↔
      MaskAgree rule.addr target.addr) :=
  ⟨(bitmask_match rule target hr ht h0 h8 hw).1, (bitmask_match rule target hr ht h0 h8 hw).2.1⟩

/-- C07: the match is reported as inexact exactly when the target differs from the rule's
address. -/
theorem C07_bitmask_inexact (rule target : Endpoint) (hr : rule.WF) (ht : target.WF)
    (h0 : target.bits ≠ 0) (h8 : target.bits % 8 = 0) (hw : rule.bits = 2 * target.bits)
    (hm : MaskAgree rule.addr target.addr) :
    (cmpAddrsBitmaskful rule.addr rule.bits target.addr target.bits false true).2 = true ↔
      rule.addr.take target.addr.length ≠ target.addr :=
  (bitmask_match rule target hr ht h0 h8 hw).2.2 ((bitmask_match rule target hr ht h0 h8 hw).1.2 hm)

example : MaskAgree [10#8, 0#8, 255#8, 0#8] [10#8, 77#8] := by
  intro i hi
  have : i = 0 ∨ i = 1 := by simp at hi; omega
  rcases this with rfl | rfl <;> decide

/-- C07 does not extend to targets narrower than the rule: the offset that should skip the
missing bytes is computed in bits (8) but compared with byte indexes, so no byte of the target is
ever looked at, and 0.0.0.0 with mask 255.255.255.255 matches every 3-byte target. -/
theorem C07_narrow_target_ignored (a b c : Byte) :
    (cmpAddrsBitmaskful [0#8, 0#8, 0#8, 0#8, 255#8, 255#8, 255#8, 255#8] 64 [a, b, c] 24 false true).1 = .eq := by
  simp [cmpAddrsBitmaskful, maskLoop, bitsToBytes, Nat.shiftRight_eq_div_pow]

/-! ## C08 — wildcards -/

/-- C08: in matching mode a rule and a query compare equal exactly when every field is equal or
wildcarded, addresses agree up to their prefix, and the parent events agree or are wildcarded.
(Prefix lengths multiple of 4: see C06 for the others.) -/
theorem C08_match_iff (l r : Route) (hl : l.WF) (hr : r.WF) (hb : NoBitmask l r)
    (h1 : min l.remote.bits r.remote.bits % 4 = 0) (h2 : min l.loc.bits r.loc.bits % 4 = 0) :
    (routeKeyCmp1 l r true).1 = .eq ↔ RuleMatches CidrMatch l r := by
  rw [(routeKeyCmp1_match l r hl hr hb).1]
  constructor
  · rintro ⟨a, b, c, d, e, f, g, h, i⟩
    rw [codeCidr_eq _ _ (by omega)] at b e
    exact ⟨a, b, c, d, e, f, g, h, i⟩
  · rintro ⟨a, b, c, d, e, f, g, h, i⟩
    rw [← codeCidr_eq _ _ (by omega)] at b e
    exact ⟨a, b, c, d, e, f, g, h, i⟩

/-- C08: on a match, the reported inexact-match word names exactly the fields that differ. -/
theorem C08_inexact_exact (l r : Route) (hl : l.WF) (hr : r.WF) (hb : NoBitmask l r)
    (hm : (routeKeyCmp1 l r true).1 = .eq) (k : Nat) (hk : k < 32) :
    (routeKeyCmp1 l r true).2.getLsbD k = true ↔ Differs l r k :=
  (routeKeyCmp1_match l r hl hr hb).2 hm k hk

/-- C08: with every wildcard bit clear, matching is equality of the scalar fields (addresses by
prefix), whatever the prefix lengths. -/
theorem C08_no_wildcards (l r : Route) (hl : l.WF) (hr : r.WF) (hb : NoBitmask l r)
    (hn : ∀ k, k ≤ 8 → wild l r k = false) (hm : (routeKeyCmp1 l r true).1 = .eq) :
    l.family = r.family ∧ l.proto = r.proto ∧ l.loc.port = r.loc.port ∧
    l.remote.port = r.remote.port ∧ l.remote.iface = r.remote.iface ∧ l.loc.iface = r.loc.iface ∧
    EventAgree l r := by
  obtain ⟨a, b, c, d, e, f, g, h, i⟩ := (routeKeyCmp1_match l r hl hr hb).1.1 hm
  simp only [FieldMatch, hn 0 (by decide), hn 2 (by decide), hn 3 (by decide), hn 5 (by decide), hn 6 (by decide),
    hn 7 (by decide), hn 8 (by decide), Bool.false_eq_true, or_false] at a c d f g h i
  exact ⟨a, c, d, f, g, h, i⟩

/-- C08: a rule with every field wildcarded matches every query without bitmask addresses. -/
theorem C08_full_wildcard (l r : Route) (hl : l.WF) (hr : r.WF) (hb : NoBitmask l r)
    (hw : ∀ k, k ≤ 8 → l.flags.getLsbD k = true) : (routeKeyCmp1 l r true).1 = .eq := by
  have w : ∀ k, k ≤ 8 → wild l r k = true := by intro k hk; simp [wild, hw k hk]
  rw [(routeKeyCmp1_match l r hl hr hb).1]
  exact ⟨Or.inr (w 0 (by decide)), Or.inl (w 1 (by decide)), Or.inr (w 2 (by decide)),
    Or.inr (w 3 (by decide)), Or.inl (w 4 (by decide)), Or.inr (w 5 (by decide)),
    Or.inr (w 6 (by decide)), Or.inr (w 7 (by decide)), Or.inr (w 8 (by decide))⟩

example : NoBitmask rSsh qSsh ∧ min rSsh.remote.bits qSsh.remote.bits % 4 = 0 ∧
    (routeKeyCmp1 rSsh qSsh true).1 = .eq ∧
    (routeKeyCmp1 rSsh { qSsh with loc := { qSsh.loc with port := 23 } } true).1 ≠ .eq ∧
    (routeKeyCmp1 rSsh { qSsh with remote := { qSsh.remote with addr := [11#8, 1#8, 2#8, 3#8] } } true).1 ≠ .eq := by
  unfold NoBitmask; decide

/-! ## C12 — specificity -/

/-- C12 is false of the code: there are a query and two rules each "more specific" than the
other, because the right-hand rule's remote score is computed from the local addresses
(src/routes.c:523). -/
theorem C12_not_antisymmetric :
    ∃ target a b : Route, target.WF ∧ a.WF ∧ b.WF ∧ NoBitmask target a ∧ NoBitmask target b ∧
      (routeKeyCmp1 target a true).1 = .eq ∧ (routeKeyCmp1 target b true).1 = .eq ∧
      compareMatchExactness target a (routeKeyCmp1 target a true).2 b (routeKeyCmp1 target b true).2 = .lt ∧
      compareMatchExactness target b (routeKeyCmp1 target b true).2 a (routeKeyCmp1 target a true).2 = .lt := by
  refine ⟨{ family := 2, remote := ⟨0, 32, 0, [10#8, 1#8, 2#8, 3#8]⟩, loc := ⟨0, 32, 0, [10#8, 0#8, 0#8, 1#8]⟩ },
    { family := 2, remote := ⟨0, 16, 0, [10#8, 1#8]⟩, loc := ⟨0, 8, 0, [10#8]⟩ },
    { family := 2, remote := ⟨0, 24, 0, [10#8, 1#8, 2#8]⟩, loc := ⟨0, 8, 0, [10#8]⟩ }, ?_⟩
  unfold NoBitmask
  decide

/-- C12, partial: when the two candidates match a different number of fields inexactly, the choice
is antisymmetric, and the candidate with fewer inexact fields wins.  Missing: ties, where the claim
is false of the code. -/
theorem C12_fewer_wildcards_partial (target a b : Route) (ia ib : Flags)
    (h : popcountWild ia < popcountWild ib) :
    compareMatchExactness target a ia b ib = .lt ∧ compareMatchExactness target b ib a ia = .gt := by
  have hle : ∀ f, popcountWild f ≤ 8 := by
    intro f
    unfold popcountWild
    have : (List.range 32).filter (fun i => (f &&& RF.WILDCARD_FLAGS).getLsbD i) =
        ((List.range 32).filter (fun i => RF.WILDCARD_FLAGS.getLsbD i)).filter (fun i => f.getLsbD i) := by
      rw [List.filter_filter]
      simp only [BitVec.getLsbD_and]
    rw [this]
    have h8 : (List.range 32).filter (fun i => RF.WILDCARD_FLAGS.getLsbD i) = List.range 8 := by decide
    rw [h8]
    calc _ ≤ (List.range 8).length := List.length_filter_le _ _
      _ = 8 := by simp
  have := hle ia
  have := hle ib
  unfold compareMatchExactness
  have h1 : ¬ (8 - popcountWild ia = 8 - popcountWild ib) := by omega
  have h2 : ¬ (8 - popcountWild ib = 8 - popcountWild ia) := by omega
  simp only [h1, h2, if_false]
  constructor
  · rw [if_pos (by omega)]
  · rw [if_neg (by omega), if_pos (by omega)]

/-- C12, partial: among rules that both carry remote bitmasks the choice is antisymmetric. -/
theorem C12_bitmask_rules_partial (target a b : Route) (ia ib : Flags)
    (ha : a.flags.has RF.REMOTE_ADDR_BITMASK = true) (hb : b.flags.has RF.REMOTE_ADDR_BITMASK = true) :
    compareMatchExactness target b ib a ia = (compareMatchExactness target a ia b ib).swap := by
  unfold compareMatchExactness
  simp only [ha, hb, if_true]
  generalize 8 - popcountWild ia = p
  generalize 8 - popcountWild ib = q
  generalize addrBitmaskMatchSize target.remote.addr target.remote.bits a.remote.addr a.remote.bits = p1
  generalize addrBitmaskMatchSize target.remote.addr target.remote.bits b.remote.addr b.remote.bits = q1
  generalize (if a.flags.has RF.LOCAL_ADDR_BITMASK = true then _ else _) = p2
  generalize (if b.flags.has RF.LOCAL_ADDR_BITMASK = true then _ else _) = q2
  have key : ∀ x y : Nat, (if y > x then Ordering.lt else if y < x then .gt else .eq) =
      (if x > y then Ordering.lt else if x < y then .gt else .eq).swap := by
    intro x y
    rcases Nat.lt_trichotomy x y with h | h | h
    · simp [h, show ¬ y < x by omega]
    · simp [h]
    · simp [h, show ¬ x < y by omega]
  by_cases h0 : p = q
  · subst h0
    by_cases h1 : p1 = q1
    · subst h1; simp only [if_true]; exact key _ _
    · simp only [if_true, h1, Ne.symm h1, if_false]; exact key _ _
  · simp only [h0, Ne.symm h0, if_false]; exact key _ _

example : popcountWild (RF.SA_LOCAL_PORT_WILDCARD) < popcountWild (RF.SA_LOCAL_PORT_WILDCARD ||| RF.SA_PROTO_WILDCARD) := by
  decide

/-- Bit `i` of an address counted from the *least* significant bit of each byte, the order in which
`compare_match_exactness` scores addresses (unlike CIDR order, `addrBit`). -/
def scoreBit (a : List Byte) (i : Nat) : Bool := (a.getD (i / 8) 0).getLsbD (i % 8)

theorem takeWhile_prefix {p : Nat → Bool} (n : Nat) :
    let m := ((List.range n).takeWhile p).length
    m ≤ n ∧ (∀ i, i < m → p i = true) ∧ (m < n → p m = false) := by
  induction n with
  | zero => simp
  | succ n ih =>
    rw [List.range_succ]
    simp only at ih ⊢
    by_cases hall : ((List.range n).takeWhile p).length = n
    · have hp : ∀ a ∈ List.range n, p a = true := by
        intro a ha
        exact ih.2.1 a (by rw [hall]; exact List.mem_range.mp ha)
      rw [List.takeWhile_append_of_pos hp]
      by_cases hn : p n = true
      · simp only [List.takeWhile_cons, hn, if_true, List.takeWhile_nil, List.length_append,
          List.length_range, List.length_cons, List.length_nil]
        refine ⟨by omega, fun i hi => ?_, fun h => by omega⟩
        rcases Nat.lt_or_ge i n with h | h
        · exact hp i (List.mem_range.mpr h)
        · rw [show i = n by omega]; exact hn
      · simp only [List.takeWhile_cons, hn, List.length_append, List.length_range]
        refine ⟨by simp, fun i hi => hp i (List.mem_range.mpr (by simpa using hi)), fun _ => by simpa using hn⟩
    · have hlt : ((List.range n).takeWhile p).length < n := by omega
      have : ((List.range n ++ [n]).takeWhile p) = (List.range n).takeWhile p := by
        rw [List.takeWhile_append]
        rw [if_neg (by simpa using hall)]
      rw [this]
      exact ⟨by omega, ih.2.1, fun _ => ih.2.2 hlt⟩

theorem zip_takeWhile_eq (a b : List Byte) (w i : Nat)
    (hi : i < (((a.zip b).take w).takeWhile (fun p => p.1 == p.2)).length) :
    a.getD i 0 = b.getD i 0 := by
  induction a generalizing b w i with
  | nil => simp at hi
  | cons x xs ih =>
    cases b with
    | nil => simp at hi
    | cons y ys =>
      cases w with
      | zero => simp at hi
      | succ w =>
        simp only [List.zip_cons_cons, List.take_succ_cons, List.takeWhile_cons] at hi
        by_cases hxy : (x == y) = true
        · cases i with
          | zero => simpa using hxy
          | succ i =>
            simp only [hxy, if_true, List.length_cons] at hi
            simpa using ih ys w i (by omega)
        · simp [hxy] at hi

theorem zip_takeWhile_len (a b : List Byte) (w : Nat) :
    (((a.zip b).take w).takeWhile (fun p => p.1 == p.2)).length ≤ w := by
  calc _ ≤ ((a.zip b).take w).length := (List.takeWhile_sublist _).length_le
    _ ≤ w := by simp; omega

/-- C12: the address score used to break ties is the number of leading agreeing bits (bytes in
order, bits from the least significant upward), at most the shorter of the two lengths: every
earlier bit agrees, and if the score is below the shorter length the next bit differs. -/
theorem C12_prefix_score (a b : List Byte) (aLen bLen : Nat) :
    let m := addrPrefixMatchSize a aLen b bLen
    m ≤ min aLen bLen ∧ (∀ i, i < m → scoreBit a i = scoreBit b i) ∧
    (m < min aLen bLen → scoreBit a m ≠ scoreBit b m) := by
  have hmin : (if aLen < bLen then aLen else bLen) = min aLen bLen := by
    rcases Nat.lt_or_ge aLen bLen with h | h
    · rw [if_pos h]; omega
    · rw [if_neg (by omega)]; omega
  unfold addrPrefixMatchSize
  simp only [hmin]
  generalize min aLen bLen = L
  by_cases h0 : L = 0
  · simp [h0]
  rw [if_neg h0]
  have hw := zip_takeWhile_len a b (L >>> 3)
  have heq := zip_takeWhile_eq a b (L >>> 3)
  revert hw heq
  generalize (((a.zip b).take (L >>> 3)).takeWhile (fun p => p.1 == p.2)).length = n
  intro hw heq
  have h8 : n <<< 3 = n * 8 := by simp [Nat.shiftLeft_eq]
  have hL : L >>> 3 = L / 8 := by simp [Nat.shiftRight_eq_div_pow]
  rw [h8]
  rw [hL] at hw
  have ht := takeWhile_prefix (p := fun d =>
      (byteAt a ((n * 8 + d) / 8)).getLsbD ((n * 8 + d) % 8) == (byteAt b ((n * 8 + d) / 8)).getLsbD ((n * 8 + d) % 8))
      (L - n * 8)
  simp only at ht
  revert ht
  generalize ((List.range (L - n * 8)).takeWhile (fun d =>
      (byteAt a ((n * 8 + d) / 8)).getLsbD ((n * 8 + d) % 8) == (byteAt b ((n * 8 + d) / 8)).getLsbD ((n * 8 + d) % 8))).length = m
  intro ht
  refine ⟨by omega, fun i hi => ?_, fun h => ?_⟩
  · rcases Nat.lt_or_ge i (n * 8) with hlt | hge
    · unfold scoreBit
      rw [heq (i / 8) (by omega)]
    · have := ht.2.1 (i - n * 8) (by omega)
      rw [show n * 8 + (i - n * 8) = i by omega] at this
      simpa [scoreBit, byteAt] using this
  · have := ht.2.2 (by omega)
    simpa [scoreBit, byteAt] using this

/-- Finding: because bits are scored from the least significant end of a byte, a /25 rule all of
whose 25 leading bits agree with the packet can score only 24, the same as a /24 rule. -/
theorem C12_score_not_cidr : ∃ rule pkt : List Byte,
    PrefixAgree 25 rule pkt ∧ addrPrefixMatchSize pkt 32 rule 25 = 24 ∧
    addrPrefixMatchSize pkt 32 rule 24 = 24 := by
  refine ⟨[10, 0, 0, 128], [10, 0, 0, 129], ?_, by decide, by decide⟩
  unfold PrefixAgree; decide

example : addrPrefixMatchSize [10, 1, 2, 3] 32 [10, 1] 16 = 16 ∧
    addrPrefixMatchSize [10, 1, 2, 3] 32 [10, 3] 16 = 9 := by decide

/-! ## C43 — label order -/

/-- C43: event labels compare as byte strings: equal iff identical … -/
theorem C43_label_eq_iff (a b : List Byte) : labelCmp a b = .eq ↔ a = b := labelCmp_eq_iff a b

/-- … reversing the arguments reverses the result … -/
theorem C43_label_swap (a b : List Byte) : labelCmp b a = (labelCmp a b).swap := by
  rw [labelCmp_lex, labelCmp_lex]; exact Std.OrientedCmp.eq_swap

/-- … and transitive. -/
theorem C43_label_trans (a b c : List Byte) (h1 : labelCmp a b = .lt) (h2 : labelCmp b c = .lt) :
    labelCmp a c = .lt := by
  rw [labelCmp_lex] at *; exact Std.TransCmp.lt_trans h1 h2

example : labelCmp [1#8] [1#8, 2#8] = .lt ∧ labelCmp [2#8] [1#8, 2#8] = .gt := by decide

end WS.Props
