import Verif.Proof.LookupOrder
import Verif.Props.RouteKey
/-
Properties C09 (lookup returns only matching rules), C10 (lookup does not miss), C11 (exact lookup).
`fuel` bounds the number of scan steps of the model; the theorems hold for every fuel, so they speak
about every terminating run, and `C10_terminates_partial` / `C10_diverges` say which runs end.
-/
namespace WS.Props
open WS Spec

/-! ## C09 — soundness -/

/-- What a lookup guarantees whatever the shape of the rule's addresses. -/
theorem lookup_sound_core (T : RouteTable) (t r : Route) (ares : Option Flags) (fuel : Nat) (inx : Flags)
    (hwf : ∀ x ∈ T.ents, x.WF) (ht : t.WF) (hdir : t.flags.getLsbD 10 = true ∨ t.flags.getLsbD 11 = true)
    (h : lookup T t false ares fuel = some (.ok (r, inx))) :
    r ∈ T.ents ∧ ((routeKeyCmp1 r (AnyEvent t) true).1 = .eq ∨ SameKey r (AnyEvent t)) ∧ DirectionOK r t ∧ FilterOK ares r ∧
    (ExcludeBoxed ares → ¬ Boxed r ∨ SameKey r (AnyEvent t)) := by
  obtain ⟨hm, hc⟩ := lookup_sound T ares t fuel r inx h
  rw [inexactTarget_eq] at hc
  refine ⟨hm, ?_⟩
  rcases hc with ⟨hc, he⟩ | ⟨he, hf, _⟩
  · have hcand := (candidate_any ares r t).1 ((considered_iff _ _ _).1 hc)
    exact ⟨Or.inl (by rw [he]), hcand.direction, hcand.filter, fun hx => Or.inl (hcand.notBoxed hx)⟩
  · have hs : SameKey r (AnyEvent t) := (C01_eq_iff r (AnyEvent t) (hwf r hm) ht).1 he
    have hd : DirectionOK r t := by
      have k10 : r.flags.getLsbD 10 = t.flags.getLsbD 10 := by
        have := hs.keyFlags 10 (by decide)
        simpa [AnyEvent, BitVec.getLsbD_twoPow] using this
      have k11 : r.flags.getLsbD 11 = t.flags.getLsbD 11 := by
        have := hs.keyFlags 11 (by decide)
        simpa [AnyEvent, BitVec.getLsbD_twoPow] using this
      rcases hdir with h | h
      · exact Or.inl ⟨by rw [k10, h], h⟩
      · exact Or.inr ⟨by rw [k11, h], h⟩
    have hfil : FilterOK ares r := by
      -- reuse the characterisation of the skip tests with a query and result word that skip nothing else
      have := (considered_iff (AnyEvent t) ares { r with flags := r.flags &&& ~~~RF.PENALTYBOXED })
      have hcc : considered (AnyEvent t) ares { r with flags := r.flags &&& ~~~RF.PENALTYBOXED } = true := by
        unfold considered
        have e1 : eventFilterOK ares { r with flags := r.flags &&& ~~~RF.PENALTYBOXED } = eventFilterOK ares r := rfl
        have e2 : (r.flags &&& ~~~RF.PENALTYBOXED).has RF.PENALTYBOXED = false := by
          unfold Flags.has
          have : r.flags &&& ~~~RF.PENALTYBOXED &&& RF.PENALTYBOXED = 0#32 := by
            rw [BitVec.and_assoc]
            have : ~~~RF.PENALTYBOXED &&& RF.PENALTYBOXED = 0#32 := by decide
            rw [this]; simp
          rw [this]; rfl
        have e3 : (r.flags &&& ~~~RF.PENALTYBOXED).has ((AnyEvent t).flags &&& (RF.DIRECTION_IN ||| RF.DIRECTION_OUT)) = true := by
          have hd' := hd
          unfold Flags.has
          rw [bne_iff_ne]
          intro hz
          have z10 := congrArg (fun x => BitVec.getLsbD x 10) hz
          have z11 := congrArg (fun x => BitVec.getLsbD x 11) hz
          have p10 : RF.PENALTYBOXED.getLsbD 10 = false := by decide
          have p11 : RF.PENALTYBOXED.getLsbD 11 = false := by decide
          have d10 : (RF.DIRECTION_IN ||| RF.DIRECTION_OUT).getLsbD 10 = true := by decide
          have d11 : (RF.DIRECTION_IN ||| RF.DIRECTION_OUT).getLsbD 11 = true := by decide
          simp only [BitVec.getLsbD_and, BitVec.getLsbD_not, p10, p11, d10, d11] at z10 z11
          rcases hd' with ⟨x, y⟩ | ⟨x, y⟩
          · rw [x] at z10
            simp [AnyEvent, BitVec.getLsbD_twoPow] at z10
            rw [BitVec.getLsbD_eq_getElem (by decide)] at y
            rw [z10] at y; cases y
          · rw [x] at z11
            simp [AnyEvent, BitVec.getLsbD_twoPow] at z11
            rw [BitVec.getLsbD_eq_getElem (by decide)] at y
            rw [z11] at y; cases y
        rw [e1, hf, e3, e2]
        cases ares <;> simp
      exact fun a e c x1 x2 x3 => (this.1 hcc).filter a e c x1 x2 x3
    exact ⟨Or.inr hs, hd, hfil, fun _ => Or.inr hs⟩

/-- C09: the rule an inexact lookup returns is in the table, agrees with the query on every field
neither side wildcards (addresses by prefix), covers its direction, and its event's filter accepts
the incoming results; and if penalty-boxed rules were to be left out it is not penalty-boxed, unless
its key is identical to the query (`C09_excluded_rule_returned` shows that this exception is
real). -/
theorem C09_sound_partial (T : RouteTable) (t r : Route) (ares : Option Flags) (fuel : Nat) (inx : Flags)
    (hwf : ∀ x ∈ T.ents, x.WF) (ht : t.WF) (hdir : t.flags.getLsbD 10 = true ∨ t.flags.getLsbD 11 = true)
    (h : lookup T t false ares fuel = some (.ok (r, inx))) (hb : NoBitmask r t)
    (h1 : min r.remote.bits t.remote.bits % 4 = 0) (h2 : min r.loc.bits t.loc.bits % 4 = 0) :
    r ∈ T.ents ∧ RuleMatches CidrMatch r (AnyEvent t) ∧ DirectionOK r t ∧ FilterOK ares r ∧
    (ExcludeBoxed ares → ¬ Boxed r ∨ SameKey r (AnyEvent t)) := by
  obtain ⟨hm, hc, hd, hf, hx⟩ := lookup_sound_core T t r ares fuel inx hwf ht hdir h
  have hb' : NoBitmask r (AnyEvent t) := by
    refine ⟨?_, ?_⟩
    · have := hb.1; simpa [wild, AnyEvent, BitVec.getLsbD_twoPow] using this
    · have := hb.2; simpa [wild, AnyEvent, BitVec.getLsbD_twoPow] using this
  refine ⟨hm, ?_, hd, hf, hx⟩
  rcases hc with hc | hs
  · exact (C08_match_iff r (AnyEvent t) (hwf r hm) ht hb' h1 h2).1 hc
  · refine ⟨Or.inl hs.family, Or.inr ?_, Or.inl hs.proto, Or.inl hs.localPort, Or.inr ?_, Or.inl hs.remotePort,
      Or.inl hs.remoteIface, Or.inl hs.localIface, Or.inl ⟨hs.prio, hs.label⟩⟩
    · unfold CidrMatch; rw [if_pos hs.remoteBits]; exact hs.remoteAddr
    · unfold CidrMatch; rw [if_pos hs.localBits]; exact hs.localAddr

/-- C09, for any kind of rule including bitmask addresses: what is returned is a rule of the
table that the matching comparison accepts (its meaning per field is C06-C08), or the rule whose key
is the query's. -/
theorem C09_returned_rule_in_table (T : RouteTable) (t r : Route) (exact : Bool) (ares : Option Flags) (fuel : Nat) (inx : Flags)
    (hT : SortedTable T.ents) (ht : t.WF)
    (h : lookup T t exact ares fuel = some (.ok (r, inx))) : r ∈ T.ents := by
  cases exact with
  | false => exact (lookup_sound T ares t fuel r inx h).1
  | true =>
    rcases (lookup_exact T ares hT t ht fuel _).1 h with ⟨x, hx, _, e⟩ | ⟨_, e⟩
    · cases e; exact hx
    · cases e

/-! Concrete rules. -/

/-- TCP from 10.0.0.0/8 to local port 22, inbound. -/
def ruleSsh (id : Nat) (f : Flags) : Route :=
  { id := id, family := 2, proto := 6,
    flags := RF.DIRECTION_IN ||| RF.SA_LOCAL_ADDR_WILDCARD ||| RF.SA_REMOTE_PORT_WILDCARD ||| RF.REMOTE_INTERFACE_WILDCARD |||
      RF.LOCAL_INTERFACE_WILDCARD ||| RF.PARENT_EVENT_WILDCARD ||| f,
    remote := { bits := 8, addr := [10#8] }, loc := { port := 22 } }
/-- Everything, any family. -/
def ruleAll (id : Nat) (f : Flags) : Route := { id := id, flags := RF.WILDCARD_FLAGS ||| RF.DIRECTION_IN ||| f }
/-- An inbound TCP packet from 10.1.2.3:4000 to 10.9.9.9:22. -/
def pktSsh : Route :=
  { family := 2, proto := 6, flags := RF.DIRECTION_IN,
    remote := { bits := 32, addr := [10#8, 1#8, 2#8, 3#8], port := 4000, iface := 1 },
    loc := { bits := 32, addr := [10#8, 9#8, 9#8, 9#8], port := 22, iface := 1 } }
/-- A rule with exactly the packet's fields. -/
def ruleExact (id : Nat) (f : Flags) : Route := { pktSsh with id := id, flags := f }

def tblDemo : RouteTable :=
  { ents := [ruleAll 1 0, ruleSsh 2 0], lastAfWildcard := some 1, highestPriority := 0 }

example : (lookup tblDemo pktSsh false (some 0) 9).map (fun x => x.toOption.map (fun y => y.1.id)) = some (some 2) := by decide
example : (lookup tblDemo { pktSsh with loc := { pktSsh.loc with port := 23 } } false (some 0) 9).map
    (fun x => x.toOption.map (fun y => y.1.id)) = some (some 1) := by decide

/-- C09 is false of the code for a rule whose key equals the query: with penalty-boxed rules
excluded, the short circuit returns a penalty-boxed one without looking at the flag
(src/routes.c:1738-1750). -/
theorem C09_excluded_rule_returned :
    let r := ruleExact 7 (RF.DIRECTION_IN ||| RF.PARENT_EVENT_WILDCARD ||| RF.PENALTYBOXED)
    let T : RouteTable := { ents := [r], highestPriority := 0 }
    ExcludeBoxed (some AR.EXCLUDE_REJECT_ROUTES) ∧ Boxed r ∧
    lookup T pktSsh false (some AR.EXCLUDE_REJECT_ROUTES) 5 = some (.ok (r, 0)) := by
  refine ⟨⟨_, rfl, by decide, by decide⟩, by unfold Boxed; decide, by decide⟩

/-! ## C10 — completeness -/

/-- C10 for fully specified queries and prefix rules of the query's own family, stored the way
insertion leaves them: whenever the lookup returns, it returns a rule whose effective priority is at
least as good (numerically not larger) as that of *any* matching candidate rule of the table.
What is missing from the full claim, with a counterexample for each: rules all of whose fields
equal the query (`C10_misses_equal_fields`), rules with a wildcard family
(`C10_misses_wildcard_family_rule`), queries with wildcards (`C10_misses_mid_table_family`), and
termination (`C10_diverges`). -/
theorem C10_full_query_partial (T : RouteTable) (t r : Route) (ares : Option Flags) (fuel : Nat)
    (res : Except Err (Route × Flags)) (hT : SortedTable T.ents)
    (hprio : ∀ x ∈ T.ents, T.highestPriority ≤ priority x)
    (ht : t.WF) (hfs : FullySpecified t)
    (hr : r ∈ T.ents) (hmask : r.flags.getLsbD 12 = false ∧ r.flags.getLsbD 13 = false)
    (hc : Candidate ares r t) (hm : RuleMatches CidrMatch r (AnyEvent t))
    (h1 : r.remote.bits % 4 = 0) (h2 : r.loc.bits % 4 = 0)
    (hw : WildZero r) (hp1 : PadZero r.remote) (hp2 : PadZero r.loc)
    (hb1 : r.remote.bits ≤ t.remote.bits) (hb2 : r.loc.bits ≤ t.loc.bits)
    (hf : r.family = t.family) (hne : ¬ FieldsEqual r t)
    (h : lookup T t false ares fuel = some res) :
    ∃ b inx, res = .ok (b, inx) ∧ priority b ≤ priority r := by
  have hm' : RuleMatches CodeCidrMatch r (AnyEvent t) := by
    obtain ⟨a, b, c, d, e, f, g, h, i⟩ := hm
    have m1 : min r.remote.bits t.remote.bits = r.remote.bits := Nat.min_eq_left hb1
    have m2 : min r.loc.bits t.loc.bits = r.loc.bits := Nat.min_eq_left hb2
    refine ⟨a, ?_, c, d, ?_, f, g, h, i⟩
    · rcases b with b | b
      · exact Or.inl b
      · exact Or.inr ((codeCidr_eq r.remote t.remote (by rw [m1]; omega)).2 b)
    · rcases e with e | e
      · exact Or.inl e
      · exact Or.inr ((codeCidr_eq r.loc t.loc (by rw [m2]; omega)).2 e)
  have hb' : NoBitmask r (AnyEvent t) := by
    have a := hfs.2.1; have b := hfs.2.2
    have e12 : (AnyEvent t).flags.getLsbD 12 = false := by
      simp only [AnyEvent, BitVec.getLsbD_or, a, BitVec.getLsbD_twoPow]; decide
    have e13 : (AnyEvent t).flags.getLsbD 13 = false := by
      simp only [AnyEvent, BitVec.getLsbD_or, b, BitVec.getLsbD_twoPow]; decide
    exact ⟨by simp only [wild, hmask.1, e12]; decide, by simp only [wild, hmask.2, e13]; decide⟩
  obtain ⟨k, hk⟩ := List.mem_iff_getElem?.1 hr
  have := lookup_contiguous T ares hT (fun x hx => by rw [effPriority_eq]; exact hprio x hx) t ht
    (contiguous_fully t hfs) k r hk
    (by rw [inexactTarget_eq, considered_iff, candidate_any]; exact hc)
    (by rw [inexactTarget_eq]; exact (routeKeyCmp1_match r (AnyEvent t) (hT.wf r hr) ht hb').1.2 hm') hf
    (Or.inr (rule_before_query r t (hT.wf r hr) ht hfs hw hp1 hp2 hb1 hb2 hm' hne)) fuel res h
  obtain ⟨b, i, e, hle⟩ := this
  exact ⟨b, i, e, by rw [← effPriority_eq, ← effPriority_eq]; exact hle⟩

/-- C10 for families with bitmask rules: any candidate rule of the query's family that the matching
comparison accepts — whatever its addresses — bounds the priority of the result. -/
theorem C10_bitmask_family_partial (T : RouteTable) (t r : Route) (ares : Option Flags) (fuel : Nat)
    (res : Except Err (Route × Flags)) (hT : SortedTable T.ents)
    (hprio : ∀ x ∈ T.ents, T.highestPriority ≤ priority x)
    (ht : t.WF) (hfs : FullySpecified t)
    (hbm : ∃ n, (t.family, n) ∈ T.bitmaskAfs)
    (hr : r ∈ T.ents) (hc : Candidate ares r t) (hm : (routeKeyCmp1 r (AnyEvent t) true).1 = .eq)
    (hf : r.family = t.family) (h : lookup T t false ares fuel = some res) :
    ∃ b inx, res = .ok (b, inx) ∧ priority b ≤ priority r := by
  obtain ⟨k, hk⟩ := List.mem_iff_getElem?.1 hr
  obtain ⟨n, hn⟩ := hbm
  have := lookup_contiguous T ares hT (fun x hx => by rw [effPriority_eq]; exact hprio x hx) t ht
    (contiguous_fully t hfs) k r hk
    (by rw [inexactTarget_eq, considered_iff, candidate_any]; exact hc)
    (by rw [inexactTarget_eq]; exact hm) hf
    (Or.inl (by unfold isBitmaskMatching; rw [List.any_eq_true]; exact ⟨_, hn, by simp⟩)) fuel res h
  obtain ⟨b, i, e, hle⟩ := this
  exact ⟨b, i, e, by rw [← effPriority_eq, ← effPriority_eq]; exact hle⟩

/-- C10 for queries that wildcard the family (and whose wildcards are not a suffix of the sort
order): the whole table is scanned, the lookup ends, and the result's priority is at least as good
as that of every matching candidate. -/
theorem C10_any_family_query_partial (T : RouteTable) (t r : Route) (ares : Option Flags) (fuel : Nat)
    (hfuel : T.ents.length < fuel) (hwf : ∀ x ∈ T.ents, x.WF) (ht : t.WF)
    (hfam : t.flags.getLsbD 0 = true) (hhole : ∃ k, k < 8 ∧ t.flags.getLsbD k = false)
    (hr : r ∈ T.ents) (hb : NoBitmask r t) (hc : Candidate ares r t)
    (hm : RuleMatches CidrMatch r (AnyEvent t))
    (h1 : min r.remote.bits t.remote.bits % 4 = 0) (h2 : min r.loc.bits t.loc.bits % 4 = 0) :
    ∃ b inx, lookup T t false ares fuel = some (.ok (b, inx)) ∧ priority b ≤ priority r := by
  have hb' : NoBitmask r (AnyEvent t) := by
    refine ⟨?_, ?_⟩
    · have := hb.1; simpa [wild, AnyEvent, BitVec.getLsbD_twoPow] using this
    · have := hb.2; simpa [wild, AnyEvent, BitVec.getLsbD_twoPow] using this
  have hw : (inexactTarget t).flags.has RF.SA_FAMILY_WILDCARD = true := by
    rw [show RF.SA_FAMILY_WILDCARD = bit 0 from rfl, Flags.has_bit _ _ (by decide)]
    simp [inexactTarget, BitVec.getLsbD_or, hfam]
  have hcs : contiguousSearch (inexactTarget t) = false := by
    obtain ⟨k, hk, hkf⟩ := hhole
    unfold contiguousSearch
    simp only
    have hm8 : RF.WILDCARD_FLAGS = 255#32 := by decide
    have hk' : (inexactTarget t).flags.getLsbD k = false := by
      simp only [inexactTarget, RF.PARENT_EVENT_WILDCARD, bit, BitVec.getLsbD_or, hkf, Bool.false_or, BitVec.getLsbD_twoPow]
      have : ¬ 8 = k := by omega
      simp [this]
    have h0' : (inexactTarget t).flags.getLsbD 0 = true := by
      simp [inexactTarget, BitVec.getLsbD_or, hfam]
    generalize (inexactTarget t).flags = f at hk' h0'
    -- only the low byte matters
    have key : ∀ b : BitVec 8, b.getLsbD 0 = true → b.getLsbD k = false →
        (((~~~b).setWidth 32 + 1) &&& (~~~b).setWidth 32 == 0#32) = false := by
      have hk8 : k = 0 ∨ k = 1 ∨ k = 2 ∨ k = 3 ∨ k = 4 ∨ k = 5 ∨ k = 6 ∨ k = 7 := by omega
      rcases hk8 with rfl | rfl | rfl | rfl | rfl | rfl | rfl | rfl <;> decide
    have hlow : ~~~f &&& RF.WILDCARD_FLAGS = (~~~(f.setWidth 8)).setWidth 32 := by
      rw [hm8]
      apply BitVec.eq_of_getLsbD_eq
      intro i hi
      have : (255#32).getLsbD i = decide (i < 8) := by
        rw [show (255#32) = BitVec.ofNat 32 (2 ^ 8 - 1) from rfl, BitVec.getLsbD_ofNat, Nat.testBit_two_pow_sub_one]; simp [hi]
      simp only [BitVec.getLsbD_and, BitVec.getLsbD_not, BitVec.getLsbD_setWidth, this]
      by_cases h8 : i < 8 <;> simp [h8, hi]
    rw [hlow]
    exact key (f.setWidth 8) (by simp [BitVec.getLsbD_setWidth, h0']) (by simp [BitVec.getLsbD_setWidth, hk'])
  obtain ⟨res, e, b, i, rfl, hle⟩ := lookup_noncontiguous_wild T ares t hcs hw r hr
    (by rw [inexactTarget_eq, considered_iff, candidate_any]; exact hc)
    (by rw [inexactTarget_eq]; exact (C08_match_iff r (AnyEvent t) (hwf r hr) ht hb' h1 h2).2 hm) fuel hfuel
  exact ⟨b, i, e, by rw [← effPriority_eq, ← effPriority_eq]; exact hle⟩

/-- C10: lookups end when no rule has a wildcard family, or the one the table remembers is the first
rule of the table. -/
theorem C10_terminates_partial (T : RouteTable) (t : Route) (exact : Bool) (ares : Option Flags) (fuel : Nat)
    (hlast : T.lastAfWildcard = none ∨ ∃ r, T.ents.head? = some r ∧ T.lastAfWildcard = some r.id)
    (hfuel : T.ents.length + 1 < fuel) : ∃ res, lookup T t exact ares fuel = some res := by
  apply lookup_terminates T ares _ t exact fuel hfuel
  rcases hlast with h | ⟨r, h, h'⟩
  · rw [h]; exact Or.inl rfl
  · right
    rw [h']
    cases he : T.ents with
    | nil => rw [he] at h; cases h
    | cons a l =>
      rw [he] at h; cases h
      simp [RouteTable.indexOf, he, List.findIdx?_cons]

example : SortedTable tblDemo.ents ∧ (∀ x ∈ tblDemo.ents, tblDemo.highestPriority ≤ priority x) ∧ FullySpecified pktSsh ∧
    Candidate (some 0) (ruleSsh 2 0) pktSsh ∧ RuleMatches CidrMatch (ruleSsh 2 0) (AnyEvent pktSsh) ∧
    WildZero (ruleSsh 2 0) ∧ ¬ FieldsEqual (ruleSsh 2 0) pktSsh := by
  refine ⟨⟨by decide, by decide⟩, by decide, by unfold FullySpecified; decide, ?_, ?_, ?_, ?_⟩
  · exact (considered_iff _ _ _).1 (by decide)
  · exact (C08_match_iff _ _ (by decide) (by decide) (by unfold NoBitmask; decide) (by decide) (by decide)).1 (by decide)
  · constructor <;> decide
  · intro h; exact absurd h.remoteBits (by decide)

/-- C10 is false of the code: two inbound-capable rules with exactly the packet's fields; the first
covers only the outbound direction, the second covers both.  The search starts at the first and goes
backward, so the matching one is never visited. -/
theorem C10_misses_equal_fields :
    let r1 := ruleExact 1 (RF.DIRECTION_OUT ||| RF.PARENT_EVENT_WILDCARD)
    let r2 := ruleExact 2 (RF.DIRECTION_IN ||| RF.DIRECTION_OUT ||| RF.PARENT_EVENT_WILDCARD)
    let T : RouteTable := { ents := [r1, r2], highestPriority := 0 }
    SortedTable T.ents ∧ Candidate (some 0) r2 pktSsh ∧ RuleMatches CidrMatch r2 (AnyEvent pktSsh) ∧
    lookup T pktSsh false (some 0) 9 = some (.error .itemNotFound) := by
  refine ⟨⟨by decide, by decide⟩, (considered_iff _ _ _).1 (by decide), ?_, by decide⟩
  exact (C08_match_iff _ _ (by decide) (by decide) (by unfold NoBitmask; decide) (by decide) (by decide)).1 (by decide)

/-- C10 is false of the code: a rule with a wildcard family is only reachable through the
table's single pointer to "the last" such rule, which insertion keeps at the *first* one
(src/routes.c:1328-1333).  Here an outbound and an inbound catch-all are in the table and the inbound
packet finds neither. -/
theorem C10_misses_wildcard_family_rule :
    let r1 := ruleAll 1 RF.PARENT_EVENT_WILDCARD
    let r2 : Route := { ruleAll 2 0 with flags := RF.WILDCARD_FLAGS ||| RF.PARENT_EVENT_WILDCARD ||| RF.DIRECTION_OUT }
    let T : RouteTable := { ents := [r1, r2], lastAfWildcard := some 1, highestPriority := 0 }
    let q := { pktSsh with flags := RF.DIRECTION_OUT }
    SortedTable T.ents ∧ Candidate (some 0) r2 q ∧ RuleMatches CidrMatch r2 (AnyEvent q) ∧
    lookup T q false (some 0) 9 = some (.error .itemNotFound) := by
  refine ⟨⟨by decide, by decide⟩, (considered_iff _ _ _).1 (by decide), ?_, by decide⟩
  exact (C08_match_iff _ _ (by decide) (by decide) (by unfold NoBitmask; decide) (by decide) (by decide)).1 (by decide)

/-- C10 is false of the code: a query with a wildcard in a middle field starts at the end of the
table and gives up when the last two rules belong to another family. -/
theorem C10_misses_mid_table_family :
    let r1 := ruleSsh 1 0
    let r2 := { ruleSsh 2 0 with family := 10 }
    let r3 := { ruleSsh 3 0 with family := 10, proto := 17 }
    let T : RouteTable := { ents := [r1, r2, r3], highestPriority := 0 }
    let q := { pktSsh with flags := RF.DIRECTION_IN ||| RF.SA_LOCAL_PORT_WILDCARD }
    SortedTable T.ents ∧ Candidate (some 0) r1 q ∧ RuleMatches CidrMatch r1 (AnyEvent q) ∧
    lookup T q false (some 0) 9 = some (.error .itemNotFound) := by
  refine ⟨⟨by decide, by decide⟩, (considered_iff _ _ _).1 (by decide), ?_, by decide⟩
  exact (C08_match_iff _ _ (by decide) (by decide) (by unfold NoBitmask; decide) (by decide) (by decide)).1 (by decide)

/-- A rule for family 0 (`AF_UNSPEC`) without the wildcard flag. -/
def ruleUnspec (id : Nat) : Route :=
  { id := id, flags := RF.DIRECTION_IN ||| RF.SA_REMOTE_ADDR_WILDCARD ||| RF.SA_LOCAL_ADDR_WILDCARD }
/-- A table in which the remembered wildcard rule is not the first. -/
def tblLoop : RouteTable :=
  { ents := [ruleUnspec 1, ruleAll 2 0, ruleSsh 3 0], lastAfWildcard := some 2, highestPriority := 0 }
/-- A packet of family 2 that matches no rule of its family. -/
def pktOther : Route := { pktSsh with remote := { pktSsh.remote with addr := [11#8, 1#8, 2#8, 3#8] } }

/-- C10: the lookup need not end.  With any rule sorted before the remembered wildcard rule, a
packet whose family is present but unmatched makes the scan jump back to that rule for ever
(src/routes.c:1797-1807). -/
theorem C10_diverges : SortedTable tblLoop.ents ∧ ∀ fuel, lookup tblLoop pktOther false (some 0) fuel = none := by
  refine ⟨⟨by decide, by decide⟩, ?_⟩
  let best := improve (inexactTarget pktOther) none (ruleAll 2 0)
  have loop : ∀ fuel, scan tblLoop (inexactTarget pktOther) (some 0) true false (some 1) fuel (some 0) true best = none := by
    intro fuel
    induction fuel with
    | zero => rfl
    | succ n ih =>
      have : scan tblLoop (inexactTarget pktOther) (some 0) true false (some 1) (n + 1) (some 0) true best =
          scan tblLoop (inexactTarget pktOther) (some 0) true false (some 1) n (some 0) true best := rfl
      rw [this]; exact ih
  intro fuel
  match fuel with
  | 0 => rfl
  | 1 => rfl
  | n + 2 =>
    have h1 : lookup tblLoop pktOther false (some 0) (n + 2) =
        (match scan tblLoop (inexactTarget pktOther) (some 0) true false (some 1) n (some 0) true best with
        | none => none
        | some none => some (.error .itemNotFound)
        | some (some r) => some (.ok r)) := rfl
    rw [h1, loop n]

/-! ## C11 — exact lookup -/

/-- C11: an exact lookup returns a rule exactly when a rule with that key is in the table — it is
that rule — and fails with `ITEM_NOT_FOUND` otherwise. -/
theorem C11_exact_iff (T : RouteTable) (t r : Route) (ares : Option Flags) (fuel : Nat) (inx : Flags)
    (hT : SortedTable T.ents) (ht : t.WF) :
    lookup T t true ares fuel = some (.ok (r, inx)) ↔ r ∈ T.ents ∧ SameKey r t ∧ inx = 0 := by
  rw [lookup_exact T ares hT t ht]
  constructor
  · rintro (⟨x, hx, he, e⟩ | ⟨_, e⟩)
    · cases e; exact ⟨hx, (C01_eq_iff _ _ (hT.wf _ hx) ht).1 he, rfl⟩
    · cases e
  · rintro ⟨hx, hs, rfl⟩
    exact Or.inl ⟨r, hx, (C01_eq_iff _ _ (hT.wf _ hx) ht).2 hs, rfl⟩

/-- C11: an exact lookup of an absent key fails with `ITEM_NOT_FOUND`. -/
theorem C11_exact_absent (T : RouteTable) (t : Route) (ares : Option Flags) (fuel : Nat)
    (hT : SortedTable T.ents) (ht : t.WF) :
    lookup T t true ares fuel = some (.error .itemNotFound) ↔ ∀ r ∈ T.ents, ¬ SameKey r t := by
  rw [lookup_exact T ares hT t ht]
  constructor
  · rintro (⟨x, hx, he, e⟩ | ⟨hn, _⟩)
    · cases e
    · intro r hr hs; exact hn r hr ((C01_eq_iff _ _ (hT.wf _ hr) ht).2 hs)
  · intro hn
    exact Or.inr ⟨fun r hr he => hn r hr ((C01_eq_iff _ _ (hT.wf _ hr) ht).1 he), rfl⟩

/-- C11: a rule's own key finds exactly that rule. -/
theorem C11_own_key (T : RouteTable) (r : Route) (ares : Option Flags) (fuel : Nat)
    (hT : SortedTable T.ents) (hr : r ∈ T.ents) : lookup T r true ares fuel = some (.ok (r, 0)) :=
  (C11_exact_iff T r r ares fuel 0 hT (hT.wf r hr)).2
    ⟨hr, (C01_eq_iff r r (hT.wf r hr) (hT.wf r hr)).1 (by
      rw [routeKeyCmp_eq r r (hT.wf r hr) (hT.wf r hr)]; exact Std.ReflCmp.compare_self), rfl⟩

example : SortedTable tblDemo.ents ∧ ruleSsh 2 0 ∈ tblDemo.ents := ⟨⟨by decide, by decide⟩, by decide⟩

end WS.Props
