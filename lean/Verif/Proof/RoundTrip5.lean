import Verif.Proof.RoundTrip4
/-
Auxiliary lemmas for C57: the meaning of the object of an exported rule.
-/
namespace WS.RoundTrip
open WS WS.Sax WS.Conf WS.Spec WS.Spec.Load WS.Spec.RoundTrip

variable {α : Type}

theorem members_nil {R : List Byte → J → RouteUC → RouteUC → Prop} {x y : RouteUC} (h : Members R [] x y) : x = y := by
  cases h; rfl

theorem obj_remote {E : Env α} {es : List Entry} {x y : RouteUC} (h : Members (EndpointMember E .remote) (es.map Entry.pair) x y) :
    Members (RuleMember E) ((objEntry "remote" es).map Entry.pair) x y := by
  unfold objEntry
  split
  · rename_i he
    have : es = [] := List.map_eq_nil_iff.1 he
    subst this
    rw [members_nil h]
    exact .nil _
  · exact members_one (k := "remote") (by decide) (by decide) (.remote h)

theorem obj_local {E : Env α} {es : List Entry} {x y : RouteUC} (h : Members (EndpointMember E .local) (es.map Entry.pair) x y) :
    Members (RuleMember E) ((objEntry "local" es).map Entry.pair) x y := by
  unfold objEntry
  split
  · rename_i he
    have : es = [] := List.map_eq_nil_iff.1 he
    subst this
    rw [members_nil h]
    exact .nil _
  · exact members_one (k := "local") (by decide) (by decide) (.local h)

/-! ### Flags -/

/-- Copying flags one by one. -/
def copyFlags (src : Flags) (ps : List (Nat × String)) (f : Flags) : Flags :=
  ps.foldl (fun f p => setFlag (src.getLsbD p.1) f (bit p.1)) f

theorem copyFlags_bit (src : Flags) (i : Nat) : ∀ (ps : List (Nat × String)) (f : Flags), (∀ p ∈ ps, p.1 < 32) →
    (copyFlags src ps f).getLsbD i = if i ∈ ps.map (·.1) then src.getLsbD i else f.getLsbD i
  | [], f, _ => by simp [copyFlags]
  | p :: ps, f, h => by
    have ih := copyFlags_bit src i ps (setFlag (src.getLsbD p.1) f (bit p.1)) (fun x hx => h x (by simp [hx]))
    show (copyFlags src ps (setFlag (src.getLsbD p.1) f (bit p.1))).getLsbD i = _
    rw [ih, setFlag_bit _ _ _ _ (h p (by simp))]
    by_cases h1 : i ∈ ps.map (·.1)
    · simp [h1]
    · by_cases h2 : i = p.1
      · subst h2; simp [h1]
      · simp [h1, h2]

theorem flags_read {E : Env α} (r : Route) : ∀ (ps : List (Nat × String)) (x : RouteUC), (∀ p ∈ ps, p ∈ flagTable) →
    Members (RuleMember E) ((ps.map (flagEntry r)).map Entry.pair) x { x with flags := copyFlags r.flags ps x.flags }
  | [], x, _ => .nil _
  | p :: ps, x, h => by
    obtain ⟨_, h2, h3, _, h5⟩ := flagTable_good p (h p (by simp))
    have h6 := members_one (k := p.2) h2 h3 (RuleMember.flag (E := E) (b := r.flags.getLsbD p.1) (r := x) h5)
    exact members_snoc' h6 (flags_read r ps { x with flags := setFlag (r.flags.getLsbD p.1) x.flags (bit p.1) } fun q hq => h q (by simp [hq]))

/-- The bits that are copied by name. -/
abbrev namedBits : List Nat := [0, 1, 5, 4, 3, 6, 7, 9, 10, 11, 20, 21, 22, 23, 24]

theorem given_bit (f : Flags) (i : Nat) (hi : i < 32) : (givenFlags f).getLsbD i =
    if i ∈ namedBits ∨ i = 2 then f.getLsbD i else if i = 12 then !f.getLsbD 1 && f.getLsbD 12
    else if i = 13 then !f.getLsbD 4 && f.getLsbD 13 else false := by
  have hm : ∀ k < 32, (0x1f03eff#32 : Flags).getLsbD k = (decide (k ∈ namedBits ∨ k = 2) || (decide (k = 12) || decide (k = 13))) := by decide
  have h12 : ∀ k < 32, (0x1000#32 : Flags).getLsbD k = decide (k = 12) := by decide
  have h13 : ∀ k < 32, (0x2000#32 : Flags).getLsbD k = decide (k = 13) := by decide
  have hf1 : (f &&& 0x1f03eff#32).getLsbD 1 = f.getLsbD 1 := by rw [BitVec.getLsbD_and, hm 1 (by decide)]; simp
  have hf4 : ∀ g : Flags, (g = f &&& 0x1f03eff#32 ∨ g = f &&& 0x1f03eff#32 &&& ~~~0x1000#32) → g.getLsbD 4 = f.getLsbD 4 := by
    rintro g (rfl | rfl)
    · rw [BitVec.getLsbD_and, hm 4 (by decide)]; simp
    · rw [BitVec.getLsbD_and, BitVec.getLsbD_and, hm 4 (by decide), BitVec.getLsbD_not, h12 4 (by decide)]; simp
  have hx : ∀ (p : Prop) [Decidable p] (g g' : Flags), (if p then g else g').getLsbD i = if p then g.getLsbD i else g'.getLsbD i := by
    intro p _ g g'; split <;> rfl
  unfold givenFlags
  simp only [hf1]
  cases h1 : f.getLsbD 1 <;> cases h4 : f.getLsbD 4 <;>
    simp only [if_true, Bool.false_eq_true, if_false, hf4 _ (Or.inl rfl), hf4 _ (Or.inr rfl), h4, BitVec.getLsbD_and, BitVec.getLsbD_not, hm i hi, h12 i hi,
      h13 i hi, hi, decide_true, Bool.true_and, Bool.not_true, Bool.not_false, Bool.false_and] <;>
    (by_cases b : i = 12
     · subst b; simp [namedBits]
     · by_cases c : i = 13
       · subst c; simp [namedBits]
       · by_cases a : i ∈ namedBits ∨ i = 2 <;> simp only [a, b, c, decide_true, decide_false, Bool.true_or, Bool.and_true, Bool.not_false, if_true, if_false,
           Bool.or_false, Bool.and_false, Bool.false_and])

theorem wild_bit : ∀ i < 32, RF.WILDCARD_FLAGS.getLsbD i = decide (i < 8) := by decide

/-! ### The rule -/

theorem uint16_decimal {n : Nat} (h : n < 65536) : UInt 16 8 (.num (decimal n) comma) n :=
  uint_decimal (k := 5) (by omega) (by omega) (by omega) (by omega) (by omega) comma

theorem family_reads {F : FmtEnv} {E : Env α} (hb : ReadsBack F E) {r : Route} (hs : r.family < 65536) (numeric : Bool) (x : RouteUC) :
    RuleMember E (ascii "family") (familyTree F r numeric) x (withFamily x r.family) := by
  unfold familyTree
  cases h : (if numeric then none else F.famName r.family) with
  | none => exact .family (uint16_decimal hs)
  | some nm =>
    have : F.famName r.family = some nm := by
      cases numeric with
      | true => simp at h
      | false => simpa using h
    exact .familyName (hb.family _ _ this).2.2

theorem proto_reads {F : FmtEnv} {E : Env α} (hb : ReadsBack F E) {r : Route} (hs : r.proto < 65536) (numeric : Bool) (x : RouteUC)
    (hx : x.remote.family = r.family) : RuleMember E (ascii "protocol") (protoTree F r numeric) x (withProto x r.proto) := by
  unfold protoTree
  cases numeric with
  | true => exact .protocol (uint16_decimal hs)
  | false =>
    simp only [Bool.false_eq_true, if_false]
    split
    · rename_i hf
      cases h : F.proto r.proto with
      | found nm =>
        obtain ⟨_, h2, h3⟩ := hb.proto _ _ h
        have := RuleMember.protocolName (E := E) (s := nm) (after := quote) (n := r.proto) (r := x)
          (by rw [hx]; rcases hf with h | h <;> rw [h] <;> decide) h2 h3
        rwa [Nat.mod_eq_of_lt hs] at this
      | unknown => exact .protocol (uint16_decimal hs)
      | error => exact .protocol (uint16_decimal hs)
    · exact .protocol (uint16_decimal hs)

/-- What the loader has after reading the object of an exported rule. -/
theorem rule_reads {F : FmtEnv} {E : Env α} (hb : ReadsBack F E) {r : Route} (hr : Reloadable F E r) (hs : Sizes r) {numeric : Bool}
    {at_ : List Byte → Nat → List Byte} (ht : ∀ p, p ∈ renderedAddrs r → AddrText F r.family p.1 p.2 (at_ p.1 p.2))
    (w1 : r.flags.getLsbD 0 = true → r.flags.getLsbD 1 = true ∧ r.flags.getLsbD 4 = true ∧ r.flags.getLsbD 2 = true)
    (w2 : r.flags.getLsbD 2 = true → r.flags.getLsbD 3 = true ∧ r.flags.getLsbD 5 = true) :
    ∃ rem loc, Members (RuleMember E) ((ruleEntries F r numeric at_).map Entry.pair) anyRule
        { label := labelOf r, remote := rem, loc := loc, flags := givenFlags r.flags } ∧
      Holds r r.remote 1 5 6 { family := if r.flags.getLsbD 0 then 0 else r.family, proto := if r.flags.getLsbD 2 then 0 else r.proto } rem ∧
      Holds r r.loc 4 3 7 { family := if r.flags.getLsbD 0 then 0 else r.family, proto := if r.flags.getLsbD 2 then 0 else r.proto } loc := by
  -- the parent event
  have g1 : Members (RuleMember E) ((parentEntry r).map Entry.pair) anyRule { anyRule with label := labelOf r } := by
    unfold parentEntry labelOf
    cases hev : r.event with
    | none => exact .nil _
    | some ev =>
      have := RuleMember.parent (E := E) (v := .str ev.label quote) (r := anyRule) (.str _ _) (hr.label ev hev).2
      have e : setFlag false anyRule.flags RF.PARENT_EVENT_WILDCARD = anyRule.flags := by decide
      rw [e] at this
      exact members_one (k := "parent-event") (by decide) (by decide) this
  -- the flags
  have g2 := flags_read (E := E) r flagTable { anyRule with label := labelOf r } (fun p hp => hp)
  generalize hF1 : copyFlags r.flags flagTable anyRule.flags = F1 at g2
  have b1 : ∀ i < 32, F1.getLsbD i = if i ∈ namedBits then r.flags.getLsbD i else decide (i < 8) := by
    intro i hi
    rw [← hF1, copyFlags_bit _ _ _ _ (fun p hp => (flagTable_good p hp).2.2.2.1)]
    have : flagTable.map (·.1) = namedBits := by decide
    rw [this, ← wild_bit i hi]
    rfl
  -- the family
  have g3 : Members (RuleMember E) ((if r.flags.getLsbD 0 then [] else [Entry.mk "family" (familyText F r numeric) (familyTree F r numeric)]).map Entry.pair)
      { label := labelOf r, flags := F1 }
      { label := labelOf r, flags := F1, remote := { family := if r.flags.getLsbD 0 then 0 else r.family }, loc := { family := if r.flags.getLsbD 0 then 0 else r.family } } := by
    cases h0 : r.flags.getLsbD 0 with
    | true => exact .nil _
    | false =>
      have := family_reads hb hs.family numeric { label := labelOf r, flags := F1 }
      have e : setFlag false F1 RF.SA_FAMILY_WILDCARD = F1 := setFlag_same (by decide) (by rw [b1 0 (by decide), if_pos (by decide)]; exact h0)
      simp only [withFamily, e] at this
      exact members_one (k := "family") (by decide) (by decide) this
  -- the protocol
  have g4 : Members (RuleMember E) ((if r.flags.getLsbD 2 then [] else [Entry.mk "protocol" (protoText F r numeric) (protoTree F r numeric)]).map Entry.pair)
      { label := labelOf r, flags := F1, remote := { family := if r.flags.getLsbD 0 then 0 else r.family }, loc := { family := if r.flags.getLsbD 0 then 0 else r.family } }
      { label := labelOf r, flags := setFlag (r.flags.getLsbD 2) F1 (bit 2),
        remote := { family := if r.flags.getLsbD 0 then 0 else r.family, proto := if r.flags.getLsbD 2 then 0 else r.proto },
        loc := { family := if r.flags.getLsbD 0 then 0 else r.family, proto := if r.flags.getLsbD 2 then 0 else r.proto } } := by
    cases h2 : r.flags.getLsbD 2 with
    | true =>
      have e : setFlag true F1 (bit 2) = F1 := setFlag_same (by decide) (by rw [b1 2 (by decide), if_neg (by decide)]; rfl)
      simp only [e, if_true, List.map_nil]
      exact .nil _
    | false =>
      have h0 : r.flags.getLsbD 0 = false := by
        cases h : r.flags.getLsbD 0 with
        | false => rfl
        | true => rw [(w1 h).2.2] at h2; cases h2
      rw [h0]
      simp only [Bool.false_eq_true, if_false]
      have := proto_reads hb hs.proto numeric { label := labelOf r, flags := F1, remote := { family := r.family }, loc := { family := r.family } } rfl
      have hw : withProto { label := labelOf r, flags := F1, remote := { family := r.family }, loc := { family := r.family } } r.proto =
          { label := labelOf r, flags := setFlag false F1 (bit 2), remote := { family := r.family, proto := r.proto }, loc := { family := r.family, proto := r.proto } } := by
        unfold withProto
        congr 1
        split
        · rename_i hc
          show setFlag true (setFlag false F1 (bit 2)) (bit 9) = setFlag false F1 (bit 2)
          refine setFlag_same (by decide) ?_
          rw [setFlag_bit _ _ _ _ (by decide), if_neg (by decide), b1 9 (by decide)]
          have ht := hr.tcp h2 (by have := hc.1; simpa using this) (by have := hc.2; simpa using this)
          rw [if_pos (by decide)]; exact ht
        · rfl
      rw [hw] at this
      exact members_one (k := "protocol") (by decide) (by decide) this
  generalize hF2 : setFlag (r.flags.getLsbD 2) F1 (bit 2) = F2 at g4
  have b2 : ∀ i < 32, F2.getLsbD i = if i ∈ namedBits ∨ i = 2 then r.flags.getLsbD i else false := by
    intro i hi
    rw [← hF2, setFlag_bit _ _ _ _ (by decide), b1 i hi]
    by_cases h2 : i = 2
    · subst h2; simp
    · by_cases h3 : i ∈ namedBits
      · simp [h2, h3]
      · have : ¬ i < 8 := by
          intro h8
          have hh : i = 0 ∨ i = 1 ∨ i = 2 ∨ i = 3 ∨ i = 4 ∨ i = 5 ∨ i = 6 ∨ i = 7 := by omega
          rcases hh with rfl | rfl | rfl | rfl | rfl | rfl | rfl | rfl <;> first | exact h2 rfl | exact h3 (by decide)
        simp [h2, h3, this]
  generalize hf : (if r.flags.getLsbD 0 then 0 else r.family) = fam at g3 g4 ⊢
  generalize hp : (if r.flags.getLsbD 2 then 0 else r.proto) = pro at g4 ⊢
  have hfamA : ∀ k, (k = 1 ∨ k = 4) → r.flags.getLsbD k = false → fam = r.family := by
    intro k hk hkf
    rw [← hf]
    cases h : r.flags.getLsbD 0 with
    | false => rfl
    | true =>
      obtain ⟨u1, u2, _⟩ := w1 h
      rcases hk with rfl | rfl
      · rw [u1] at hkf; cases hkf
      · rw [u2] at hkf; cases hkf
  have hfamP : ∀ k, (k = 3 ∨ k = 5) → r.flags.getLsbD k = false → fam ≠ 0 := by
    intro k hk hkf
    have h0 : r.flags.getLsbD 0 = false := by
      cases h : r.flags.getLsbD 0 with
      | false => rfl
      | true =>
        obtain ⟨u1, u2⟩ := w2 (w1 h).2.2
        rcases hk with rfl | rfl
        · rw [u1] at hkf; cases hkf
        · rw [u2] at hkf; cases hkf
    rw [← hf, h0]
    exact hr.family h0
  -- the remote endpoint
  obtain ⟨rem, hrem, g5⟩ := end_reads (side := .remote) hb hr.remote (remote_text ht) quote comma hs.rbits hs.rport hs.riface
    { label := labelOf r, flags := F2, remote := { family := fam, proto := pro }, loc := { family := fam, proto := pro } }
    { family := fam, proto := pro } rfl rfl rfl rfl (by simp) (fun h => hfamA 1 (Or.inl rfl) h) (fun h => hfamP 5 (Or.inr rfl) h)
    (by show F2.getLsbD 1 = r.flags.getLsbD 1; rw [b2 1 (by decide), if_pos (by decide)])
    (by show F2.getLsbD 5 = r.flags.getLsbD 5; rw [b2 5 (by decide), if_pos (by decide)])
    (by show F2.getLsbD 6 = r.flags.getLsbD 6; rw [b2 6 (by decide), if_pos (by decide)])
    (by show F2.getLsbD 12 = false; rw [b2 12 (by decide), if_neg (by decide)])
  have g5' : Members (RuleMember E) ((objEntry "remote" (remEntries r at_)).map Entry.pair)
      { label := labelOf r, flags := F2, remote := { family := fam, proto := pro }, loc := { family := fam, proto := pro } }
      { label := labelOf r, flags := setFlag (!r.flags.getLsbD 1 && r.flags.getLsbD 12) F2 (bit 12), remote := rem, loc := { family := fam, proto := pro } } :=
    obj_remote g5
  generalize hF3 : setFlag (!r.flags.getLsbD 1 && r.flags.getLsbD 12) F2 (bit 12) = F3 at g5'
  have b3 : ∀ i < 32, F3.getLsbD i = if i = 12 then !r.flags.getLsbD 1 && r.flags.getLsbD 12 else if i ∈ namedBits ∨ i = 2 then r.flags.getLsbD i else false := by
    intro i hi
    rw [← hF3, setFlag_bit _ _ _ _ (by decide), b2 i hi]
  -- the local endpoint
  obtain ⟨loc, hloc, g6⟩ := end_reads (side := .local) hb hr.loc (local_text ht) quote comma hs.lbits hs.lport hs.liface
    { label := labelOf r, flags := F3, remote := rem, loc := { family := fam, proto := pro } }
    { family := fam, proto := pro } rfl rfl rfl rfl (by simp) (fun h => hfamA 4 (Or.inr rfl) h) (fun h => hfamP 3 (Or.inl rfl) h)
    (by show F3.getLsbD 4 = r.flags.getLsbD 4; rw [b3 4 (by decide), if_neg (by decide), if_pos (by decide)])
    (by show F3.getLsbD 3 = r.flags.getLsbD 3; rw [b3 3 (by decide), if_neg (by decide), if_pos (by decide)])
    (by show F3.getLsbD 7 = r.flags.getLsbD 7; rw [b3 7 (by decide), if_neg (by decide), if_pos (by decide)])
    (by show F3.getLsbD 13 = false; rw [b3 13 (by decide), if_neg (by decide), if_neg (by decide)])
  have g6' : Members (RuleMember E) ((objEntry "local" (locEntries r at_)).map Entry.pair)
      { label := labelOf r, flags := F3, remote := rem, loc := { family := fam, proto := pro } }
      { label := labelOf r, flags := setFlag (!r.flags.getLsbD 4 && r.flags.getLsbD 13) F3 (bit 13), remote := rem, loc := loc } :=
    obj_local g6
  have hF4 : setFlag (!r.flags.getLsbD 4 && r.flags.getLsbD 13) F3 (bit 13) = givenFlags r.flags := by
    apply BitVec.eq_of_getLsbD_eq
    intro i hi
    rw [setFlag_bit _ _ _ _ (by decide), b3 i hi, given_bit _ i hi]
    by_cases h : i = 13
    · subst h; simp [namedBits]
    · by_cases h' : i = 12
      · subst h'; simp [namedBits]
      · simp [h, h']
  rw [hF4] at g6'
  refine ⟨rem, loc, ?_, hrem, hloc⟩
  unfold ruleEntries
  simp only [List.map_append]
  refine members_snoc' (members_snoc' (members_snoc' (members_snoc' (members_snoc' g1 ?_) g3) g4) g5') g6'
  exact g2

end WS.RoundTrip
