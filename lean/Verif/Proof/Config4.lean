import Verif.Proof.Config3
/-
Loader proofs, part 4: rules.
-/
namespace WS.Conf
open WS WS.Sax WS.Time WS.ConfNum WS.Spec.Load WS.Spec.Conf

variable {α : Type}

theorem flagNames_unique : ∀ p ∈ flagNames, ∀ q ∈ flagNames, ascii p.2 = ascii q.2 → p = q := by decide

theorem flagName_ok {k : List Byte} {f : Flags} : flagAssocByName k = .ok f ↔ ∃ n, (f, n) ∈ flagNames ∧ k = ascii n := by
  unfold flagAssocByName
  constructor
  · intro h
    split at h
    · rename_i p hp
      injection h with h
      have h1 := List.find?_some hp
      have h2 := List.mem_of_find?_eq_some hp
      simp only [beq_iff_eq] at h1
      exact ⟨p.2, by rw [← h]; exact h2, h1.symm⟩
    · cases h
  · rintro ⟨n, h1, rfl⟩
    have : flagNames.find? (fun p => ascii p.2 == ascii n) = some (f, n) := by
      rcases hq : flagNames.find? (fun p => ascii p.2 == ascii n) with _ | q
      · have := List.find?_eq_none.1 hq _ h1
        simp at this
      · have h2 := List.find?_some hq
        have h3 := List.mem_of_find?_eq_some hq
        simp only [beq_iff_eq] at h2
        have h4 := flagNames_unique q h3 _ h1 h2
        rw [hq, h4]
    rw [this]

theorem scalar_iff {v : J} {t : List Byte} : Scalar v t ↔ restEvs v = [] ∧ t = (leafEv v).data := by
  constructor
  · intro h
    cases h with
    | bool b => cases b <;> exact ⟨rfl, rfl⟩
    | _ => exact ⟨rfl, rfl⟩
  · rintro ⟨h, rfl⟩
    cases v with
    | null => exact .null
    | bool b => cases b <;> exact .bool _
    | num => exact .num _ _
    | str => exact .str _ _
    | arr => exact absurd h (rest_arr _)
    | obj => exact absurd h (rest_obj _)

/-- The members of a rule that are not objects. -/
def RuleScalar (E : Env α) (k : List Byte) (v : J) (r r' : RouteUC) : Prop :=
  (k = ascii "parent-event" ∧ ∃ t, Scalar v t ∧ t.length ≤ 32 ∧ r' = { r with label := t, flags := setFlag false r.flags RF.PARENT_EVENT_WILDCARD }) ∨
  (k = ascii "family" ∧ ∃ n, ((∃ t after, v = .num t after ∧ UInt 16 8 v n) ∨ (∃ s after, v = .str s after ∧ E.famByName s = .ok n)) ∧
    r' = withFamily r n) ∨
  (k = ascii "protocol" ∧ ∃ n, ((∃ t after, v = .num t after ∧ UInt 16 8 v n) ∨
    (∃ s after m, v = .str s after ∧ r.remote.family ∈ [AF_INET, AF_INET6] ∧ s.length < 64 ∧ E.protoByName s = .found m ∧ n = m % 65536)) ∧
    r' = withProto r n) ∨
  (∃ f n b, (f, n) ∈ flagNames ∧ k = ascii n ∧ v = .bool b ∧ r' = { r with flags := setFlag b r.flags f })

theorem ruleMember_iff {E : Env α} {k : List Byte} {v : J} {r r' : RouteUC} : RuleMember E k v r r' ↔
    RuleScalar E k v r r' ∨ (k = ascii "remote" ∧ ∃ ms, v = .obj ms ∧ Members (EndpointMember E .remote) ms r r') ∨
    (k = ascii "local" ∧ ∃ ms, v = .obj ms ∧ Members (EndpointMember E .local) ms r r') := by
  constructor
  · intro h
    cases h with
    | parent h1 h2 => exact .inl (.inl ⟨rfl, _, h1, h2, rfl⟩)
    | family h => exact .inl (.inr (.inl ⟨rfl, _, .inl ⟨_, _, rfl, h⟩, rfl⟩))
    | familyName h => exact .inl (.inr (.inl ⟨rfl, _, .inr ⟨_, _, rfl, h⟩, rfl⟩))
    | protocol h => exact .inl (.inr (.inr (.inl ⟨rfl, _, .inl ⟨_, _, rfl, h⟩, rfl⟩)))
    | protocolName h1 h2 h3 => exact .inl (.inr (.inr (.inl ⟨rfl, _, .inr ⟨_, _, _, rfl, h1, h2, h3, rfl⟩, rfl⟩)))
    | flag h => exact .inl (.inr (.inr (.inr ⟨_, _, _, h, rfl, rfl, rfl⟩)))
    | remote h => exact .inr (.inl ⟨rfl, _, rfl, h⟩)
    | «local» h => exact .inr (.inr ⟨rfl, _, rfl, h⟩)
  · rintro ((⟨rfl, t, h1, h2, rfl⟩ | ⟨rfl, n, ⟨t, a, rfl, h⟩ | ⟨s, a, rfl, h⟩, rfl⟩ |
      ⟨rfl, n, ⟨t, a, rfl, h⟩ | ⟨s, a, m, rfl, h1, h2, h3, rfl⟩, rfl⟩ | ⟨f, n, b, h, rfl, rfl, rfl⟩) | ⟨rfl, ms, rfl, h⟩ | ⟨rfl, ms, rfl, h⟩)
    · exact .parent h1 h2
    · exact .family h
    · exact .familyName h
    · exact .protocol h
    · exact .protocolName h1 h2 h3
    · exact .flag h
    · exact .remote h
    · exact .local h

theorem ruleScalar_leaf {E : Env α} {k : List Byte} {v : J} {r r' : RouteUC} (h : RuleScalar E k v r r') : restEvs v = [] := by
  rcases h with ⟨_, t, h, _⟩ | ⟨_, n, ⟨t, a, rfl, h⟩ | ⟨s, a, rfl, h⟩, _⟩ | ⟨_, n, ⟨t, a, rfl, h⟩ | ⟨s, a, m, rfl, h⟩, _⟩ | ⟨f, n, b, _, _, rfl, _⟩
  · exact (scalar_iff.1 h).1
  all_goals rfl

theorem flag_not_special : ∀ p ∈ flagNames, ascii p.2 ≠ ascii "parent-event" ∧ ascii p.2 ≠ ascii "family" ∧ ascii p.2 ≠ ascii "protocol" ∧
    ascii p.2 ≠ ascii "remote" ∧ ascii p.2 ≠ ascii "local" ∧ ascii p.2 ≠ ascii "routes" ∧ ascii p.2 ≠ ascii "static-routes-insert" := by decide

theorem family_ok {E : Env α} {v : J} {r r' : RouteUC} : familyClause E (leafEv v) r = .ok r' ↔
    ∃ n, ((∃ t after, v = .num t after ∧ UInt 16 8 v n) ∨ (∃ s after, v = .str s after ∧ E.famByName s = .ok n)) ∧ r' = withFamily r n := by
  unfold familyClause
  by_cases h1 : (leafEv v).type = .number
  · rw [if_pos h1, map_ok]
    simp only [u16_conv]
    obtain ⟨t, a, rfl⟩ := leaf_number h1
    constructor
    · rintro ⟨n, h, rfl⟩; exact ⟨n, .inl ⟨t, a, rfl, h⟩, rfl⟩
    · rintro ⟨n, ⟨_, _, _, h⟩ | ⟨_, _, h, _⟩, rfl⟩
      · exact ⟨n, h, rfl⟩
      · cases h
  rw [if_neg h1]
  by_cases h2 : (leafEv v).type = .string
  · rw [if_pos h2]
    obtain ⟨t, a, rfl⟩ := leaf_string h2
    simp only [leafEv]
    rcases hf : E.famByName t with e | n
    · simp only [reduceCtorEq, false_iff]
      rintro ⟨n, ⟨_, _, h, _⟩ | ⟨_, _, h, h'⟩, _⟩
      · cases h
      · cases h; rw [hf] at h'; cases h'
    · simp only [Res.ok.injEq]
      constructor
      · rintro rfl; exact ⟨n, .inr ⟨t, a, rfl, hf⟩, rfl⟩
      · rintro ⟨n', ⟨_, _, h, _⟩ | ⟨_, _, h, h'⟩, rfl⟩
        · cases h
        · cases h; rw [hf] at h'; injection h' with h'; subst h'; rfl
  rw [if_neg h2]
  simp only [reduceCtorEq, false_iff]
  rintro ⟨n, ⟨_, _, rfl, _⟩ | ⟨_, _, rfl, _⟩, _⟩
  · exact h1 rfl
  · exact h2 rfl

theorem protoNumber_ok {E : Env α} {v : J} {fam n : Nat} : protoNumber E (leafEv v) fam = .ok n ↔
    (∃ t after, v = .num t after ∧ UInt 16 8 v n) ∨
    (∃ s after m, v = .str s after ∧ fam ∈ [AF_INET, AF_INET6] ∧ s.length < 64 ∧ E.protoByName s = .found m ∧ n = m % 65536) := by
  unfold protoNumber
  by_cases h1 : (leafEv v).type = .number
  · rw [if_pos h1, u16_conv]
    obtain ⟨t, a, rfl⟩ := leaf_number h1
    constructor
    · intro h; exact .inl ⟨t, a, rfl, h⟩
    · rintro (⟨_, _, _, h⟩ | ⟨_, _, _, h, _⟩)
      · exact h
      · cases h
  rw [if_neg h1]
  by_cases h2 : (leafEv v).type = .string
  · rw [if_pos h2]
    obtain ⟨t, a, rfl⟩ := leaf_string h2
    have hr : (∃ t' after, J.str t a = .num t' after ∧ UInt 16 8 (J.str t a) n) ↔ False := by
      simp
    rw [hr, false_or]
    have e0 : (0 : Nat) ≠ AF_INET := by decide
    have e1 : (0 : Nat) ≠ AF_INET6 := by decide
    by_cases h3 : fam = 0
    · rw [if_pos h3]
      subst h3
      simp only [reduceCtorEq, false_iff]
      rintro ⟨_, _, _, _, h, _⟩
      simp [e0, e1] at h
    rw [if_neg h3]
    by_cases h4 : fam ≠ AF_INET ∧ fam ≠ AF_INET6
    · rw [if_pos h4]
      simp only [reduceCtorEq, false_iff]
      rintro ⟨_, _, _, _, h, _⟩
      simp [h4] at h
    rw [if_neg h4]
    have h4' : fam ∈ [AF_INET, AF_INET6] := by
      simp only [List.mem_cons, List.not_mem_nil, or_false]
      by_cases h : fam = AF_INET
      · exact .inl h
      · by_cases h' : fam = AF_INET6
        · exact .inr h'
        · exact absurd ⟨h, h'⟩ h4
    by_cases h5 : 64 ≤ t.length
    · simp only [leafEv, h5, if_true, reduceCtorEq, false_iff]
      rintro ⟨_, _, _, h, _, h', _⟩
      cases h
      omega
    simp only [leafEv, h5, if_false]
    rcases hp : E.protoByName t with m | _ | e
    · simp only [Res.ok.injEq]
      constructor
      · rintro rfl; exact ⟨t, a, m, rfl, h4', by omega, hp, rfl⟩
      · rintro ⟨_, _, _, h, _, _, h', rfl⟩
        cases h; rw [hp] at h'; injection h' with h'; rw [h']
    · simp only [reduceCtorEq, false_iff]
      rintro ⟨_, _, _, h, _, _, h', rfl⟩
      cases h; rw [hp] at h'; cases h'
    · simp only [reduceCtorEq, false_iff]
      rintro ⟨_, _, _, h, _, _, h', rfl⟩
      cases h; rw [hp] at h'; cases h'
  rw [if_neg h2]
  simp only [reduceCtorEq, false_iff]
  rintro (⟨_, _, rfl, _⟩ | ⟨_, _, _, rfl, _⟩)
  · exact h1 rfl
  · exact h2 rfl

theorem protocol_ok {E : Env α} {v : J} {r r' : RouteUC} : protocolClause E (leafEv v) r = .ok r' ↔
    ∃ n, ((∃ t after, v = .num t after ∧ UInt 16 8 v n) ∨
      (∃ s after m, v = .str s after ∧ r.remote.family ∈ [AF_INET, AF_INET6] ∧ s.length < 64 ∧ E.protoByName s = .found m ∧ n = m % 65536)) ∧
      r' = withProto r n := by
  unfold protocolClause
  simp only [map_ok, protoNumber_ok]
  have hw : ∀ n, withProto r n = { r with
        remote := { r.remote with proto := n }, loc := { r.loc with proto := n },
        flags :=
          if (r.remote.family = AF_INET ∨ r.remote.family = AF_INET6) ∧ (n = 6 ∨ n = 17)
          then r.flags &&& ~~~RF.SA_PROTO_WILDCARD ||| RF.TCPLIKE_PORT_NUMBERS
          else r.flags &&& ~~~RF.SA_PROTO_WILDCARD } := by
    intro n
    unfold withProto
    simp [setFlag_false, setFlag_true]
  simp only [hw]
  constructor
  · rintro ⟨n, h, rfl⟩; exact ⟨n, h, rfl⟩
  · rintro ⟨n, h, rfl⟩; exact ⟨n, h, rfl⟩

/-- The members of a rule that are not objects or arrays. -/
theorem routeClause_ok {E : Env α} {k : List Byte} {v : J} (hp : restEvs v = []) {r r' : RouteUC} :
    routeClause E k (leafEv v) r = .ok r' ↔ RuleScalar E k v r r' := by
  unfold routeClause RuleScalar
  by_cases h1 : k = ascii "parent-event"
  · subst h1
    have hf : ¬ ∃ f n b, (f, n) ∈ flagNames ∧ ascii "parent-event" = ascii n ∧ v = .bool b ∧ r' = { r with flags := setFlag b r.flags f } := by
      rintro ⟨f, n, b, h, h', _⟩
      exact (flag_not_special _ h).1 h'.symm
    simp (decide := true) only [if_true, true_and, false_and, false_or, hf, or_false]
    simp only [scalar_iff, hp, true_and]
    by_cases hl : 32 < (leafEv v).data.length
    · rw [if_pos hl]
      simp only [reduceCtorEq, false_iff]
      rintro ⟨t, rfl, h, _⟩
      omega
    · rw [if_neg hl]
      simp only [Res.ok.injEq]
      constructor
      · rintro rfl; exact ⟨_, rfl, by omega, rfl⟩
      · rintro ⟨t, rfl, _, rfl⟩; rfl
  simp only [h1, if_false, false_and, false_or]
  by_cases h2 : k = ascii "family"
  · subst h2
    have hf : ¬ ∃ f n b, (f, n) ∈ flagNames ∧ ascii "family" = ascii n ∧ v = .bool b ∧ r' = { r with flags := setFlag b r.flags f } := by
      rintro ⟨f, n, b, h, h', _⟩
      exact (flag_not_special _ h).2.1 h'.symm
    simp (decide := true) only [if_true, true_and, false_and, false_or, hf, or_false]
    exact family_ok
  simp only [h2, if_false, false_and, false_or]
  by_cases h3 : k = ascii "protocol"
  · subst h3
    have hf : ¬ ∃ f n b, (f, n) ∈ flagNames ∧ ascii "protocol" = ascii n ∧ v = .bool b ∧ r' = { r with flags := setFlag b r.flags f } := by
      rintro ⟨f, n, b, h, h', _⟩
      exact (flag_not_special _ h).2.2.1 h'.symm
    simp (decide := true) only [if_true, true_and, hf, or_false]
    exact protocol_ok
  simp only [h3, if_false, false_and, false_or]
  rcases hf : flagAssocByName k with e | f
  · simp only [reduceCtorEq, false_iff]
    rintro ⟨f, n, b, h, h', _⟩
    rw [flagName_ok.2 ⟨n, h, h'⟩] at hf
    cases hf
  · simp only [map_ok, flag_conv]
    obtain ⟨n, h4, rfl⟩ := flagName_ok.1 hf
    constructor
    · rintro ⟨_, ⟨b, rfl, rfl⟩, rfl⟩
      exact ⟨f, n, b, h4, rfl, rfl, rfl⟩
    · rintro ⟨f', n', b, h, h', rfl, rfl⟩
      have := flagNames_unique _ h _ h4 h'.symm
      simp only [Prod.mk.injEq] at this
      obtain ⟨rfl, rfl⟩ := this
      exact ⟨_, ⟨b, rfl, rfl⟩, rfl⟩

end WS.Conf
