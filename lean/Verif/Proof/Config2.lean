import Verif.Proof.Config
/-
Loader proofs, part 2: event configurations and default policies.
-/
namespace WS.Conf
open WS WS.Sax WS.Time WS.ConfNum WS.Spec.Load WS.Spec.Conf

variable {α : Type}

theorem setting_iff {k : List Byte} {v : J} {c c' : EventConfig} : Setting k v c c' ↔
    (k = ascii "max-connection-count" ∧ ∃ n, UInt 32 16 v n ∧ c' = { c with maxConnectionCount := n }) ∨
    (k = ascii "penalty-box-duration" ∧ ∃ d, Duration v d ∧ c' = { c with penaltyboxDuration := d }) ∨
    (k = ascii "route-idle-time-for-purge" ∧ ∃ d, Duration v d ∧ c' = { c with routeIdleTimeForPurge := d }) ∨
    (k = ascii "derog-thresh-for-penalty-boxing" ∧ ∃ n, UInt 32 16 v n ∧ c' = { c with derogatoryThreshold := n }) ∨
    (k = ascii "derog-thresh-ignore-commendable" ∧ ∃ b, v = .bool b ∧
      c' = { c with flags := setFlag b c.flags EF.DEROGATORY_THRESHOLD_IGNORE_COMMENDABLE }) ∨
    (k = ascii "commendable-clears-derogatory" ∧ ∃ b, v = .bool b ∧
      c' = { c with flags := setFlag b c.flags EF.COMMENDABLE_CLEARS_DEROGATORY }) := by
  constructor
  · rintro ⟨⟩
    · exact .inl ⟨rfl, _, ‹_›, rfl⟩
    · exact .inr (.inl ⟨rfl, _, ‹_›, rfl⟩)
    · exact .inr (.inr (.inl ⟨rfl, _, ‹_›, rfl⟩))
    · exact .inr (.inr (.inr (.inl ⟨rfl, _, ‹_›, rfl⟩)))
    · exact .inr (.inr (.inr (.inr (.inl ⟨rfl, _, rfl, rfl⟩))))
    · exact .inr (.inr (.inr (.inr (.inr ⟨rfl, _, rfl, rfl⟩))))
  · rintro (⟨rfl, n, h, rfl⟩ | ⟨rfl, n, h, rfl⟩ | ⟨rfl, n, h, rfl⟩ | ⟨rfl, n, h, rfl⟩ | ⟨rfl, n, rfl, rfl⟩ | ⟨rfl, n, rfl, rfl⟩)
    · exact .maxConnections h
    · exact .penaltyBox h
    · exact .idleTime h
    · exact .derogatory h
    · exact .ignoreCommendable
    · exact .commendableClears

theorem setting_leaf {k : List Byte} {v : J} {c c' : EventConfig} (h : Setting k v c c') : restEvs v = [] := by
  cases h
  · exact uint_leaf ‹_›
  · exact duration_leaf ‹_›
  · exact duration_leaf ‹_›
  · exact uint_leaf ‹_›
  · rfl
  · rfl

/-- The two members of an event configuration that are settings of the context. -/
def Purging (E : Env α) (k : List Byte) (v : J) (a a' : α) : Prop :=
  (k = ascii "max-purgeable-routes" ∧ ∃ n, UInt 32 16 v n ∧ Did E (.maxPurgeableRoutes n) a a') ∨
  (k = ascii "max-purgeable-idle-time" ∧ ∃ d, Duration v d ∧ Did E (.maxPurgeableIdleTime d) a a')

theorem res_map_pair {β : Type} {a a' : α} {f : β → State} {r : Res β} {s' : State} :
    (a, Res.map f r) = (a', .ok s') ↔ ∃ b, r = .ok b ∧ s' = f b ∧ a' = a := by
  simp only [Prod.mk.injEq, map_ok]
  constructor
  · rintro ⟨rfl, b, h1, h2⟩; exact ⟨b, h1, h2.symm, rfl⟩
  · rintro ⟨b, h1, h2, rfl⟩; exact ⟨rfl, b, h1, h2.symm⟩

theorem res_invoke {β : Type} {E : Env α} {a a' : α} {r : Res β} {g : β → Call} {s s' : State} :
    withValue a r (fun v => invoke E a (g v) s) = (a', Res.ok s') ↔ ∃ b, r = .ok b ∧ Did E (g b) a a' ∧ s' = s := by
  cases r with
  | ok b => simp [withValue, invoke_ok]
  | err e => simp [withValue]
  | ub => simp [withValue]

theorem handleConfig_iff {E : Env α} {a a' : α} {s s' : State} {v : J} (hv : v.InPlace) (hd : s.depth ≠ 5) {c : EventConfig}
    {put : EventConfig → State} : handleConfig E a s (leafEv v) c put = (a', .ok s') ↔
      (∃ c', Setting s.key v c c' ∧ s' = put c' ∧ a' = a) ∨ (s.table = .topConfig ∧ Purging E s.key v a a' ∧ s' = s) := by
  unfold handleConfig Purging
  simp only [setting_iff]
  rw [if_neg hd, if_neg (leaf_arrayEnd v), if_neg (leaf_objectEnd v)]
  generalize hk : s.key = k
  by_cases h1 : k = ascii "max-connection-count"
  · subst h1
    rw [if_pos rfl, res_map_pair]
    simp (decide := true) only [u32_conv, true_and, false_and, or_false, and_false, false_or]
    exact ⟨fun ⟨n, h, h2, h3⟩ => ⟨_, ⟨n, h, rfl⟩, h2, h3⟩, fun ⟨_, ⟨n, h, e⟩, h2, h3⟩ => ⟨n, h, by rw [h2, e], h3⟩⟩
  rw [if_neg h1]
  by_cases h2 : k = ascii "penalty-box-duration"
  · subst h2
    rw [if_pos rfl, res_map_pair]
    simp (decide := true) only [dur_conv hv, true_and, false_and, or_false, and_false, false_or]
    exact ⟨fun ⟨n, h, h2, h3⟩ => ⟨_, ⟨n, h, rfl⟩, h2, h3⟩, fun ⟨_, ⟨n, h, e⟩, h2, h3⟩ => ⟨n, h, by rw [h2, e], h3⟩⟩
  rw [if_neg h2]
  by_cases h3 : k = ascii "route-idle-time-for-purge"
  · subst h3
    rw [if_pos rfl, res_map_pair]
    simp (decide := true) only [dur_conv hv, true_and, false_and, or_false, and_false, false_or]
    exact ⟨fun ⟨n, h, h2, h3⟩ => ⟨_, ⟨n, h, rfl⟩, h2, h3⟩, fun ⟨_, ⟨n, h, e⟩, h2, h3⟩ => ⟨n, h, by rw [h2, e], h3⟩⟩
  rw [if_neg h3]
  by_cases h4 : k = ascii "derog-thresh-for-penalty-boxing"
  · subst h4
    rw [if_pos rfl, res_map_pair]
    simp (decide := true) only [u32_conv, true_and, false_and, or_false, and_false, false_or]
    exact ⟨fun ⟨n, h, h2, h3⟩ => ⟨_, ⟨n, h, rfl⟩, h2, h3⟩, fun ⟨_, ⟨n, h, e⟩, h2, h3⟩ => ⟨n, h, by rw [h2, e], h3⟩⟩
  rw [if_neg h4]
  by_cases h5 : k = ascii "derog-thresh-ignore-commendable"
  · subst h5
    rw [if_pos rfl, res_map_pair]
    simp (decide := true) only [flag_conv, true_and, false_and, or_false, and_false, false_or]
    exact ⟨fun ⟨n, ⟨b, h, e⟩, h2, h3⟩ => ⟨_, ⟨b, h, rfl⟩, by rw [h2, e], h3⟩,
      fun ⟨_, ⟨n, h, e⟩, h2, h3⟩ => ⟨_, ⟨n, h, rfl⟩, by rw [h2, e], h3⟩⟩
  rw [if_neg h5]
  by_cases h6 : k = ascii "commendable-clears-derogatory"
  · subst h6
    rw [if_pos rfl, res_map_pair]
    simp (decide := true) only [flag_conv, true_and, false_and, or_false, and_false, false_or]
    exact ⟨fun ⟨n, ⟨b, h, e⟩, h2, h3⟩ => ⟨_, ⟨b, h, rfl⟩, by rw [h2, e], h3⟩,
      fun ⟨_, ⟨n, h, e⟩, h2, h3⟩ => ⟨_, ⟨n, h, rfl⟩, by rw [h2, e], h3⟩⟩
  rw [if_neg h6]
  simp only [h1, h2, h3, h4, h5, h6, false_and, or_false, exists_false, false_or]
  by_cases h7 : k = ascii "max-purgeable-routes"
  · subst h7
    rw [if_pos rfl]
    by_cases ht : s.table = .topConfig
    · rw [if_neg (by simpa using ht), res_invoke]
      simp (decide := true) only [u32_conv, true_and, false_and, or_false, ht]
      exact ⟨fun ⟨n, h, h2, h3⟩ => ⟨⟨n, h, h2⟩, h3⟩, fun ⟨⟨n, h, h2⟩, h3⟩ => ⟨n, h, h2, h3⟩⟩
    · rw [if_pos ht]; simp [ht]
  rw [if_neg h7]
  by_cases h8 : k = ascii "max-purgeable-idle-time"
  · subst h8
    rw [if_pos rfl]
    by_cases ht : s.table = .topConfig
    · rw [if_neg (by simpa using ht), res_invoke]
      simp (decide := true) only [dur_conv hv, true_and, false_and, false_or, ht]
      exact ⟨fun ⟨n, h, h2, h3⟩ => ⟨⟨n, h, h2⟩, h3⟩, fun ⟨⟨n, h, h2⟩, h3⟩ => ⟨n, h, h2, h3⟩⟩
    · rw [if_pos ht]; simp [ht]
  rw [if_neg h8]
  simp [h7, h8]

/-! ### States between the members of a section -/

/-- What the loader remembers between sections. -/
structure Fr where
  version : Nat
  config : EventConfig
  policy : Flags

/-- The state between two sections. -/
def base (nr : Bool) (f : Fr) (k : List Byte) (kd : Int) (dom : List (JType × List Byte)) : State :=
  { version := f.version, noRules := nr, depth := 1, key := k, keydepth := kd, defaultConfig := f.config,
    defaultPolicy := f.policy, dom := dom }

def AtTop (nr : Bool) (s : State) (f : Fr) : Prop := ∃ k kd dom, s = base nr f k kd dom

def AtConfig (nr : Bool) (s : State) (f : Fr) : Prop :=
  ∃ k kd dom, s = { base nr f k kd dom with table := .topConfig, depth := 2 }

theorem top_level (nr : Bool) : Level (AtTop nr) 1 := by
  constructor
  · rintro s x ⟨k, kd, dom, rfl⟩; simp [base]
  · rintro s x ⟨k, kd, dom, rfl⟩; rfl
  · rintro s x k' ⟨k, kd, dom, rfl⟩; exact ⟨k', _, dom, rfl⟩

theorem config_level (nr : Bool) : Level (AtConfig nr) 2 := by
  constructor
  · rintro s x ⟨k, kd, dom, rfl⟩; simp [base]
  · rintro s x ⟨k, kd, dom, rfl⟩; rfl
  · rintro s x k' ⟨k, kd, dom, rfl⟩; exact ⟨k', _, dom, rfl⟩

theorem topSetting_iff {E : Env α} {k : List Byte} {v : J} {c c' : EventConfig} {a a' : α} :
    TopSetting E k v (c, a) (c', a') ↔ (Setting k v c c' ∧ a' = a) ∨ (Purging E k v a a' ∧ c' = c) := by
  constructor
  · rintro ⟨⟩
    · exact .inl ⟨‹_›, rfl⟩
    · exact .inr ⟨.inl ⟨rfl, _, ‹_›, ‹_›⟩, rfl⟩
    · exact .inr ⟨.inr ⟨rfl, _, ‹_›, ‹_›⟩, rfl⟩
  · rintro (⟨h, rfl⟩ | ⟨⟨rfl, n, h1, h2⟩ | ⟨rfl, n, h1, h2⟩, rfl⟩)
    · exact .setting h
    · exact .maxRoutes h1 h2
    · exact .maxIdle h1 h2

theorem purging_leaf {E : Env α} {k : List Byte} {v : J} {a a' : α} (h : Purging E k v a a') : restEvs v = [] := by
  rcases h with ⟨_, n, h, _⟩ | ⟨_, n, h, _⟩
  · exact uint_leaf h
  · exact duration_leaf h

/-- The members of "config-update". -/
def TopSettingF (E : Env α) (k : List Byte) (v : J) (p q : Fr × α) : Prop :=
  ∃ c, q.1 = { p.1 with config := c } ∧ TopSetting E k v (p.1.config, p.2) (c, q.2)

theorem config_value (E : Env α) (nr : Bool) (k : List Byte) (v : J) (hv : v.InPlace) :
    Sim E (Keyed (AtConfig nr) 2 k) (AtConfig nr) v.events (TopSettingF E k v) := by
  refine Sim.leaf ?_ ?_
  · rintro a s x ⟨⟨k', kd, dom, rfl⟩, rfl, rfl⟩
    refine ⟨fun y => { base nr y k' 2 dom with table := .topConfig, depth := 2 }, fun y => ⟨_, _, _, rfl⟩, ?_⟩
    intro a' s'
    rw [step_leaf (by show (1 : Int) ≤ 2; decide)]
    show handleConfig _ _ _ _ _ _ = _ ↔ _
    rw [handleConfig_iff hv (by rcases leaf_depth_or v 2 with h | h <;> (show newDepth _ 2 ≠ 5; omega))]
    unfold TopSettingF
    simp only [topSetting_iff]
    constructor
    · rintro (⟨c', h, rfl, rfl⟩ | ⟨_, h, rfl⟩)
      · exact ⟨{ x with config := c' }, ⟨c', rfl, .inl ⟨h, rfl⟩⟩, by rw [leaf_depth (setting_leaf h)]; rfl⟩
      · exact ⟨x, ⟨x.config, rfl, .inr ⟨h, rfl⟩⟩, by rw [leaf_depth (purging_leaf h)]⟩
    · rintro ⟨y, ⟨c', rfl, ⟨h, rfl⟩ | ⟨h, rfl⟩⟩, rfl⟩
      · exact .inl ⟨c', h, by rw [leaf_depth (setting_leaf h)]; rfl, rfl⟩
      · exact .inr ⟨trivial, h, by rw [leaf_depth (purging_leaf h)]⟩
  · rintro hr ⟨x, a⟩ ⟨y, a'⟩ ⟨c, _, h⟩
    rcases topSetting_iff.1 h with ⟨h, _⟩ | ⟨h, _⟩
    · exact hr (setting_leaf h)
    · exact hr (purging_leaf h)

/-- The end of "config-update". -/
theorem config_end (E : Env α) (nr : Bool) : Sim E (AtConfig nr) (AtTop nr) [⟨.objectEnd, [], []⟩]
    (fun p q => q.1 = p.1 ∧ ∃ a1, Did E (.defaultConfigUpdate p.1.config) p.2 a1 ∧ PolicySet E p.1.policy a1 q.2) := by
  refine Sim.one ?_
  rintro a s x ⟨k, kd, dom, rfl⟩
  have hs : step E a { base nr x k kd dom with table := .topConfig, depth := 2 } ⟨.objectEnd, [], []⟩ =
      andThen (invoke E a (.defaultConfigUpdate x.config) (base nr x k kd dom)) (setPolicy E) := rfl
  have hp : ∀ a1 a' s', setPolicy E a1 (base nr x k kd dom) = (a', .ok s') ↔ PolicySet E x.policy a1 a' ∧ s' = base nr x k kd dom := by
    intro a1 a' s'
    unfold setPolicy PolicySet
    show (if x.policy ≠ 0 then _ else _) = _ ↔ _
    by_cases h : x.policy = 0
    · rw [if_neg (by simp [h]), if_pos h]
      simp only [Prod.mk.injEq, Res.ok.injEq]
      exact ⟨fun ⟨h1, h2⟩ => ⟨h1.symm, h2.symm⟩, fun ⟨h1, h2⟩ => ⟨h1.symm, h2.symm⟩⟩
    · rw [if_pos h, if_neg h]; exact invoke_ok
  rw [hs]
  simp only [andThen_ok, invoke_ok]
  constructor
  · rintro a' s' ⟨a1, s1, ⟨h1, rfl⟩, h2⟩
    obtain ⟨h3, rfl⟩ := (hp _ _ _).1 h2
    exact ⟨x, ⟨_, _, _, rfl⟩, rfl, a1, h1, h3⟩
  · rintro a' y ⟨rfl, a1, h1, h2⟩
    exact ⟨_, ⟨a1, _, ⟨h1, rfl⟩, (hp _ _ _).2 ⟨h2, rfl⟩⟩, ⟨_, _, _, rfl⟩⟩

/-- Opening a section: from the top level, with the version known. -/
theorem open_section {E : Env α} {nr : Bool} {k : List Byte} {A : State → Fr → Prop} {e : Ev}
    (h : ∀ a x dom, 0 < x.version → ∃ s', step E a (base nr x k 1 dom) e = (a, .ok s') ∧ A s' x)
    (h0 : ∀ a x dom, x.version = 0 → ∀ a' s', step E a (base nr x k 1 dom) e ≠ (a', .ok s')) :
    Sim E (Keyed (AtTop nr) 1 k) A [e] (fun p q => q = p ∧ 0 < p.1.version) := by
  refine Sim.one ?_
  rintro a s x ⟨⟨k', kd, dom, rfl⟩, rfl, rfl⟩
  by_cases hx : x.version = 0
  · constructor
    · intro a' s' hs; exact absurd hs (h0 a x dom hx a' s')
    · rintro a' y ⟨_, h⟩; exact absurd hx (by simp only at h; omega)
  · obtain ⟨s1, h1, h2⟩ := h a x dom (by omega)
    constructor
    · intro a' s' hs
      have := h1.symm.trans hs
      simp only [Prod.mk.injEq, Res.ok.injEq] at this
      obtain ⟨rfl, rfl⟩ := this
      exact ⟨x, h2, rfl, by simp only; omega⟩
    · rintro a' y ⟨h, _⟩
      simp only [Prod.mk.injEq] at h
      obtain ⟨rfl, rfl⟩ := h
      exact ⟨s1, h1, h2⟩

/-! ### Default policies -/

def AtPolicies (nr : Bool) (s : State) (f : Fr) : Prop :=
  ∃ k kd dom, s = { base nr f k kd dom with table := .defaultPolicies, depth := 2 }

theorem policies_level (nr : Bool) : Level (AtPolicies nr) 2 := by
  constructor
  · rintro s x ⟨k, kd, dom, rfl⟩; simp [base]
  · rintro s x ⟨k, kd, dom, rfl⟩; rfl
  · rintro s x k' ⟨k, kd, dom, rfl⟩; exact ⟨k', _, dom, rfl⟩

/-- Within "default-policies", or after an object in the place of the default event closed it. -/
def PolicyInv (s : State) : Prop := (s.table = .none ∨ s.table = .defaultPolicies) ∧ 2 ≤ s.keydepth ∧ s.section_ ≠ .json

def PolicyDead (s : State) : Prop := s.table = .none ∧ 2 ≤ s.keydepth ∧ s.section_ ≠ .json ∧ s.depth = 2

theorem handleTop_dead {a a' : α} {s s' : State} {e : Ev} (h : s.keydepth ≠ 1) : handleTop a s e ≠ (a', .ok s') := by
  unfold handleTop
  rw [if_neg (by simp [h])]
  simp

theorem handlePolicy_inv {E : Env α} {a a' : α} {s s' : State} {e : Ev} (h : handlePolicy E a s e = (a', .ok s')) :
    (s'.table = .none ∨ s'.table = s.table) ∧ s'.keydepth = s.keydepth ∧ s'.section_ = s.section_ ∧ s'.depth = s.depth ∧
      (e.type = .objectEnd → s'.table = .none) := by
  unfold handlePolicy at h
  split at h
  · simp at h
  split at h
  · unfold setPolicy at h
    split at h
    · obtain ⟨_, rfl⟩ := invoke_ok.1 h; simp
    · simp only [Prod.mk.injEq, Res.ok.injEq] at h; obtain ⟨_, rfl⟩ := h; simp
  rename_i he
  split at h
  · obtain ⟨p, _, rfl, _⟩ := res_map_pair.1 h; simp [he]
  split at h
  · split at h
    · simp only [Prod.mk.injEq, Res.ok.injEq] at h; obtain ⟨_, rfl⟩ := h; simp [he]
    · obtain ⟨_, rfl⟩ := invoke_ok.1 h; simp [he]
  · simp at h

theorem policy_inv (E : Env α) : Inv E 2 PolicyInv (fun s => PolicyInv s ∧ s.table = .none) := by
  constructor
  · rintro a s e a' s' ⟨h1, h2, h3⟩ hd hk hs
    unfold step at hs
    rw [if_pos hk] at hs
    unfold handleKey at hs
    rw [if_neg h3] at hs
    split at hs
    · simp at hs
    · simp only [Prod.mk.injEq, Res.ok.injEq] at hs
      obtain ⟨_, rfl⟩ := hs
      exact ⟨⟨h1, hd, h3⟩, rfl, fun ⟨_, h⟩ => ⟨⟨h1, hd, h3⟩, h⟩⟩
  · rintro a s e a' s' ⟨h1, h2, h3⟩ hk hd hs
    unfold step dispatch at hs
    rw [if_neg hk, if_neg (by simp only [not_and]; intro _ h; omega), if_neg (by simp only [not_and]; intro _ h; omega)] at hs
    rcases h1 with h1 | h1
    · simp only [h1] at hs
      exact absurd hs (handleTop_dead (by show s.keydepth ≠ 1; omega))
    · simp only [h1] at hs
      obtain ⟨g1, g2, g3, g4, g5⟩ := handlePolicy_inv hs
      have hi : PolicyInv s' := ⟨g1, by rw [g2]; exact h2, by rw [g3]; exact h3⟩
      refine ⟨hi, g4, fun ⟨_, h⟩ => ?_, fun h => ⟨hi, g5 h⟩⟩
      rw [h1] at h; cases h

theorem policyDead_end (E : Env α) (ms : List (List Byte × J)) (a : α) (s : State) (a' : α) (s' : State) (h : PolicyDead s) :
    run E a s (Spec.Load.members ms ++ [⟨.objectEnd, [], []⟩]) ≠ (a', .ok s') := by
  obtain ⟨h1, h2, h3, h4⟩ := h
  intro hr
  cases ms with
  | nil =>
    obtain ⟨a1, s1, hs, _⟩ := run_cons hr
    unfold step dispatch at hs
    simp only [h1, h4, newDepth] at hs
    rw [if_neg (by simp), if_neg (by simp), if_neg (by simp)] at hs
    exact absurd hs (handleTop_dead (by show s.keydepth ≠ 1; omega))
  | cons m ms =>
    obtain ⟨k, v⟩ := m
    simp only [Spec.Load.members, List.cons_append] at hr
    obtain ⟨a1, s1, hs, hr⟩ := run_cons hr
    obtain ⟨_, rfl, rfl⟩ := (key_step E a s k h3 a1 s1).1 hs
    rw [events_leaf] at hr
    obtain ⟨a2, s2, hs, _⟩ := run_cons hr
    rw [step_leaf (by show 1 ≤ s.depth; omega)] at hs
    simp only [h1] at hs
    exact absurd hs (handleTop_dead (by show s.depth ≠ 1; omega))

theorem skip_step (E : Env α) (a : α) (s : State) (e : Ev) (h4 : e.type ≠ .key) (h5 : e.type ≠ .objectBeg)
    (h6 : e.type ≠ .objectEnd) (h1 : s.table = .defaultPolicies) (h2 : s.noRules = true)
    (h3 : s.key = ascii "default-event") : step E a s e = (a, .ok { s with depth := newDepth e.type s.depth }) := by
  have hk : ¬ s.key = ascii "default-policy" := by rw [h3]; decide
  unfold step dispatch
  rw [if_neg h4, if_neg (fun h => h5 h.1), if_neg (fun h => h6 h.1)]
  simp only [h1]
  unfold handlePolicy
  rw [if_neg (by simp), if_neg h6, if_neg hk, if_pos h3, if_pos h2]

theorem skip_leaf (E : Env α) (a : α) (s : State) (e : Ev) (hn : ∀ d, newDepth e.type d = d) (h4 : e.type ≠ .key) (h5 : e.type ≠ .objectBeg)
    (h6 : e.type ≠ .objectEnd) (h1 : s.table = .defaultPolicies) (h2 : s.noRules = true)
    (h3 : s.key = ascii "default-event") : run E a s [e] = (a, .ok s) := by
  rw [run_one, skip_step E a s e h4 h5 h6 h1 h2 h3, hn]

theorem skip_array (E : Env α) (a : α) (s : State) (xs : List J) (h1 : s.table = .defaultPolicies) (h2 : s.noRules = true)
    (h3 : s.key = ascii "default-event")
    (he : run E a { s with depth := s.depth + 1 } (Spec.Load.elements xs) = (a, .ok { s with depth := s.depth + 1 })) :
    run E a s (J.arr xs).events = (a, .ok s) := by
  rw [events_leaf]
  show andThen (step E a s _) _ = _
  rw [skip_step E a s _ (by simp [leafEv]) (by simp [leafEv]) (by simp [leafEv]) h1 h2 h3]
  show run E a { s with depth := s.depth + 1 } (Spec.Load.elements xs ++ _) = _
  rw [run_append, he]
  show run E a { s with depth := s.depth + 1 } [_] = _
  rw [run_one, skip_step E a { s with depth := s.depth + 1 } _ (by simp) (by simp) (by simp) h1 h2 h3]
  have : newDepth .arrayEnd (s.depth + 1) = s.depth := by show s.depth + 1 - 1 = s.depth; omega
  simp only [this]

mutual
/-- With NO_ROUTES_OR_EVENTS, a value without objects in the place of the default event is skipped. -/
theorem skip_value (E : Env α) : ∀ (v : J) (a : α) (s : State), v.ObjectFree → s.table = .defaultPolicies → s.noRules = true →
    s.key = ascii "default-event" → 2 ≤ s.depth → run E a s v.events = (a, .ok s)
  | .arr xs, a, s, hf, h1, h2, h3, h4 => by
    have he : run E a { s with depth := s.depth + 1 } (Spec.Load.elements xs) = (a, .ok { s with depth := s.depth + 1 }) :=
      skip_elements E xs a { s with depth := s.depth + 1 } hf h1 h2 h3 (by show 2 ≤ s.depth + 1; omega)
    exact skip_array E a s xs h1 h2 h3 he
  | .obj ms, a, s, hf, h1, h2, h3, h4 => False.elim hf
  | .null, a, s, hf, h1, h2, h3, h4 => skip_leaf E a s _ (fun _ => rfl) (by simp) (by simp) (by simp) h1 h2 h3
  | .bool false, a, s, hf, h1, h2, h3, h4 => skip_leaf E a s _ (fun _ => rfl) (by simp) (by simp) (by simp) h1 h2 h3
  | .bool true, a, s, hf, h1, h2, h3, h4 => skip_leaf E a s _ (fun _ => rfl) (by simp) (by simp) (by simp) h1 h2 h3
  | .num t r, a, s, hf, h1, h2, h3, h4 => skip_leaf E a s _ (fun _ => rfl) (by simp) (by simp) (by simp) h1 h2 h3
  | .str t r, a, s, hf, h1, h2, h3, h4 => skip_leaf E a s _ (fun _ => rfl) (by simp) (by simp) (by simp) h1 h2 h3
theorem skip_elements (E : Env α) : ∀ (vs : List J) (a : α) (s : State), elementsObjectFree vs → s.table = .defaultPolicies →
    s.noRules = true → s.key = ascii "default-event" → 2 ≤ s.depth → run E a s (Spec.Load.elements vs) = (a, .ok s)
  | [], a, s, _, _, _, _, _ => rfl
  | v :: vs, a, s, hf, h1, h2, h3, h4 => by
    simp only [Spec.Load.elements]
    rw [run_append, skip_value E v a s hf.1 h1 h2 h3 h4]
    exact skip_elements E vs a s hf.2 h1 h2 h3 h4
end

theorem policy_conv {v : J} {p : Flags} : convertPolicy (leafEv v).type (leafEv v).data = .ok p ↔ Policy v p := by
  unfold convertPolicy
  constructor
  · intro h
    split at h
    · cases h
    rename_i ht
    cases v with
    | bool b => cases b <;> simp [leafEv] at ht
    | null => simp [leafEv] at ht
    | num => simp [leafEv] at ht
    | arr => simp [leafEv] at ht
    | obj => simp [leafEv] at ht
    | str s after =>
      by_cases h1 : s = ascii "accept"
      · subst h1; simp [leafEv] at h; rw [← h]; exact .accept
      by_cases h2 : s = ascii "reject"
      · subst h2; simp [leafEv, h1] at h; rw [← h]; exact .reject
      by_cases h3 : s = ascii "reset"
      · subst h3; simp [leafEv, h1, h2] at h; rw [← h]; exact .reset
      · simp [leafEv, h1, h2, h3] at h
  · have n1 : ¬ ascii "reject" = ascii "accept" := by decide
    have n2 : ¬ ascii "reset" = ascii "accept" := by decide
    have n3 : ¬ ascii "reset" = ascii "reject" := by decide
    rintro ⟨⟩
    · rfl
    · simp [leafEv, n1]
    · simp [leafEv, n2, n3]

theorem policy_leaf {v : J} {p : Flags} (h : Policy v p) : restEvs v = [] := by cases h <;> rfl

/-- The members of "default-policies". -/
def PolicyMemberF (E : Env α) (nr : Bool) (k : List Byte) (v : J) (p q : Fr × α) : Prop :=
  ∃ c, q.1 = { p.1 with policy := c } ∧ PolicyMember E nr k v (p.1.policy, p.2) (c, q.2)

theorem policyMember_iff {E : Env α} {nr : Bool} {k : List Byte} {v : J} {p q : Flags} {a a' : α} :
    PolicyMember E nr k v (p, a) (q, a') ↔
      (k = ascii "default-policy" ∧ Policy v q ∧ a' = a) ∨
      (k = ascii "default-event" ∧ nr = false ∧ (∃ t, Text v t ∧ Did E (.setDefaultEvent t) a a') ∧ q = p) ∨
      (k = ascii "default-event" ∧ nr = true ∧ v.ObjectFree ∧ q = p ∧ a' = a) := by
  constructor
  · rintro ⟨⟩
    · exact .inl ⟨rfl, ‹_›, rfl⟩
    · exact .inr (.inl ⟨rfl, ‹_›, ⟨_, ‹_›, ‹_›⟩, rfl⟩)
    · exact .inr (.inr ⟨rfl, ‹_›, ‹_›, rfl, rfl⟩)
  · rintro (⟨rfl, h, rfl⟩ | ⟨rfl, h, ⟨t, h1, h2⟩, rfl⟩ | ⟨rfl, h, h1, rfl, rfl⟩)
    · exact .policy h
    · exact .event h h1 h2
    · exact .ignored h h1

/-- The library knows no event with an empty label. -/
def NoEmptyEvent (E : Env α) : Prop := ∀ a, (E.call a (.setDefaultEvent [])).2 ≠ none

theorem policy_value (E : Env α) (hE : NoEmptyEvent E) (nr : Bool) (k : List Byte) (v : J) :
    SimD E PolicyDead (Keyed (AtPolicies nr) 2 k) (AtPolicies nr) v.events (PolicyMemberF E nr k v) := by
  by_cases hk : k = ascii "default-event" ∧ nr = true
  · -- skipped
    obtain ⟨rfl, rfl⟩ := hk
    rintro a s x ⟨⟨k', kd, dom, rfl⟩, rfl, rfl⟩
    by_cases hf : v.ObjectFree
    · have hr := skip_value E v a { base true x (ascii "default-event") 2 dom with table := .defaultPolicies, depth := 2 } hf rfl rfl rfl
        (by show (2 : Int) ≤ 2; decide)
      constructor
      · intro a' s' h
        have := hr.symm.trans h
        simp only [Prod.mk.injEq, Res.ok.injEq] at this
        obtain ⟨rfl, rfl⟩ := this
        exact .inr ⟨x, ⟨_, _, _, rfl⟩, x.policy, rfl, .ignored rfl hf⟩
      · rintro a' y ⟨c, hy, h⟩
        rcases policyMember_iff.1 h with ⟨h, _⟩ | ⟨_, h, _⟩ | ⟨_, _, _, rfl, e⟩
        · exact absurd h (by decide)
        · cases h
        · simp only at e hy; subst e; subst hy
          exact ⟨_, hr, _, _, _, rfl⟩
    · constructor
      · intro a' s' h
        obtain ⟨h1, h2, _, h3⟩ := value_inv (policy_inv E) v _ _ _ _
          (show PolicyInv _ from ⟨.inr rfl, by show (2 : Int) ≤ 2; decide, by simp [base]⟩) (by show (2 : Int) ≤ 2; decide) h
        exact .inl ⟨(h3 hf).2, h1.2.1, h1.2.2, h2⟩
      · rintro a' y ⟨c, hy, h⟩
        rcases policyMember_iff.1 h with ⟨h, _⟩ | ⟨_, h, _⟩ | ⟨_, _, h, _⟩
        · exact absurd h (by decide)
        · cases h
        · exact absurd h hf
  · refine Sim.simD (Sim.leaf ?_ ?_)
    · rintro a s x ⟨⟨k', kd, dom, rfl⟩, rfl, rfl⟩
      refine ⟨fun y => { base nr y k' 2 dom with table := .defaultPolicies, depth := 2 }, fun y => ⟨_, _, _, rfl⟩, ?_⟩
      intro a' s'
      rw [step_leaf (by show (1 : Int) ≤ 2; decide)]
      show handlePolicy _ _ _ _ = _ ↔ _
      unfold handlePolicy PolicyMemberF
      rw [if_neg (by simp), if_neg (leaf_objectEnd v)]
      simp only [policyMember_iff]
      simp only [base] at hk ⊢
      by_cases h1 : k' = ascii "default-policy"
      · subst h1
        simp only [if_true]
        rw [res_map_pair]
        simp (decide := true) only [policy_conv, true_and, false_and, or_false]
        constructor
        · rintro ⟨p, h, rfl, rfl⟩
          exact ⟨{ x with policy := p }, ⟨p, rfl, h, rfl⟩, by rw [leaf_depth (policy_leaf h)]⟩
        · rintro ⟨y, ⟨p, rfl, h, rfl⟩, rfl⟩
          exact ⟨p, h, by rw [leaf_depth (policy_leaf h)], rfl⟩
      simp only [h1, if_false]
      by_cases h2 : k' = ascii "default-event"
      · subst h2
        have hnr : nr = false := by cases nr <;> simp_all
        subst hnr
        simp only [if_true, Bool.false_eq_true, if_false]
        rw [invoke_ok]
        simp (decide := true) only [true_and, false_and, false_or, or_false]
        constructor
        · rintro ⟨h, rfl⟩
          have ht : Text v (leafEv v).data := by
            have hne : (leafEv v).data ≠ [] := by
              intro h0
              rw [h0] at h
              exact hE a (by rw [h])
            cases v with
            | num t r => exact .num _ _
            | str t r => exact .str _ _
            | bool b => cases b <;> exact absurd rfl hne
            | null => exact absurd rfl hne
            | arr => exact absurd rfl hne
            | obj => exact absurd rfl hne
          exact ⟨x, ⟨x.policy, rfl, ⟨_, ht, h⟩, rfl⟩, by rw [leaf_depth (text_leaf ht)]⟩
        · rintro ⟨y, ⟨p, rfl, ⟨t, ht, h⟩, rfl⟩, rfl⟩
          obtain ⟨_, rfl⟩ := text_iff.1 ht
          exact ⟨h, by rw [leaf_depth (text_leaf ht)]⟩
      · simp [h2]
    · rintro hr ⟨x, a⟩ ⟨y, a'⟩ ⟨c, _, h⟩
      rcases policyMember_iff.1 h with ⟨_, h, _⟩ | ⟨_, _, ⟨t, h, _⟩, _⟩ | ⟨h1, h2, _⟩
      · exact hr (policy_leaf h)
      · exact hr (text_leaf h)
      · exact hk ⟨h1, h2⟩

theorem setPolicy_ok {E : Env α} {a a' : α} {s s' : State} : setPolicy E a s = (a', .ok s') ↔ PolicySet E s.defaultPolicy a a' ∧ s' = s := by
  unfold setPolicy PolicySet
  by_cases h : s.defaultPolicy = 0
  · rw [if_neg (by simp [h]), if_pos h]
    simp only [Prod.mk.injEq, Res.ok.injEq]
    exact ⟨fun ⟨h1, h2⟩ => ⟨h1.symm, h2.symm⟩, fun ⟨h1, h2⟩ => ⟨h1.symm, h2.symm⟩⟩
  · rw [if_pos h, if_neg h]; exact invoke_ok

theorem policies_end (E : Env α) (nr : Bool) : Sim E (AtPolicies nr) (AtTop nr) [⟨.objectEnd, [], []⟩]
    (fun p q => q.1 = p.1 ∧ PolicySet E p.1.policy p.2 q.2) := by
  refine Sim.one ?_
  rintro a s x ⟨k, kd, dom, rfl⟩
  have hs : step E a { base nr x k kd dom with table := .defaultPolicies, depth := 2 } ⟨.objectEnd, [], []⟩ =
      setPolicy E a (base nr x k kd dom) := rfl
  rw [hs]
  simp only [setPolicy_ok]
  constructor
  · rintro a' s' ⟨h1, rfl⟩
    exact ⟨x, ⟨_, _, _, rfl⟩, rfl, h1⟩
  · rintro a' y ⟨rfl, h1⟩
    exact ⟨_, ⟨h1, rfl⟩, _, _, _, rfl⟩

end WS.Conf
