import Verif.Proof.Config8
/-
Loader proofs, part 9: the sections put together.
-/
namespace WS.Conf
open WS WS.Sax WS.Time WS.ConfNum WS.Spec.Load WS.Spec.Conf

variable {α : Type}

theorem Sim.via {σ τ : Type} {E : Env α} {A B : State → σ → Prop} {evs : List Ev} {R : σ × α → σ × α → Prop} (g : τ → σ)
    (h : Sim E A B evs R) (hR : ∀ x a y b, R (g x, a) (y, b) → ∃ x', y = g x') :
    Sim E (fun s x => A s (g x)) (fun s x => B s (g x)) evs (fun p q => R (g p.1, p.2) (g q.1, q.2)) := by
  intro a s x hA
  obtain ⟨h1, h2⟩ := h a s (g x) hA
  constructor
  · intro a' s' hr
    obtain ⟨y, hB, hy⟩ := h1 a' s' hr
    obtain ⟨x', rfl⟩ := hR _ _ _ _ hy
    exact ⟨x', hB, hy⟩
  · intro a' y hy
    exact h2 a' (g y) hy

/-- "config-update". -/
theorem config_object (E : Env α) (nr : Bool) (ms : List (List Byte × J)) (hv : membersInPlace ms) :
    Sim E (Keyed (AtTop nr) 1 (ascii "config-update")) (AtTop nr) (J.obj ms).events
      (fun p q => 0 < p.1.version ∧ ∃ c a1 a2, q.1 = { p.1 with config := c } ∧ Members (TopSetting E) ms (p.1.config, p.2) (c, a1) ∧
        Did E (.defaultConfigUpdate c) a1 a2 ∧ PolicySet E p.1.policy a2 q.2) := by
  refine (Sim.object (B := AtConfig nr) (config_level nr) (O := fun p q => q = p ∧ 0 < p.1.version)
    (R := TopSettingF E) ?_ ?_ (config_end E nr)).congr ?_
  · refine open_section ?_ ?_
    · intro a x dom hx
      refine ⟨_, ?_, ascii "config-update", 1, dom, rfl⟩
      have hx' : ¬ x.version = 0 := by omega
      simp [step, dispatch, handleTop, newDepth, base, hx']
    · intro a x dom hx a' s'
      simp [step, dispatch, handleTop, newDepth, base, hx]
  · intro k' v hm; exact config_value E nr (name k') v (inPlace_mem hv k' v hm)
  · have hl := fun x y a b => members_lens (α := α) (fun f : Fr => f.config) (fun f c => { f with config := c }) (by intros; rfl) (by intros; rfl) (by intros; rfl)
      (R := TopSetting E) (ms := ms) (x := x) (y := y) (a := a) (b := b)
    rintro ⟨f, a⟩ ⟨f', a'⟩
    constructor
    · rintro ⟨h1, c, a1, a2, h2, h3, h4, h5⟩
      simp only at h2; subst h2
      exact ⟨_, ⟨rfl, h1⟩, (_, a1), (hl _ _ _ _).2 ⟨c, rfl, h3⟩, rfl, a2, h4, h5⟩
    · rintro ⟨_, ⟨rfl, h1⟩, ⟨f1, a1⟩, h2, h3, a2, h4, h5⟩
      obtain ⟨c, h6, h7⟩ := (hl _ _ _ _).1 h2
      simp only at h3 h6 h4 h5; subst h3 h6
      exact ⟨h1, c, a1, a2, rfl, h7, h4, h5⟩

/-- "default-policies". -/
theorem policies_object (E : Env α) (hE : NoEmptyEvent E) (nr : Bool) (ms : List (List Byte × J)) :
    Sim E (Keyed (AtTop nr) 1 (ascii "default-policies")) (AtTop nr) (J.obj ms).events
      (fun p q => 0 < p.1.version ∧ ∃ c a1, q.1 = { p.1 with policy := c } ∧ Members (PolicyMember E nr) ms (p.1.policy, p.2) (c, a1) ∧
        PolicySet E c a1 q.2) := by
  have ho : Sim E (Keyed (AtTop nr) 1 (ascii "default-policies")) (AtPolicies nr) [⟨.objectBeg, [], []⟩] (fun p q => q = p ∧ 0 < p.1.version) := by
    refine open_section ?_ ?_
    · intro a x dom hx
      refine ⟨_, ?_, ascii "default-policies", 1, dom, rfl⟩
      have hx' : ¬ x.version = 0 := by omega
      have n1 : ¬ ascii "default-policies" = ascii "config-update" := by decide
      simp [step, dispatch, handleTop, newDepth, base, hx', n1]
    · intro a x dom hx a' s'
      simp [step, dispatch, handleTop, newDepth, base, hx]
  have hm := Sim.members_end (E := E) (D := PolicyDead) (policies_level nr) (R := PolicyMemberF E nr) (policies_end E nr)
    (fun ms a s a' s' hD => policyDead_end E ms a s a' s' hD) ms (fun k v _ => policy_value E hE nr (name k) v)
  refine (ho.append hm).congr ?_
  have hl := fun x y a b => members_lens (α := α) (fun f : Fr => f.policy) (fun f c => { f with policy := c }) (by intros; rfl) (by intros; rfl) (by intros; rfl)
      (R := PolicyMember E nr) (ms := ms) (x := x) (y := y) (a := a) (b := b)
  rintro ⟨f, a⟩ ⟨f', a'⟩
  constructor
  · rintro ⟨h1, c, a1, h2, h3, h4⟩
    simp only at h2; subst h2
    exact ⟨_, ⟨rfl, h1⟩, (_, a1), (hl _ _ _ _).2 ⟨c, rfl, h3⟩, rfl, h4⟩
  · rintro ⟨_, ⟨rfl, h1⟩, ⟨f1, a1⟩, h2, h3, h4⟩
    obtain ⟨c, h6, h7⟩ := (hl _ _ _ _).1 h2
    simp only at h3 h6 h4; subst h3 h6
    exact ⟨h1, c, a1, rfl, h7, h4⟩

/-! ### Sections -/

structure FB where
  versioned : Bool
  config : EventConfig
  policy : Flags

def FB.fr (x : FB) : Fr := ⟨if x.versioned then 1 else 0, x.config, x.policy⟩

def ctx (p : FB × α) : Ctx α := ⟨p.1.versioned, p.1.config, p.1.policy, p.2⟩

theorem FB.fr_version (x : FB) : 0 < x.fr.version ↔ x.versioned = true := by
  cases x with | mk v c p => cases v <;> simp [FB.fr]

theorem FB.fr_inj {x y : FB} : x.fr = y.fr ↔ x = y := by
  obtain ⟨v, c, p⟩ := x
  obtain ⟨v', c', p'⟩ := y
  cases v <;> cases v' <;> simp [FB.fr]

def AtB (nr : Bool) (s : State) (x : FB) : Prop := AtTop nr s x.fr

theorem atB_level (nr : Bool) : Level (AtB nr) 1 := by
  have h := top_level nr
  exact ⟨fun s x hs => h.1 s x.fr hs, fun s x hs => h.2 s x.fr hs, fun s x k hs => h.3 s x.fr k hs⟩

theorem section_arr {E : Env α} {nr : Bool} {k : List Byte} {vs : List J} {x y : Ctx α} : Section E nr k (.arr vs) x y ↔
    x.versioned = true ∧
      (((k = ascii "events" ∨ k = ascii "events-insert") ∧ ∃ a, Elements (EventObj E nr x.config) vs x.lib a ∧ y = { x with lib := a }) ∨
       ((k = ascii "routes" ∨ k = ascii "static-routes-insert") ∧ ∃ a, Elements (Rule E nr) vs x.lib a ∧ y = { x with lib := a })) := by
  constructor
  · intro h
    cases h with
    | version h => obtain ⟨t, h, _⟩ := h; cases h
    | events h1 h2 h3 =>
      simp only [List.mem_cons, List.not_mem_nil, or_false] at h1
      refine ⟨h2, .inl ⟨?_, _, h3, rfl⟩⟩
      rcases h1 with rfl | rfl
      · exact .inl rfl
      · exact .inr rfl
    | routes h1 h2 h3 =>
      simp only [List.mem_cons, List.not_mem_nil, or_false] at h1
      refine ⟨h2, .inr ⟨?_, _, h3, rfl⟩⟩
      rcases h1 with rfl | rfl
      · exact .inl rfl
      · exact .inr rfl
  · rintro ⟨h2, ⟨rfl | rfl, a, h3, rfl⟩ | ⟨rfl | rfl, a, h3, rfl⟩⟩
    · exact .events (by simp) h2 h3
    · exact .events (by simp) h2 h3
    · exact .routes (by simp) h2 h3
    · exact .routes (by simp) h2 h3

theorem section_obj {E : Env α} {nr : Bool} {k : List Byte} {ms : List (List Byte × J)} {x y : Ctx α} : Section E nr k (.obj ms) x y ↔
    x.versioned = true ∧
      ((k = ascii "config-update" ∧ ∃ c a a1 a2, Members (TopSetting E) ms (x.config, x.lib) (c, a) ∧ Did E (.defaultConfigUpdate c) a a1 ∧
          PolicySet E x.policy a1 a2 ∧ y = { x with config := c, lib := a2 }) ∨
       (k = ascii "default-policies" ∧ ∃ p a a1, Members (PolicyMember E nr) ms (x.policy, x.lib) (p, a) ∧ PolicySet E p a a1 ∧
          y = { x with policy := p, lib := a1 }) ∨
       (k = ascii "user-values" ∧ ∃ a, Members (ValueMember E) ms x.lib a ∧ y = { x with lib := a })) := by
  constructor
  · intro h
    cases h with
    | version h => obtain ⟨t, h, _⟩ := h; cases h
    | config h1 h2 h3 h4 => exact ⟨h1, .inl ⟨rfl, _, _, _, _, h2, h3, h4, rfl⟩⟩
    | policies h1 h2 h3 => exact ⟨h1, .inr (.inl ⟨rfl, _, _, _, h2, h3, rfl⟩)⟩
    | values h1 h2 => exact ⟨h1, .inr (.inr ⟨rfl, _, h2, rfl⟩)⟩
  · rintro ⟨h1, ⟨rfl, c, a, a1, a2, h2, h3, h4, rfl⟩ | ⟨rfl, p, a, a1, h2, h3, rfl⟩ | ⟨rfl, a, h2, rfl⟩⟩
    · exact .config h1 h2 h3 h4
    · exact .policies h1 h2 h3
    · exact .values h1 h2

theorem section_leaf {E : Env α} {nr : Bool} {k : List Byte} {v : J} {x y : Ctx α} (hr : restEvs v = []) : Section E nr k v x y ↔
    k = ascii "wolfsentry-config-version" ∧ UInt 32 16 v 1 ∧ y = { x with versioned := true } := by
  constructor
  · intro h
    cases h with
    | version h => exact ⟨rfl, h, rfl⟩
    | config => exact absurd hr (rest_obj _)
    | policies => exact absurd hr (rest_obj _)
    | values => exact absurd hr (rest_obj _)
    | events => exact absurd hr (rest_arr _)
    | routes => exact absurd hr (rest_arr _)
  · rintro ⟨rfl, h, rfl⟩; exact .version h

theorem ctx_eq {p q : FB × α} : ctx p = ctx q ↔ p = q := by
  obtain ⟨⟨_, _, _⟩, _⟩ := p
  obtain ⟨⟨_, _, _⟩, _⟩ := q
  simp [ctx, and_assoc]

theorem keyed_b (nr : Bool) (k : List Byte) : Keyed (AtB nr) 1 k = fun s x => Keyed (AtTop nr) 1 k s (FB.fr x) := rfl

theorem section_value (E : Env α) (hE : NoEmptyEvent E) (nr : Bool) (k : List Byte) (v : J) (hv : v.InPlace) :
    Sim E (Keyed (AtB nr) 1 k) (AtB nr) v.events (fun p q => Section E nr k v (ctx p) (ctx q)) := by
  by_cases hr : restEvs v = []
  · refine Sim.leaf ?_ (fun h => absurd hr h)
    rintro a s x ⟨⟨k', kd, dom, rfl⟩, hk, hkd⟩
    have hk : k' = k := hk
    have hkd : kd = 1 := hkd
    subst hk hkd
    refine ⟨fun y => base nr y.fr k' 1 dom, fun y => ⟨_, _, _, rfl⟩, ?_⟩
    intro a' s'
    simp only [section_leaf hr]
    rw [step_leaf (by show (1 : Int) ≤ 1; decide)]
    have hs : step E a (base nr x.fr k' 1 dom) (leafEv v) = handleTop a (base nr x.fr k' 1 dom) (leafEv v) := by
      rw [step_leaf (by show (1 : Int) ≤ 1; decide)]
      simp only [leaf_depth hr, base]
    rw [step_leaf (by show (1 : Int) ≤ 1; decide)] at hs
    rw [hs]
    have hcv := fun n => u32_conv (v := v) (n := n)
    have hh : handleTop a (base nr x.fr k' 1 dom) (leafEv v) = (a', .ok s') ↔
        k' = ascii "wolfsentry-config-version" ∧ UInt 32 16 v 1 ∧ a' = a ∧ s' = { base nr x.fr k' 1 dom with version := 1 } := by
      have conv : ∀ ev : Ev, (∀ n, convertU32 ev.type ev.data = .ok n ↔ UInt 32 16 v n) → ((a,
          (convertU32 ev.type ev.data).bind fun v => if v ≠ 1 then Res.err Err.configInvalidValue else .ok { base nr x.fr k' 1 dom with version := v }) = (a', Res.ok s') ↔
          UInt 32 16 v 1 ∧ a' = a ∧ s' = { base nr x.fr k' 1 dom with version := 1 }) := by
        intro ev hcv
        simp only [Prod.mk.injEq, bind_ok_iff]
        constructor
        · rintro ⟨rfl, n, h1, h2⟩
          split at h2
          · cases h2
          · rename_i hn
            have hn : n = 1 := by simpa using hn
            subst hn
            injection h2 with h2
            exact ⟨(hcv 1).1 h1, rfl, h2.symm⟩
        · rintro ⟨h1, rfl, rfl⟩
          exact ⟨rfl, 1, (hcv 1).2 h1, rfl⟩
      have tail : ∀ ev : Ev, (∀ n, convertU32 ev.type ev.data = .ok n ↔ UInt 32 16 v n) → ((if k' = ascii "wolfsentry-config-version" then (a,
          (convertU32 ev.type ev.data).bind fun v => if v ≠ 1 then Res.err Err.configInvalidValue else .ok { base nr x.fr k' 1 dom with version := v })
          else (a, .err .configInvalidKey)) = (a', Res.ok s') ↔
          k' = ascii "wolfsentry-config-version" ∧ UInt 32 16 v 1 ∧ a' = a ∧ s' = { base nr x.fr k' 1 dom with version := 1 }) := by
        intro ev hcv
        by_cases hk : k' = ascii "wolfsentry-config-version"
        · rw [if_pos hk, conv ev hcv]
          exact ⟨fun h => ⟨hk, h⟩, fun h => h.2⟩
        · rw [if_neg hk]
          simp [hk]
      cases v with
      | null =>
        have : ¬ UInt 32 16 .null 1 := by rintro ⟨t, h, _⟩; cases h
        simp only [this, false_and, and_false, iff_false]
        intro h; cases h
      | bool b => cases b <;> exact tail _ hcv
      | num => exact tail _ hcv
      | str => exact tail _ hcv
      | arr xs => exact absurd hr (rest_arr xs)
      | obj ms => exact absurd hr (rest_obj ms)
    rw [hh]
    constructor
    · rintro ⟨h1, h2, rfl, rfl⟩
      exact ⟨{ x with versioned := true }, ⟨h1, h2, rfl⟩, rfl⟩
    · rintro ⟨y, ⟨h1, h2, h3⟩, rfl⟩
      have : ctx (y, a') = ctx (({ x with versioned := true } : FB), a) := h3
      rw [ctx_eq] at this
      injection this with h4 h5
      subst h4 h5
      exact ⟨h1, h2, rfl, rfl⟩
  cases v with
  | null => exact absurd rfl hr
  | bool b => cases b <;> exact absurd rfl hr
  | num => exact absurd rfl hr
  | str => exact absurd rfl hr
  | arr vs =>
    by_cases he : k = ascii "events" ∨ k = ascii "events-insert"
    · refine ((events_array E nr k he vs hv).via FB.fr ?_).congr ?_
      · rintro x a y b ⟨_, h, _⟩; exact ⟨x, h⟩
      · rintro ⟨x, a⟩ ⟨y, b⟩
        rw [section_arr]
        simp only [FB.fr_version, FB.fr_inj]
        have hn : ¬ (k = ascii "routes" ∨ k = ascii "static-routes-insert") := by
          rcases he with rfl | rfl <;> decide
        constructor
        · rintro ⟨h1, ⟨_, a1, h2, h3⟩ | ⟨h, _⟩⟩
          · have : ctx (y, b) = ctx (x, a1) := h3
            rw [ctx_eq] at this
            injection this with h4 h5
            subst h4 h5
            exact ⟨h1, rfl, h2⟩
          · exact absurd h hn
        · rintro ⟨h1, rfl, h2⟩
          exact ⟨h1, .inl ⟨he, b, h2, rfl⟩⟩
    · by_cases ht : k = ascii "routes" ∨ k = ascii "static-routes-insert"
      · refine ((routes_array E nr k ht vs hv).via FB.fr ?_).congr ?_
        · rintro x a y b ⟨_, h, _⟩; exact ⟨x, h⟩
        · rintro ⟨x, a⟩ ⟨y, b⟩
          rw [section_arr]
          simp only [FB.fr_version, FB.fr_inj]
          constructor
          · rintro ⟨h1, ⟨h, _⟩ | ⟨_, a1, h2, h3⟩⟩
            · exact absurd h he
            · have : ctx (y, b) = ctx (x, a1) := h3
              rw [ctx_eq] at this
              injection this with h4 h5
              subst h4 h5
              exact ⟨h1, rfl, h2⟩
          · rintro ⟨h1, rfl, h2⟩
            exact ⟨h1, .inr ⟨ht, b, h2, rfl⟩⟩
      · refine Sim.refused ?_ ?_
        · rintro a s x ⟨⟨k', kd, dom, rfl⟩, hk, hkd⟩ a' s'
          have hk : k' = k := hk
          have hkd : kd = 1 := hkd
          subst hk hkd
          simp only [not_or] at he ht
          by_cases hx : x.fr.version = 0
          · simp [step, dispatch, handleTop, newDepth, base, hx]
          · by_cases hu : k' = ascii "actions-update"
            · subst hu; simp [step, dispatch, handleTop, newDepth, base, hx, he.1, he.2, ht.1, ht.2]
            · simp [step, dispatch, handleTop, newDepth, base, hx, he.1, he.2, ht.1, ht.2, hu]
        · rintro p q h
          rw [section_arr] at h
          rcases h with ⟨_, ⟨h, _⟩ | ⟨h, _⟩⟩
          · exact he h
          · exact ht h
  | obj ms =>
    by_cases h1 : k = ascii "config-update"
    · subst h1
      refine ((config_object E nr ms hv).via FB.fr ?_).congr ?_
      · rintro x a y b ⟨_, c, a1, a2, h, _⟩; exact ⟨{ x with config := c }, h⟩
      · rintro ⟨x, a⟩ ⟨y, b⟩
        rw [section_obj]
        simp only [FB.fr_version]
        constructor
        · rintro ⟨h1, ⟨_, c, a1, a2, a3, h2, h3, h4, h5⟩ | ⟨h, _⟩ | ⟨h, _⟩⟩
          · have : ctx (y, b) = ctx (({ x with config := c } : FB), a3) := h5
            rw [ctx_eq] at this
            injection this with h6 h7
            subst h6 h7
            exact ⟨h1, c, a1, a2, rfl, h2, h3, h4⟩
          · exact absurd h (by decide)
          · exact absurd h (by decide)
        · rintro ⟨h1, c, a1, a2, h2, h3, h4, h5⟩
          have h2' : y = { x with config := c } := FB.fr_inj.1 h2
          subst h2'
          exact ⟨h1, .inl ⟨trivial, c, a1, a2, b, h3, h4, h5, rfl⟩⟩
    by_cases h2 : k = ascii "default-policies"
    · subst h2
      refine ((policies_object E hE nr ms).via FB.fr ?_).congr ?_
      · rintro x a y b ⟨_, c, a1, h, _⟩; exact ⟨{ x with policy := c }, h⟩
      · rintro ⟨x, a⟩ ⟨y, b⟩
        rw [section_obj]
        simp only [FB.fr_version]
        constructor
        · rintro ⟨h1, ⟨h, _⟩ | ⟨_, c, a1, a2, h2, h3, h5⟩ | ⟨h, _⟩⟩
          · exact absurd h (by decide)
          · have : ctx (y, b) = ctx (({ x with policy := c } : FB), a2) := h5
            rw [ctx_eq] at this
            injection this with h6 h7
            subst h6 h7
            exact ⟨h1, c, a1, rfl, h2, h3⟩
          · exact absurd h (by decide)
        · rintro ⟨h1, c, a1, h2, h3, h4⟩
          have h2' : y = { x with policy := c } := FB.fr_inj.1 h2
          subst h2'
          exact ⟨h1, .inr (.inl ⟨trivial, c, a1, b, h3, h4, rfl⟩)⟩
    by_cases h3 : k = ascii "user-values"
    · subst h3
      refine ((values_object E nr ms).via FB.fr ?_).congr ?_
      · rintro x a y b ⟨_, h, _⟩; exact ⟨x, h⟩
      · rintro ⟨x, a⟩ ⟨y, b⟩
        rw [section_obj]
        simp only [FB.fr_version, FB.fr_inj]
        constructor
        · rintro ⟨h1, ⟨h, _⟩ | ⟨h, _⟩ | ⟨_, a1, h2, h5⟩⟩
          · exact absurd h (by decide)
          · exact absurd h (by decide)
          · have : ctx (y, b) = ctx (x, a1) := h5
            rw [ctx_eq] at this
            injection this with h6 h7
            subst h6 h7
            exact ⟨h1, rfl, h2⟩
        · rintro ⟨h1, rfl, h2⟩
          exact ⟨h1, .inr (.inr ⟨trivial, b, h2, rfl⟩)⟩
    · refine Sim.refused ?_ ?_
      · rintro a s x ⟨⟨k', kd, dom, rfl⟩, hk, hkd⟩ a' s'
        have hk : k' = k := hk
        have hkd : kd = 1 := hkd
        subst hk hkd
        by_cases hx : x.fr.version = 0
        · simp [step, dispatch, handleTop, newDepth, base, hx]
        · simp [step, dispatch, handleTop, newDepth, base, hx, h1, h2, h3]
      · rintro p q h
        rw [section_obj] at h
        rcases h with ⟨_, ⟨h, _⟩ | ⟨h, _⟩ | ⟨h, _⟩⟩
        · exact h1 h
        · exact h2 h
        · exact h3 h

theorem members_ctx {E : Env α} {nr : Bool} {ms : List (List Byte × J)} {x y : Ctx α} {p q : FB × α} (hx : x = ctx p) (hy : y = ctx q) :
    Members (Section E nr) ms x y ↔ Members (fun k v p q => Section E nr k v (ctx p) (ctx q)) ms p q := by
  constructor
  · intro h
    induction h generalizing p with
    | nil =>
      rw [hy] at hx
      rw [ctx_eq] at hx
      subst hx; exact .nil _
    | @cons k v ms x y z h1 h2 h3 ih =>
      subst hx
      exact .cons (y := ((⟨y.versioned, y.config, y.policy⟩ : FB), y.lib)) h1 h2 (ih rfl hy)
  · intro h
    subst hx hy
    induction h with
    | nil => exact .nil _
    | cons h1 h2 h3 ih => exact .cons h1 h2 ih

theorem load_iff (E : Env α) (hE : NoEmptyEvent E) (nr : Bool) (c : EventConfig) (j : J) (hj : j.InPlace) (a a' : α) :
    (∃ st', run E a (start nr c) j.events = (a', .ok st')) ↔ Loads E nr c j a a' := by
  by_cases hobj : ∃ ms, j = .obj ms
  · obtain ⟨ms, rfl⟩ := hobj
    have hm := Sim.members (atB_level nr) (R := fun k v p q => Section E nr k v (ctx p) (ctx q)) ms (fun k v h => section_value E hE nr (name k) v (inPlace_mem hj k v h))
    have hend : ∀ a s x, AtB nr s x → ∃ s', step E a s ⟨.objectEnd, [], []⟩ = (a, .ok s') := by
      rintro a s x ⟨k, kd, dom, rfl⟩
      exact ⟨_, rfl⟩
    have h0 : step E a (start nr c) ⟨.objectBeg, [], []⟩ = (a, .ok (base nr (FB.fr ⟨false, c, 0⟩) [] 0 [])) := rfl
    have hbase : AtB nr (base nr (FB.fr ⟨false, c, 0⟩) [] 0 []) ⟨false, c, 0⟩ := ⟨_, _, _, rfl⟩
    obtain ⟨m1, m2⟩ := hm a _ _ hbase
    have hrun : ∀ r, run E a (start nr c) (J.obj ms).events = r ↔
        andThen (run E a (base nr (FB.fr ⟨false, c, 0⟩) [] 0 []) (Spec.Load.members ms)) (fun a s => run E a s [⟨.objectEnd, [], []⟩]) = r := by
      intro r
      rw [show (J.obj ms).events = ⟨.objectBeg, [], []⟩ :: (Spec.Load.members ms ++ [⟨.objectEnd, [], []⟩]) from by rw [J.events]]
      show andThen (step E a _ _) _ = _ ↔ _
      rw [h0]
      show run E a _ _ = _ ↔ _
      rw [run_append]
    constructor
    · rintro ⟨st', hr⟩
      rw [hrun, andThen_ok] at hr
      obtain ⟨a1, s1, r1, r2⟩ := hr
      obtain ⟨y, hB, hM⟩ := m1 _ _ r1
      obtain ⟨s2, r3⟩ := hend a1 s1 y hB
      rw [run_one, r3] at r2
      simp only [Prod.mk.injEq, Res.ok.injEq] at r2
      obtain ⟨rfl, rfl⟩ := r2
      have := (members_ctx (x := ctx (⟨false, c, 0⟩, a)) (y := ctx (y, a1)) rfl rfl).2 hM
      exact .mk this
    · intro h
      cases h with
      | @mk _ x _ hM =>
        have := (members_ctx (p := (⟨false, c, 0⟩, a)) (q := (⟨x.versioned, x.config, x.policy⟩, x.lib)) rfl rfl).1 hM
        obtain ⟨s1, r1, hB⟩ := m2 _ _ this
        obtain ⟨s2, r3⟩ := hend x.lib s1 _ hB
        refine ⟨s2, ?_⟩
        rw [hrun, andThen_ok]
        exact ⟨_, _, r1, by rw [run_one, r3]⟩
  · constructor
    · rintro ⟨st', hr⟩
      rw [events_leaf] at hr
      obtain ⟨a1, s1, h1, _⟩ := run_cons hr
      cases j with
      | obj ms => exact absurd ⟨ms, rfl⟩ hobj
      | bool b => cases b <;> exact absurd h1 (by intro h; cases h)
      | _ => exact absurd h1 (by intro h; cases h)
    · intro h
      cases h
      exact absurd ⟨_, rfl⟩ hobj

end WS.Conf
