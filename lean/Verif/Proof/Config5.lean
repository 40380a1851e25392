import Verif.Proof.Config4
/-
Loader proofs, part 5: rule objects and lists of rules.
-/
namespace WS.Conf
open WS WS.Sax WS.Time WS.ConfNum WS.Spec.Load WS.Spec.Conf

variable {α : Type}

theorem Sim.never {σ τ : Type} {E : Env α} {A : State → σ → Prop} {B : State → τ → Prop} {evs : List Ev}
    {R : σ × α → τ × α → Prop} (h : ∀ a s x, A s x → ∀ a' s', run E a s evs ≠ (a', .ok s'))
    (hR : ∀ p q, ¬ R p q) : Sim E A B evs R := by
  intro a s x hA
  exact ⟨fun a' s' hr => absurd hr (h a s x hA a' s'), fun a' y hy => absurd hy (hR _ _)⟩

/-- An object: opened, its members, closed. -/
theorem Sim.object {ρ σ τ : Type} {E : Env α} {A : State → ρ → Prop} {B : State → σ → Prop} {C : State → τ → Prop} {d : Int}
    (hl : Level B d) {ms : List (List Byte × J)} {O : ρ × α → σ × α → Prop} {R : List Byte → J → σ × α → σ × α → Prop} {S : σ × α → τ × α → Prop}
    (ho : Sim E A B [⟨.objectBeg, [], []⟩] O)
    (hm : ∀ k v, (k, v) ∈ ms → Sim E (Keyed B d (name k)) B v.events (R (name k) v))
    (he : Sim E B C [⟨.objectEnd, [], []⟩] S) : Sim E A C (J.obj ms).events (Comp O (Comp (Members R ms) S)) :=
  ho.append ((Sim.members hl ms hm).append he)

/-- An array. -/
theorem Sim.array {ρ σ τ : Type} {E : Env α} {A : State → ρ → Prop} {B : State → σ → Prop} {C : State → τ → Prop}
    {vs : List J} {O : ρ × α → σ × α → Prop} {R : J → σ × α → σ × α → Prop} {S : σ × α → τ × α → Prop}
    (ho : Sim E A B [⟨.arrayBeg, [], []⟩] O)
    (hm : ∀ v, v ∈ vs → Sim E B B v.events (R v))
    (he : Sim E B C [⟨.arrayEnd, [], []⟩] S) : Sim E A C (J.arr vs).events (Comp O (Comp (Elements R vs) S)) :=
  ho.append ((Sim.elements vs hm).append he)

/-- An event that leads from every state to one state, without the library. -/
theorem Sim.move {σ τ : Type} {E : Env α} {A : State → σ → Prop} {B : State → τ → Prop} {e : Ev} (f : σ → τ)
    (h : ∀ a s x, A s x → ∃ s', step E a s e = (a, .ok s') ∧ B s' (f x)) : Sim E A B [e] (fun p q => q = (f p.1, p.2)) := by
  refine Sim.one ?_
  intro a s x hA
  obtain ⟨s1, h1, h2⟩ := h a s x hA
  constructor
  · intro a' s' hs
    have := h1.symm.trans hs
    simp only [Prod.mk.injEq, Res.ok.injEq] at this
    obtain ⟨rfl, rfl⟩ := this
    exact ⟨_, h2, rfl⟩
  · rintro a' y h
    simp only [Prod.mk.injEq] at h
    obtain ⟨rfl, rfl⟩ := h
    exact ⟨s1, h1, h2⟩

def AtRoutes (nr : Bool) (s : State) (f : Fr) : Prop :=
  ∃ k kd dom, s = { base nr f k kd dom with table := .routes, depth := 2 }

def AtRule (nr : Bool) (s : State) (x : Fr × RouteUC) : Prop :=
  ∃ k kd dom, s = { base nr x.1 k kd dom with table := .routes, object := .route, depth := 3, route := x.2 }

def Side.sect : Side → Sect
  | .remote => .remote
  | .local => .local

def AtEndpoint (side : Side) (nr : Bool) (s : State) (x : Fr × RouteUC) : Prop :=
  ∃ k kd dom, s = { base nr x.1 k kd dom with table := .routes, object := .route, depth := 4, section_ := side.sect, route := x.2 }

theorem rule_level (nr : Bool) : Level (AtRule nr) 3 := by
  constructor
  · rintro s x ⟨k, kd, dom, rfl⟩; simp [base]
  · rintro s x ⟨k, kd, dom, rfl⟩; rfl
  · rintro s x k' ⟨k, kd, dom, rfl⟩; exact ⟨k', _, dom, rfl⟩

theorem endpoint_level (side : Side) (nr : Bool) : Level (AtEndpoint side nr) 4 := by
  constructor
  · rintro s x ⟨k, kd, dom, rfl⟩; cases side <;> simp [Side.sect]
  · rintro s x ⟨k, kd, dom, rfl⟩; rfl
  · rintro s x k' ⟨k, kd, dom, rfl⟩; exact ⟨k', _, dom, rfl⟩

/-- A step on the rule under construction. -/
def OnRule (R : List Byte → J → RouteUC → RouteUC → Prop) (k : List Byte) (v : J) (p q : (Fr × RouteUC) × α) : Prop :=
  ∃ r, q.1 = (p.1.1, r) ∧ R k v p.1.2 r ∧ q.2 = p.2

theorem leaf_depth_rest {v : J} (h : restEvs v ≠ []) (d : Int) : newDepth (leafEv v).type d = d + 1 := by
  cases v with
  | arr xs => rfl
  | obj ms => rfl
  | bool b => cases b <;> exact absurd rfl h
  | _ => exact absurd rfl h

theorem leaf_objectBeg {v : J} (h : restEvs v = []) : (leafEv v).type ≠ .objectBeg := by
  cases v with
  | bool b => cases b <;> simp [leafEv]
  | obj ms => exact absurd h (rest_obj ms)
  | _ => simp [leafEv]

theorem handleRoute_endpoint {E : Env α} {a : α} {s : State} {ev : Ev} {side : Side} (hd : s.depth = 4) (hs : s.section_ = side.sect)
    (ht : ev.type ≠ .objectBeg) :
    handleRoute E a s ev = (a, Res.map (fun r => { s with route := r }) (endpointClause E s.key ev side s.route)) := by
  unfold handleRoute
  rw [if_neg (by rw [hd]; simp), if_neg (by rw [hd]; simp), if_pos hd, if_neg ht]
  cases side
  · have hs : s.section_ = .remote := hs
    rw [if_pos hs]
  · have hs : s.section_ = .local := hs
    rw [if_neg (by rw [hs]; simp), if_pos hs]

theorem handleRoute_deep {E : Env α} {a : α} {s : State} {ev : Ev} (hd : 5 ≤ s.depth) : handleRoute E a s ev = (a, .err .configUnexpected) := by
  unfold handleRoute
  rw [if_neg (by rintro ⟨h, _⟩; omega), if_neg (by rintro ⟨h, _⟩; omega), if_neg (by omega), if_neg (by rintro ⟨h, _⟩; omega),
    if_pos (by omega)]

theorem endpoint_value (E : Env α) (nr : Bool) (side : Side) (k : List Byte) (v : J) (hv : v.InPlace) :
    Sim E (Keyed (AtEndpoint side nr) 4 k) (AtEndpoint side nr) v.events (OnRule (EndpointMember E side) k v) := by
  refine Sim.leaf ?_ ?_
  · rintro a s ⟨f, r⟩ ⟨⟨k', kd, dom, rfl⟩, rfl, rfl⟩
    refine ⟨fun y => { base nr y.1 k' 4 dom with table := .routes, object := .route, depth := 4, section_ := side.sect, route := y.2 },
      fun y => ⟨_, _, _, rfl⟩, ?_⟩
    intro a' s'
    rw [step_leaf (by show (1 : Int) ≤ 4; decide)]
    show handleRoute _ _ _ _ = _ ↔ _
    by_cases hr : restEvs v = []
    · rw [handleRoute_endpoint (side := side) (by show newDepth _ 4 = 4; rw [leaf_depth hr]) rfl (leaf_objectBeg hr), res_map_pair]
      show (∃ b, endpointClause E k' (leafEv v) side r = .ok b ∧ _) ↔ _
      simp only [endpointClause_ok hv]
      constructor
      · rintro ⟨b, h, rfl, rfl⟩
        exact ⟨(f, b), ⟨b, rfl, h, rfl⟩, by rw [leaf_depth hr]⟩
      · rintro ⟨y, ⟨b, e1, h, e2⟩, rfl⟩
        simp only at e1 e2
        subst e1 e2
        exact ⟨b, h, by rw [leaf_depth hr], rfl⟩
    · rw [handleRoute_deep (by show 5 ≤ newDepth _ 4; rw [leaf_depth_rest hr]; decide)]
      simp only [Prod.mk.injEq, reduceCtorEq, and_false, false_iff]
      rintro ⟨y, ⟨b, _, h, _⟩, _⟩
      exact hr (endpoint_leaf h)
  · rintro hr p q ⟨b, _, h, _⟩
    exact hr (endpoint_leaf h)

/-- "remote" or "local". -/
theorem endpoint_object (E : Env α) (nr : Bool) (side : Side) (k : List Byte) (hk : k = (match side with | .remote => ascii "remote" | .local => ascii "local"))
    (ms : List (List Byte × J)) (hv : membersInPlace ms) :
    Sim E (Keyed (AtRule nr) 3 k) (AtRule nr) (J.obj ms).events
      (fun p q => ∃ r, q.1 = (p.1.1, r) ∧ Members (EndpointMember E side) ms p.1.2 r ∧ q.2 = p.2) := by
  refine (Sim.object (endpoint_level side nr) (O := fun p q => q = (p.1, p.2)) (S := fun p q => q = (p.1, p.2)) (R := OnRule (EndpointMember E side)) ?_ ?_ ?_).congr ?_
  · refine Sim.move id ?_
    rintro a s ⟨f, r⟩ ⟨⟨k', kd, dom, rfl⟩, rfl, rfl⟩
    simp only [base] at hk
    subst hk
    cases side
    · exact ⟨_, rfl, ascii "remote", 3, dom, rfl⟩
    · exact ⟨_, rfl, ascii "local", 3, dom, rfl⟩
  · intro k' v hm
    exact endpoint_value E nr side _ v (inPlace_mem hv _ _ hm)
  · refine Sim.move id ?_
    rintro a s ⟨f, r⟩ ⟨k', kd, dom, rfl⟩
    cases side <;> exact ⟨_, rfl, k', kd, dom, rfl⟩
  · rintro ⟨⟨f, r⟩, a⟩ ⟨⟨f', r'⟩, a'⟩
    have hlens := members_lens (α := α) (fun x : Fr × RouteUC => x.2) (fun x c => (x.1, c)) (fun _ _ => rfl) (fun _ => rfl) (fun _ _ _ => rfl)
      (R := fun k v (p q : RouteUC × α) => EndpointMember E side k v p.1 q.1 ∧ q.2 = p.2) (ms := ms) (x := (f, r)) (y := (f', r')) (a := a) (b := a')
    constructor
    · rintro ⟨r1, h1, h2, rfl⟩
      simp only [Prod.mk.injEq] at h1
      obtain ⟨rfl, rfl⟩ := h1
      refine ⟨_, rfl, _, hlens.2 ⟨r', rfl, members_pure.2 ⟨h2, rfl⟩⟩, rfl⟩
    · rintro ⟨_, rfl, ⟨m1, a1⟩, h, e⟩
      simp only [Prod.mk.injEq] at e
      obtain ⟨rfl, rfl⟩ := e
      obtain ⟨c, e, h⟩ := hlens.1 h
      obtain ⟨h', rfl⟩ := members_pure.1 h
      exact ⟨c, e, h', rfl⟩

theorem handleRoute_scalar {E : Env α} {a : α} {s : State} {ev : Ev} (hd : s.depth = 3) (h1 : ev.type ≠ .objectBeg) (h2 : ev.type ≠ .objectEnd) :
    handleRoute E a s ev = (a, Res.map (fun r => { s with route := r }) (routeClause E s.key ev s.route)) := by
  unfold handleRoute
  rw [if_neg (by rw [hd]; simp), if_neg (fun h => h1 h.2), if_neg (by rw [hd]; decide), if_neg (fun h => h2 h.2), if_neg (by rw [hd]; decide)]

/-- The members of a rule. -/
theorem rule_value (E : Env α) (nr : Bool) (k : List Byte) (v : J) (hv : v.InPlace) :
    Sim E (Keyed (AtRule nr) 3 k) (AtRule nr) v.events (OnRule (RuleMember E) k v) := by
  by_cases hobj : ∃ ms, v = .obj ms
  · obtain ⟨ms, rfl⟩ := hobj
    have hsc : ∀ r r', ¬ RuleScalar E k (.obj ms) r r' := fun r r' h => rest_obj ms (ruleScalar_leaf h)
    by_cases h1 : k = ascii "remote"
    · refine (endpoint_object E nr .remote k h1 ms hv).congr ?_
      intro p q
      subst h1
      unfold OnRule
      simp (decide := true) only [ruleMember_iff, hsc, false_or, true_and, false_and, or_false, J.obj.injEq, exists_eq_left']
    by_cases h2 : k = ascii "local"
    · refine (endpoint_object E nr .local k h2 ms hv).congr ?_
      intro p q
      subst h2
      unfold OnRule
      simp (decide := true) only [ruleMember_iff, hsc, false_or, true_and, false_and, J.obj.injEq, exists_eq_left']
    · rw [events_leaf]
      refine Sim.refused ?_ ?_
      · rintro a s ⟨f, r⟩ ⟨⟨k', kd, dom, rfl⟩, rfl, rfl⟩ a' s'
        rw [step_leaf (by show (1 : Int) ≤ 3; decide)]
        show handleRoute _ _ _ _ ≠ _
        simp only [base] at h1 h2
        unfold handleRoute
        simp [leafEv, newDepth, base, h1, h2]
      · rintro p q ⟨r, _, h, _⟩
        rcases ruleMember_iff.1 h with h | ⟨h, _⟩ | ⟨h, _⟩
        · exact hsc _ _ h
        · exact h1 h
        · exact h2 h
  · have hiff : ∀ r r', RuleMember E k v r r' ↔ RuleScalar E k v r r' := by
      intro r r'
      rw [ruleMember_iff]
      constructor
      · rintro (h | ⟨_, ms, rfl, _⟩ | ⟨_, ms, rfl, _⟩)
        · exact h
        · exact absurd ⟨ms, rfl⟩ hobj
        · exact absurd ⟨ms, rfl⟩ hobj
      · exact .inl
    refine Sim.leaf ?_ ?_
    · rintro a s ⟨f, r⟩ ⟨⟨k', kd, dom, rfl⟩, rfl, rfl⟩
      refine ⟨fun y => { base nr y.1 k' 3 dom with table := .routes, object := .route, depth := 3, route := y.2 },
        fun y => ⟨_, _, _, rfl⟩, ?_⟩
      intro a' s'
      rw [step_leaf (by show (1 : Int) ≤ 3; decide)]
      show handleRoute _ _ _ _ = _ ↔ _
      by_cases hr : restEvs v = []
      · rw [handleRoute_scalar (by show newDepth _ 3 = 3; rw [leaf_depth hr]) (leaf_objectBeg hr) (leaf_objectEnd v), res_map_pair]
        show (∃ b, routeClause E k' (leafEv v) r = .ok b ∧ _) ↔ _
        simp only [routeClause_ok hr]
        constructor
        · rintro ⟨b, h, rfl, rfl⟩
          exact ⟨(f, b), ⟨b, rfl, (hiff _ _).2 h, rfl⟩, by rw [leaf_depth hr]⟩
        · rintro ⟨y, ⟨b, e1, h, e2⟩, rfl⟩
          simp only at e1 e2
          subst e1 e2
          exact ⟨b, (hiff _ _).1 h, by rw [leaf_depth hr], rfl⟩
      · have hno : ¬ ∃ y, OnRule (RuleMember E) k' v ((f, r), a) (y, a') ∧ s' = { base nr y.1 k' 3 dom with table := .routes, object := .route, depth := 3, route := y.2 } := by
          rintro ⟨y, ⟨b, _, h, _⟩, _⟩
          exact hr (ruleScalar_leaf ((hiff _ _).1 h))
        refine iff_of_false ?_ hno
        cases v with
        | arr xs => unfold handleRoute; simp [leafEv, newDepth, base]
        | obj ms => exact absurd ⟨ms, rfl⟩ hobj
        | bool b => cases b <;> exact absurd rfl hr
        | _ => exact absurd rfl hr
    · rintro hr p q ⟨b, _, h, _⟩
      exact hr (ruleScalar_leaf ((hiff _ _).1 h))

theorem readable_iff {sa : Sa} : sa.readable = true ↔ sa.addrLen ≤ 128 := by
  unfold Sa.readable
  rw [decide_eq_true_iff, bits_bytes]
  omega

/-- The end of a rule. -/
theorem rule_end (E : Env α) (nr : Bool) : Sim E (AtRule nr) (AtRoutes nr) [⟨.objectEnd, [], []⟩]
    (fun p q => q.1 = p.1.1 ∧ (nr = false → p.1.2.remote.addrLen ≤ 128 ∧ p.1.2.loc.addrLen ≤ 128) ∧
      DidRule E nr (.routeInsert p.1.2.remote p.1.2.loc p.1.2.flags p.1.2.label) p.2 q.2) := by
  refine Sim.one ?_
  rintro a s ⟨f, r⟩ ⟨k, kd, dom, rfl⟩
  have hs : step E a { base nr f k kd dom with table := .routes, object := .route, depth := 3, route := r } ⟨.objectEnd, [], []⟩ =
      routeEnd E a { base nr f k kd dom with table := .routes, object := .route, depth := 2, route := r } := rfl
  have hr : routeEnd E a { base nr f k kd dom with table := .routes, object := .route, depth := 2, route := r } =
      if nr then (a, .ok { base nr f k kd dom with table := .routes, depth := 2 })
      else if ¬ (r.remote.readable ∧ r.loc.readable) then (a, .ub)
      else invoke E a (.routeInsert r.remote r.loc r.flags r.label) { base nr f k kd dom with table := .routes, depth := 2 } := rfl
  show (∀ a' s', step E a { base nr f k kd dom with table := .routes, object := .route, depth := 3, route := r } _ = _ → _) ∧
    (∀ a' y, _ → ∃ s', step E a { base nr f k kd dom with table := .routes, object := .route, depth := 3, route := r } _ = _ ∧ _)
  rw [hs, hr]
  simp only [readable_iff]
  unfold DidRule
  cases nr with
  | true =>
    simp only [if_true]
    constructor
    · intro a' s' h
      simp only [Prod.mk.injEq, Res.ok.injEq] at h
      obtain ⟨rfl, rfl⟩ := h
      exact ⟨f, ⟨_, _, _, rfl⟩, rfl, by simp, rfl⟩
    · rintro a' y ⟨rfl, _, rfl⟩
      exact ⟨_, rfl, _, _, _, rfl⟩
  | false =>
    simp only [Bool.false_eq_true, if_false]
    by_cases hl : r.remote.addrLen ≤ 128 ∧ r.loc.addrLen ≤ 128
    · rw [if_neg (by simpa using hl)]
      simp only [invoke_ok]
      constructor
      · rintro a' s' ⟨h, rfl⟩
        exact ⟨f, ⟨_, _, _, rfl⟩, rfl, fun _ => hl, h⟩
      · rintro a' y ⟨rfl, _, h⟩
        exact ⟨_, ⟨h, rfl⟩, _, _, _, rfl⟩
    · rw [if_pos hl]
      constructor
      · intro a' s' h; simp at h
      · rintro a' y ⟨_, h, _⟩; exact absurd (h trivial) hl

theorem fresh_any : freshRoute.flags = anyRule.flags := by decide

/-- A rule object. -/
theorem rule_object (E : Env α) (nr : Bool) (ms : List (List Byte × J)) (hv : membersInPlace ms) :
    Sim E (AtRoutes nr) (AtRoutes nr) (J.obj ms).events (fun p q => Rule E nr (.obj ms) p.2 q.2 ∧ q.1 = p.1) := by
  refine (Sim.object (rule_level nr) (O := fun p q => q = ((p.1, anyRule), p.2)) (R := OnRule (RuleMember E)) ?_ ?_ (rule_end E nr)).congr ?_
  · refine Sim.move (fun f => (f, anyRule)) ?_
    rintro a s f ⟨k', kd, dom, rfl⟩
    refine ⟨_, rfl, k', kd, dom, ?_⟩
    have ha : anyRule = { ({} : RouteUC) with flags := ({} : RouteUC).flags ||| freshRoute.flags } := by decide
    rw [ha]
    rfl
  · intro k' v hm
    exact rule_value E nr _ v (inPlace_mem hv _ _ hm)
  · rintro ⟨f, a⟩ ⟨f', a'⟩
    have hlens := fun r' a1 => members_lens (α := α) (fun x : Fr × RouteUC => x.2) (fun x c => (x.1, c)) (fun _ _ => rfl) (fun _ => rfl) (fun _ _ _ => rfl)
      (R := fun k v (p q : RouteUC × α) => RuleMember E k v p.1 q.1 ∧ q.2 = p.2) (ms := ms) (x := (f, anyRule)) (y := r') (a := a) (b := a1)
    constructor
    · rintro ⟨⟨h1, h2, h3⟩, rfl⟩
      rename_i r
      exact ⟨_, rfl, ((f', r), a), (hlens _ _).2 ⟨r, rfl, members_pure.2 ⟨h1, rfl⟩⟩, rfl, h2, h3⟩
    · rintro ⟨_, rfl, ⟨⟨f1, r⟩, a1⟩, h, rfl, h2, h3⟩
      obtain ⟨c, e, h⟩ := (hlens _ _).1 h
      simp only [Prod.mk.injEq] at e
      obtain ⟨rfl, rfl⟩ := e
      obtain ⟨h', rfl⟩ := members_pure.1 h
      exact ⟨.mk h' h2 h3, rfl⟩

theorem routeEnd_inv {E : Env α} {a a' : α} {s s' : State} (h : routeEnd E a s = (a', .ok s')) : s' = s.reset := by
  unfold routeEnd at h
  split at h
  · simp only [Prod.mk.injEq, Res.ok.injEq] at h; exact h.2.symm
  split at h
  · simp at h
  · exact (invoke_ok.1 h).2

theorem reset_table (s : State) : s.reset.table = s.table := by unfold State.reset; split <;> rfl
theorem reset_depth (s : State) : s.reset.depth = s.depth := by unfold State.reset; split <;> rfl
theorem reset_section (s : State) (h : s.section_ ≠ .json) : s.reset.section_ ≠ .json := by
  unfold State.reset; split
  · exact h
  · simp

theorem handleRoute_inv {E : Env α} {a a' : α} {s s' : State} {e : Ev} (hs : s.section_ ≠ .json) (h : handleRoute E a s e = (a', .ok s')) :
    s'.table = s.table ∧ s'.depth = s.depth ∧ s'.section_ ≠ .json := by
  unfold handleRoute at h
  split at h
  · rw [routeEnd_inv h]; exact ⟨reset_table s, reset_depth s, reset_section s hs⟩
  split at h
  · simp only [Prod.mk.injEq, Res.ok.injEq] at h
    obtain ⟨_, rfl⟩ := h
    exact ⟨reset_table s, reset_depth s, reset_section s hs⟩
  split at h
  · split at h
    · split at h
      · simp only [Prod.mk.injEq, Res.ok.injEq] at h; obtain ⟨_, rfl⟩ := h; exact ⟨rfl, rfl, by simp⟩
      split at h
      · simp only [Prod.mk.injEq, Res.ok.injEq] at h; obtain ⟨_, rfl⟩ := h; exact ⟨rfl, rfl, by simp⟩
      · simp at h
    split at h
    · obtain ⟨b, _, rfl, _⟩ := res_map_pair.1 h; exact ⟨rfl, rfl, hs⟩
    split at h
    · obtain ⟨b, _, rfl, _⟩ := res_map_pair.1 h; exact ⟨rfl, rfl, hs⟩
    · simp at h
  split at h
  · simp only [Prod.mk.injEq, Res.ok.injEq] at h; obtain ⟨_, rfl⟩ := h; exact ⟨rfl, rfl, by simp⟩
  split at h
  · simp at h
  · obtain ⟨b, _, rfl, _⟩ := res_map_pair.1 h; exact ⟨rfl, rfl, hs⟩

/-- Within "routes". -/
def RoutesInv (s : State) : Prop := s.table = .routes ∧ s.section_ ≠ .json

theorem key_inv {E : Env α} {a a' : α} {s s' : State} {e : Ev} (hs : s.section_ ≠ .json) (he : e.type = .key)
    (h : step E a s e = (a', .ok s')) : s' = { s with key := cstr e.data, keydepth := s.depth } := by
  unfold step handleKey at h
  rw [if_pos he, if_neg hs] at h
  split at h
  · simp at h
  · simp only [Prod.mk.injEq, Res.ok.injEq] at h; exact h.2.symm

theorem step_deep {E : Env α} {a : α} {s : State} {e : Ev} (he : e.type ≠ .key) (hd : 2 ≤ newDepth e.type s.depth) :
    step E a s e = (match s.table with
      | .none => handleTop a { s with depth := newDepth e.type s.depth } e
      | .topConfig => handleConfig E a { s with depth := newDepth e.type s.depth } e s.defaultConfig
          (fun c => { s with depth := newDepth e.type s.depth, defaultConfig := c })
      | .defaultPolicies => handlePolicy E a { s with depth := newDepth e.type s.depth } e
      | .routes => handleRoute E a { s with depth := newDepth e.type s.depth } e
      | .events => handleEvent E a { s with depth := newDepth e.type s.depth } e
      | .userValues => handleUserValue E a { s with depth := newDepth e.type s.depth } e) := by
  have h1 : ∀ d : Int, d ≤ 1 → newDepth e.type s.depth ≠ d := by intro d hd'; omega
  unfold step dispatch
  rw [if_neg he]
  simp only [h1 1 (by decide), h1 0 (by decide), and_false, false_and, if_false]
  cases s.table <;> rfl

theorem routes_inv (E : Env α) : Inv E 2 RoutesInv (fun _ => True) := by
  constructor
  · rintro a s e a' s' ⟨h1, h2⟩ hd hk hs
    rw [key_inv h2 hk hs]
    exact ⟨⟨h1, h2⟩, rfl, fun _ => trivial⟩
  · rintro a s e a' s' ⟨h1, h2⟩ hk hd hs
    rw [step_deep hk hd] at hs
    simp only [h1] at hs
    obtain ⟨g1, g2, g3⟩ := handleRoute_inv (by exact h2) hs
    exact ⟨⟨g1, g3⟩, g2, fun _ => trivial, fun _ => trivial⟩

/-- An element of "routes". -/
theorem route_element (E : Env α) (nr : Bool) (v : J) (hv : v.InPlace) :
    Sim E (AtRoutes nr) (AtRoutes nr) v.events (fun p q => Rule E nr v p.2 q.2 ∧ q.1 = p.1) := by
  by_cases hobj : ∃ ms, v = .obj ms
  · obtain ⟨ms, rfl⟩ := hobj
    exact rule_object E nr ms hv
  · refine Sim.never ?_ ?_
    · rintro a s f ⟨k, kd, dom, rfl⟩ a' s' hr
      by_cases hrest : restEvs v = []
      · rw [events_leaf, hrest, run_one, step_leaf (by show (1 : Int) ≤ 2; decide)] at hr
        simp only at hr
        unfold handleRoute at hr
        simp [leaf_depth hrest, leaf_objectEnd] at hr
      · cases v with
        | arr xs =>
          rw [events_leaf] at hr
          obtain ⟨a1, s1, h1, hr⟩ := run_cons hr
          obtain ⟨a2, s2, h2, hr⟩ := run_app hr
          obtain ⟨i1, d1, _, _⟩ := (routes_inv E).other _ _ _ _ _ (show RoutesInv _ from ⟨rfl, by simp [base]⟩) (by simp [leafEv]) (by show (2 : Int) ≤ 2 + 1; decide) h1
          have d1 : s1.depth = 3 := d1
          obtain ⟨i2, d2, _⟩ := elements_inv (routes_inv E) xs _ _ _ _ i1 (by omega) h2
          rw [run_one, step_deep (by simp) (by show 2 ≤ s2.depth - 1; omega)] at hr
          simp only [i2.1] at hr
          unfold handleRoute at hr
          have hn : newDepth .arrayEnd s2.depth = 2 := by show s2.depth - 1 = 2; omega
          simp [hn] at hr
        | obj ms => exact hobj ⟨ms, rfl⟩
        | bool b => cases b <;> exact hrest rfl
        | _ => exact hrest rfl
    · rintro p q ⟨⟨⟩, _⟩
      exact hobj ⟨_, rfl⟩

/-- "routes". -/
theorem routes_array (E : Env α) (nr : Bool) (k : List Byte) (hk : k = ascii "routes" ∨ k = ascii "static-routes-insert") (vs : List J)
    (hv : elementsInPlace vs) : Sim E (Keyed (AtTop nr) 1 k) (AtTop nr) (J.arr vs).events
      (fun p q => 0 < p.1.version ∧ q.1 = p.1 ∧ Elements (Rule E nr) vs p.2 q.2) := by
  refine (Sim.array (B := AtRoutes nr) (O := fun p q => q = p ∧ 0 < p.1.version) (S := fun p q => q = (p.1, p.2))
    (R := fun v p q => Rule E nr v p.2 q.2 ∧ q.1 = p.1) ?_ ?_ ?_).congr ?_
  · refine open_section ?_ ?_
    · intro a x dom hx
      refine ⟨_, ?_, k, 1, dom, rfl⟩
      have hx' : ¬ x.version = 0 := by omega
      have n1 : ¬ ascii "routes" = ascii "events-insert" := by decide
      have n2 : ¬ ascii "routes" = ascii "events" := by decide
      have n3 : ¬ ascii "static-routes-insert" = ascii "events-insert" := by decide
      have n4 : ¬ ascii "static-routes-insert" = ascii "events" := by decide
      rcases hk with rfl | rfl <;> simp [step, dispatch, handleTop, newDepth, base, hx', n1, n2, n3, n4]
    · intro a x dom hx a' s'
      simp [step, dispatch, handleTop, newDepth, base, hx]
  · intro v hm; exact route_element E nr v (inPlace_elem hv v hm)
  · refine Sim.move id ?_
    rintro a s f ⟨k', kd, dom, rfl⟩
    exact ⟨_, rfl, k', kd, dom, rfl⟩
  · rintro ⟨f, a⟩ ⟨f', a'⟩
    constructor
    · rintro ⟨h1, h2, h3⟩
      simp only at h2; subst h2
      exact ⟨_, ⟨rfl, h1⟩, (f', a'), elements_lib.2 ⟨h3, rfl⟩, rfl⟩
    · rintro ⟨_, ⟨rfl, h1⟩, ⟨f1, a1⟩, h2, h3⟩
      obtain ⟨h2', rfl⟩ := elements_lib.1 h2
      simp only [Prod.mk.injEq] at h3
      obtain ⟨rfl, rfl⟩ := h3
      exact ⟨h1, rfl, h2'⟩

end WS.Conf
