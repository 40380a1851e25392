import Verif.Proof.JsonStr2
import Verif.Proof.JsonNum
import Verif.Proof.JsonCtx
/-
What has been read when the parser has not failed.
-/
namespace WS.Sax
open WS WS.Spec.Json
section
variable {σ : Type}

/-! ### Events delivered so far -/

/-- No forbidden root, not too many values. -/
def Okay (cfg : Config) (evs : List Event) : Prop :=
  Within cfg.maxTotalValues (count evs) ∧ ∀ e, evs.head? = some e → ¬ rootForbidden cfg e.type

structure Trace (cfg : Config) (cb : Callback σ) (u0 : σ) (evs : List Event) (p : Parser σ) : Prop where
  calls : Calls cb u0 evs p.user
  vcount : p.vcount = count evs
  okay : Okay cfg evs
  some : evs ≠ [] → 0 < count evs

theorem count_append (a b : List Event) : count (a ++ b) = count a + count b := by
  unfold count; rw [List.filter_append, List.length_append]

theorem Okay.left {cfg : Config} {a b : List Event} (h : Okay cfg (a ++ b)) : Okay cfg a := by
  refine ⟨?_, ?_⟩
  · have h1 := h.1
    rw [count_append] at h1
    unfold Within at h1 ⊢
    omega
  · intro e he
    refine h.2 e ?_
    cases a with
    | nil => cases he
    | cons x xs => exact he

theorem rootBad_iff (cfg : Config) (t : JType) : rootBad cfg t = true ↔ rootForbidden cfg t := by
  cases t <;> simp [rootBad, rootForbidden]

/-- Fields left alone by a delivery. -/
theorem process_fields (cfg : Config) (cb : Callback σ) (p : Parser σ) (t : JType) (d : List Byte)
    (h : 0 ≤ (process cfg cb p t d).err) :
    (process cfg cb p t d).nest = p.nest ∧ (process cfg cb p t d).cp0 = p.cp0 ∧ (process cfg cb p t d).cp1 = p.cp1 ∧
    (process cfg cb p t d).sub = 0 ∧ (process cfg cb p t d).buf = [] ∧
    (process cfg cb p t d).user = (cb p.user ⟨t, d⟩ p.vpos p.pos).1 ∧
    (process cfg cb p t d).err = (cb p.user ⟨t, d⟩ p.vpos p.pos).2.1 ∧ 0 ≤ p.err := by
  obtain ⟨p', h1, h2, h3, h4, h5, h6, h7, h8, _, h9⟩ := process_main cfg cb p t d h
  rw [h1]
  refine ⟨h3, h5, h6, rfl, rfl, ?_, ?_, h9⟩
  · show (cb p'.user ⟨t, d⟩ p'.vpos p'.pos).1 = _
    rw [h7, h8, h2]
  · show (cb p'.user ⟨t, d⟩ p'.vpos p'.pos).2.1 = _
    rw [h7, h8, h2]

theorem count_one_end {t : JType} (d : List Byte) (h : t = .arrayEnd ∨ t = .objectEnd) : count [⟨t, d⟩] = 0 := by
  rcases h with h | h <;> (rw [h]; rfl)

theorem count_one {t : JType} (d : List Byte) (h : ¬ (t = .arrayEnd ∨ t = .objectEnd)) : count [⟨t, d⟩] = 1 := by
  unfold count
  cases t <;> first | rfl | (exact absurd (Or.inl rfl) h) | (exact absurd (Or.inr rfl) h)

theorem process_trace (cfg : Config) (cb : Callback σ) (u0 : σ) (evs : List Event) (p : Parser σ) (t : JType)
    (d : List Byte) (ht : Trace cfg cb u0 evs p) (hne : t = .arrayEnd ∨ t = .objectEnd → evs ≠ [])
    (h : 0 ≤ (process cfg cb p t d).err) : Trace cfg cb u0 (evs ++ [⟨t, d⟩]) (process cfg cb p t d) := by
  obtain ⟨_, _, _, _, _, hu, hc, he⟩ := process_fields cfg cb p t d h
  have hcalls : Calls cb u0 (evs ++ [⟨t, d⟩]) (process cfg cb p t d).user := by
    rw [hu]
    exact Calls.snoc ht.calls (by rw [← hc]; exact h)
  by_cases hend : t = .arrayEnd ∨ t = .objectEnd
  · have hv : (process cfg cb p t d).vcount = p.vcount := by
      unfold process
      rw [if_neg (by omega), if_pos hend]
      rfl
    have hcnt : count (evs ++ [⟨t, d⟩]) = count evs := by rw [count_append, count_one_end d hend]; omega
    refine ⟨hcalls, by rw [hv, ht.vcount, hcnt], ⟨by rw [hcnt]; exact ht.okay.1, ?_⟩, fun _ => ?_⟩
    · intro e hh
      refine ht.okay.2 e ?_
      cases evs with
      | nil => exact absurd rfl (hne hend)
      | cons a b => exact hh
    · rw [hcnt]; exact ht.some (hne hend)
  · have hcnt : count (evs ++ [⟨t, d⟩]) = count evs + 1 := by rw [count_append, count_one d hend]
    by_cases hr : p.vcount = 0 ∧ rootBad cfg t = true
    · exfalso
      have : (process cfg cb p t d).err < 0 := by
        unfold process
        rw [if_neg (by omega), if_neg hend, if_pos hr]
        exact raiseAt_err_neg _ _ _ (by decide)
      omega
    · by_cases hm : cfg.maxTotalValues ≠ 0 ∧ cfg.maxTotalValues ≤ p.vcount
      · exfalso
        have : (process cfg cb p t d).err < 0 := by
          unfold process
          rw [if_neg (by omega), if_neg hend, if_neg hr, if_pos hm]
          exact raiseAt_err_neg _ _ _ (by decide)
        omega
      · have hv : (process cfg cb p t d).vcount = p.vcount + 1 := by
          unfold process
          rw [if_neg (by omega), if_neg hend, if_neg hr, if_neg hm]
          rfl
        refine ⟨hcalls, by rw [hv, ht.vcount, hcnt], ⟨?_, ?_⟩, fun _ => by rw [hcnt]; omega⟩
        · have := ht.vcount
          unfold Within
          rw [hcnt]; omega
        · intro e hh
          cases evs with
          | nil =>
            injection hh with hh
            rw [← hh, ← rootBad_iff]
            intro g
            exact hr ⟨ht.vcount, g⟩
          | cons a b => exact ht.okay.2 e hh

/-- The events are allowed, and the callback reports no error for them. -/
def Fine (cfg : Config) (cb : Callback σ) (u0 : σ) (evs : List Event) : Prop :=
  Okay cfg evs ∧ ∀ pre e suf, evs = pre ++ e :: suf → ∀ u, Calls cb u0 pre u → ∀ v q, 0 ≤ (cb u e v q).2.1

theorem Fine.left {cfg : Config} {cb : Callback σ} {u0 : σ} {a b : List Event} (h : Fine cfg cb u0 (a ++ b)) : Fine cfg cb u0 a := by
  refine ⟨h.1.left, ?_⟩
  intro pre e suf hh
  exact h.2 pre e (suf ++ b) (by rw [hh, List.append_assoc, List.cons_append])

theorem process_ok (cfg : Config) (cb : Callback σ) (u0 : σ) (evs : List Event) (p : Parser σ) (t : JType)
    (d : List Byte) (ht : Trace cfg cb u0 evs p) (he : 0 ≤ p.err)
    (hf : Fine cfg cb u0 (evs ++ [⟨t, d⟩])) : 0 ≤ (process cfg cb p t d).err := by
  have hcb : ∀ v q, 0 ≤ (cb p.user ⟨t, d⟩ v q).2.1 := hf.2 evs ⟨t, d⟩ [] rfl p.user ht.calls
  have ho := hf.1
  unfold process
  rw [if_neg (by omega)]
  by_cases hend : t = .arrayEnd ∨ t = .objectEnd
  · rw [if_pos hend]
    exact hcb _ _
  · have hcnt : count (evs ++ [⟨t, d⟩]) = count evs + 1 := by rw [count_append, count_one d hend]
    rw [if_neg hend, if_neg, if_neg]
    · exact hcb _ _
    · have h1 := ho.1
      unfold Within at h1
      rw [hcnt, ← ht.vcount] at h1
      omega
    · intro h
      have : evs = [] := by
        refine Classical.byContradiction (fun hne => ?_)
        have := ht.some hne
        have := ht.vcount
        omega
      rw [this] at ho
      exact ho.2 ⟨t, d⟩ rfl ((rootBad_iff cfg t).1 h.2)

/-! ### The invariant -/

/-- The text read so far, for each automaton. -/
inductive Shape (cfg : Config) (p : Parser σ) (text : List Byte) (evs : List Event) : Prop
  | main : p.auto = .main → p.cp0 = 0 → p.cp1 = 0 → MainShape cfg p.state p.nest text evs → Shape cfg p text evs
  | string (t0 b : List Byte) : p.auto = .string → Before cfg p.nest t0 evs → text = t0 ++ ch '"' :: b →
      StrInv p.sub p.cp0 p.cp1 p.buf b → p.pos.offset = p.vpos.offset + 1 + b.length → Shape cfg p text evs
  | key (ns t0 b : List Byte) : p.auto = .key → p.nest = 0x7d#8 :: ns → BeforeKey cfg ns t0 evs →
      text = t0 ++ ch '"' :: b → StrInv p.sub p.cp0 p.cp1 p.buf b → p.pos.offset = p.vpos.offset + 1 + b.length →
      Shape cfg p text evs
  | number (t0 t : List Byte) : p.auto = .number → Before cfg p.nest t0 evs → text = t0 ++ t → NumPart p.sub t →
      t ≠ [] → p.buf = t → p.pos.offset = p.vpos.offset + t.length → p.cp0 = 0 → p.cp1 = 0 → Shape cfg p text evs
  | lit (ty : JType) (lit t0 t : List Byte) : InLit ty lit p → Before cfg p.nest t0 evs → text = t0 ++ t →
      t ≠ [] → t = lit.take p.sub → p.sub ≤ lit.length → p.cp0 = 0 → p.cp1 = 0 → Shape cfg p text evs

/-- The invariant of a parser that has not failed. -/
def Inv (cfg : Config) (cb : Callback σ) (u0 : σ) (text : List Byte) (p : Parser σ) : Prop :=
  0 ≤ p.err → ∃ evs, Trace cfg cb u0 evs p ∧ Shape cfg p text evs

theorem inv_init (cfg : Config) (cb : Callback σ) (u0 : σ) : Inv cfg cb u0 [] (init u0) := by
  intro _
  refine ⟨[], ⟨.nil, rfl, ⟨?_, fun e h => by cases h⟩, fun h => absurd rfl h⟩, .main rfl rfl rfl ?_⟩
  · unfold Within count; simp
  · refine ⟨fun _ => .root ws_nil, ?_, ?_, ?_, ?_, ?_⟩ <;> (intro g; cases g)

theorem Trace.of_eq {cfg : Config} {cb : Callback σ} {u0 : σ} {evs : List Event} {p q : Parser σ}
    (h : Trace cfg cb u0 evs p) (h1 : q.user = p.user) (h2 : q.vcount = p.vcount) : Trace cfg cb u0 evs q :=
  ⟨by rw [h1]; exact h.calls, by rw [h2]; exact h.vcount, h.okay, h.some⟩

theorem Trace.nest {cfg : Config} {cb : Callback σ} {u0 : σ} {evs : List Event} {p : Parser σ}
    (h : Trace cfg cb u0 evs p) (l : List Byte) : Trace cfg cb u0 evs { p with nest := l } := h.of_eq rfl rfl

theorem handleNewLine_more (p : Parser σ) (c : Byte) : (handleNewLine p c).user = p.user ∧
    (handleNewLine p c).vcount = p.vcount ∧ (handleNewLine p c).cp0 = p.cp0 ∧ (handleNewLine p c).cp1 = p.cp1 := by
  unfold handleNewLine
  split
  · exact ⟨rfl, rfl, rfl, rfl⟩
  · split <;> exact ⟨rfl, rfl, rfl, rfl⟩

/-- A byte taken by the main automaton: only the position changes afterwards. -/
theorem shape_adv (cfg : Config) (cb : Callback σ) (u0 : σ) (text : List Byte) (evs : List Event) (q : Parser σ) (c : Byte)
    (ha : q.auto = .main) (h0 : q.cp0 = 0) (h1 : q.cp1 = 0) (ht : Trace cfg cb u0 evs q)
    (hs : MainShape cfg q.state q.nest text evs) :
    ∃ evs, Trace cfg cb u0 evs (handleNewLine (advance q 1) c) ∧ Shape cfg (handleNewLine (advance q 1) c) text evs := by
  obtain ⟨g1, g2, g3, g4, g5, g6, g7, g8, g9⟩ := handleNewLine_fields (advance q 1) c
  obtain ⟨k1, k2, k3, k4⟩ := handleNewLine_more (advance q 1) c
  refine ⟨evs, ht.of_eq k1 k2, .main (g5.trans ha) (k3.trans h0) (k4.trans h1) ?_⟩
  rw [g6, g7]
  exact hs

theorem before_some {cfg : Config} {n t : List Byte} {e : List Event} (h : Before cfg n t e) (hn : n ≠ []) : e ≠ [] := by
  cases h with
  | root => exact absurd rfl hn
  | first => simp
  | next => simp
  | colon h =>
    cases h with
    | mk => simp

theorem whitespace_ws {c : Byte} (h : isWhitespace c = true) : Spec.Json.WS [c] := by
  intro x hx
  rw [List.mem_singleton] at hx
  rw [hx]
  unfold isWhitespace at h
  simp only [Bool.or_eq_true, beq_iff_eq] at h
  rcases h with ((h | h) | h) | h
  · exact Or.inl h
  · exact Or.inr (Or.inl h)
  · exact Or.inr (Or.inr (Or.inr h))
  · exact Or.inr (Or.inr (Or.inl h))

theorem nextBits_done (t : JType) (b : Bool) (h1 : t ≠ .arrayBeg) (h2 : t ≠ .objectBeg) (h3 : t ≠ .key) :
    nextBits t b = doneBits b := by
  unfold nextBits doneBits
  cases t <;> first | rfl | (exact absurd rfl h1) | (exact absurd rfl h2) | (exact absurd rfl h3)

/-- A finished scalar. -/
theorem shape_scalar (cfg : Config) (cb : Callback σ) (u0 : σ) (t0 tv : List Byte) (evs : List Event) (p : Parser σ)
    (t : JType) (d : List Byte) (hv : Value cfg p.nest.length tv [⟨t, d⟩]) (hb : Before cfg p.nest t0 evs)
    (ht : Trace cfg cb u0 evs p) (h0 : p.cp0 = 0) (h1 : p.cp1 = 0)
    (hne : t ≠ .arrayEnd ∧ t ≠ .objectEnd ∧ t ≠ .arrayBeg ∧ t ≠ .objectBeg ∧ t ≠ .key)
    (h : 0 ≤ (process cfg cb p t d).err) :
    Trace cfg cb u0 (evs ++ [⟨t, d⟩]) (process cfg cb p t d) ∧
    (process cfg cb p t d).auto = .main ∧ (process cfg cb p t d).cp0 = 0 ∧ (process cfg cb p t d).cp1 = 0 ∧
    (process cfg cb p t d).nest = p.nest ∧ (process cfg cb p t d).state = doneBits (!p.nest.isEmpty) ∧
    MainShape cfg (process cfg cb p t d).state (process cfg cb p t d).nest (t0 ++ tv) (evs ++ [⟨t, d⟩]) := by
  obtain ⟨f1, f2, f3, _⟩ := process_fields cfg cb p t d h
  have hs := (process_state cfg cb p t d h).trans (nextBits_done t _ hne.2.2.1 hne.2.2.2.1 hne.2.2.2.2)
  refine ⟨process_trace cfg cb u0 evs p t d ht (fun g => by rcases g with g | g; exact absurd g hne.1; exact absurd g hne.2.1) h,
    process_auto cfg cb p t d h, f2.trans h0, f3.trans h1, f1, hs, ?_⟩
  rw [hs, f1]
  exact MainShape.after (after_value hb hv)

theorem value_head {cfg : Config} {d : Nat} {t : List Byte} {ev : List Event} (h : Value cfg d t ev) :
    ∃ e es, ev = e :: es ∧ e.type ≠ .arrayEnd ∧ e.type ≠ .objectEnd := by
  cases h <;> exact ⟨_, _, rfl, by simp, by simp⟩

theorem mainByte_inv (cfg : Config) (cb : Callback σ) (u0 : σ) (text : List Byte) (evs : List Event) (p : Parser σ) (c : Byte)
    (ha : p.auto = .main) (h0 : p.cp0 = 0) (h1 : p.cp1 = 0) (hep : 0 ≤ p.err) (ht : Trace cfg cb u0 evs p)
    (hs : MainShape cfg p.state p.nest text evs) (h : 0 ≤ (mainByte cfg cb p c).err) :
    ∃ evs, Trace cfg cb u0 evs (mainByte cfg cb p c) ∧ Shape cfg (mainByte cfg cb p c) (text ++ [c]) evs := by
  -- the three ways on
  have adv : ∀ q, mainChar cfg cb p c = .adv q → (0 ≤ q.err → q.auto = .main ∧ q.cp0 = 0 ∧ q.cp1 = 0 ∧
      ∃ e, Trace cfg cb u0 e q ∧ MainShape cfg q.state q.nest (text ++ [c]) e) →
      ∃ evs, Trace cfg cb u0 evs (mainByte cfg cb p c) ∧ Shape cfg (mainByte cfg cb p c) (text ++ [c]) evs := by
    intro q hq hx
    have e1 : mainByte cfg cb p c = handleNewLine (advance q 1) c := by unfold mainByte; rw [hq]
    rw [e1] at h ⊢
    rw [(handleNewLine_fields (advance q 1) c).1] at h
    obtain ⟨x1, x2, x3, e, x4, x5⟩ := hx h
    exact shape_adv cfg cb u0 _ e q c x1 x2 x3 x4 x5
  have stop : ∀ q, mainChar cfg cb p c = .stop q → q.err < 0 → False := by
    intro q hq hx
    have e1 : mainByte cfg cb p c = q := by unfold mainByte; rw [hq]
    rw [e1] at h
    omega
  have again : ∀ q, mainChar cfg cb p c = .again q → 0 ≤ q.err ∧ mainByte cfg cb p c = (subByte cfg cb q c).1 := by
    intro q hq
    by_cases hx : q.err < 0
    · exfalso
      have e1 : mainByte cfg cb p c = q := by unfold mainByte; rw [hq]; simp only; rw [if_pos hx]
      rw [e1] at h
      omega
    · exact ⟨by omega, by unfold mainByte; rw [hq]; simp only; rw [if_neg hx]⟩
  by_cases c1 : p.state.value = true ∧ (c = 0x5b#8 ∨ c = 0x7b#8)
  · have hB := hs.value c1.1
    by_cases c2 : cfg.maxNesting ≠ 0 ∧ cfg.maxNesting ≤ p.nest.length
    · exfalso
      refine stop (raise p errMaxNesting) ?_ (raiseAt_err_neg _ _ _ (by decide))
      unfold mainChar; rw [if_pos c1, if_pos c2]
    · have hW : Within cfg.maxNesting (p.nest.length + 1) := by unfold Within; omega
      have hq : mainChar cfg cb p c = .adv (process cfg cb
          { p with nest := (if c = 0x5b#8 then 0x5d#8 else 0x7d#8) :: p.nest }
          (if c = 0x5b#8 then .arrayBeg else .objectBeg) []) := by
        unfold mainChar; rw [if_pos c1, if_neg c2]
      refine adv _ hq (fun hx => ?_)
      rcases c1.2 with hc | hc
      · subst hc
        simp only [if_true] at hx ⊢
        obtain ⟨f1, f2, f3, _⟩ := process_fields cfg cb _ _ _ hx
        have hst := process_state cfg cb _ _ _ hx
        refine ⟨process_auto cfg cb _ _ _ hx, f2.trans h0, f3.trans h1, evs ++ [⟨.arrayBeg, []⟩],
          process_trace cfg cb u0 evs _ _ _ (ht.nest _) (fun g => by rcases g with g | g <;> cases g) hx, ?_⟩
        rw [f1, hst]
        exact ⟨fun _ => .first hB hW ws_nil, (fun g => by cases g), fun _ => closable_array hB hW, (fun g => by cases g),
          (fun g => by cases g), (fun g => by cases g)⟩
      · subst hc
        rw [if_neg (show ¬ (0x7b#8 : Byte) = 0x5b#8 by decide), if_neg (show ¬ (0x7b#8 : Byte) = 0x5b#8 by decide)] at hx ⊢
        obtain ⟨f1, f2, f3, _⟩ := process_fields cfg cb _ _ _ hx
        have hst := process_state cfg cb _ _ _ hx
        refine ⟨process_auto cfg cb _ _ _ hx, f2.trans h0, f3.trans h1, evs ++ [⟨.objectBeg, []⟩],
          process_trace cfg cb u0 evs _ _ _ (ht.nest _) (fun g => by rcases g with g | g <;> cases g) hx, ?_⟩
        rw [f1, hst]
        exact ⟨(fun g => by cases g), fun _ => ⟨p.nest, rfl, .first hB hW ws_nil⟩, fun _ => closable_object hB hW,
          (fun g => by cases g), (fun g => by cases g), (fun g => by cases g)⟩
  by_cases c2 : p.state.closer = true ∧ (c = 0x5d#8 ∨ c = 0x7d#8)
  · obtain ⟨top, ns, t0, e0, tv, ev, k1, k2, k3, k4, k5⟩ := hs.closer c2.1 [] ws_nil
    by_cases hc : top = c
    · have hq : mainChar cfg cb p c = .adv (process cfg cb { p with nest := ns }
          (if c = 0x5d#8 then .arrayEnd else .objectEnd) []) := by
        unfold mainChar
        rw [if_neg c1, if_pos c2, k1]
        simp only
        rw [if_neg (by rw [hc]; simp)]
      refine adv _ hq (fun hx => ?_)
      obtain ⟨f1, f2, f3, _⟩ := process_fields cfg cb _ _ _ hx
      have hend : (if c = 0x5d#8 then JType.arrayEnd else JType.objectEnd) = .arrayEnd ∨
          (if c = 0x5d#8 then JType.arrayEnd else JType.objectEnd) = .objectEnd := by
        split
        · exact Or.inl rfl
        · exact Or.inr rfl
      have hst := (process_state cfg cb _ _ _ hx).trans (nextBits_done _ _ (by rcases hend with g | g <;> (rw [g]; decide))
        (by rcases hend with g | g <;> (rw [g]; decide)) (by rcases hend with g | g <;> (rw [g]; decide)))
      have hsome : evs ≠ [] := by
        intro g
        rw [g] at k5
        -- an end event alone is not a value
        have hl : [endEv top] = e0 ++ ev := k5
        obtain ⟨e, es, v1, v2, v3⟩ := value_head k3
        rw [v1] at hl
        cases e0 with
        | nil =>
          injection hl with hl _
          rw [← hl] at v2 v3
          unfold endEv at v2 v3
          split at v2
          · exact v2 rfl
          · rename_i hne
            rw [if_neg hne] at v3
            exact v3 rfl
        | cons x xs =>
          injection hl with _ hl
          cases xs <;> simp at hl
      refine ⟨process_auto cfg cb _ _ _ hx, f2.trans h0, f3.trans h1, _,
        process_trace cfg cb u0 evs _ _ _ (ht.nest _) (fun _ => hsome) hx, ?_⟩
      rw [f1, hst]
      have e1 : evs ++ [⟨if c = 0x5d#8 then JType.arrayEnd else JType.objectEnd, []⟩] = e0 ++ ev := by
        rw [← k5]; unfold endEv; rw [hc]
      have e2 : text ++ [c] = t0 ++ tv := by rw [← k4, hc]; simp
      rw [e1, e2]
      exact MainShape.after (after_value k2 k3)
    · exfalso
      refine stop (raise p errBadCloser) ?_ (raiseAt_err_neg _ _ _ (by decide))
      unfold mainChar
      rw [if_neg c1, if_pos c2, k1]
      simp only
      rw [if_pos hc]
  by_cases c3 : p.state.comma = true ∧ c = 0x2c#8
  · obtain ⟨hA, hn⟩ := hs.comma c3.1
    have hstate : ∀ top below, p.nest = top :: below →
        mainChar cfg cb p c = .adv { p with state := if top = 0x5d#8 then { value := true } else { key := true } } := by
      intro top below e
      unfold mainChar
      rw [if_neg c1, if_neg c2, if_pos c3, e]
    generalize hnest : p.nest = nn at hA hn
    cases hA with
    | root => exact absurd rfl hn
    | @arr ns t te e ee b1 b2 b3 =>
      refine adv _ (hstate _ _ hnest) (fun _ => ⟨ha, h0, h1, _, ht.of_eq rfl rfl, ?_⟩)
      simp only [if_true]
      rw [hnest, c3.2]
      refine ⟨fun _ => ?_, (fun g => by cases g), (fun g => by cases g), (fun g => by cases g),
          (fun g => by cases g), (fun g => by cases g)⟩
      have := Before.next b1 b2 b3 ws_nil
      rw [List.append_assoc]
      exact this
    | @obj ns t te e ee b1 b2 b3 =>
      refine adv _ (hstate _ _ hnest) (fun _ => ⟨ha, h0, h1, _, ht.of_eq rfl rfl, ?_⟩)
      rw [if_neg (by decide)]
      show MainShape cfg _ p.nest _ _
      rw [hnest, c3.2]
      refine ⟨(fun g => by cases g), fun _ => ⟨ns, rfl, ?_⟩, (fun g => by cases g), (fun g => by cases g),
          (fun g => by cases g), (fun g => by cases g)⟩
      have := BeforeKey.next b1 b2 b3 ws_nil
      rw [List.append_assoc]
      exact this
  by_cases c4 : p.state.colon = true ∧ c = 0x3a#8
  · obtain ⟨ns, k1, k2⟩ := hs.colon c4.1
    have hq : mainChar cfg cb p c = .adv { p with state := { value := true } } := by
      unfold mainChar
      rw [if_neg c1, if_neg c2, if_neg c3, if_pos c4]
    refine adv _ hq (fun _ => ⟨ha, h0, h1, _, ht.of_eq rfl rfl, ?_⟩)
    show MainShape cfg _ p.nest _ _
    rw [k1, c4.2]
    exact ⟨fun _ => Before.colon k2 ws_nil, (fun g => by cases g), (fun g => by cases g), (fun g => by cases g),
          (fun g => by cases g), (fun g => by cases g)⟩
  by_cases c5 : p.state.value = true ∧ c = 0x22#8
  · have hB := hs.value c5.1
    have hq : mainChar cfg cb p c = .adv (switchAutomaton p .string) := by
      unfold mainChar
      rw [if_neg c1, if_neg c2, if_neg c3, if_neg c4, if_pos c5]
    have e1 : mainByte cfg cb p c = handleNewLine (advance (switchAutomaton p .string) 1) c := by unfold mainByte; rw [hq]
    rw [e1, c5.2]
    refine ⟨evs, ht.of_eq rfl rfl, .string text [] rfl hB rfl ?_ rfl⟩
    show StrInv 0 p.cp0 p.cp1 [] []
    rw [h0, h1]
    exact StrInv.text Body.nil
  by_cases c6 : p.state.key = true ∧ c = 0x22#8
  · obtain ⟨ns, k1, k2⟩ := hs.key c6.1
    have hq : mainChar cfg cb p c = .adv (switchAutomaton p .key) := by
      unfold mainChar
      rw [if_neg c1, if_neg c2, if_neg c3, if_neg c4, if_neg c5, if_pos c6]
    have e1 : mainByte cfg cb p c = handleNewLine (advance (switchAutomaton p .key) 1) c := by unfold mainByte; rw [hq]
    rw [e1, c6.2]
    refine ⟨evs, ht.of_eq rfl rfl, .key ns text [] rfl k1 k2 rfl ?_ rfl⟩
    show StrInv 0 p.cp0 p.cp1 [] []
    rw [h0, h1]
    exact StrInv.text Body.nil
  by_cases c7 : p.state.value = true ∧ (isIn c 0x61 0x7a = true ∨ isIn c 0x41 0x5a = true)
  · have hB := hs.value c7.1
    have hm : mainChar cfg cb p c = (if c = 0x6e#8 then .again (switchAutomaton p .null)
        else if c = 0x66#8 then .again (switchAutomaton p .false)
        else if c = 0x74#8 then .again (switchAutomaton p .true)
        else .again (raise p errSyntax)) := by
      unfold mainChar
      rw [if_neg c1, if_neg c2, if_neg c3, if_neg c4, if_neg c5, if_neg c6, if_pos c7]
    by_cases d1 : c = 0x6e#8
    · rw [if_pos d1] at hm
      rw [(again _ hm).2, d1]
      exact ⟨evs, ht.of_eq rfl rfl, .lit .null litNull text [0x6e#8] (Or.inl ⟨rfl, rfl, rfl⟩) hB rfl (by simp) rfl
        (by show 1 ≤ 4; omega) h0 h1⟩
    rw [if_neg d1] at hm
    by_cases d2 : c = 0x66#8
    · rw [if_pos d2] at hm
      rw [(again _ hm).2, d2]
      exact ⟨evs, ht.of_eq rfl rfl, .lit .false litFalse text [0x66#8] (Or.inr (Or.inl ⟨rfl, rfl, rfl⟩)) hB rfl (by simp) rfl
        (by show 1 ≤ 5; omega) h0 h1⟩
    rw [if_neg d2] at hm
    by_cases d3 : c = 0x74#8
    · rw [if_pos d3] at hm
      rw [(again _ hm).2, d3]
      exact ⟨evs, ht.of_eq rfl rfl, .lit .true litTrue text [0x74#8] (Or.inr (Or.inr ⟨rfl, rfl, rfl⟩)) hB rfl (by simp) rfl
        (by show 1 ≤ 4; omega) h0 h1⟩
    rw [if_neg d3] at hm
    exfalso
    have := (again _ hm).1
    have hneg : (raise p errSyntax).err < 0 := raiseAt_err_neg _ _ _ (by decide)
    omega
  by_cases c8 : p.state.value = true ∧ (isDigit c = true ∨ c = 0x2d#8)
  · have hB := hs.value c8.1
    have hm : mainChar cfg cb p c = .again (switchAutomaton p .number) := by
      unfold mainChar
      rw [if_neg c1, if_neg c2, if_neg c3, if_neg c4, if_neg c5, if_neg c6, if_neg c7, if_pos c8]
    have h3 := (again _ hm).2
    obtain ⟨s, hn⟩ := numChar_fresh c c8.2
    have hnb : (subByte cfg cb (switchAutomaton p .number) c).1 =
        chkN cfg (append (advance { switchAutomaton p .number with sub := s } 1) [c]) := by
      show (numByte cfg cb (switchAutomaton p .number) c).1 = _
      unfold numByte
      have : (numFix (switchAutomaton p .number)).sub = 0x0003 := rfl
      rw [this, hn]
    rw [hnb] at h3
    have h4 : chkN cfg (append (advance { switchAutomaton p .number with sub := s } 1) [c]) =
        append (advance { switchAutomaton p .number with sub := s } 1) [c] := by
      unfold chkN at h3 ⊢
      split
      · rename_i hcond
        exfalso
        rw [if_pos hcond] at h3
        rw [h3] at h
        have := raiseAt_err_neg (append (advance { switchAutomaton p .number with sub := s } 1) [c]) errMaxNumberLen
          (append (advance { switchAutomaton p .number with sub := s } 1) [c]).vpos (by decide)
        have h' : 0 ≤ (raiseAt (append (advance { switchAutomaton p .number with sub := s } 1) [c]) errMaxNumberLen
          (append (advance { switchAutomaton p .number with sub := s } 1) [c]).vpos).err := h
        omega
      · rfl
    rw [h4] at h3
    rw [h3]
    exact ⟨evs, ht.of_eq rfl rfl, .number text [c] rfl hB rfl (numPart_next .fresh hn) (by simp) rfl rfl h0 h1⟩
  by_cases c9 : isWhitespace c = false
  · exfalso
    refine stop (raiseUnexpected p) ?_ (raiseAt_err_neg _ _ _ (unexpectedCode_neg _))
    unfold mainChar
    rw [if_neg c1, if_neg c2, if_neg c3, if_neg c4, if_neg c5, if_neg c6, if_neg c7, if_neg c8, if_pos c9]
  · have hq : mainChar cfg cb p c = .adv p := by
      unfold mainChar
      rw [if_neg c1, if_neg c2, if_neg c3, if_neg c4, if_neg c5, if_neg c6, if_neg c7, if_neg c8, if_neg c9]
    exact adv _ hq (fun _ => ⟨ha, h0, h1, _, ht, hs.ws (whitespace_ws (by simpa using c9))⟩)

theorem word_null : word "null" = litNull := by decide +kernel
theorem word_false : word "false" = litFalse := by decide +kernel
theorem word_true : word "true" = litTrue := by decide +kernel

theorem value_lit {cfg : Config} {d : Nat} {t : JType} {lit : List Byte} {p : Parser σ} (h : InLit t lit p) :
    Value cfg d lit [⟨t, []⟩] ∧ t ≠ .arrayEnd ∧ t ≠ .objectEnd ∧ t ≠ .arrayBeg ∧ t ≠ .objectBeg ∧ t ≠ .key := by
  rcases h with ⟨h1, h2, _⟩ | ⟨h1, h2, _⟩ | ⟨h1, h2, _⟩
  · subst h1; subst h2
    exact ⟨by rw [← word_null]; exact .null, by decide⟩
  · subst h1; subst h2
    exact ⟨by rw [← word_false]; exact .false, by decide⟩
  · subst h1; subst h2
    exact ⟨by rw [← word_true]; exact .true, by decide⟩

theorem strMax_within {cfg : Config} {t : JType} {n : Nat} (h : strMax cfg t = 0 ∨ n + 1 ≤ strMax cfg t) :
    Within (if t = .key then cfg.maxKeyLen else cfg.maxStringLen) n := by
  unfold strMax at h
  unfold Within
  generalize (if t = .key then cfg.maxKeyLen else cfg.maxStringLen) = m at h ⊢
  simp only at h
  by_cases hm : m > 0
  · rw [if_pos hm] at h; omega
  · omega

/-- One byte more. -/
theorem step_inv (cfg : Config) (hst : Strict cfg) (cb : Callback σ) (u0 : σ) (text : List Byte) (p : Parser σ) (c : Byte)
    (hg : Good cfg p) (hi : Inv cfg cb u0 text p) : Inv cfg cb u0 (text ++ [c]) (step cfg cb p c) := by
  intro h
  have he : 0 ≤ p.err := by
    refine Classical.byContradiction (fun hc => ?_)
    rw [step_err cfg cb p c (by omega)] at h
    exact hc h
  obtain ⟨evs, ht, hs⟩ := hi he
  -- a finished literal or number, and the byte that finished it
  have finish : ∀ q evs', q.auto = .main → q.cp0 = 0 → q.cp1 = 0 → 0 ≤ q.err → Trace cfg cb u0 evs' q →
      MainShape cfg q.state q.nest text evs' → step cfg cb p c = mainByte cfg cb q c →
      ∃ evs, Trace cfg cb u0 evs (step cfg cb p c) ∧ Shape cfg (step cfg cb p c) (text ++ [c]) evs := by
    intro q evs' q1 q2 q3 q4 q5 q6 q7
    rw [q7] at h ⊢
    exact mainByte_inv cfg cb u0 text evs' q c q1 q2 q3 q4 q5 q6 h
  cases hs with
  | main ha h0 h1 hs =>
    have : step cfg cb p c = mainByte cfg cb p c := by
      unfold step; rw [if_neg (by omega), if_neg (by rw [ha]; simp)]
    exact finish p evs ha h0 h1 he ht hs this
  | string t0 b ha hB htext hinv hoff =>
    have hin : InStr .string p := Or.inl ⟨rfl, ha⟩
    have hl := hg.live he
    rcases str_step cfg hst cb .string p c b hin he (hl.str _ hin).2 hinv h with
      ⟨q, k1, k2, k3, k4⟩ | ⟨k1, k2, k3, ⟨s, k4, k5⟩, k6⟩
    · rw [k2]
      have e1 : q.user = p.user := by rw [k1]
      have e2 : q.vcount = p.vcount := by rw [k1]
      refine ⟨evs, ht.of_eq e1 e2, .string t0 (b ++ [c]) (k1.auto.trans ha) ?_ ?_ k3 ?_⟩
      · show Before cfg q.nest t0 evs
        rw [k1.nest]; exact hB
      · rw [htext]; simp
      · show q.pos.offset + 1 = q.vpos.offset + 1 + (b ++ [c]).length
        rw [k1.pos, k1.vpos, List.length_append, List.length_singleton]
        omega
    · have hw : Within cfg.maxStringLen b.length := by
        have := (hl.str _ hin).1
        exact strMax_within (t := .string) (by omega)
      rw [k6] at h ⊢
      obtain ⟨g1, g2, g3, g4, g5, g6, g7⟩ := shape_scalar cfg cb u0 t0 _ evs (advance p 1) .string p.buf
        (by rw [k5]; exact Value.string k4 hw) hB (ht.of_eq rfl rfl) k2 k3 (by decide) h
      refine ⟨_, g1, .main g2 g3 g4 ?_⟩
      rw [htext, k1]
      have e : t0 ++ ch '"' :: b ++ [0x22#8] = t0 ++ (ch '"' :: b ++ [ch '"']) := by simp; rfl
      rw [e]
      exact g7
  | key ns t0 b ha hnest hB htext hinv hoff =>
    have hin : InStr .key p := Or.inr ⟨rfl, ha⟩
    have hl := hg.live he
    rcases str_step cfg hst cb .key p c b hin he (hl.str _ hin).2 hinv h with
      ⟨q, k1, k2, k3, k4⟩ | ⟨k1, k2, k3, ⟨s, k4, k5⟩, k6⟩
    · rw [k2]
      have e1 : q.user = p.user := by rw [k1]
      have e2 : q.vcount = p.vcount := by rw [k1]
      refine ⟨evs, ht.of_eq e1 e2, .key ns t0 (b ++ [c]) (k1.auto.trans ha) (k1.nest.trans hnest) hB ?_ k3 ?_⟩
      · rw [htext]; simp
      · show q.pos.offset + 1 = q.vpos.offset + 1 + (b ++ [c]).length
        rw [k1.pos, k1.vpos, List.length_append, List.length_singleton]
        omega
    · have hw : Within cfg.maxKeyLen b.length := by
        have := (hl.str _ hin).1
        exact strMax_within (t := .key) (by omega)
      rw [k6] at h ⊢
      obtain ⟨f1, f2, f3, _⟩ := process_fields cfg cb _ _ _ h
      have hstt := process_state cfg cb _ _ _ h
      refine ⟨_, process_trace cfg cb u0 evs (advance p 1) .key p.buf (ht.of_eq rfl rfl)
        (fun g => by rcases g with g | g <;> cases g) h, .main (process_auto cfg cb _ _ _ h) (f2.trans k2) (f3.trans k3) ?_⟩
      rw [hstt, f1, k5, htext, k1]
      show MainShape cfg _ p.nest _ _
      rw [hnest]
      refine ⟨(fun g => by cases g), (fun g => by cases g), (fun g => by cases g), (fun g => by cases g),
        (fun _ => ⟨ns, rfl, ?_⟩), (fun g => by cases g)⟩
      have := Keyed.mk hB k4 hw ws_nil
      rw [List.append_nil] at this
      have e : t0 ++ ch '"' :: b ++ [0x22#8] = t0 ++ (ch '"' :: b ++ [ch '"']) := by simp; rfl
      rw [e]
      exact this
  | number t0 t ha hB htext hP hne hbuf hoff h0 h1 =>
    rw [step_num cfg cb p c ha he] at h
    have hsub : p.sub ≠ 0 := by
      intro e; rw [e] at hP; generalize hz : (0 : Nat) = z at hP; cases hP <;> omega
    have hfix : numFix p = p := by unfold numFix; rw [if_neg hsub]
    have hst2 := step_num cfg cb p c ha he
    have hl := hg.live he
    cases hn : numChar p.sub c with
    | bad =>
      exfalso
      have hb : numByte cfg cb p c = (raiseForValue p errSyntax, false) := by
        unfold numByte; rw [hfix, hn]
      have hneg : (raiseForValue p errSyntax).err < 0 := raiseAt_err_neg _ _ _ (by decide)
      rw [hb, if_pos (Or.inr hneg)] at h
      have h' : 0 ≤ (raiseForValue p errSyntax).err := h
      omega
    | finish =>
      have hb : numByte cfg cb p c = (process cfg cb p .number p.buf, false) := by
        unfold numByte; rw [hfix, hn]
      rw [hb] at h hst2
      have hbit : p.sub.testBit 12 = true := by
        unfold numChar at hn
        repeat' split at hn
        all_goals first | (cases hn; done) | (rename_i hh; exact hh.1)
      have hnum := numPart_done hP hbit
      have hw : Within cfg.maxNumberLen t.length := by
        have := hl.num ha
        unfold Within; omega
      have hperr : 0 ≤ (process cfg cb p .number p.buf).err := by
        refine Classical.byContradiction (fun hc => ?_)
        rw [if_pos (Or.inr (by show (process cfg cb p .number p.buf).err < 0; omega))] at h
        exact hc h
      obtain ⟨g1, g2, g3, g4, g5, g6, g7⟩ := shape_scalar cfg cb u0 t0 t evs p .number p.buf
        (by rw [hbuf]; exact Value.number hnum hw) hB ht h0 h1 (by decide) hperr
      rw [← htext] at g7
      refine finish _ _ g2 g3 g4 hperr g1 g7 ?_
      rw [hst2, if_neg]
      show ¬ (false = true ∨ (process cfg cb p .number p.buf).err < 0)
      intro g
      rcases g with g | g
      · cases g
      · omega
    | next s =>
      have hb : numByte cfg cb p c = (chkN cfg (append (advance { p with sub := s } 1) [c]), true) := by
        unfold numByte; rw [hfix, hn]
      rw [hb, if_pos (Or.inl rfl)] at h
      rw [hst2, hb, if_pos (Or.inl rfl)]
      have h4 : chkN cfg (append (advance { p with sub := s } 1) [c]) = append (advance { p with sub := s } 1) [c] := by
        unfold chkN at h ⊢
        split
        · rename_i hcond
          exfalso
          rw [if_pos hcond] at h
          have := raiseAt_err_neg (append (advance { p with sub := s } 1) [c]) errMaxNumberLen
            (append (advance { p with sub := s } 1) [c]).vpos (by decide)
          have h' : 0 ≤ (raiseAt (append (advance { p with sub := s } 1) [c]) errMaxNumberLen
            (append (advance { p with sub := s } 1) [c]).vpos).err := h
          omega
        · rfl
      rw [h4]
      refine ⟨evs, ht.of_eq rfl rfl, .number t0 (t ++ [c]) ha hB ?_ (numPart_next hP hn) (by simp) ?_ ?_ h0 h1⟩
      · rw [htext, List.append_assoc]
      · show p.buf ++ [c] = _
        rw [hbuf]
      · show p.pos.offset + 1 = p.vpos.offset + _
        rw [List.length_append, List.length_singleton]
        omega
  | lit ty lit t0 t hin hB htext hne htake hle h0 h1 =>
    have hst2 := step_lit cfg cb ty lit p c hin he
    rw [hst2] at h
    obtain ⟨hval, hty⟩ := value_lit (cfg := cfg) (d := p.nest.length) hin
    cases hl : lit[p.sub]? with
    | none =>
      have hlen : p.sub = lit.length := by
        have := List.getElem?_eq_none_iff.1 hl
        omega
      cases hbd : isTokenBoundary c with
      | false =>
        exfalso
        have hb : litByte cfg cb ty lit p c = (raise { p with pos := p.vpos } errSyntax, false) := by
          unfold litByte; rw [hl]; simp only; rw [if_pos hbd]
        have hneg : (raise { p with pos := p.vpos } errSyntax).err < 0 := raiseAt_err_neg _ _ _ (by decide)
        rw [hb, if_pos (Or.inr hneg)] at h
        have h' : 0 ≤ (raise { p with pos := p.vpos } errSyntax).err := h
        omega
      | true =>
        have hb : litByte cfg cb ty lit p c = (process cfg cb p ty [], false) := by
          unfold litByte; rw [hl]; simp only; rw [if_neg (by rw [hbd]; simp)]
        rw [hb] at h hst2
        have hperr : 0 ≤ (process cfg cb p ty []).err := by
          refine Classical.byContradiction (fun hc => ?_)
          rw [if_pos (Or.inr (by show (process cfg cb p ty []).err < 0; omega))] at h
          exact hc h
        obtain ⟨g1, g2, g3, g4, g5, g6, g7⟩ := shape_scalar cfg cb u0 t0 lit evs p ty [] hval hB ht h0 h1 hty hperr
        have ht2 : t = lit := by rw [htake, hlen, List.take_length]
        rw [← ht2, ← htext] at g7
        refine finish _ _ g2 g3 g4 hperr g1 g7 ?_
        rw [hst2, if_neg]
        show ¬ (false = true ∨ (process cfg cb p ty []).err < 0)
        intro g
        rcases g with g | g
        · cases g
        · omega
    | some l =>
      obtain ⟨hlt, hge⟩ := List.getElem?_eq_some_iff.1 hl
      by_cases hc : c = l
      · have hb : litByte cfg cb ty lit p c = ({ advance p 1 with sub := p.sub + 1 }, true) := by
          unfold litByte; rw [hl]; simp only; rw [if_neg (by simpa using hc)]
        rw [hst2, hb, if_pos (Or.inl rfl)]
        refine ⟨evs, ht.of_eq rfl rfl, .lit ty lit t0 (t ++ [c]) (hin.keep rfl) hB ?_ (by simp) ?_ (by show p.sub + 1 ≤ _; omega) h0 h1⟩
        · rw [htext, List.append_assoc]
        · show t ++ [c] = lit.take (p.sub + 1)
          rw [List.take_add_one, hl, htake, hc]
          rfl
      · exfalso
        have hb : litByte cfg cb ty lit p c = (raiseForValue p errSyntax, false) := by
          unfold litByte; rw [hl]; simp only; rw [if_pos hc]
        have hneg : (raiseForValue p errSyntax).err < 0 := raiseAt_err_neg _ _ _ (by decide)
        rw [hb, if_pos (Or.inr hneg)] at h
        have h' : 0 ≤ (raiseForValue p errSyntax).err := h
        omega

theorem run_inv (cfg : Config) (hst : Strict cfg) (cb : Callback σ) (u0 : σ) : ∀ (inp text : List Byte) (p : Parser σ),
    Good cfg p → Inv cfg cb u0 text p → Inv cfg cb u0 (text ++ inp) (run cfg cb p inp)
  | [], text, p, _, hi => by rw [List.append_nil]; exact hi
  | c :: cs, text, p, hg, hi => by
    have := run_inv cfg hst cb u0 cs (text ++ [c]) (step cfg cb p c) (step_good cfg cb p c hg).1
      (step_inv cfg hst cb u0 text p c hg hi)
    rw [List.append_assoc] at this
    exact this

end
end WS.Sax
