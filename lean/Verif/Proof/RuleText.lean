import Verif.Spec.RuleText
import Verif.Proof.Format
/-
Rules as lines of text.
-/
namespace WS.Txt
open WS WS.Spec WS.Spec.Txt WS.Fmt

/-! ### Runs -/

/-- A step that cannot give up for another reason than a failing output. -/
def Op.Plain : Op → Prop
  | .stop _ => False
  | .undefined => False
  | _ => True

def Op.entry : Op → List (Stream × List Byte)
  | .put s b => [(s, b)]
  | .quiet s b => [(s, b)]
  | .keep s b => [(s, b)]
  | _ => []

def Op.Loud : Op → Prop
  | .quiet _ _ => False
  | o => o.Plain

def Op.NoRef : Op → Prop
  | .put _ _ => True
  | .quiet _ _ => True
  | .stop _ => True
  | .undefined => True
  | _ => False

def entries (os : List Op) : List (Stream × List Byte) := os.flatMap Op.entry

theorem entries_append (a b : List Op) : entries (a ++ b) = entries a ++ entries b := List.flatMap_append
theorem entries_cons (o : Op) (b : List Op) : entries (o :: b) = o.entry ++ entries b := List.flatMap_cons
theorem entries_nil : entries [] = [] := rfl

theorem run_append (works : Nat → Bool) : ∀ (a b : List Op) (w : W),
    run works (a ++ b) w = match run works a w with
      | .ok w' => run works b w'
      | r => r
  | [], b, w => rfl
  | .put s c :: a, b, w => by
    rw [List.cons_append, run, run]
    split
    · exact run_append works a b _
    · rfl
  | .quiet s c :: a, b, w => by rw [List.cons_append, run, run]; exact run_append works a b _
  | .keep s c :: a, b, w => by
    rw [List.cons_append, run, run]
    split
    · exact run_append works a b _
    · rfl
  | .take :: a, b, w => by rw [List.cons_append, run, run]; exact run_append works a b _
  | .drop :: a, b, w => by rw [List.cons_append, run, run]; exact run_append works a b _
  | .stop e :: a, b, w => by rw [List.cons_append, run, run]
  | .undefined :: a, b, w => by rw [List.cons_append, run, run]

theorem run_works (works : Nat → Bool) (hw : ∀ k, works k = true) : ∀ (a : List Op) (w : W), (∀ o ∈ a, o.Plain) →
    ∃ w', run works a w = .ok w' ∧ w'.log = w.log ++ entries a
  | [], w, _ => ⟨w, rfl, by rw [entries_nil, List.append_nil]⟩
  | o :: a, w, h => by
    have ho := h o (.head _)
    have hi := fun w => run_works works hw a w fun o ho => h o (.tail _ ho)
    rw [entries_cons]
    cases o with
    | put s b =>
      rw [run, if_pos (hw _)]
      obtain ⟨w', h1, h2⟩ := hi (w.call works s b)
      exact ⟨w', h1, by rw [h2]; simp [W.call, hw, Op.entry]⟩
    | quiet s b =>
      rw [run]
      obtain ⟨w', h1, h2⟩ := hi (w.call works s b)
      exact ⟨w', h1, by rw [h2]; simp [W.call, hw, Op.entry]⟩
    | keep s b =>
      rw [run, if_pos (hw _)]
      obtain ⟨w', h1, h2⟩ := hi { w.call works s b with refs := (w.call works s b).refs - 1 }
      exact ⟨w', h1, by rw [h2]; simp [W.call, hw, Op.entry]⟩
    | take =>
      rw [run]
      obtain ⟨w', h1, h2⟩ := hi { w with refs := w.refs + 1 }
      exact ⟨w', h1, by rw [h2]; rfl⟩
    | drop =>
      rw [run]
      obtain ⟨w', h1, h2⟩ := hi { w with refs := w.refs - 1 }
      exact ⟨w', h1, by rw [h2]; rfl⟩
    | stop e => exact absurd ho id
    | undefined => exact absurd ho id

/-- Outputs whose failures are looked at: everything is there, or the failure is reported and a beginning is there. -/
theorem run_loud (works : Nat → Bool) : ∀ (a : List Op) (w : W), (∀ o ∈ a, o.Loud) →
    (∃ w', run works a w = .ok w' ∧ w'.log = w.log ++ entries a) ∨
    (∃ w' p, run works a w = .io w' ∧ p <+: entries a ∧ w'.log = w.log ++ p)
  | [], w, _ => Or.inl ⟨w, rfl, by rw [entries_nil, List.append_nil]⟩
  | o :: a, w, h => by
    have ho := h o (.head _)
    have hi := fun w => run_loud works a w fun o ho => h o (.tail _ ho)
    have step : ∀ (w1 : W), w1.log = w.log ++ o.entry → run works (o :: a) w = run works a w1 →
        (∃ w', run works (o :: a) w = .ok w' ∧ w'.log = w.log ++ entries (o :: a)) ∨
        (∃ w' p, run works (o :: a) w = .io w' ∧ p <+: entries (o :: a) ∧ w'.log = w.log ++ p) := by
      intro w1 h1 h2
      rw [h2, entries_cons]
      rcases hi w1 with ⟨w', g1, g2⟩ | ⟨w', p, g1, g2, g3⟩
      · exact Or.inl ⟨w', g1, by rw [g2, h1, List.append_assoc]⟩
      · exact Or.inr ⟨w', o.entry ++ p, g1, (List.prefix_append_right_inj _).2 g2, by rw [g3, h1, List.append_assoc]⟩
    cases o with
    | put s b =>
      by_cases hk : works w.calls = true
      · exact step (w.call works s b) (by simp [W.call, hk, Op.entry]) (by rw [run, if_pos hk])
      · refine Or.inr ⟨w.call works s b, [], by rw [run, if_neg hk], List.nil_prefix, ?_⟩
        simp [W.call, hk]
    | quiet s b => exact absurd ho id
    | keep s b =>
      by_cases hk : works w.calls = true
      · exact step { w.call works s b with refs := (w.call works s b).refs - 1 } (by simp [W.call, hk, Op.entry]) (by
          rw [run, if_pos hk])
      · refine Or.inr ⟨{ w.call works s b with refs := (w.call works s b).refs - 1 }, [], ?_, List.nil_prefix, ?_⟩
        · rw [run, if_neg hk]
        · simp [W.call, hk]
    | take => exact step { w with refs := w.refs + 1 } (by simp [Op.entry]) (by rw [run])
    | drop => exact step { w with refs := w.refs - 1 } (by simp [Op.entry]) (by rw [run])
    | stop e => exact absurd ho id
    | undefined => exact absurd ho id

/-- The references are those there were (unless the run is undefined). -/
def Keeps (works : Nat → Bool) (a : List Op) : Prop := ∀ w : W, run works a w = .ub ∨ (run works a w).world.refs = w.refs

/-- Steps that touch no references. -/
theorem run_noRef (works : Nat → Bool) : ∀ (a : List Op), (∀ o ∈ a, o.NoRef) → Keeps works a
  | [], _, w => Or.inr rfl
  | o :: a, h, w => by
    have ho := h o (.head _)
    have hi := run_noRef works a fun o ho => h o (.tail _ ho)
    cases o with
    | put s b =>
      rw [run]
      split
      · exact hi (w.call works s b)
      · exact Or.inr rfl
    | quiet s b => rw [run]; exact hi (w.call works s b)
    | stop e => rw [run]; exact Or.inr rfl
    | undefined => rw [run]; exact Or.inl rfl
    | keep s b => exact absurd ho id
    | take => exact absurd ho id
    | drop => exact absurd ho id

theorem keeps_append {works : Nat → Bool} {x y : List Op} (hx : Keeps works x) (hy : Keeps works y) : Keeps works (x ++ y) := by
  intro w
  rw [run_append]
  have := hx w
  cases hr : run works x w with
  | ok w' =>
    rw [hr] at this
    dsimp only
    rcases this with this | this
    · cases this
    · rcases hy w' with h | h
      · exact Or.inl h
      · exact Or.inr (h.trans this)
  | io w' => rw [hr] at this; exact this
  | fail e w' => rw [hr] at this; exact this
  | ub => exact Or.inl rfl

theorem link_noRef (addr : List Byte) : ∀ (n i : Nat), ∀ o ∈ linkOps addr n i, o.NoRef
  | 0, i, o, h => by cases h
  | n + 1, i, o, h => by
    rw [linkOps] at h
    split at h
    · rw [List.mem_singleton.1 h]; trivial
    · rcases List.mem_cons.1 h with rfl | h
      · trivial
      · exact link_noRef addr n (i + 1) o h

theorem address_noRef (E : Env) (family bits : Nat) (addr : List Byte) (bytes : Nat) : ∀ o ∈ addressOps E family bits addr bytes, o.NoRef := by
  intro o h
  unfold addressOps at h
  dsimp only at h
  repeat' split at h
  all_goals first
    | exact link_noRef _ _ _ o h
    | (rw [List.mem_singleton.1 h]; trivial)

theorem flagLoop_noRef (flags : Flags) : ∀ (n k : Nat) (already : Bool), ∀ o ∈ flagLoop flags n k already, o.NoRef
  | 0, k, already, o, h => by cases h
  | n + 1, k, already, o, h => by
    rw [flagLoop] at h
    split at h
    · exact flagLoop_noRef flags n (k + 1) already o h
    · rcases List.mem_append.1 h with h | h
      · rcases List.mem_append.1 h with h | h
        · split at h
          · rw [List.mem_singleton.1 h]; trivial
          · cases h
        · split at h <;> (rw [List.mem_singleton.1 h]; trivial)
      · exact flagLoop_noRef flags n (k + 1) true o h

theorem endpoint_noRef (E : Env) (r : Route) (e : Endpoint) (aw pw iw bm : Flags) : ∀ o ∈ endpointOps E r e aw pw iw bm, o.NoRef := by
  intro o h
  unfold endpointOps at h
  rcases List.mem_append.1 h with h | h
  · rcases List.mem_append.1 h with h | h
    · split at h
      · rw [List.mem_singleton.1 h]; trivial
      · split at h
        · rcases List.mem_append.1 h with h | h
          · rcases List.mem_append.1 h with h | h
            · exact address_noRef _ _ _ _ _ o h
            · rw [List.mem_singleton.1 h]; trivial
          · exact address_noRef _ _ _ _ _ o h
        · exact address_noRef _ _ _ _ _ o h
    · split at h
      · cases h
      · rw [List.mem_singleton.1 h]; trivial
  · split at h <;> (rw [List.mem_singleton.1 h]; trivial)

theorem family_keeps (E : Env) (works : Nat → Bool) (r : Route) : Keeps works (familyOps E r false) := by
  unfold familyOps
  have one : ∀ s b, Keeps works [Op.put s b] := fun s b => run_noRef works _ fun o ho => by rw [List.mem_singleton.1 ho]; trivial
  split
  · exact one _ _
  · split
    · split
      · intro w
        rw [if_neg (by decide), run, run]
        split
        · exact Or.inr (by simp [run, R.world, W.call])
        · exact Or.inr (by simp [R.world, W.call])
      · exact one _ _
    · exact one _ _

theorem line_keeps (E : Env) (works : Nat → Bool) (r : Route) : Keeps works (lineOps E r false) := by
  unfold lineOps
  have one : ∀ s b, Keeps works [Op.put s b] := fun s b => run_noRef works _ fun o ho => by rw [List.mem_singleton.1 ho]; trivial
  refine keeps_append (keeps_append (keeps_append (keeps_append (keeps_append (keeps_append (keeps_append (keeps_append ?_ (one _ _)) ?_)
    (family_keeps E works r)) ?_) ?_) (one _ _)) ?_) (one _ _)
  · exact run_noRef works _ (endpoint_noRef _ _ _ _ _ _ _)
  · exact run_noRef works _ (endpoint_noRef _ _ _ _ _ _ _)
  · refine run_noRef works _ fun o h => ?_
    unfold protoOps at h
    repeat' split at h
    all_goals (rw [List.mem_singleton.1 h]; trivial)
  · refine run_noRef works _ fun o h => ?_
    unfold eventOps at h
    repeat' split at h
    all_goals (rw [List.mem_singleton.1 h]; trivial)
  · refine run_noRef works _ fun o h => ?_
    unfold flagsOps at h
    split at h
    · rw [List.mem_singleton.1 h]; trivial
    · rcases List.mem_append.1 h with h | h
      · rcases List.mem_append.1 h with h | h
        · rw [List.mem_singleton.1 h]; trivial
        · exact flagLoop_noRef _ _ _ _ o h
      · rw [List.mem_singleton.1 h]; trivial

/-! ### Texts -/

theorem textOn_append (here : Stream → Bool) (a b : List (Stream × List Byte)) : textOn here (a ++ b) = textOn here a ++ textOn here b := by
  simp [textOn]
theorem textOn_nil (here : Stream → Bool) : textOn here [] = [] := rfl
theorem textOn_one (here : Stream → Bool) (s : Stream) (b : List Byte) (h : here s = true) : textOn here [(s, b)] = b := by
  simp [textOn, h]
theorem textOn_prefix (here : Stream → Bool) {a b : List (Stream × List Byte)} (h : a <+: b) : textOn here a <+: textOn here b := by
  obtain ⟨c, rfl⟩ := h
  rw [textOn_append]; exact List.prefix_append _ _

/-- The text on the stream of a list of steps. -/
def T (here : Stream → Bool) (os : List Op) : List Byte := textOn here (entries os)
theorem T_append (here : Stream → Bool) (a b : List Op) : T here (a ++ b) = T here a ++ T here b := by
  rw [T, entries_append, textOn_append]; rfl
theorem T_put {here : Stream → Bool} (hf : here .f = true) (b : List Byte) : T here [.put .f b] = b := textOn_one here .f b hf
theorem T_cons (here : Stream → Bool) (o : Op) (os : List Op) : T here (o :: os) = T here [o] ++ T here os := T_append here [o] os
theorem T_nil (here : Stream → Bool) : T here [] = [] := rfl

theorem dec_decimal (n : Nat) : dec n = decimal n := by
  unfold dec
  induction n using Nat.strongRecOn with
  | _ n ih =>
    unfold Render.decText decimal
    split
    · next h => rw [decDigit_eq n h]
    · next h => rw [ih (n / 10) (by omega), decDigit_eq (n % 10) (Nat.mod_lt _ (by decide))]

theorem hex2_eq (b : Byte) : hex2 b = hexByte b := hexByte_eq b

theorem cstr_self {s : List Byte} (h : 0#8 ∉ s) : cstr s = s := by
  have := List.takeWhile_append_of_pos (p := (· != 0#8)) (l₁ := s) (l₂ := []) (fun x hx => by simp only [bne_iff_ne]; rintro rfl; exact h hx)
  rwa [List.append_nil, List.takeWhile_nil, List.append_nil] at this

theorem bit_test (flags : Flags) {k : Nat} (hk : k < 32) : flags &&& bit k = 0#32 ↔ flags.getLsbD k = false := by
  unfold bit
  constructor
  · intro h
    have := congrArg (fun x => x.getLsbD k) h
    simpa [hk] using this
  · intro h
    apply BitVec.eq_of_getLsbD_eq
    intro i hi
    rw [BitVec.getLsbD_and]
    by_cases e : i = k
    · subst e; simp [h]
    · simp; intro _ _; omega

theorem has_bit (flags : Flags) {k : Nat} (hk : k < 32) : flags.has (bit k) = flags.getLsbD k := by
  unfold Flags.has
  have := bit_test flags hk
  cases h : flags.getLsbD k
  · rw [this.2 h]; rfl
  · rw [bne_iff_ne]
    intro e
    rw [this.1 e] at h; cases h

theorem hasAll_bit (flags : Flags) {k : Nat} (hk : k < 32) : flags.hasAll (bit k) = flags.getLsbD k := by
  unfold Flags.hasAll
  rw [Bool.eq_iff_iff, beq_iff_eq]
  constructor
  · intro h
    have := congrArg (fun x => x.getLsbD k) h
    simpa [bit, hk] using this
  · intro h
    apply BitVec.eq_of_getLsbD_eq
    intro i hi
    rw [BitVec.getLsbD_and]
    by_cases e : i = k
    · subst e; simp [h]
    · have : (bit k).getLsbD i = false := by simp [bit]; omega
      rw [this]; simp

/-! ### Addresses -/

theorem link_ops {here : Stream → Bool} (hf : here .f = true) (addr : List Byte) : ∀ (n i : Nat), i + n ≤ addr.length →
    (∀ o ∈ linkOps addr n i, o.Loud ∧ o.NoRef) ∧
    T here (linkOps addr n i) = (if i = 0 ∨ n = 0 then [] else ascii ":") ++ joined (ascii ":") (((addr.drop i).take n).map hexByte)
  | 0, i, _ => by
    refine ⟨fun o ho => (by cases ho), ?_⟩
    rw [linkOps, T_nil, if_pos (Or.inr rfl)]
    simp [joined]
  | n + 1, i, h => by
    have hi : i < addr.length := by omega
    obtain ⟨g1, g2⟩ := link_ops hf addr n (i + 1) (by omega)
    rw [linkOps, List.getElem?_eq_getElem hi]
    dsimp only
    constructor
    · intro o ho
      rcases List.mem_cons.1 ho with rfl | ho
      · exact ⟨trivial, trivial⟩
      · exact g1 o ho
    · rw [T_cons, T_put hf, g2, hex2_eq, List.drop_eq_getElem_cons hi, List.take_succ_cons, List.map_cons]
      have hsep : (if i = 0 ∨ n + 1 = 0 then ([] : List Byte) else ascii ":") = if i = 0 then [] else ascii ":" := by
        by_cases e : i = 0 <;> simp [e]
      rw [hsep, List.append_assoc]
      congr 1
      cases hl : ((addr.drop (i + 1)).take n).map hexByte with
      | nil =>
        have hn : n = 0 := by
          have := congrArg List.length hl
          simp only [List.length_map, List.length_take, List.length_drop, List.length_nil] at this
          omega
        subst hn
        simp [joined]
      | cons x xs =>
        have hn : n ≠ 0 := by rintro rfl; simp at hl
        rw [if_neg (by omega), joined, List.append_assoc]

theorem address_ops {E : Env} {here : Stream → Bool} (hf : here .f = true) {family bits : Nat} {a t : List Byte} {bytes : Nat}
    (ht : AddrIs E family a bits t) (ha : (bits + 7) / 8 ≤ a.length)
    (hb : bytes = (bits + 7) / 8 ∨ (E.formatter family).isSome = true ∨ family = 118 ∨ family = 29)
    (h4 : ∀ x, (E.ntop4 x).length ≤ 255) (h6 : ∀ x, (E.ntop6 x).length ≤ 255) :
    (∀ o ∈ addressOps E family bits a bytes, o.Loud ∧ o.NoRef) ∧ T here (addressOps E family bits a bytes) = t := by
  unfold AddrIs at ht
  unfold addressOps
  have one : ∀ b : List Byte, (∀ o ∈ [Op.put .f b], o.Loud ∧ o.NoRef) ∧ T here [Op.put .f b] = b := fun b =>
    ⟨fun o ho => by rw [List.mem_singleton.1 ho]; exact ⟨trivial, trivial⟩, T_put hf b⟩
  cases hfm : E.formatter family with
  | some fm =>
    rw [hfm] at ht
    dsimp only at ht ⊢
    rw [ht]
    exact one t
  | none =>
    rw [hfm] at ht hb
    dsimp only at ht ⊢
    have hb : bytes = (bits + 7) / 8 ∨ family = 118 ∨ family = 29 := by simpa using hb
    rcases ht with ⟨rfl, rfl⟩ | ⟨rfl, hl, rfl⟩ | ⟨rfl, hl, rfl⟩ | ⟨rfl, hz, rfl⟩ | ⟨rfl, hl1, hl2, rfl⟩
    · rw [if_pos rfl]
      have hs : bits >>> 3 = bits / 8 := by rw [Nat.shiftRight_eq_div_pow]
      rw [hs]
      obtain ⟨g1, g2⟩ := link_ops hf a (bits / 8) 0 (by omega)
      refine ⟨g1, ?_⟩
      rw [g2, if_pos (Or.inl rfl)]; simp
    · have hb : bytes = (bits + 7) / 8 := by omega
      rw [if_neg (by decide), if_pos rfl, if_neg (by omega), if_neg (by omega)]
      have : a.take bytes ++ List.replicate (4 - bytes) 0#8 = padded 4 (a.take ((bits + 7) / 8)) := by
        unfold padded
        rw [hb, List.length_take, Nat.min_eq_left ha]; rfl
      rw [this, if_neg (by have := h4 (padded 4 (a.take ((bits + 7) / 8))); omega), dec_decimal]
      exact one _
    · have hb : bytes = (bits + 7) / 8 := by omega
      rw [if_neg (by decide), if_neg (by decide), if_pos rfl, if_neg (by omega), if_neg (by omega)]
      have : a.take bytes ++ List.replicate (16 - bytes) 0#8 = padded 16 (a.take ((bits + 7) / 8)) := by
        unfold padded
        rw [hb, List.length_take, Nat.min_eq_left ha]; rfl
      rw [this, if_neg (by have := h6 (padded 16 (a.take ((bits + 7) / 8))); omega), dec_decimal]
      exact one _
    · have hb : bytes = (bits + 7) / 8 := by omega
      rw [if_neg (by decide), if_neg (by decide), if_neg (by decide), if_pos rfl, if_neg (by omega), hb, cstr_self hz]
      exact one _
    · rw [if_neg (by decide), if_neg (by decide), if_neg (by decide), if_neg (by decide), if_pos rfl]
      have hn : bitsToBytes bits = (bits + 7) / 8 := by unfold bitsToBytes; rw [Nat.shiftRight_eq_div_pow]
      rw [if_pos (by omega), if_neg (by omega), hn]
      have : (a.take ((bits + 7) / 8)).flatMap hex2 ++ (List.replicate (4 - (bits + 7) / 8) (ascii "00")).flatten =
          (padded 4 (a.take ((bits + 7) / 8))).flatMap hexByte := by
        unfold padded
        rw [List.flatMap_append, List.length_take, Nat.min_eq_left ha]
        congr 1
        · congr 1; funext b; exact hex2_eq b
        · generalize 4 - (bits + 7) / 8 = k
          induction k with
          | zero => rfl
          | succ k ih =>
            rw [List.replicate_succ, List.replicate_succ, List.flatten_cons, List.flatMap_cons, ih]
            congr 1
      rw [List.append_assoc, List.append_assoc, ← List.append_assoc (List.flatMap _ _), this, ← List.append_assoc]
      exact one _

/-! ### Flags -/

/-- Every set bit has a name. -/
def Known (flags : Flags) : Prop := ∀ k, k < 32 → flags.getLsbD k = true → (flagName k).isSome = true

theorem find_name : ∀ k, k < 32 → (bitNames.find? (fun p => p.1 == k)).map (·.2) = flagName k := by decide

theorem flag_loop {here : Stream → Bool} (hf : here .f = true) (flags : Flags) (hk : Known flags) : ∀ (n k : Nat) (already : Bool), k + n ≤ 32 →
    (∀ o ∈ flagLoop flags n k already, o.Loud ∧ o.NoRef) ∧
    T here (flagLoop flags n k already) =
      (let names := ((List.range' k n).filter fun k => flags.getLsbD k).filterMap fun k => (flagName k).map ascii
       (if already && !names.isEmpty then ascii "," else []) ++ joined (ascii ",") names)
  | 0, k, already, _ => by
    refine ⟨fun o ho => (by cases ho), ?_⟩
    rw [flagLoop, T_nil]
    simp [joined]
  | n + 1, k, already, h => by
    rw [flagLoop]
    by_cases hb : flags &&& bit k = 0#32
    · rw [if_pos hb]
      obtain ⟨g1, g2⟩ := flag_loop hf flags hk n (k + 1) already (by omega)
      refine ⟨g1, ?_⟩
      rw [g2, List.range'_succ, List.filter_cons_of_neg]
      simp [(bit_test flags (by omega)).1 hb]
    · rw [if_neg hb]
      have hset : flags.getLsbD k = true := by
        cases hq : flags.getLsbD k
        · exact absurd ((bit_test flags (by omega)).2 hq) hb
        · rfl
      have hname := find_name k (by omega)
      have hsome := hk k (by omega) hset
      obtain ⟨nm, hnm⟩ := Option.isSome_iff_exists.1 hsome
      rw [hnm] at hname
      obtain ⟨p, hp, hpn⟩ := Option.map_eq_some_iff.1 hname
      rw [hp]
      dsimp only
      obtain ⟨g1, g2⟩ := flag_loop hf flags hk n (k + 1) true (by omega)
      constructor
      · intro o ho
        rcases List.mem_append.1 ho with ho | ho
        · rcases List.mem_append.1 ho with ho | ho
          · cases already
            · cases ho
            · rw [if_pos rfl] at ho; rw [List.mem_singleton.1 ho]; exact ⟨trivial, trivial⟩
          · rw [List.mem_singleton.1 ho]; exact ⟨trivial, trivial⟩
        · exact g1 o ho
      · rw [T_append, T_append, g2, T_put hf, List.range'_succ, List.filter_cons_of_pos (by simpa using hset), List.filterMap_cons, hnm]
        rw [Option.map_some]
        dsimp only
        rw [hpn]
        have h1 : T here (if already = true then [Op.put .f (ascii ",")] else []) = if already = true then ascii "," else [] := by
          cases already
          · rfl
          · exact T_put hf _
        rw [h1]
        have h2 : (if (already && !(ascii nm :: List.filterMap (fun k => (flagName k).map ascii)
            (List.filter (fun k => flags.getLsbD k) (List.range' (k + 1) n))).isEmpty) = true then ascii "," else []) =
            if already = true then ascii "," else [] := by cases already <;> rfl
        rw [h2]
        generalize List.filterMap (fun k => (flagName k).map ascii) (List.filter (fun k => flags.getLsbD k) (List.range' (k + 1) n)) = names
        cases names with
        | nil => simp [joined]
        | cons x xs => simp [joined]

theorem flags_ops {here : Stream → Bool} (hf : here .f = true) (flags : Flags) (hk : Known flags) :
    (∀ o ∈ flagsOps flags, o.Loud ∧ o.NoRef) ∧ T here (flagsOps flags) = flagsText flags := by
  unfold flagsOps
  split
  · next h =>
    subst h
    refine ⟨fun o ho => by rw [List.mem_singleton.1 ho]; exact ⟨trivial, trivial⟩, ?_⟩
    rw [T_put hf]; decide
  · obtain ⟨g1, g2⟩ := flag_loop hf flags hk 32 0 false (by omega)
    constructor
    · intro o ho
      rcases List.mem_append.1 ho with ho | ho
      · rcases List.mem_append.1 ho with ho | ho
        · rw [List.mem_singleton.1 ho]; exact ⟨trivial, trivial⟩
        · exact g1 o ho
      · rw [List.mem_singleton.1 ho]; exact ⟨trivial, trivial⟩
    · rw [T_append, T_append, g2, T_put hf, T_put hf]
      unfold flagsText
      rw [List.range_eq_range']
      rfl

/-! ### The line -/

/-- What a rule must be like for its line to be complete: its bytes are there, its addresses have texts, its flags names; the mask of a bit-matching
rule is of a family that can be written so. -/
structure Renders (E : Env) (r : Route) (ra la : List Byte) : Prop where
  wf : r.WF
  ntop4 : ∀ x, (E.ntop4 x).length ≤ 255
  ntop6 : ∀ x, (E.ntop6 x).length ≤ 255
  remote : EndAddrIs E r r.remote 1 12 ra
  loc : EndAddrIs E r r.loc 4 13 la
  rmask : r.flags.getLsbD 1 = false → r.flags.getLsbD 12 = true →
    r.remote.bits % 16 = 0 ∧ ((E.formatter r.family).isSome = true ∨ r.family = 118 ∨ r.family = 29)
  lmask : r.flags.getLsbD 4 = false → r.flags.getLsbD 13 = true →
    r.loc.bits % 16 = 0 ∧ ((E.formatter r.family).isSome = true ∨ r.family = 118 ∨ r.family = 29)
  label : ∀ e, r.event = some e → 0#8 ∉ e.label
  flags : ∀ k, k < 32 → r.flags.getLsbD k = true → (flagName k).isSome = true

theorem endpoint_ops {E : Env} {here : Stream → Bool} (hf : here .f = true) {r : Route} {e : Endpoint} {aw pw iw bm : Nat} {t : List Byte}
    (haw : aw < 32) (hpw : pw < 32) (hiw : iw < 32) (hbm : bm < 32) (he : e.WF) (h4 : ∀ x, (E.ntop4 x).length ≤ 255)
    (h6 : ∀ x, (E.ntop6 x).length ≤ 255) (ht : EndAddrIs E r e aw bm t)
    (hm : r.flags.getLsbD aw = false → r.flags.getLsbD bm = true →
      e.bits % 16 = 0 ∧ ((E.formatter r.family).isSome = true ∨ r.family = 118 ∨ r.family = 29))
    (hout : r.flags.getLsbD aw = true → here .out = true) :
    (∀ o ∈ endpointOps E r e (bit aw) (bit pw) (bit iw) (bit bm), o.Loud ∧ o.NoRef) ∧
    T here (endpointOps E r e (bit aw) (bit pw) (bit iw) (bit bm)) = t ++ endRest r e pw iw := by
  unfold EndAddrIs at ht
  unfold endpointOps endRest
  rw [has_bit _ haw, has_bit _ hpw, has_bit _ hiw, has_bit _ hbm]
  have one : ∀ b : List Byte, (∀ o ∈ [Op.put .f b], o.Loud ∧ o.NoRef) ∧ T here [Op.put .f b] = b := fun b =>
    ⟨fun o ho => by rw [List.mem_singleton.1 ho]; exact ⟨trivial, trivial⟩, T_put hf b⟩
  have app : ∀ {a b : List Op} {s t : List Byte}, ((∀ o ∈ a, o.Loud ∧ o.NoRef) ∧ T here a = s) → ((∀ o ∈ b, o.Loud ∧ o.NoRef) ∧ T here b = t) →
      (∀ o ∈ a ++ b, o.Loud ∧ o.NoRef) ∧ T here (a ++ b) = s ++ t := by
    rintro a b s t ⟨h1, h2⟩ ⟨h3, h4⟩
    exact ⟨fun o ho => (List.mem_append.1 ho).elim (h1 o) (h3 o), by rw [T_append, h2, h4]⟩
  have hlen : e.addr.length = (e.bits + 7) / 8 := by
    have := he
    unfold Endpoint.WF bitsToBytes at this
    rw [this, Nat.shiftRight_eq_div_pow]
  have hbytes : ∀ n, bitsToBytes n = (n + 7) / 8 := fun n => by unfold bitsToBytes; rw [Nat.shiftRight_eq_div_pow]
  rw [List.append_assoc]
  refine app ?_ (app ?_ ?_)
  · cases h1 : r.flags.getLsbD aw
    · rw [h1] at ht
      cases h2 : r.flags.getLsbD bm
      · rw [h2] at ht
        have ht : AddrIs E r.family e.addr e.bits t := ht
        exact address_ops hf ht (by omega) (Or.inl (hbytes _)) h4 h6
      · rw [h2] at ht
        obtain ⟨a, m, ha, hmm, rfl⟩ := ht
        obtain ⟨h16, hfam⟩ := hm h1 h2
        have hs : e.bits >>> 1 = e.bits / 2 := by rw [Nat.shiftRight_eq_div_pow]
        show (∀ o ∈ addressOps E r.family (e.bits >>> 1) e.addr (bitsToBytes e.bits) ++ [Op.put .f (ascii "&")] ++
          addressOps E r.family (e.bits >>> 1) (e.addr.drop (bitsToBytes (e.bits >>> 1))) (bitsToBytes e.bits), o.Loud ∧ o.NoRef) ∧ _
        rw [hs, hbytes (e.bits / 2)]
        exact app (app (address_ops hf ha (by omega) (Or.inr hfam) h4 h6) (one _))
          (address_ops hf hmm (by rw [List.length_drop]; omega) (Or.inr hfam) h4 h6)
    · rw [h1] at ht
      have ht : t = ascii "*" := ht
      subst ht
      refine ⟨fun o ho => by rw [List.mem_singleton.1 ho]; exact ⟨trivial, trivial⟩, ?_⟩
      exact textOn_one here .out _ (hout h1)
  · cases r.flags.getLsbD iw
    · rw [dec_decimal]; exact one _
    · exact ⟨fun o ho => (by cases ho), rfl⟩
  · cases r.flags.getLsbD pw
    · rw [dec_decimal]; exact one _
    · exact one _

/-- The steps before the protocol and behind it. -/
def beforeProto (E : Env) (r : Route) (exports : Bool) : List Op :=
  endpointOps E r r.remote (bit 1) (bit 5) (bit 6) (bit 12) ++
  [.put .f (ascii " " ++ (if r.flags.has (bit 11) then ascii "<" else []) ++ ascii "-" ++
    (if r.flags.has (bit 10) then ascii ">" else []) ++ ascii " ")] ++
  endpointOps E r r.loc (bit 4) (bit 3) (bit 7) (bit 13) ++ familyOps E r exports
def behindProto (r : Route) (exports : Bool) : List Op :=
  eventOps r ++ [.put .f (ascii ", flags=")] ++ flagsOps r.flags ++
  (if exports then [] else [.put .f (ascii ", id=" ++ dec r.id ++ ascii "\n")])

theorem line_split (E : Env) (r : Route) (exports : Bool) :
    lineOps E r exports = beforeProto E r exports ++ (protoOps E r ++ behindProto r exports) := by
  unfold lineOps beforeProto behindProto
  simp only [List.append_assoc]
  rfl

theorem proto_ops (E : Env) (r : Route) : protoOps E r = [.quiet .f (Spec.Txt.protoText E r)] := by
  unfold protoOps Spec.Txt.protoText
  rw [show RF.SA_PROTO_WILDCARD = bit 2 from rfl, show RF.TCPLIKE_PORT_NUMBERS = bit 9 from rfl, hasAll_bit _ (by decide), hasAll_bit _ (by decide)]
  cases r.flags.getLsbD 2
  · cases r.flags.getLsbD 9
    · simp only [Bool.false_eq_true, if_false, dec_decimal]
    · simp only [Bool.false_eq_true, if_false, if_true, dec_decimal]
      cases E.proto r.proto <;> rfl
  · rfl

/-- The text before the protocol. -/
def lineStart (E : Env) (r : Route) (ra la : List Byte) : List Byte :=
  ra ++ endRest r r.remote 5 6 ++
  ascii " " ++ (if r.flags.getLsbD 11 then ascii "<" else []) ++ ascii "-" ++ (if r.flags.getLsbD 10 then ascii ">" else []) ++ ascii " " ++
  la ++ endRest r r.loc 3 7 ++ ascii ", AF = " ++ (if r.flags.getLsbD 0 then ascii "*" else match E.famName r.family with
    | some nm => nm
    | none => decimal r.family)
def lineRest (r : Route) (exports : Bool) : List Byte :=
  ascii ", ev = " ++ (match r.event with
    | some e => ascii "\"" ++ e.label ++ ascii "\"" ++ (if r.flags.getLsbD 8 then ascii "[*]" else [])
    | none => if r.flags.getLsbD 8 then ascii "[*]" else ascii "(none)") ++
  ascii ", flags=" ++ flagsText r.flags ++
  (if exports then [] else ascii ", id=" ++ decimal r.id ++ ascii "\n")

theorem line_parts (E : Env) (r : Route) (ra la proto : List Byte) (exports : Bool) :
    line E r ra la proto exports = lineStart E r ra la ++ (proto ++ lineRest r exports) := by
  unfold line lineStart lineRest lineEnd
  simp only [List.append_assoc]
  rfl

theorem family_ops {E : Env} {here : Stream → Bool} (hf : here .f = true) (r : Route) (exports : Bool) :
    (∀ o ∈ familyOps E r exports, o.Loud) ∧ T here (familyOps E r exports) = ascii ", AF = " ++ (if r.flags.getLsbD 0 then ascii "*" else
      match E.famName r.family with
      | some nm => nm
      | none => decimal r.family) := by
  unfold familyOps
  rw [show RF.SA_FAMILY_WILDCARD = bit 0 from rfl, hasAll_bit _ (by decide)]
  have one : ∀ b : List Byte, (∀ o ∈ [Op.put .f b], o.Loud) ∧ T here [Op.put .f b] = b := fun b =>
    ⟨fun o ho => by rw [List.mem_singleton.1 ho]; trivial, T_put hf b⟩
  cases r.flags.getLsbD 0
  · cases E.famName r.family with
    | none => rw [dec_decimal]; exact one _
    | some nm =>
      cases E.famRef r.family
      · exact one _
      · cases exports
        · refine ⟨fun o ho => ?_, ?_⟩
          · rcases List.mem_cons.1 ho with rfl | ho
            · trivial
            · rw [List.mem_singleton.1 ho]; trivial
          · exact textOn_one here .f _ hf
        · refine ⟨fun o ho => ?_, ?_⟩
          · rcases List.mem_cons.1 ho with rfl | ho
            · trivial
            · rcases List.mem_cons.1 ho with rfl | ho
              · trivial
              · rw [List.mem_singleton.1 ho]; trivial
          · exact textOn_one here .f _ hf
  · exact one _

theorem before_ops {E : Env} {here : Stream → Bool} (hf : here .f = true) {r : Route} {ra la : List Byte} (h : Renders E r ra la) (exports : Bool)
    (hout : r.flags.getLsbD 1 = true ∨ r.flags.getLsbD 4 = true → here .out = true) :
    (∀ o ∈ beforeProto E r exports, o.Loud) ∧ T here (beforeProto E r exports) = lineStart E r ra la := by
  obtain ⟨a1, a2⟩ := endpoint_ops hf (aw := 1) (pw := 5) (iw := 6) (bm := 12) (by decide) (by decide) (by decide) (by decide) h.wf.1 h.ntop4 h.ntop6
    h.remote h.rmask (fun q => hout (Or.inl q))
  obtain ⟨b1, b2⟩ := endpoint_ops hf (aw := 4) (pw := 3) (iw := 7) (bm := 13) (by decide) (by decide) (by decide) (by decide) h.wf.2 h.ntop4 h.ntop6
    h.loc h.lmask (fun q => hout (Or.inr q))
  obtain ⟨c1, c2⟩ := family_ops (E := E) hf r exports
  unfold beforeProto lineStart
  constructor
  · intro o ho
    rcases List.mem_append.1 ho with ho | ho
    · rcases List.mem_append.1 ho with ho | ho
      · rcases List.mem_append.1 ho with ho | ho
        · exact (a1 o ho).1
        · rw [List.mem_singleton.1 ho]; trivial
      · exact (b1 o ho).1
    · exact c1 o ho
  · rw [T_append, T_append, T_append, a2, b2, c2, T_put hf, has_bit _ (by decide), has_bit _ (by decide)]
    simp only [List.append_assoc]

theorem behind_ops {here : Stream → Bool} (hf : here .f = true) {E : Env} {r : Route} {ra la : List Byte} (h : Renders E r ra la) (exports : Bool) :
    (∀ o ∈ behindProto r exports, o.Loud ∧ o.NoRef) ∧ T here (behindProto r exports) = lineRest r exports := by
  obtain ⟨d1, d2⟩ := flags_ops hf r.flags h.flags
  have hev : (∀ o ∈ eventOps r, o.Loud ∧ o.NoRef) ∧ T here (eventOps r) = ascii ", ev = " ++ (match r.event with
      | some e => ascii "\"" ++ e.label ++ ascii "\"" ++ (if r.flags.getLsbD 8 then ascii "[*]" else [])
      | none => if r.flags.getLsbD 8 then ascii "[*]" else ascii "(none)") := by
    unfold eventOps
    rw [show RF.PARENT_EVENT_WILDCARD = bit 8 from rfl, hasAll_bit _ (by decide)]
    have one : ∀ b : List Byte, (∀ o ∈ [Op.put .f b], o.Loud ∧ o.NoRef) ∧ T here [Op.put .f b] = b := fun b =>
      ⟨fun o ho => by rw [List.mem_singleton.1 ho]; exact ⟨trivial, trivial⟩, T_put hf b⟩
    cases he : r.event with
    | some e =>
      dsimp only
      rw [cstr_self (h.label e he)]
      exact one _
    | none =>
      cases r.flags.getLsbD 8
      · exact one _
      · exact one _
  obtain ⟨e1, e2⟩ := hev
  unfold behindProto lineRest
  constructor
  · intro o ho
    rcases List.mem_append.1 ho with ho | ho
    · rcases List.mem_append.1 ho with ho | ho
      · rcases List.mem_append.1 ho with ho | ho
        · exact e1 o ho
        · rw [List.mem_singleton.1 ho]; exact ⟨trivial, trivial⟩
      · exact d1 o ho
    · cases exports
      · rw [List.mem_singleton.1 ho]; exact ⟨trivial, trivial⟩
      · cases ho
  · rw [T_append, T_append, T_append, e2, d2, T_put hf]
    cases exports
    · simp only [Bool.false_eq_true, if_false]
      rw [T_put hf, dec_decimal]
    · rfl

end WS.Txt
