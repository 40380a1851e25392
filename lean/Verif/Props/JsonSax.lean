import Verif.Proof.JsonRaw
import Verif.Proof.JsonCut
import Verif.Proof.JsonUser
/-
C49: the incremental JSON parser accepts exactly the JSON texts (RFC 8259, well-formed UTF-8) within its
limits and reports their events, whatever the chunks the text arrives in.  The grammar is Spec/JsonSax.
-/
namespace WS.Props
open WS WS.Sax WS.Spec.Json

/-! ### Examples used below -/

/-- A callback that writes down the events. -/
def record : Callback (List Event) := fun u e _ _ => (u ++ [e], 0, none)

theorem record_nonneg : ∀ u e v q, 0 ≤ (record u e v q).2.1 := fun _ _ _ _ => Int.le_refl 0

theorem record_calls {u u' : List Event} {evs : List Event} (h : Calls record u evs u') : u' = u ++ evs := by
  induction h with
  | nil => simp
  | snoc _ _ ih => simp [record, ih]

/-- `{"a":[1,"é"]}` with the last character in UTF-8, cut into three chunks, one cut inside the character. -/
def sampleChunks : List (List Byte) :=
  [word "{\"a\":[1,\"" ++ [0xc3#8], [0xa9#8], word "\"]} "]

theorem loader_strict : Strict loaderConfig := by unfold Strict; decide

theorem sample_ok : (parse loaderConfig record [] sampleChunks).ret = 0 := by decide +kernel

theorem not_endsInWord {t : List Byte} {c : Byte} (h : ¬ (Digit c ∨ (ch 'a' ≤ c ∧ c ≤ ch 'z') ∨ (ch 'A' ≤ c ∧ c ≤ ch 'Z'))) :
    ¬ EndsInWord (t ++ [c]) := by
  rintro ⟨t', c', e, g⟩
  have := List.append_inj_right' e rfl
  injection this with this
  exact h (this ▸ g)

theorem sample_end : ¬ EndsInWord sampleChunks.flatten :=
  not_endsInWord (t := word "{\"a\":[1,\"" ++ [0xc3#8, 0xa9#8] ++ word "\"]}") (c := 0x20#8) (by unfold Digit; decide +kernel)

/-! ### Acceptance -/

/-- C49: what the parser accepts is a JSON text within the limits, and the callback has seen exactly its
events in order (in particular every string and key it saw is the UTF-8 of a sequence of Unicode scalar values).
This excepts texts ending in a letter or digit; see the findings below. -/
theorem C49_accepted_is_json_partial {σ : Type} (cfg : Config) (hst : Strict cfg) (cb : Callback σ) (u : σ)
    (chunks : List (List Byte)) (hend : ¬ EndsInWord chunks.flatten) (h : 0 ≤ (parse cfg cb u chunks).ret) :
    ∃ evs, Document cfg chunks.flatten evs ∧ Calls cb u evs (parse cfg cb u chunks).user :=
  parse_sound cfg hst cb u chunks hend h

example : ∃ evs, Document loaderConfig sampleChunks.flatten evs ∧
    Calls record [] evs (parse loaderConfig record [] sampleChunks).user :=
  C49_accepted_is_json_partial loaderConfig loader_strict record [] sampleChunks sample_end (by rw [sample_ok]; decide)

/-- C49: every JSON text within the limits is accepted, whatever the chunks, and the callback sees exactly its
events, if the callback itself reports no error. -/
theorem C49_json_is_accepted {σ : Type} (cfg : Config) (hst : Strict cfg) (cb : Callback σ) (u : σ)
    (hcb : ∀ u e v q, 0 ≤ (cb u e v q).2.1) (chunks : List (List Byte)) (evs : List Event)
    (h : Document cfg chunks.flatten evs) :
    0 ≤ (parse cfg cb u chunks).ret ∧ Calls cb u evs (parse cfg cb u chunks).user :=
  parse_complete cfg hst cb u hcb chunks h

/-- A document built from the grammar: `[ "é" , 0 ]`. -/
theorem sample_document : Document loaderConfig
    ([] ++ (ch '[' :: (([ch ' '] ++ (ch '"' :: ([] ++ utf8 0xe9) ++ [ch '"']) ++ [ch ' ']) ++ [ch ','] ++ ([ch ' '] ++ [ch '0'] ++ [ch ' '])) ++
      [ch ']']) ++ [])
    [⟨.arrayBeg, []⟩, ⟨.string, utf8s [0xe9]⟩, ⟨.number, [ch '0']⟩, ⟨.arrayEnd, []⟩] := by
  have hsp : Spec.Json.WS [ch ' '] := by
    intro c hc
    exact Or.inl (List.mem_singleton.1 hc)
  have hnum : Number [ch '0'] := ⟨[], [ch '0'], [], [], rfl, Or.inl rfl, .zero, Or.inl rfl, Or.inl rfl⟩
  refine ⟨⟨[], _, [], rfl, ws_nil, ws_nil, ?_⟩, Or.inl rfl, Or.inl rfl, ?_⟩
  · exact Value.array (cfg := loaderConfig) (d := 0) (e := [⟨.string, utf8s [0xe9]⟩] ++ [⟨.number, [ch '0']⟩]) (Or.inr (by decide))
      (Elements.more (Elements.one hsp (Value.string (Body.raw Body.nil (Or.inl (by decide)) (by decide) (by decide) (by decide)) (Or.inr (by decide))) hsp)
        hsp (Value.number hnum (Or.inr (by decide))) hsp)
  · intro e he
    injection he with he
    rw [← he]
    show ¬ loaderConfig.flags.getLsbD 4 = true
    decide

example : 0 ≤ (parse loaderConfig record [] [word "[ \"" ++ [0xc3#8], [0xa9#8] ++ word "\" ,", word " 0 ]"]).ret :=
  (C49_json_is_accepted loaderConfig loader_strict record [] record_nonneg
    [word "[ \"" ++ [0xc3#8], [0xa9#8] ++ word "\" ,", word " 0 ]"] _ (by
      have : ([word "[ \"" ++ [0xc3#8], [0xa9#8] ++ word "\" ,", word " 0 ]"] : List (List Byte)).flatten =
          ([] ++ (ch '[' :: (([ch ' '] ++ (ch '"' :: ([] ++ utf8 0xe9) ++ [ch '"']) ++ [ch ' ']) ++ [ch ','] ++ ([ch ' '] ++ [ch '0'] ++ [ch ' '])) ++
            [ch ']']) ++ []) := by decide +kernel
      rw [this]; exact sample_document)).1

/-- C49: the same, for a callback that may report errors: what matters is that it reports none for the events of this text,
in the states they lead it to. -/
theorem C49_json_is_accepted_unless_refused {σ : Type} (cfg : Config) (hst : Strict cfg) (cb : Callback σ) (u : σ)
    (chunks : List (List Byte)) (evs : List Event)
    (hcb : ∀ pre e suf, evs = pre ++ e :: suf → ∀ u', Calls cb u pre u' → ∀ v q, 0 ≤ (cb u' e v q).2.1)
    (h : Document cfg chunks.flatten evs) :
    0 ≤ (parse cfg cb u chunks).ret ∧ Calls cb u evs (parse cfg cb u chunks).user :=
  parse_complete' cfg hst cb u chunks hcb h

/-- A callback that refuses a sixth event and later ones. -/
def recordFive : Callback (List Event) := fun u e _ _ => (u ++ [e], if u.length < 5 then 0 else -1, none)

theorem recordFive_length {u u' : List Event} {evs : List Event} (h : Calls recordFive u evs u') : u'.length = u.length + evs.length := by
  induction h with
  | nil => simp
  | snoc _ _ ih => simp [recordFive, ih]; omega

example : 0 ≤ (parse loaderConfig recordFive [] [word "[ \"" ++ [0xc3#8], [0xa9#8] ++ word "\" ,", word " 0 ]"]).ret :=
  (C49_json_is_accepted_unless_refused loaderConfig loader_strict recordFive []
    [word "[ \"" ++ [0xc3#8], [0xa9#8] ++ word "\" ,", word " 0 ]"]
    [⟨.arrayBeg, []⟩, ⟨.string, utf8s [0xe9]⟩, ⟨.number, [ch '0']⟩, ⟨.arrayEnd, []⟩] (by
      intro pre e suf he u' hc v q
      have h1 := recordFive_length hc
      have h2 := congrArg List.length he
      simp only [List.length_append, List.length_cons, List.length_nil] at h1 h2
      show 0 ≤ (if u'.length < 5 then (0 : Int) else -1)
      rw [if_pos (by omega)]
      exact Int.le_refl 0) (by
      have : ([word "[ \"" ++ [0xc3#8], [0xa9#8] ++ word "\" ,", word " 0 ]"] : List (List Byte)).flatten =
          ([] ++ (ch '[' :: (([ch ' '] ++ (ch '"' :: ([] ++ utf8 0xe9) ++ [ch '"']) ++ [ch ' ']) ++ [ch ','] ++ ([ch ' '] ++ [ch '0'] ++ [ch ' '])) ++
            [ch ']']) ++ []) := by decide +kernel
      rw [this]; exact sample_document)).1

/-! ### Exactly what is accepted -/

/-- C49: whatever the callback, what the parser accepts is a JSON text within the limits, or such a text cut off in or after its last
number or literal (`CutOff`); the callback has seen exactly its events in order. -/
theorem C49_accepted {σ : Type} (cfg : Config) (hst : Strict cfg) (cb : Callback σ) (u : σ)
    (chunks : List (List Byte)) (h : 0 ≤ (parse cfg cb u chunks).ret) :
    ∃ evs, (Document cfg chunks.flatten evs ∨ CutOff cfg chunks.flatten evs) ∧ Calls cb u evs (parse cfg cb u chunks).user :=
  parse_sound' cfg hst cb u chunks h

example : ∃ evs, (Document loaderConfig [word "[tr"].flatten evs ∨ CutOff loaderConfig [word "[tr"].flatten evs) ∧
    Calls record [] evs (parse loaderConfig record [] [word "[tr"]).user :=
  C49_accepted loaderConfig loader_strict record [] [word "[tr"] (by decide +kernel)

/-- C49: and every text so cut off is accepted, the callback seeing its events, unless the callback reports an error for one of them. -/
theorem C49_cut_off_is_accepted {σ : Type} (cfg : Config) (hst : Strict cfg) (cb : Callback σ) (u : σ)
    (chunks : List (List Byte)) (evs : List Event)
    (hcb : ∀ pre e suf, evs = pre ++ e :: suf → ∀ u', Calls cb u pre u' → ∀ v q, 0 ≤ (cb u' e v q).2.1)
    (h : CutOff cfg chunks.flatten evs) :
    0 ≤ (parse cfg cb u chunks).ret ∧ Calls cb u evs (parse cfg cb u chunks).user :=
  parse_cut cfg hst cb u chunks hcb h

/-- `[["a",tr` -/
theorem sample_cutOff : CutOff loaderConfig ([] ++ [ch '['] ++ [] ++ [ch '['] ++ ([] ++ (ch '"' :: ([] ++ utf8 0x61) ++ [ch '"']) ++ []) ++ [ch ','] ++ [] ++ [ch 't', ch 'r'])
    [⟨.arrayBeg, []⟩, ⟨.arrayBeg, []⟩, ⟨.string, utf8s [0x61]⟩, ⟨.true, []⟩] := by
  refine ⟨⟨2, _, [ch 't', ch 'r'], [⟨.arrayBeg, []⟩, ⟨.arrayBeg, []⟩, ⟨.string, utf8s [0x61]⟩], ⟨.true, []⟩, rfl, ?_, .true (by simp) (by decide +kernel), rfl⟩,
    Or.inl rfl, Or.inl rfl, ?_⟩
  · exact Open.next (e := [⟨.arrayBeg, []⟩]) (Open.first (Open.root ws_nil) (Or.inr (by decide)) ws_nil) (Or.inr (by decide))
      (Elements.one ws_nil (Value.string (Body.raw Body.nil (Or.inl (by decide)) (by decide) (by decide) (by decide)) (Or.inr (by decide))) ws_nil) ws_nil
  · intro e he
    injection he with he
    rw [← he]
    show ¬ loaderConfig.flags.getLsbD 4 = true
    decide

example : 0 ≤ (parse loaderConfig recordFive [] [word "[[\"", word "a\",t", word "r"]).ret :=
  (C49_cut_off_is_accepted loaderConfig loader_strict recordFive [] [word "[[\"", word "a\",t", word "r"]
    [⟨.arrayBeg, []⟩, ⟨.arrayBeg, []⟩, ⟨.string, utf8s [0x61]⟩, ⟨.true, []⟩] (by
      intro pre e suf he u' hc v q
      have h1 := recordFive_length hc
      have h2 := congrArg List.length he
      simp only [List.length_append, List.length_cons, List.length_nil] at h1 h2
      show 0 ≤ (if u'.length < 5 then (0 : Int) else -1)
      rw [if_pos (by omega)]
      exact Int.le_refl 0) (by
      have : ([word "[[\"", word "a\",t", word "r"] : List (List Byte)).flatten =
          [] ++ [ch '['] ++ [] ++ [ch '['] ++ ([] ++ (ch '"' :: ([] ++ utf8 0x61) ++ [ch '"']) ++ []) ++ [ch ','] ++ [] ++ [ch 't', ch 'r'] := by
        decide +kernel
      rw [this]; exact sample_cutOff)).1

/-- C49: exactly which texts are accepted by a callback that reports no error. -/
theorem C49_accepts_exactly {σ : Type} (cfg : Config) (hst : Strict cfg) (cb : Callback σ) (u : σ)
    (hcb : ∀ u e v q, 0 ≤ (cb u e v q).2.1) (chunks : List (List Byte)) :
    0 ≤ (parse cfg cb u chunks).ret ↔ ∃ evs, Document cfg chunks.flatten evs ∨ CutOff cfg chunks.flatten evs := by
  constructor
  · intro h
    obtain ⟨evs, h1, _⟩ := C49_accepted cfg hst cb u chunks h
    exact ⟨evs, h1⟩
  · rintro ⟨evs, h | h⟩
    · exact (C49_json_is_accepted cfg hst cb u hcb chunks evs h).1
    · exact (C49_cut_off_is_accepted cfg hst cb u chunks evs (fun _ _ _ _ _ _ => hcb _ _) h).1

example : ¬ ∃ evs, Document loaderConfig (word "[1,") evs ∨ CutOff loaderConfig (word "[1,") evs :=
  fun h => absurd ((C49_accepts_exactly loaderConfig loader_strict record [] record_nonneg [word "[1,"]).2
    (by rw [show ([word "[1,"] : List (List Byte)).flatten = word "[1," by simp]; exact h)) (by decide +kernel)

/-- C49: a text so cut off is the beginning of a JSON value: something can be appended to it that completes the literal and closes the
open containers, adding only the events of the closing.  (So no text is accepted that could not be the beginning of JSON.) -/
theorem C49_cut_off_is_a_beginning (cfg : Config) (text : List Byte) (evs : List Event) (h : CutOff cfg text evs) :
    ∃ rest w v ce, text ++ rest = w ++ v ∧ Spec.Json.WS w ∧ Value cfg 0 v (evs ++ ce) ∧ ∀ e ∈ ce, Ending e := by
  obtain ⟨⟨d, t0, tok, e0, ev, htx, hop, htok, hev⟩, _⟩ := h
  obtain ⟨n, hn, hb⟩ := before_of_open hop
  obtain ⟨r, hr⟩ := lastToken_value htok n.length
  obtain ⟨cl, ce, ⟨w, v, g1, g2, g3⟩, g4, _, _⟩ := close_all hb hr
  refine ⟨r ++ cl, w, v, ce, ?_, g2, by rw [hev]; exact g3, g4⟩
  rw [htx, ← g1]; simp

example : ∃ rest w v ce, word "[[\"a\",tr" ++ rest = w ++ v ∧ Spec.Json.WS w ∧
    Value loaderConfig 0 v ([⟨.arrayBeg, []⟩, ⟨.arrayBeg, []⟩, ⟨.string, utf8s [0x61]⟩, ⟨.true, []⟩] ++ ce) ∧ ∀ e ∈ ce, Ending e :=
  C49_cut_off_is_a_beginning loaderConfig _ _ (by
    rw [show word "[[\"a\",tr" = [] ++ [ch '['] ++ [] ++ [ch '['] ++ ([] ++ (ch '"' :: ([] ++ utf8 0x61) ++ [ch '"']) ++ []) ++ [ch ','] ++ [] ++ [ch 't', ch 'r'] by
      decide +kernel]
    exact sample_cutOff)

/-- C49: a text that ends with anything but a letter or digit is no such text. -/
theorem C49_cut_off_ends_in_a_word (cfg : Config) (text : List Byte) (evs : List Event) (h : CutOff cfg text evs) : EndsInWord text :=
  cutOff_ends h

example : ¬ CutOff loaderConfig sampleChunks.flatten [] := fun h => sample_end (C49_cut_off_ends_in_a_word _ _ _ h)

/-- C49: a string without escapes is accepted exactly when its bytes are well-formed UTF-8: the encoding of Unicode
scalar values, so no overlong form, no surrogate, nothing beyond U+10FFFF, nothing incomplete.  (The string is the
element of a one-element array; the hypotheses on `cfg` say that its limits leave room for that.) -/
theorem C49_string_is_utf8 {σ : Type} (cfg : Config) (hst : Strict cfg) (cb : Callback σ) (u : σ)
    (hcb : ∀ u e v q, 0 ≤ (cb u e v q).2.1) (b : List Byte)
    (hb : ∀ c ∈ b, 0x20 ≤ c.toNat ∧ c ≠ ch '"' ∧ c ≠ ch '\\')
    (hs : Within cfg.maxStringLen b.length) (ht : Within cfg.maxTotalLen (b.length + 4)) (hn : Within cfg.maxNesting 1)
    (hv : Within cfg.maxTotalValues 2) (hr : cfg.flags.getLsbD 4 = false)
    (chunks : List (List Byte)) (hc : chunks.flatten = ch '[' :: ch '"' :: b ++ [ch '"', ch ']']) :
    0 ≤ (parse cfg cb u chunks).ret ↔ ∃ s, (∀ n ∈ s, Scalar n) ∧ b = utf8s s := by
  have hlen : Within cfg.maxTotalLen chunks.flatten.length := by
    rw [hc]
    unfold Within at ht ⊢
    simp only [List.length_append, List.length_cons, List.length_nil]
    omega
  constructor
  · intro h
    rw [parse_run cfg cb u chunks hlen, hc] at h
    obtain ⟨s, hB⟩ := raw_sound cfg hst cb u b hb h
    exact ⟨s, body_raw hB (fun g => (hb _ g).2.2 rfl)⟩
  · rintro ⟨s, h1, h2⟩
    have hB : Body b s := by
      have := raw_body s [] [] Body.nil h1 (by rw [← h2]; exact hb)
      rw [List.nil_append, List.nil_append, ← h2] at this
      exact this
    have hd : Document cfg chunks.flatten (⟨.arrayBeg, []⟩ :: [⟨.string, utf8s s⟩] ++ [⟨.arrayEnd, []⟩]) := by
      refine ⟨⟨[], _, [], ?_, ws_nil, ws_nil, Value.array hn (Elements.one ws_nil (Value.string hB hs) ws_nil)⟩, hlen, hv, ?_⟩
      · rw [hc]; simp
      · intro e he
        injection he with he
        rw [← he]
        show ¬ cfg.flags.getLsbD 4 = true
        rw [hr]; decide
    exact (parse_complete cfg hst cb u hcb chunks hd).1

example : ¬ 0 ≤ (parse loaderConfig record [] [word "[\"" ++ [0xc0#8, 0x80#8] ++ word "\"]"]).ret := by
  rw [C49_string_is_utf8 loaderConfig loader_strict record [] record_nonneg [0xc0#8, 0x80#8] (by decide) (Or.inr (by decide))
    (Or.inl rfl) (Or.inr (by decide)) (Or.inl rfl) (by decide) _ (by decide +kernel)]
  rintro ⟨s, hsc, h⟩
  -- no encoding starts with 0xc0
  cases s with
  | nil => cases h
  | cons n s =>
    have hn := hsc n (List.mem_cons_self ..)
    unfold Scalar at hn
    have e : utf8s (n :: s) = utf8 n ++ utf8s s := rfl
    rw [e] at h
    unfold utf8 at h
    repeat' split at h
    all_goals
      simp only [List.cons_append, List.nil_append, List.cons.injEq] at h
      have h' := congrArg BitVec.toNat h.1
      simp only [BitVec.toNat_ofNat] at h'
      omega

/-! ### Chunks -/

/-- C49: how the text is cut into chunks changes neither the result, nor the position reported, nor what the callback
sees, for texts within the total length limit. -/
theorem C49_chunk_independent {σ : Type} (cfg : Config) (cb : Callback σ) (u : σ) (chunks chunks' : List (List Byte))
    (h : chunks.flatten = chunks'.flatten) (hl : Within cfg.maxTotalLen chunks.flatten.length) :
    parse cfg cb u chunks = parse cfg cb u chunks' := by
  rw [parse_run cfg cb u chunks hl, parse_run cfg cb u chunks' (by rw [← h]; exact hl), h]

example : parse loaderConfig record [] sampleChunks = parse loaderConfig record [] [sampleChunks.flatten] :=
  C49_chunk_independent loaderConfig record [] _ _ (by simp) (Or.inl rfl)

/-- C49: a text longer than the limit is rejected, whatever the chunks. -/
theorem C49_too_long_rejected {σ : Type} (cfg : Config) (cb : Callback σ) (u : σ) (chunks : List (List Byte))
    (h : ¬ Within cfg.maxTotalLen chunks.flatten.length) : (parse cfg cb u chunks).ret < 0 := by
  unfold Within at h
  have := feeds_over cfg cb (by omega) chunks (init u) (init_good cfg u) (by show 0 + _ > _; omega) (Nat.zero_le _)
  unfold parse fini
  simp only
  unfold flush
  rw [if_neg (by omega)]
  exact this

example : (parse { defaults with maxTotalLen := 4 } record [] [word "[1,", word "2]"]).ret < 0 :=
  C49_too_long_rejected _ record [] _ (by unfold Within; decide)

/-- C49: acceptance does not depend on the chunks. -/
theorem C49_verdict_chunk_independent {σ : Type} (cfg : Config) (cb : Callback σ) (u : σ) (chunks chunks' : List (List Byte))
    (h : chunks.flatten = chunks'.flatten) : 0 ≤ (parse cfg cb u chunks).ret ↔ 0 ≤ (parse cfg cb u chunks').ret := by
  by_cases hl : Within cfg.maxTotalLen chunks.flatten.length
  · rw [C49_chunk_independent cfg cb u chunks chunks' h hl]
  · have h1 := C49_too_long_rejected cfg cb u chunks hl
    have h2 := C49_too_long_rejected cfg cb u chunks' (by rw [← h]; exact hl)
    constructor <;> (intro g; omega)

example : 0 ≤ (parse defaults record [] [word "[1,", word "2]"]).ret ↔ 0 ≤ (parse defaults record [] [word "[1,2]"]).ret :=
  C49_verdict_chunk_independent _ record [] _ _ (by decide +kernel)

/-- C49: no input makes the parser run off its stack, its buffer or its input, or loop. -/
theorem C49_never_faults {σ : Type} (cfg : Config) (cb : Callback σ) (u : σ) (chunks : List (List Byte)) :
    (parse cfg cb u chunks).fault = false := by
  unfold parse fini
  exact flush_fault cfg cb _ (feeds_good cfg cb chunks (init u) (init_good cfg u))

example : (parse defaults record [] [word "]]}", word "\""]).fault = false := C49_never_faults _ _ _ _

/-- C49: after an error, feeding more changes neither the error nor its position, and the callback is not called
again. -/
theorem C49_error_sticky {σ : Type} (cfg : Config) (cb : Callback σ) (u : σ) (chunks more : List (List Byte))
    (h : (chunks.foldl (feed cfg cb) (init u)).err < 0) :
    parse cfg cb u (chunks ++ more) = parse cfg cb u chunks := by
  have hg := feeds_good cfg cb chunks (init u) (init_good cfg u)
  unfold parse
  rw [List.foldl_append]
  generalize chunks.foldl (feed cfg cb) (init u) = p at h hg ⊢
  obtain ⟨h1, h2, h3, h4⟩ := feeds_neg cfg cb more p h hg
  unfold fini
  have e1 : flush cfg cb p = p := by unfold flush; rw [if_neg (by omega)]
  have e2 : flush cfg cb (more.foldl (feed cfg cb) p) = more.foldl (feed cfg cb) p := by
    unfold flush; rw [if_neg (by omega)]
  simp only [e1, e2, h1, h2, h3, h4.fault, hg.fault, if_neg (show ¬ 0 ≤ p.err by omega)]

example : parse defaults record [] ([word "[1,}"] ++ [word " 2]"]) = parse defaults record [] [word "[1,}"] :=
  C49_error_sticky _ _ _ _ _ (by decide +kernel)

/-- C49: whatever the callback preserves holds of the user data at the end, for every text, every chunking and every
outcome: nothing but the callback touches it. -/
theorem C49_only_the_callback {σ : Type} (P : σ → Prop) (cfg : Config) (cb : Callback σ) (hcb : ∀ u e v q, P u → P (cb u e v q).1)
    (u : σ) (chunks : List (List Byte)) (h : P u) : P (parse cfg cb u chunks).user :=
  parse_user cfg cb hcb u chunks h

/-- A callback that drops nulls. -/
def recordSome : Callback (List Event) := fun u e _ _ => (if e.type = .null then u else u ++ [e], 0, none)

example : ∀ e ∈ (parse defaults recordSome []
    [word "[null,1,", word "nul}"]).user, e.type ≠ .null :=
  C49_only_the_callback (fun u : List Event => ∀ e ∈ u, e.type ≠ .null) defaults recordSome (by
    intro u e v q hu x hx
    unfold recordSome at hx
    by_cases h : e.type = .null
    · simp only [h, if_true] at hx; exact hu x hx
    · simp only [h, if_false] at hx
      rcases List.mem_append.1 hx with hx | hx
      · exact hu x hx
      · rw [List.mem_singleton.1 hx]; exact h) [] _ (by simp)

/-! ### Findings -/

theorem value_beg_end {cfg : Config} {d : Nat} {t : List Byte} {e : Event} {es : List Event}
    (h : Value cfg d t (e :: es)) (hb : e.type = .arrayBeg) : ∃ es', es = es' ++ [⟨.arrayEnd, []⟩] := by
  generalize hE : e :: es = E at h
  cases h with
  | null => injection hE with h1 _; rw [h1] at hb; cases hb
  | false => injection hE with h1 _; rw [h1] at hb; cases hb
  | true => injection hE with h1 _; rw [h1] at hb; cases hb
  | number => injection hE with h1 _; rw [h1] at hb; cases hb
  | string => injection hE with h1 _; rw [h1] at hb; cases hb
  | emptyArray => injection hE with _ h2; exact ⟨[], h2⟩
  | array => injection hE with _ h2; exact ⟨_, h2⟩
  | emptyObject => injection hE with h1 _; rw [h1] at hb; cases hb
  | object => injection hE with h1 _; rw [h1] at hb; cases hb

/-- C49, finding: the configuration loader's parser accepts a text cut off inside a container, if the cut comes after a
number or literal: `[1` is accepted, although it is no JSON text.  `json_fini` checks the nesting only when it has no
pending token (centijson_sax.c:962-972). -/
theorem C49_finding_unclosed_accepted :
    0 ≤ (parse loaderConfig record [] [word "[1"]).ret ∧ ¬ ∃ evs, Document loaderConfig (word "[1") evs := by
  refine ⟨by decide +kernel, ?_⟩
  rintro ⟨evs, h⟩
  have hc := (C49_json_is_accepted loaderConfig loader_strict record [] record_nonneg [word "[1"] evs h).2
  have hu : (parse loaderConfig record [] [word "[1"]).user = [⟨.arrayBeg, []⟩, ⟨.number, [ch '1']⟩] := by decide +kernel
  have e := record_calls hc
  rw [hu, List.nil_append] at e
  obtain ⟨⟨w1, t, w2, _, _, _, hv⟩, _⟩ := h
  rw [← e] at hv
  obtain ⟨es', h1⟩ := value_beg_end hv rfl
  cases es' with
  | nil => cases h1
  | cons a b => injection h1 with _ h2; cases b <;> cases h2

/-- C49, finding: a literal cut off at the end of the input is taken for the whole literal: `tru` is `true`
(centijson_sax.c:397-404 does not look at how much of the literal has been seen). -/
theorem C49_finding_truncated_literal :
    (parse defaults record [] [word "tru"]).ret = 0 ∧
    (parse defaults record [] [word "tru"]).user = [⟨.true, []⟩] ∧
    (parse loaderConfig record [] [word "{\"a\":n"]).ret = 0 := by decide +kernel

/-- C49, finding: for a text over the length limit the callback sees a part of the events or none, depending on the
chunks. -/
theorem C49_finding_limit_events :
    (parse { defaults with maxTotalLen := 4 } record [] [word "[1,2]"]).user = [] ∧
    (parse { defaults with maxTotalLen := 4 } record [] [word "[1,", word "2]"]).user =
      [⟨.arrayBeg, []⟩, ⟨.number, [ch '1']⟩] := by decide +kernel

/-- C49, finding: the header says a non-zero return of the callback aborts the parse
(wolfsentry/centijson_sax.h:172); a positive one does not. -/
theorem C49_finding_positive_return_ignored :
    (parse defaults (fun u e _ _ => (u ++ [e], 1, none) : Callback (List Event)) [] [word "[1]"]).user =
      [⟨.arrayBeg, []⟩, ⟨.number, [ch '1']⟩, ⟨.arrayEnd, []⟩] := by decide +kernel

end WS.Props
