import Verif.Proof.ResultText
/-
C80: the texts of result codes, of sources and of result bits.  C81: the check of the caller's build settings.
-/
namespace WS.Props
open WS WS.RT WS.Spec.RT WS.ErrCode

/-- C80: after every history of registrations, a text is accepted for a result code exactly when the code is one users may
define and none was registered for it; otherwise the call says which, and changes nothing. -/
theorem C80_register_code (ops : List Op) (code : Int) (t : Option String) :
    (¬ (UserError code ∨ UserSuccess code) → step (run ops) (.code code t) = (.error .invalidArg, run ops)) ∧
    (UserError code ∨ UserSuccess code → codeText ops code ≠ none →
      step (run ops) (.code code t) = (.error .itemAlreadyPresent, run ops)) ∧
    (UserError code ∨ UserSuccess code → codeText ops code = none → (step (run ops) (.code code t)).1 = .ok ()) := by
  have ha := run_agree ops
  unfold UserError UserSuccess
  simp only [step, setError]
  refine ⟨fun h => ?_, fun h hr => ?_, fun h hr => ?_⟩
  · split
    · rw [if_pos (by omega)]
    · rw [if_pos (by omega)]
  · split
    · have := ha.errors (-(code + 128)).toNat (by omega)
      rw [show -(((-(code + 128)).toNat : Int) + 128) = code by omega] at this
      rw [if_neg (by omega), if_pos (by rw [this]; exact hr)]
    · have := ha.successes (code - 128).toNat (by omega)
      rw [show (((code - 128).toNat : Int) + 128) = code by omega] at this
      rw [if_neg (by omega), if_pos (by rw [this]; exact hr)]
  · split
    · have := ha.errors (-(code + 128)).toNat (by omega)
      rw [show -(((-(code + 128)).toNat : Int) + 128) = code by omega] at this
      rw [if_neg (by omega), if_neg (by rw [this]; simpa using hr)]
    · have := ha.successes (code - 128).toNat (by omega)
      rw [show (((code - 128).toNat : Int) + 128) = code by omega] at this
      rw [if_neg (by omega), if_neg (by rw [this]; simpa using hr)]

/-- C80: the same for source files. -/
theorem C80_register_source (ops : List Op) (id : Int) (t : Option String) :
    (¬ UserSource id → step (run ops) (.source id t) = (.error .invalidArg, run ops)) ∧
    (UserSource id → sourceText ops id ≠ none → step (run ops) (.source id t) = (.error .itemAlreadyPresent, run ops)) ∧
    (UserSource id → sourceText ops id = none → (step (run ops) (.source id t)).1 = .ok ()) := by
  have ha := run_agree ops
  unfold UserSource
  simp only [step, setSource]
  refine ⟨fun h => ?_, fun h hr => ?_, fun h hr => ?_⟩
  · rw [if_pos (by omega)]
  all_goals
    have := ha.sources (id - 112).toNat (by omega)
    rw [show (((id - 112).toNat : Int) + 112) = id by omega] at this
  · rw [if_neg (by omega), if_pos (by rw [this]; exact hr)]
  · rw [if_neg (by omega), if_neg (by rw [this]; simpa using hr)]

/-- C80: whatever the line and the file a user-defined error comes from, its text and its name are the text registered
first for it, or one that says that none was. -/
theorem C80_user_error (ops : List Op) (code : Int) (hc : UserError code) (line src : Nat) (hl : line ≤ 65535) (hs : src ≤ 127) :
    errorString (run ops) (encode code line src) = .text ((codeText ops code).getD "unknown user defined error code") ∧
    errorName (run ops) (encode code line src) = .text ((codeText ops code).getD "unknown user defined error code") := by
  unfold UserError at hc
  have hd := (C34_roundtrip code line src ⟨by omega, by omega⟩ hl hs).1
  have hk := (run_agree ops).errors (-(code + 128)).toNat (by omega)
  rw [show -(((-(code + 128)).toNat : Int) + 128) = code by omega] at hk
  have h1 : errorString (run ops) (encode code line src) = .text ((codeText ops code).getD "unknown user defined error code") := by
    unfold errorString
    simp only [hd]
    rw [error_find_none (by omega)]
    dsimp only
    rw [if_pos (by omega), if_neg (by unfold nErrors; omega), hk]
    cases codeText ops code <;> rfl
  refine ⟨h1, ?_⟩
  unfold errorName
  rw [hd, name_find_none (by omega)]
  exact h1

/-- C80: a source file is told by the text registered first for it, whatever the result. -/
theorem C80_user_source (ops : List Op) (id : Nat) (hi : UserSource id) (code : Int) (hc : -255 ≤ code ∧ code ≤ 255) (line : Nat)
    (hl : line ≤ 65535) :
    sourceString (run ops) (encode code line id) = .text ((sourceText ops id).getD "unknown user defined source") := by
  unfold UserSource at hi
  have hd := (C34_roundtrip code line id hc hl (by omega)).2.1
  have hk := (run_agree ops).sources (id - 112) (by omega)
  rw [show (((id - 112 : Nat) : Int) + 112) = id by omega] at hk
  unfold sourceString
  simp only [hd]
  rw [source_find_none (by omega)]
  dsimp only
  rw [if_pos (by omega), if_neg (by unfold nSources; omega), hk]
  cases sourceText ops id <;> rfl

/-- C80: every code of the library is told by its name, whatever was registered. -/
theorem C80_name (r : Reg) (code : Int) (n : String) (hn : nameOf code = some n) (line src : Nat) (hl : line ≤ 65535) (hs : src ≤ 127) :
    errorName r (encode code line src) = .text n := by
  have hr : -41 ≤ code ∧ code ≤ 8 := by
    unfold nameOf at hn
    split at hn
    · have := (List.getElem?_eq_some_iff.1 hn).1
      simp only [errorNames, List.length_cons, List.length_nil] at this
      omega
    · have := (List.getElem?_eq_some_iff.1 hn).1
      simp only [successNames, List.length_cons, List.length_nil] at this
      omega
  have hd := (C34_roundtrip code line src ⟨by omega, by omega⟩ hl hs).1
  unfold errorName
  rw [hd]
  have hall : ∀ k : Fin 50, nameCases.find? (fun p => p.1 = (k.val : Int) - 41) = (nameOf ((k.val : Int) - 41)).map (fun n => ((k.val : Int) - 41, n)) := by
    decide
  have hk := hall ⟨(code + 41).toNat, by omega⟩
  simp only [show (((code + 41).toNat : Int) - 41) = code by omega] at hk
  rw [hk, hn]
  rfl

/-- C80: every code of the library has a text of its own: not one of those that say that the code is unknown, and the texts
of two codes differ. -/
theorem C80_text (r : Reg) (code : Int) (hk : -41 ≤ code ∧ code ≤ 8) (line src : Nat) (hl : line ≤ 65535) (hs : src ≤ 127) :
    ∃ t, errorString r (encode code line src) = .text t ∧ t ∉ fallbacks ∧
      ∀ code', -41 ≤ code' → code' ≤ 8 → code' ≠ code → ∀ line' src', line' ≤ 65535 → src' ≤ 127 →
        errorString r (encode code' line' src') ≠ .text t := by
  have hall : ∀ k : Fin 50, ∃ p ∈ errorCases, errorCases.find? (fun p => p.1 = (k.val : Int) - 41) = some p ∧ p.1 = (k.val : Int) - 41 ∧ p.2 ∉ fallbacks := by
    decide +kernel
  have hinj : (errorCases.map (·.2)).Nodup := by decide +kernel
  have hget : ∀ c : Int, -41 ≤ c → c ≤ 8 → ∃ p ∈ errorCases, errorCases.find? (fun p => p.1 = c) = some p ∧ p.1 = c ∧ p.2 ∉ fallbacks := by
    intro c h1 h2
    have := hall ⟨(c + 41).toNat, by omega⟩
    simpa only [show (((c + 41).toNat : Int) - 41) = c by omega] using this
  obtain ⟨p, hp, hf, hp1, hp2⟩ := hget code hk.1 hk.2
  have hstr : ∀ c q, -41 ≤ c → c ≤ 8 → errorCases.find? (fun p => p.1 = c) = some q → ∀ l s, l ≤ 65535 → s ≤ 127 →
      errorString r (encode c l s) = .text q.2 := by
    intro c q h1 h2 hq l s hl hs
    unfold errorString
    simp only [(C34_roundtrip c l s ⟨by omega, by omega⟩ hl hs).1]
    rw [hq]
  refine ⟨p.2, hstr _ _ hk.1 hk.2 hf _ _ hl hs, hp2, ?_⟩
  intro c' h1 h2 hne l' s' hl' hs' hc
  obtain ⟨q, hq, hfq, hq1, _⟩ := hget c' h1 h2
  rw [hstr _ _ h1 h2 hfq _ _ hl' hs'] at hc
  injection hc with hc
  have hpq : q = p := by
    rcases List.mem_iff_getElem.1 hq with ⟨i, hi, rfl⟩
    rcases List.mem_iff_getElem.1 hp with ⟨j, hj, rfl⟩
    by_cases hij : i = j
    · subst hij; rfl
    · exfalso
      have hne2 : (errorCases.map (·.2))[i]'(by simpa using hi) ≠ (errorCases.map (·.2))[j]'(by simpa using hj) := by
        intro he
        have hlt := List.pairwise_iff_getElem.1 hinj
        rcases Nat.lt_or_ge i j with h | h
        · exact hlt i j (by simpa using hi) (by simpa using hj) h he
        · exact hlt j i (by simpa using hj) (by simpa using hi) (by omega) he.symm
      simp only [List.getElem_map] at hne2
      exact hne2 hc
  rw [hpq, hp1] at hq1
  exact hne hq1.symm

/-- C80: no result code — also none that was not made by the library — makes these functions read outside the arrays. -/
theorem C80_inside (r : Reg) (e : Int) (he : -2147483648 < e ∧ e ≤ 2147483647) :
    sourceString r e ≠ .oob ∧ errorString r e ≠ .oob ∧ errorName r e ≠ .oob := by
  have hs : decodeSource e ≤ 127 := by
    unfold decodeSource
    simp only [Nat.shiftRight_eq_div_pow]
    split <;> omega
  have hc := decodeCode_range e
  have h2 : errorString r e ≠ .oob := by
    unfold errorString
    dsimp only
    split
    · intro h; cases h
    · split
      · rw [if_neg (by unfold nErrors; omega)]
        split <;> (intro h; cases h)
      · split
        · rw [if_neg (by unfold nErrors nSuccesses; omega)]
          split
          · split <;> (intro h; cases h)
          · intro h; cases h
        · split <;> (intro h; cases h)
  refine ⟨?_, h2, ?_⟩
  · unfold sourceString
    dsimp only
    split
    · intro h; cases h
    · split
      · rw [if_neg (by unfold nSources; omega)]
        split <;> (intro h; cases h)
      · intro h; cases h
  · unfold errorName
    split
    · intro h; cases h
    · exact h2

/-- C80 (part): a user-defined success code for which nothing was registered is told as unknown.  Missing: the text of a
registered one is not returned (`C80_finding_success_text`). -/
theorem C80_user_success_partial (ops : List Op) (code : Int) (hc : UserSuccess code) (hn : codeText ops code = none)
    (line src : Nat) (hl : line ≤ 65535) (hs : src ≤ 127) :
    errorString (run ops) (encode code line src) = .text "unknown user defined success code" := by
  unfold UserSuccess at hc
  have hd := (C34_roundtrip code line src ⟨by omega, by omega⟩ hl hs).1
  have hk := (run_agree ops).successes (code - 128).toNat (by omega)
  rw [show (((code - 128).toNat : Int) + 128) = code by omega, hn] at hk
  unfold errorString
  simp only [hd]
  rw [error_find_none (by omega)]
  dsimp only
  rw [if_neg (by omega), if_pos (by omega), if_neg (by unfold nErrors nSuccesses; omega), hk]

/-- Finding: a registered success code `n` is told by the text registered for the error `-n` — the text of a failure — or by a
null pointer when there is none, and never by its own text (src/wolfsentry_util.c:230-231). -/
theorem C80_finding_success_text (ops : List Op) (code : Int) (hc : UserSuccess code) (t : String) (hn : codeText ops code = some t)
    (line src : Nat) (hl : line ≤ 65535) (hs : src ≤ 127) :
    errorString (run ops) (encode code line src) = (match codeText ops (-code) with | some u => .text u | none => .null) := by
  unfold UserSuccess at hc
  have hd := (C34_roundtrip code line src ⟨by omega, by omega⟩ hl hs).1
  have hk := (run_agree ops).successes (code - 128).toNat (by omega)
  rw [show (((code - 128).toNat : Int) + 128) = code by omega, hn] at hk
  have he := (run_agree ops).errors (code - 128).toNat (by omega)
  rw [show (-(((code - 128).toNat : Int) + 128)) = -code by omega] at he
  unfold errorString
  simp only [hd]
  rw [error_find_none (by omega)]
  dsimp only
  rw [if_neg (by omega), if_pos (by omega), if_neg (by unfold nErrors nSuccesses; omega), hk, he]
  cases codeText ops (-code) <;> rfl

def rtOps : List Op := [.code (-129) (some "too hot"), .source 113 (some "app.c"), .code 129 (some "done"), .code (-129) (some "late"),
  .code 130 (some "half done")]

example : errorString (run rtOps) (encode (-129) 77 113) = .text "too hot" ∧ sourceString (run rtOps) (encode (-129) 77 113) = .text "app.c" ∧
    errorString (run rtOps) (encode 129 77 113) = .text "too hot" ∧ errorString (run rtOps) (encode 130 77 113) = .null ∧
    (step (run rtOps) (.code (-129) (some "again"))).1 = .error .itemAlreadyPresent := by
  refine ⟨by decide, by decide, by decide, by decide, by rfl⟩

example : errorName {} (encode (-21) 100 4) = .text "NOT_PERMITTED" := C80_name {} (-21) _ (by decide) 100 4 (by decide) (by decide)

/-- C80: asking for a bit of a word of results gives nothing when the bit is clear, and otherwise the name of the bit, by
which that bit, and only that bit, is found again. -/
theorem C80_result_bits (res : Flags) (n : Nat) (hn : n < 32) :
    (res.getLsbD n = false → resByFlag res n = .null) ∧
    (res.getLsbD n = true → ∃ s, bitNames[n]? = some s ∧ resByFlag res n = .text s ∧ Conf.actionResByName (ascii s) = .ok ((1 : Flags) <<< n)) := by
  have hb : (res &&& ((1 : Flags) <<< n) ≠ 0) ↔ res.getLsbD n = true := by
    have := Flags.has_bit res n hn
    unfold Flags.has bit at this
    rw [show (1 : Flags) <<< n = BitVec.twoPow 32 n from by simp [BitVec.twoPow_eq]] 
    rw [← this]; simp
  have hall : ∀ k : Fin 32, ∃ p ∈ Conf.actionResNames, Conf.actionResNames.find? (fun p => p.1 = (1 : Flags) <<< k.val) = some p ∧
      Conf.actionResNames.find? (fun q => ascii q.2 == ascii p.2) = some p ∧ p.1 = (1 : Flags) <<< k.val ∧ bitNames[k.val]? = some p.2 := by
    decide +kernel
  constructor
  · intro h
    unfold resByFlag
    rw [if_neg (by omega), if_neg (by rw [hb, h]; simp)]
  · intro h
    obtain ⟨p, _, hf, hb2, hp1, hnm⟩ := hall ⟨n, hn⟩
    dsimp only at hf hp1 hnm
    refine ⟨p.2, hnm, ?_, ?_⟩
    · unfold resByFlag
      rw [if_neg (by omega), if_pos (hb.2 h), hf]
    · unfold Conf.actionResByName
      rw [hb2]
      exact congrArg Except.ok hp1

/-- C80: there is no bit 32. -/
theorem C80_result_bits_outside (res : Flags) (n : Nat) (hn : 32 ≤ n) : resByFlag res n = .text "(out-of-range)" := by
  unfold resByFlag; rw [if_pos (by omega)]

example : resByFlag (AR.REJECT ||| AR.PORT_RESET) 12 = .text "port-reset" ∧ resByFlag AR.REJECT 12 = .null := by decide

theorem rt_matches (lib caller : Build) (n : Nat) (hn : n < 32) :
    flagMatches lib caller n = true ↔ caller.config.getLsbD n = lib.config.getLsbD n := by
  unfold flagMatches
  rw [show (1 : BitVec 32) <<< n = BitVec.twoPow 32 n from by simp [BitVec.twoPow_eq], BitVec.and_twoPow, BitVec.and_twoPow]
  have : BitVec.twoPow 32 n ≠ 0#32 := by
    intro hc
    have := congrArg (fun b => BitVec.getLsbD b n) hc
    simp [hn] at this
  cases h1 : caller.config.getLsbD n <;> cases h2 : lib.config.getLsbD n <;> simp [this, Ne.symm this]

theorem rt_known (c : BitVec 32) :
    (~~~(((1 : BitVec 32) <<< 13 <<< 1) - 1) &&& c = 0) ↔ ∀ i, knownBits ≤ i → c.getLsbD i = false := by
  have hmask : ∀ i : Fin 32, (~~~(((1 : BitVec 32) <<< 13 <<< 1) - 1)).getLsbD i.val = decide (14 ≤ i.val) := by decide
  constructor
  · intro h i hi
    by_cases h32 : i < 32
    · have := congrArg (fun b => BitVec.getLsbD b i) h
      simp only [BitVec.getLsbD_and] at this
      rw [hmask ⟨i, h32⟩] at this
      unfold knownBits at hi
      simpa [hi] using this
    · exact BitVec.getLsbD_of_ge _ _ (by omega)
  · intro h
    apply BitVec.eq_of_getLsbD_eq
    intro i hi
    rw [BitVec.getLsbD_and, hmask ⟨i, hi⟩]
    by_cases h14 : 14 ≤ i
    · rw [h i h14]; simp
    · simp [h14]

/-- C81: the library accepts a caller's build settings exactly when the caller was built for the same version, sets no
configuration bit the library does not know, and agrees with the library on every bit that changes the layout of structures
they share. -/
theorem C81_accepts_iff (lib caller : Build) :
    compatible lib caller = .ok ↔
      caller.version ≠ 0 ∧ caller.version = lib.version ∧ (∀ i, knownBits ≤ i → caller.config.getLsbD i = false) ∧
      (∀ i ∈ layoutBits, caller.config.getLsbD i = lib.config.getLsbD i) := by
  simp only [layoutBits, List.mem_cons, List.not_mem_nil, or_false, forall_eq_or_imp, forall_eq]
  rw [← rt_known, ← rt_matches _ _ 1 (by omega), ← rt_matches _ _ 2 (by omega), ← rt_matches _ _ 6 (by omega),
    ← rt_matches _ _ 9 (by omega), ← rt_matches _ _ 12 (by omega)]
  unfold compatible
  constructor
  · intro h
    repeat' split at h
    all_goals (first | (exact absurd h (by decide)) | skip)
    simp_all
  · rintro ⟨h1, h2, h3, h4, h5, h6, h7, h8⟩
    rw [if_neg h1, if_neg (by simpa using h2), if_neg (by simpa using h3)]
    simp [h4, h5, h6, h7, h8]

/-- C81: a refusal says why: no version or an unknown bit, another version, or a disagreement about the layout. -/
theorem C81_refusal (lib caller : Build) :
    (compatible lib caller = .invalidArg ↔
      caller.version = 0 ∨ (caller.version = lib.version ∧ ∃ i, knownBits ≤ i ∧ caller.config.getLsbD i = true)) ∧
    (compatible lib caller = .libMismatch ↔ caller.version ≠ 0 ∧ caller.version ≠ lib.version) ∧
    (compatible lib caller = .libconfigMismatch ↔ caller.version ≠ 0 ∧ caller.version = lib.version ∧
      (∀ i, knownBits ≤ i → caller.config.getLsbD i = false) ∧ ∃ i ∈ layoutBits, caller.config.getLsbD i ≠ lib.config.getLsbD i) := by
  have hk : (∃ i, knownBits ≤ i ∧ caller.config.getLsbD i = true) ↔ ~~~(((1 : BitVec 32) <<< 13 <<< 1) - 1) &&& caller.config ≠ 0 := by
    rw [ne_eq, rt_known]
    constructor
    · rintro ⟨i, h1, h2⟩ h3; rw [h3 i h1] at h2; cases h2
    · intro h
      apply Classical.byContradiction
      intro hc
      exact h (fun i hi => by
        cases hb : caller.config.getLsbD i with
        | false => rfl
        | true => exact absurd ⟨i, hi, hb⟩ hc)
  have hl : (∃ i ∈ layoutBits, caller.config.getLsbD i ≠ lib.config.getLsbD i) ↔
      ¬ (flagMatches lib caller 1 = true ∧ flagMatches lib caller 2 = true ∧ flagMatches lib caller 6 = true ∧ flagMatches lib caller 9 = true ∧
        flagMatches lib caller 12 = true) := by
    rw [rt_matches _ _ 1 (by omega), rt_matches _ _ 2 (by omega), rt_matches _ _ 6 (by omega), rt_matches _ _ 9 (by omega), rt_matches _ _ 12 (by omega)]
    constructor
    · rintro ⟨i, hi, hne⟩ ⟨a, b, c, d, e⟩
      simp only [layoutBits, List.mem_cons, List.not_mem_nil, or_false] at hi
      rcases hi with rfl | rfl | rfl | rfl | rfl <;> contradiction
    · intro h
      apply Classical.byContradiction
      intro hc
      have : ∀ i ∈ layoutBits, caller.config.getLsbD i = lib.config.getLsbD i := by
        intro i hi
        apply Classical.byContradiction
        intro hne
        exact hc ⟨i, hi, hne⟩
      exact h ⟨this 1 (by decide), this 2 (by decide), this 6 (by decide), this 9 (by decide), this 12 (by decide)⟩
  rw [hl, ← rt_known, hk]
  unfold compatible
  by_cases h1 : caller.version = 0
  · simp [h1]
  by_cases h2 : caller.version = lib.version
  · by_cases h3 : ~~~(((1 : BitVec 32) <<< 13 <<< 1) - 1) &&& caller.config = 0
    · cases flagMatches lib caller 1 <;> cases flagMatches lib caller 2 <;> cases flagMatches lib caller 6 <;>
        cases flagMatches lib caller 9 <;> cases flagMatches lib caller 12 <;> simp_all
    · simp_all
  · rw [if_neg h1, if_pos h2]
    simp [h1, h2]
    exact h1

/-- C81: a caller built with the library's own settings is accepted. -/
theorem C81_self (lib : Build) (hv : lib.version ≠ 0) (hk : ∀ i, knownBits ≤ i → lib.config.getLsbD i = false) :
    compatible lib lib = .ok := (C81_accepts_iff lib lib).2 ⟨hv, rfl, hk, fun _ _ => rfl⟩

example : compatible ⟨0x010602#32, 0x207d#32⟩ ⟨0x010602#32, 0x2079#32⟩ = .libconfigMismatch ∧
    compatible ⟨0x010602#32, 0x207d#32⟩ ⟨0x010602#32, 0x005d#32⟩ = .ok ∧
    compatible ⟨0x010602#32, 0x207d#32⟩ ⟨0x010601#32, 0x207d#32⟩ = .libMismatch := by decide

/-- Finding (limit): a caller and a library that disagree on whether masks are compiled in are taken to be compatible. -/
theorem C81_finding_masks_not_compared (lib caller : Build) (h : compatible lib caller = .ok) :
    compatible { lib with config := lib.config ^^^ ((1 : BitVec 32) <<< 13) } caller = .ok := by
  rw [C81_accepts_iff] at h ⊢
  refine ⟨h.1, h.2.1, h.2.2.1, ?_⟩
  intro i hi
  rw [h.2.2.2 i hi, BitVec.getLsbD_xor]
  have : ∀ i ∈ layoutBits, ((1 : BitVec 32) <<< 13).getLsbD i = false := by decide
  rw [this i hi]; simp

end WS.Props
