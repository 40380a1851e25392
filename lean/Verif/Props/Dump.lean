import Verif.Proof.Dump2
/-
C72: exporting the rule table as a configuration, and loading it.  C73: iterating over a table.
-/
namespace WS.Props
open WS WS.Sax WS.Conf WS.Spec WS.Spec.Load WS.Spec.RoundTrip WS.RoundTrip WS.Spec.Dump WS.Dump

variable {α : Type}

/-! ### Sample -/

/-- A rule without addresses. -/
def dumpPlain : Route := { rtRule with id := 8, flags := rtFlags ||| bit 1 ||| bit 14, remote := {}, event := none }

def dumpAt (a : List Byte) (bits : Nat) : List Byte := hexText (padded 4 (a.take ((bits + 7) / 8)))

theorem dumpPlain_renderable (numeric : Bool) : Renderable rtFmt dumpPlain numeric dumpAt := by
  refine ⟨by unfold FieldsInRange; decide, Or.inr (Or.inr (Or.inr (by decide))), ?_⟩
  intro p hp
  have h : renderedAddrs dumpPlain = [] := by decide
  rw [h] at hp; cases hp

theorem dump_renderable (numeric : Bool) : ∀ r ∈ [rtRule, dumpPlain], Renderable rtFmt r numeric dumpAt := by
  intro r hr
  rcases List.mem_cons.1 hr with rfl | hr
  · exact rt_renderable numeric
  · rw [List.mem_singleton.1 hr]; exact dumpPlain_renderable numeric

/-! ### The text -/

/-- C72: whatever the size of the buffer and whenever the client sends off what is in it: if it asks for a rule only with as much room as the longest
rule takes, then what it has sent when it is done is exactly the configuration with the rules of the table, each once, in their order. -/
theorem C72_export_is_the_table (F : FmtEnv) (numeric : Bool) (at_ : List Byte → Nat → List Byte) (rs : List Route)
    (hr : ∀ r ∈ rs, Renderable F r numeric at_) (cap need : Nat) (hcap : cap < 2147483648)
    (hneed : ∀ r ∈ rs, (ruleJson r at_ (familyText F r numeric) (protoText F r numeric)).length + 2 ≤ need)
    (total : List Byte) (h : Completed F numeric rs cap need total) :
    total = wholeText (rs.map fun r => ruleJson r at_ (familyText F r numeric) (protoText F r numeric)) :=
  completed_text hcap hr (fun r hm => Or.inl (hneed r hm)) h

/-- C72: at every moment of such an export, nothing has been stored outside the buffer, the lengths add up, and what has been sent and
what is in the buffer are the rules so far. -/
theorem C72_export_stays_in_the_buffer (F : FmtEnv) (numeric : Bool) (at_ : List Byte → Nat → List Byte) (rs : List Route)
    (hr : ∀ r ∈ rs, Renderable F r numeric at_) (cap need : Nat) (hcap : cap < 2147483648)
    (hneed : ∀ r ∈ rs, (ruleJson r at_ (familyText F r numeric) (protoText F r numeric)).length + 2 ≤ need)
    (sent : List Byte) (c : Cursor) (s : Out) (h : Session F numeric rs cap need sent c s) :
    s.high ≤ cap ∧ s.left + s.text.length = cap :=
  have i := session_inv hcap hr (fun r hm => Or.inl (hneed r hm)) h
  ⟨i.good.high, i.good.left⟩

/-- C72: and such an export gets to its end, in a buffer that holds the heading and the longest rule. -/
theorem C72_export_completes (F : FmtEnv) (numeric : Bool) (at_ : List Byte → Nat → List Byte) (rs : List Route)
    (hr : ∀ r ∈ rs, Renderable F r numeric at_) (cap need : Nat) (hcap : cap < 2147483648) (hn : need ≤ cap) (hh : 43 ≤ cap)
    (hfit : ∀ r ∈ rs, (ruleJson r at_ (familyText F r numeric) (protoText F r numeric)).length + 2 ≤ cap) :
    ∃ total, Completed F numeric rs cap need total :=
  completes hcap hr hn (by rw [show header.length = 43 by decide]; exact hh) hfit

/-- Both at once, for two rules and a buffer of 600 bytes. -/
example (numeric : Bool) : ∃ total, Completed rtFmt numeric [rtRule, dumpPlain] 600 600 total ∧
    total = wholeText ([rtRule, dumpPlain].map fun r => ruleJson r dumpAt (familyText rtFmt r numeric) (protoText rtFmt r numeric)) := by
  have hfit : ∀ r ∈ [rtRule, dumpPlain], (ruleJson r dumpAt (familyText rtFmt r numeric) (protoText rtFmt r numeric)).length + 2 ≤ 600 := by
    intro r hr
    rcases List.mem_cons.1 hr with rfl | hr
    · cases numeric <;> decide +kernel
    · rw [List.mem_singleton.1 hr]; cases numeric <;> decide +kernel
  obtain ⟨total, h⟩ := C72_export_completes rtFmt numeric dumpAt [rtRule, dumpPlain] (dump_renderable numeric) 600 600 (by decide) (by decide) (by decide) hfit
  exact ⟨total, h, C72_export_is_the_table rtFmt numeric dumpAt _ (dump_renderable numeric) 600 600 (by decide) hfit total h⟩

/-- C72, for a client that just tries and sends off the buffer when it is told that it is too small: the same, if no rule has an
address.  (With addresses the finding below shows the claim false.) -/
theorem C72_retry_partial (F : FmtEnv) (numeric : Bool) (at_ : List Byte → Nat → List Byte) (rs : List Route)
    (hr : ∀ r ∈ rs, Renderable F r numeric at_) (hno : ∀ r ∈ rs, renderedAddrs r = []) (cap : Nat) (hcap : cap < 2147483648) :
    (∀ total, Completed F numeric rs cap 0 total →
      total = wholeText (rs.map fun r => ruleJson r at_ (familyText F r numeric) (protoText F r numeric))) ∧
    (∀ sent c s, Session F numeric rs cap 0 sent c s → s.high ≤ cap) :=
  ⟨fun total h => completed_text hcap hr (fun r hm => Or.inr (hno r hm)) h,
   fun sent c s h => (session_inv hcap hr (fun r hm => Or.inr (hno r hm)) h).good.high⟩

/-- C72: a call that finds the buffer too small for its rule (one without addresses) leaves the cursor, the text and the
room as they were. -/
theorem C72_too_small_changes_nothing_partial (F : FmtEnv) (numeric : Bool) (at_ : List Byte → Nat → List Byte) (rs : List Route) (i : Nat) (r : Route)
    (hi : rs[i]? = some r) (hr : Renderable F r numeric at_) (hno : renderedAddrs r = []) (cap : Nat) (hcap : cap < 2147483648) (s : Out)
    (hs : s.left + s.text.length = cap) (hh : s.high ≤ cap)
    (hfit : cap < s.text.length + (if i = 0 then 0 else 2) + (ruleJson r at_ (familyText F r numeric) (protoText F r numeric)).length) :
    ∃ s', dumpNext F numeric rs (some i) s = .ret (some .bufferTooSmall) (some i) s' ∧ s'.text = s.text ∧ s'.left = s.left ∧ s'.high ≤ cap := by
  refine dumpNext_small (at_ := at_) hcap hi hr hno ⟨hs, hh⟩ ?_
  have : (sep i).length = if i = 0 then 0 else 2 := by unfold sep; split <;> decide
  rw [this]
  exact hfit

example : ∃ s', dumpNext rtFmt true [rtRule, dumpPlain] (some 1) { text := ascii "{}", left := 98 } = .ret (some .bufferTooSmall) (some 1) s' ∧
    s'.text = ascii "{}" ∧ s'.left = 98 ∧ s'.high ≤ 100 :=
  C72_too_small_changes_nothing_partial rtFmt true dumpAt _ 1 dumpPlain rfl (dumpPlain_renderable true) (by decide) 100 (by decide) _ (by decide) (by decide)
    (by decide +kernel)

example (total : List Byte) (h : Completed rtFmt true [dumpPlain, dumpPlain] 400 0 total) :
    total = wholeText ([dumpPlain, dumpPlain].map fun r => ruleJson r dumpAt (familyText rtFmt r true) (protoText rtFmt r true)) :=
  (C72_retry_partial rtFmt true dumpAt [dumpPlain, dumpPlain] (by
      intro r hr
      have : r = dumpPlain := by simpa using hr
      rw [this]; exact dumpPlain_renderable true) (by
      intro r hr
      have : r = dumpPlain := by simpa using hr
      rw [this]; decide) 400 (by decide)).1 total h

/-- C72, finding: with addresses, a call may succeed with more text than the buffer holds: here 423 bytes in a buffer of 393 bytes
(cf. `C47_export_overruns`).  A client that waits to be told that the buffer is too small is not told. -/
theorem C72_finding_export_overruns : ∃ c s s', Session fmtEnv true [fmtOverRule] 393 0 [] c s ∧
    dumpNext fmtEnv true [fmtOverRule] c s = .ret none none s' ∧ s'.text.length = 423 ∧ s'.high = 423 := by
  exact ⟨some 0, ({ left := 393 } : Out).put header,
    (match dumpNext fmtEnv true [fmtOverRule] (some 0) (({ left := 393 } : Out).put header) with | .ret _ _ s => s | .ub => { left := 0 }),
    .start (by decide +kernel), by decide +kernel⟩

/-- C72, finding: when the export cannot begin, because the caller has no lock or memory has run out, the heading has been
written nonetheless. -/
theorem C72_finding_failed_start_writes (rs : List Route) : ∃ s, start false true rs { left := 100 } = .ret (some .lackingReadLock) none s ∧
    s.text.length = 43 := ⟨({ left := 100 } : Out).put header, rfl, by decide⟩

/-! ### Loading -/

/-- C72: the export of a table, loaded in whatever chunks, is exactly one insertion for each rule, in the order of the table, each of the same
rule under the same event: creating a rule from the inserted fields gives the fields, addresses and flags it was created with.
Missing for the full property: the rules that C57 leaves out (`Restorable`). -/
theorem C72_export_reloads_partial (F : FmtEnv) (E : Env α) (hb : ReadsBack F E) (hE : NoEmptyEvent E) (tail : Tail) (ht : InPlaceTail tail)
    (c : EventConfig) (numeric : Bool) (at_ : List Byte → Nat → List Byte) (rs : List Route) (hr : ∀ r ∈ rs, Restorable F E numeric at_ r)
    (cap need : Nat) (hcap : cap < 2147483648)
    (hneed : ∀ r ∈ rs, (ruleJson r at_ (familyText F r numeric) (protoText F r numeric)).length + 2 ≤ need) :
    ∃ ks, ReinsertsAll rs ks ∧ ∀ total, Completed F numeric rs cap need total → ∀ chunks : List (List Byte), chunks.flatten = total →
      ∀ a a', Performed E ks a a' → 0 ≤ (load E tail loaderConfig false c a chunks).ret ∧ (load E tail loaderConfig false c a chunks).user.1 = a' := by
  obtain ⟨ks, h1, h2⟩ := reload_whole hb hE ht c hr
  refine ⟨ks, h1, fun total ht chunks hch a a' hp => h2 chunks ?_ a a' hp⟩
  rw [hch]
  exact completed_text hcap (fun r hm => (hr r hm).renderable) (fun r hm => Or.inl (hneed r hm)) ht

theorem performed_logged {E : Env α} {ks : List Call} {a a' : α} (h : Performed E ks a a') : ∀ l : List Call,
    Performed (logged E) ks (a, l) (a', l ++ ks) := by
  induction h with
  | nil a => intro l; rw [List.append_nil]; exact .nil _
  | @cons k ks a a1 a2 h1 _ ih =>
    intro l
    have := ih (l ++ [k])
    rw [List.append_assoc] at this
    exact .cons (by show (_, _) = (_, _); rw [h1]) this

/-- C72: nothing else is done: the calls to the library are those insertions. -/
theorem C72_only_the_insertions_partial (F : FmtEnv) (E : Env α) (hb : ReadsBack F E) (hE : NoEmptyEvent E) (tail : Tail) (ht : InPlaceTail tail)
    (c : EventConfig) (numeric : Bool) (at_ : List Byte → Nat → List Byte) (rs : List Route) (hr : ∀ r ∈ rs, Restorable F E numeric at_ r)
    (cap need : Nat) (hcap : cap < 2147483648)
    (hneed : ∀ r ∈ rs, (ruleJson r at_ (familyText F r numeric) (protoText F r numeric)).length + 2 ≤ need) :
    ∃ ks, ReinsertsAll rs ks ∧ ∀ total, Completed F numeric rs cap need total → ∀ chunks : List (List Byte), chunks.flatten = total →
      ∀ a a', Performed E ks a a' → (load (logged E) tail loaderConfig false c (a, []) chunks).user.1 = (a', ks) := by
  have hb' : ReadsBack F (logged E) := ⟨hb.ntop4, hb.ntop6, hb.family, hb.proto⟩
  have hE' : NoEmptyEvent (logged E) := fun a => hE a.1
  have hr' : ∀ r ∈ rs, Restorable F (logged E) numeric at_ r := fun r hm =>
    have h := hr r hm
    ⟨h.created, h.renderable, ⟨h.reloadable.label, h.reloadable.family, h.reloadable.tcp, h.reloadable.remote, h.reloadable.loc⟩⟩
  obtain ⟨ks, h1, h2⟩ := C72_export_reloads_partial F (logged E) hb' hE' tail ht c numeric at_ rs hr' cap need hcap hneed
  exact ⟨ks, h1, fun total ht chunks hch a a' hp => (h2 total ht chunks hch _ _ (performed_logged hp [])).2⟩

theorem dump_restorable (numeric : Bool) : ∀ r ∈ [rtRule, dumpPlain], Restorable rtFmt rtEnv numeric dumpAt r := by
  intro r hr
  rcases List.mem_cons.1 hr with rfl | hr
  · obtain ⟨r0, h1, h2⟩ := rt_created
    exact ⟨⟨_, _, _, _, r0, h1, h2⟩, rt_renderable numeric, rt_reloadable⟩
  · rw [List.mem_singleton.1 hr]
    refine ⟨⟨none, rtSa {}, rtSa { port := 443 }, rtFlags ||| bit 1, _, rfl, by decide, by decide, by decide, by decide, by decide⟩,
      dumpPlain_renderable numeric, ⟨?_, by decide, by decide, ⟨by decide, fun h => absurd h (by decide)⟩, ⟨by decide, fun h => absurd h (by decide)⟩⟩⟩
    intro e he; cases he

example (numeric : Bool) : ∃ ks, ReinsertsAll [rtRule, dumpPlain] ks ∧ ∀ total, Completed rtFmt numeric [rtRule, dumpPlain] 600 600 total →
    ∀ chunks : List (List Byte), chunks.flatten = total → ∀ a a', Performed rtEnv ks a a' →
      (load (logged rtEnv) plainTail loaderConfig false {} (a, []) chunks).user.1 = (a', ks) :=
  C72_only_the_insertions_partial rtFmt rtEnv rt_readsBack rt_noEmpty plainTail plainTail_inPlace {} numeric dumpAt _ (dump_restorable numeric) 600 600 (by decide) (by
    intro r hr
    rcases List.mem_cons.1 hr with rfl | hr
    · cases numeric <;> decide +kernel
    · rw [List.mem_singleton.1 hr]; cases numeric <;> decide +kernel)

/-! ### Iteration -/

/-- `f` applied `k` times. -/
def repeated {β : Type} (f : β → β) : Nat → β → β
  | 0, x => x
  | k + 1, x => f (repeated f k x)

theorem repeated_next (n : Nat) : ∀ k, repeated (next n) k (seekHead n) = if k < n then some k else none
  | 0 => by unfold seekHead repeated; split <;> split <;> first | rfl | omega
  | k + 1 => by
    rw [repeated, repeated_next n k]
    by_cases h : k < n
    · rw [if_pos h]; rfl
    · rw [if_neg h, if_neg (by omega)]; rfl

theorem repeated_prev (n : Nat) : ∀ k, repeated prev k (seekTail n) = if k < n then some (n - 1 - k) else none
  | 0 => by unfold seekTail repeated; split <;> split <;> first | rfl | omega
  | k + 1 => by
    rw [repeated, repeated_prev n k]
    by_cases h : k < n
    · rw [if_pos h]
      simp only [prev]
      by_cases h0 : n - 1 - k = 0
      · rw [if_pos h0, if_neg (by omega)]
      · rw [if_neg h0, if_pos (by omega)]; congr 1
    · rw [if_neg h, if_neg (by omega)]; rfl

/-- C73: forward from the head: the entry after `k` steps is the `k`-th of the table, and after the last there is none, however often one goes on. -/
theorem C73_forward {β : Type} (l : List β) (k : Nat) :
    current l (repeated (next l.length) k (seekHead l.length)) = (match l[k]? with | some x => .ok x | none => .error .itemNotFound) := by
  rw [repeated_next]
  by_cases h : k < l.length
  · rw [if_pos h]; rfl
  · rw [if_neg h, List.getElem?_eq_none (by omega)]; rfl

/-- C73: backward from the tail: the same in the opposite order. -/
theorem C73_backward {β : Type} (l : List β) (k : Nat) :
    current l (repeated prev k (seekTail l.length)) = (match l.reverse[k]? with | some x => .ok x | none => .error .itemNotFound) := by
  rw [repeated_prev]
  by_cases h : k < l.length
  · rw [if_pos h, List.getElem?_reverse h]; rfl
  · rw [if_neg h, List.getElem?_eq_none (by simp; omega)]; rfl

/-- C73: one step forward and one back, or back and forward, is where one was, if both steps find an entry. -/
theorem C73_there_and_back {β : Type} (l : List β) (c : Cursor) (x : β) :
    ((iterateNext l c).1 = .ok x → (iteratePrev l (iterateNext l c).2).2 = c) ∧
    ((∃ y, current l c = .ok y) → (iteratePrev l c).1 = .ok x → (iterateNext l (iteratePrev l c).2).2 = c) := by
  constructor
  · intro h
    unfold iterateNext iteratePrev at *
    cases c with
    | none => cases h
    | some i =>
      simp only [next] at h ⊢
      by_cases hi : i + 1 < l.length
      · rw [if_pos hi]; simp [prev]
      · rw [if_neg hi] at h; cases h
  · rintro ⟨y, hy⟩ h
    unfold iterateNext iteratePrev at *
    cases c with
    | none => cases h
    | some i =>
      simp only [prev] at h ⊢
      by_cases hi : i = 0
      · rw [if_pos hi] at h; cases h
      · have : i < l.length := by
          unfold current at hy
          rcases Nat.lt_or_ge i l.length with g | g
          · exact g
          · simp only [List.getElem?_eq_none g] at hy; cases hy
        rw [if_neg hi]
        simp only [next]
        rw [if_pos (by omega)]
        congr 1; omega

/-- C73: an iteration begins on the first entry, only with a lock and memory. -/
theorem C73_start {β : Type} (l : List β) (locked memory : Bool) :
    (locked = true ∧ memory = true → ∃ c, iterateStart locked memory l.length = .ok c ∧
      current l c = (match l.head? with | some x => .ok x | none => .error .itemNotFound)) ∧
    (locked = false → iterateStart locked memory l.length = .error .lackingReadLock) ∧
    (locked = true → memory = false → iterateStart locked memory l.length = .error .sysResourceFailed) := by
  refine ⟨?_, ?_, ?_⟩
  · rintro ⟨rfl, rfl⟩
    refine ⟨seekHead l.length, rfl, ?_⟩
    have := C73_forward l 0
    rw [repeated] at this
    rw [this]
    cases l <;> rfl
  · rintro rfl; rfl
  · rintro rfl rfl; rfl

example : (current [5, 6, 7] (repeated (next 3) 2 (seekHead 3)) = .ok 7) ∧ current [5, 6, 7] (repeated (next 3) 3 (seekHead 3)) = .error .itemNotFound :=
  ⟨C73_forward [5, 6, 7] 2, C73_forward [5, 6, 7] 3⟩
example : current [5, 6, 7] (repeated prev 2 (seekTail 3)) = .ok 5 := C73_backward [5, 6, 7] 2
example : (iteratePrev [5, 6, 7] (iterateNext [5, 6, 7] (some 1)).2).2 = some 1 := (C73_there_and_back [5, 6, 7] (some 1) 7).1 rfl

end WS.Props
