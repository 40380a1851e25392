import Verif.Spec.Dump
import Verif.Props.Format
import Verif.Proof.RoundTrip
/-
Proofs about the export of a rule table (C72).
-/
namespace WS.Dump
open WS WS.Spec WS.Spec.Dump WS.Props WS.Fmt

/-! ### A rule written behind other text -/

theorem opText_acc {at_ : List Byte → Nat → List Byte} (acc x : List Byte) (o : WOp) (hx : x ≠ []) :
    opText at_ o (acc ++ x) = acc ++ opText at_ o x := by
  cases o <;> simp only [opText, List.append_assoc]
  rw [List.dropLast_append_of_ne_nil hx, List.append_assoc]

theorem opsText_acc {E : FmtEnv} {family : Nat} {at_ : List Byte → Nat → List Byte} : ∀ (os : List WOp) (acc x : List Byte), x ≠ [] →
    (∀ o ∈ os, OpOK E family at_ o) → opsText at_ os (acc ++ x) = acc ++ opsText at_ os x
  | [], _, _, _, _ => rfl
  | o :: os, acc, x, hx, h => by
    show opsText at_ os (opText at_ o (acc ++ x)) = acc ++ opsText at_ os (opText at_ o x)
    rw [opText_acc acc x o hx]
    exact opsText_acc os acc _ (opText_ne at_ o x E family (h o (by simp)) hx) (fun o ho => h o (by simp [ho]))

/-- The text of a rule. -/
abbrev textOf (E : FmtEnv) (numeric : Bool) (at_ : List Byte → Nat → List Byte) (r : Route) : List Byte :=
  ruleJson r at_ (familyText E r numeric) (protoText E r numeric)

theorem textOf_pos {E : FmtEnv} {numeric : Bool} {at_ : List Byte → Nat → List Byte} {r : Route} (hr : Renderable E r numeric at_) :
    1 ≤ (textOf E numeric at_ r).length := by
  have h1 := formatJson_text E r numeric at_ hr.proto
  have hok := formatJson_ok E r numeric at_ hr.proto hr.fields hr.addrs
  obtain ⟨rest, hrest⟩ : ∃ rest, formatJsonOps E r numeric = .str (ascii "{") :: rest := ⟨_, rfl⟩
  show 1 ≤ (ruleJson r at_ (familyText E r numeric) (protoText E r numeric)).length
  rw [← h1]
  rw [hrest] at hok ⊢
  have := opsText_len at_ E r.family rest (opText at_ (.str (ascii "{")) []) (fun o h => (hok o (by simp [h])).1)
  exact this

theorem rule_written {E : FmtEnv} {r : Route} {numeric : Bool} {at_ : List Byte → Nat → List Byte} {cap : Nat} (hcap : cap < 2147483648)
    (hr : Renderable E r numeric at_) {s : Out} (hg : Good cap s) (hfit : s.text.length + (textOf E numeric at_ r).length ≤ cap) :
    ∃ s', runOps E r.family (formatJsonOps E r numeric) s = .ok s' ∧ s'.text = s.text ++ textOf E numeric at_ r ∧ Good cap s' := by
  have htext := formatJson_text E r numeric at_ hr.proto
  have hok := formatJson_ok E r numeric at_ hr.proto hr.fields hr.addrs
  have hpos := textOf_pos hr
  unfold textOf at *
  rw [← htext] at hfit hpos ⊢
  obtain ⟨rest, hrest⟩ : ∃ rest, formatJsonOps E r numeric = .str (ascii "{") :: rest := ⟨_, rfl⟩
  rw [hrest] at hok hfit hpos ⊢
  have hacc : opsText at_ rest (s.text ++ ascii "{") = s.text ++ opsText at_ rest (ascii "{") :=
    opsText_acc rest s.text (ascii "{") (by decide) (fun o h => (hok o (by simp [h])).1)
  have hfit' : s.text.length + (opsText at_ rest (ascii "{")).length ≤ cap := hfit
  have hmono := opsText_len at_ E r.family rest (s.text ++ ascii "{") (fun o h => (hok o (by simp [h])).1)
  rw [hacc] at hmono
  simp only [List.length_append] at hmono
  obtain ⟨s1, h1, h2, g1⟩ := runOp_ok E r.family at_ cap hcap (.str (ascii "{")) s hg trivial
    (Or.inr (fun b h => by cases h)) (by show (s.text ++ ascii "{").length ≤ cap; rw [List.length_append]; omega)
  have h2' : s1.text = s.text ++ ascii "{" := h2
  obtain ⟨s2, h3, h4, g2⟩ := runOps_ok E r.family at_ cap hcap rest s1 g1 (fun o h => (hok o (by simp [h])).1)
    (by rw [h2']; simp [ascii]) (by rw [h2', hacc, List.length_append]; omega)
  refine ⟨s2, by rw [runOps, h1]; exact h3, ?_, g2⟩
  rw [h4, h2', hacc]; rfl

theorem rule_not_written {E : FmtEnv} {r : Route} {numeric : Bool} {at_ : List Byte → Nat → List Byte} {cap : Nat} (hcap : cap < 2147483648)
    (hr : Renderable E r numeric at_) (hno : renderedAddrs r = []) {s : Out} (hg : Good cap s)
    (hfit : cap < s.text.length + (textOf E numeric at_ r).length) :
    ∃ s', runOps E r.family (formatJsonOps E r numeric) s = .fail .bufferTooSmall s' ∧ s'.high ≤ cap := by
  have htext := formatJson_text E r numeric at_ hr.proto
  have hok := formatJson_ok E r numeric at_ hr.proto hr.fields hr.addrs
  unfold textOf at *
  rw [← htext] at hfit
  obtain ⟨rest, hrest⟩ : ∃ rest, formatJsonOps E r numeric = .str (ascii "{") :: rest := ⟨_, rfl⟩
  rw [hrest] at hok hfit ⊢
  have hacc : opsText at_ rest (s.text ++ ascii "{") = s.text ++ opsText at_ rest (ascii "{") :=
    opsText_acc rest s.text (ascii "{") (by decide) (fun o h => (hok o (by simp [h])).1)
  have hfit' : cap < s.text.length + (opsText at_ rest (ascii "{")).length := hfit
  have hone : (ascii "{").length = 1 := by decide
  by_cases hc : s.text.length + 1 ≤ cap
  · obtain ⟨s1, h1, h2, g1⟩ := runOp_ok E r.family at_ cap hcap (.str (ascii "{")) s hg trivial
      (Or.inr (fun b h => by cases h)) (by show (s.text ++ ascii "{").length ≤ cap; rw [List.length_append]; omega)
    have h2' : s1.text = s.text ++ ascii "{" := h2
    obtain ⟨s2, h3, h4⟩ := runOps_small E r.family at_ cap hcap rest s1 g1
      (fun o h => ⟨(hok o (by simp [h])).1, (hok o (by simp [h])).2 hno⟩)
      (by rw [h2']; simp [ascii]) (by rw [h2', hacc, List.length_append]; omega)
    exact ⟨s2, by rw [runOps, h1]; exact h3, h4⟩
  · refine ⟨s, ?_, hg.high⟩
    rw [runOps]
    show (writeBytes (ascii "{") s).bind _ = _
    rw [writeBytes_fail hg _ (by omega)]
    rfl

/-! ### One call -/

/-- The separator before rule number `i`. -/
def sep (i : Nat) : List Byte := if i = 0 then [] else ascii ",\n"

theorem seekHead_iff {n i : Nat} (h : i < n) : some i = seekHead n ↔ i = 0 := by
  unfold seekHead
  rw [if_neg (by omega)]
  simp

theorem sep_written {n i cap : Nat} (hi : i < n) {s : Out} (hg : Good cap s) (hl : s.text.length + (sep i).length ≤ cap) :
    ∃ s1, (if (some i : Cursor) = seekHead n then WRes.ok s else writeBytes (ascii ",\n") s) = .ok s1 ∧ s1.text = s.text ++ sep i ∧ Good cap s1 := by
  unfold sep at *
  by_cases h0 : i = 0
  · rw [if_pos ((seekHead_iff hi).2 h0), if_pos h0]
    exact ⟨s, rfl, by simp, hg⟩
  · rw [if_neg (fun h => h0 ((seekHead_iff hi).1 h)), if_neg h0]
    rw [if_neg h0] at hl
    obtain ⟨h1, h2⟩ := writeBytes_ok hg (ascii ",\n") hl
    exact ⟨_, h1, rfl, h2⟩

theorem dumpNext_ok {E : FmtEnv} {numeric : Bool} {rs : List Route} {at_ : List Byte → Nat → List Byte} {cap i : Nat} {r : Route} {s : Out}
    (hcap : cap < 2147483648) (hi : rs[i]? = some r) (hr : Renderable E r numeric at_) (hg : Good cap s)
    (hfit : s.text.length + (sep i).length + (textOf E numeric at_ r).length ≤ cap) :
    ∃ s', dumpNext E numeric rs (some i) s = .ret none (next rs.length (some i)) s' ∧
      s'.text = s.text ++ sep i ++ textOf E numeric at_ r ∧ Good cap s' := by
  have hlt : i < rs.length := by
    rcases Nat.lt_or_ge i rs.length with h | h
    · exact h
    · rw [List.getElem?_eq_none h] at hi; cases hi
  obtain ⟨s1, h1, h2, g1⟩ := sep_written (cap := cap) hlt hg (by omega)
  obtain ⟨s2, h3, h4, g2⟩ := rule_written hcap hr g1 (by rw [h2, List.length_append]; omega)
  refine ⟨s2, ?_, by rw [h4, h2], g2⟩
  unfold dumpNext current
  simp only [hi, h1, h3]

theorem dumpNext_small {E : FmtEnv} {numeric : Bool} {rs : List Route} {at_ : List Byte → Nat → List Byte} {cap i : Nat} {r : Route} {s : Out}
    (hcap : cap < 2147483648) (hi : rs[i]? = some r) (hr : Renderable E r numeric at_) (hno : renderedAddrs r = []) (hg : Good cap s)
    (hfit : cap < s.text.length + (sep i).length + (textOf E numeric at_ r).length) :
    ∃ s', dumpNext E numeric rs (some i) s = .ret (some .bufferTooSmall) (some i) s' ∧ s'.text = s.text ∧ s'.left = s.left ∧ s'.high ≤ cap := by
  have hlt : i < rs.length := by
    rcases Nat.lt_or_ge i rs.length with h | h
    · exact h
    · rw [List.getElem?_eq_none h] at hi; cases hi
  by_cases hc : s.text.length + (sep i).length ≤ cap
  · obtain ⟨s1, h1, h2, g1⟩ := sep_written (cap := cap) hlt hg hc
    obtain ⟨s2, h3, h4⟩ := rule_not_written hcap hr hno g1 (by rw [h2, List.length_append]; omega)
    refine ⟨{ s2 with text := s.text, left := s.left }, ?_, rfl, rfl, h4⟩
    unfold dumpNext current
    simp only [hi, h1, h3, if_true]
  · have h0 : i ≠ 0 := by
      intro h0
      unfold sep at hc
      rw [if_pos h0] at hc
      have := hg.left
      simp only [List.length_nil] at hc
      omega
    refine ⟨s, ?_, rfl, rfl, hg.high⟩
    have hs : sep i = ascii ",\n" := by unfold sep; rw [if_neg h0]
    rw [hs] at hc
    unfold dumpNext current
    simp only [hi, if_neg (fun h => h0 ((seekHead_iff hlt).1 h)), writeBytes_fail hg (ascii ",\n") (by omega)]

/-! ### Sessions -/

/-- How many rules are behind the cursor. -/
def done (n : Nat) : Cursor → Nat
  | none => n
  | some i => i

def header : List Byte := ascii "{\"wolfsentry-config-version\":1,\n\"routes\":[\n"

theorem joined_take {ts : List (List Byte)} {i : Nat} {t : List Byte} (h : ts[i]? = some t) :
    joined (ascii ",\n") (ts.take (i + 1)) = joined (ascii ",\n") (ts.take i) ++ sep i ++ t := by
  rw [List.take_add_one, h]
  by_cases h0 : i = 0
  · subst h0; simp [sep, joined]
  · have : ts.take i ≠ [] := by
      intro hc
      have hl := congrArg List.length hc
      rw [List.length_take, List.length_nil] at hl
      have : i < ts.length := by
        rcases Nat.lt_or_ge i ts.length with h' | h'
        · exact h'
        · rw [List.getElem?_eq_none h'] at h; cases h
      omega
    rw [Option.toList_some, WS.RoundTrip.joined_snoc _ _ _ this, sep, if_neg h0]

/-- What holds at every moment of an export. -/
structure Inv (E : FmtEnv) (numeric : Bool) (at_ : List Byte → Nat → List Byte) (rs : List Route) (cap : Nat) (sent : List Byte) (c : Cursor)
    (s : Out) : Prop where
  good : Good cap s
  pos : ∀ i, c = some i → i < rs.length
  text : sent ++ s.text = header ++ joined (ascii ",\n") ((rs.map (textOf E numeric at_)).take (done rs.length c))

theorem next_done {n i : Nat} (h : i < n) : done n (next n (some i)) = i + 1 := by
  simp only [next]
  split
  · rfl
  · show n = i + 1; omega

theorem next_pos {n i j : Nat} (h : next n (some i) = some j) : j < n := by
  simp only [next] at h
  split at h
  · injection h with h; omega
  · cases h

/-- Either there is room for every rule whenever a rule is asked for, or no rule has an address. -/
def Careful (E : FmtEnv) (numeric : Bool) (at_ : List Byte → Nat → List Byte) (rs : List Route) (need : Nat) : Prop :=
  ∀ r ∈ rs, (textOf E numeric at_ r).length + 2 ≤ need ∨ renderedAddrs r = []

theorem sep_len (i : Nat) : (sep i).length ≤ 2 := by unfold sep; split <;> decide

theorem session_inv {E : FmtEnv} {numeric : Bool} {at_ : List Byte → Nat → List Byte} {rs : List Route} {cap need : Nat}
    (hcap : cap < 2147483648) (hr : ∀ r ∈ rs, Renderable E r numeric at_) (hc : Careful E numeric at_ rs need)
    {sent : List Byte} {c : Cursor} {s : Out} (h : Session E numeric rs cap need sent c s) : Inv E numeric at_ rs cap sent c s := by
  have step : ∀ {c : Cursor} {s : Out} {e : Option Err} {c' : Cursor} {s' : Out}, Good cap s → (∀ i, c = some i → i < rs.length) → need ≤ s.left →
      dumpNext E numeric rs c s = .ret e c' s' → e ≠ some .itemNotFound →
      ∃ i r, c = some i ∧ rs[i]? = some r ∧
        ((e = none ∧ c' = next rs.length (some i) ∧ s'.text = s.text ++ sep i ++ textOf E numeric at_ r ∧ Good cap s') ∨
         (e = some .bufferTooSmall ∧ c' = some i ∧ s'.text = s.text ∧ s'.left = s.left ∧ s'.high ≤ cap)) := by
    intro c s e c' s' hg hp hn hs hne
    cases c with
    | none =>
      unfold dumpNext current at hs
      simp only [Res.ret.injEq] at hs
      exact absurd hs.1.symm hne
    | some i =>
      have hi := hp i rfl
      have hget : rs[i]? = some rs[i] := List.getElem?_eq_getElem hi
      have hm : rs[i] ∈ rs := List.getElem_mem hi
      refine ⟨i, rs[i], rfl, hget, ?_⟩
      by_cases hfit : s.text.length + (sep i).length + (textOf E numeric at_ rs[i]).length ≤ cap
      · obtain ⟨s2, h1, h2, h3⟩ := dumpNext_ok hcap hget (hr _ hm) hg hfit
        rw [h1] at hs
        simp only [Res.ret.injEq] at hs
        obtain ⟨rfl, rfl, rfl⟩ := hs
        exact Or.inl ⟨rfl, rfl, h2, h3⟩
      · have hno : renderedAddrs rs[i] = [] := by
          refine (hc _ hm).resolve_left (fun hx => hfit ?_)
          have := hg.left
          have := sep_len i
          omega
        obtain ⟨s2, h1, h2, h3, h4⟩ := dumpNext_small hcap hget (hr _ hm) hno hg (by omega)
        rw [h1] at hs
        simp only [Res.ret.injEq] at hs
        obtain ⟨rfl, rfl, rfl⟩ := hs
        exact Or.inr ⟨rfl, rfl, h2, h3, h4⟩
  induction h with
  | @start c s h =>
    have g0 : Good cap { left := cap } := ⟨rfl, Nat.zero_le _⟩
    unfold WS.Dump.start at h
    by_cases hl : header.length ≤ cap
    · obtain ⟨h1, h2⟩ := writeBytes_ok g0 header (by simpa using hl)
      change (match writeBytes header { left := cap } with | .ub => _ | .fail e s => _ | .ok s => _) = _ at h
      rw [h1] at h
      simp only [iterateStart, Bool.not_true, Bool.false_eq_true, if_false, Res.ret.injEq, true_and] at h
      obtain ⟨rfl, rfl⟩ := h
      refine ⟨h2, ?_, ?_⟩
      · intro i hi
        unfold seekHead at hi
        split at hi
        · cases hi
        · injection hi with hi; omega
      · have : (rs.map (textOf E numeric at_)).take (done rs.length (seekHead rs.length)) = [] := by
          unfold seekHead
          split
          · rename_i hz
            rw [List.eq_nil_of_length_eq_zero hz]; rfl
          · rfl
        rw [this]
        simp [joined, Out.put]
    · change (match writeBytes header { left := cap } with | .ub => _ | .fail e s => _ | .ok s => _) = _ at h
      rw [writeBytes_fail g0 header (by simp only [List.length_nil]; omega)] at h
      simp at h
  | @next sent c c' s s' _ hn hs ih =>
    obtain ⟨i, r, rfl, hget, h | h⟩ := step ih.good ih.pos hn hs (by simp)
    · obtain ⟨_, rfl, h2, h3⟩ := h
      refine ⟨h3, fun j hj => next_pos hj, ?_⟩
      rw [next_done (ih.pos i rfl), joined_take (t := textOf E numeric at_ r) (by rw [List.getElem?_map, hget]; rfl), h2]
      have := ih.text
      simp only [done] at this
      rw [← List.append_assoc, ← List.append_assoc, this]
      simp
    · obtain ⟨h, _⟩ := h; cases h
  | @tooSmall sent c c' s s' _ hn hs ih =>
    obtain ⟨i, r, rfl, hget, h | h⟩ := step ih.good ih.pos hn hs (by simp)
    · obtain ⟨h, _⟩ := h; cases h
    · obtain ⟨_, rfl, h2, h3, h4⟩ := h
      exact ⟨⟨by rw [h2, h3]; exact ih.good.left, h4⟩, ih.pos, by rw [h2]; exact ih.text⟩
  | flush _ ih => exact ⟨⟨by simp, ih.good.high⟩, ih.pos, by rw [List.append_nil]; exact ih.text⟩

theorem completed_text {E : FmtEnv} {numeric : Bool} {at_ : List Byte → Nat → List Byte} {rs : List Route} {cap need : Nat}
    (hcap : cap < 2147483648) (hr : ∀ r ∈ rs, Renderable E r numeric at_) (hc : Careful E numeric at_ rs need)
    {total : List Byte} (h : Completed E numeric rs cap need total) : total = wholeText (rs.map (textOf E numeric at_)) := by
  obtain ⟨sent, c, s, s', hs, hneed, h1, h2, rfl⟩ := h
  have hi := session_inv hcap hr hc hs
  have hcn : c = none := by
    cases c with
    | none => rfl
    | some i =>
      have hlt := hi.pos i rfl
      have hget : rs[i]? = some rs[i] := List.getElem?_eq_getElem hlt
      have hm : rs[i] ∈ rs := List.getElem_mem hlt
      exfalso
      by_cases hfit : s.text.length + (sep i).length + (textOf E numeric at_ rs[i]).length ≤ cap
      · obtain ⟨s2, g1, _⟩ := dumpNext_ok hcap hget (hr _ hm) hi.good hfit
        rw [g1] at h1
        simp at h1
      · have hno : renderedAddrs rs[i] = [] := by
          refine (hc _ hm).resolve_left (fun hx => hfit ?_)
          have := hi.good.left
          have := sep_len i
          omega
        obtain ⟨s2, g1, _⟩ := dumpNext_small hcap hget (hr _ hm) hno hi.good (by omega)
        rw [g1] at h1
        simp at h1
  subst hcn
  have := hi.text
  rw [show done rs.length none = rs.length from rfl, List.take_of_length_le (by simp)] at this
  unfold finish at h2
  split at h2
  · cases h2
  · simp at h2
  · rename_i s2 hw
    simp only [Bool.not_true, Bool.false_eq_true, if_false, Res.ret.injEq, true_and] at h2
    subst h2
    unfold writeBytes at hw
    split at hw
    · cases hw
    · cases hw
      rw [Out.put, ← List.append_assoc, this]
      rfl

/-- A client with a big enough buffer gets to the end. -/
theorem completes {E : FmtEnv} {numeric : Bool} {at_ : List Byte → Nat → List Byte} {rs : List Route} {cap need : Nat}
    (hcap : cap < 2147483648) (hr : ∀ r ∈ rs, Renderable E r numeric at_) (hn : need ≤ cap) (hh : header.length ≤ cap)
    (hfit : ∀ r ∈ rs, (textOf E numeric at_ r).length + 2 ≤ cap) : ∃ total, Completed E numeric rs cap need total := by
  have go : ∀ k c sent s, Session E numeric rs cap need sent c s → (∀ i, c = some i → i < rs.length) → s.high ≤ cap →
      rs.length - done rs.length c = k → ∃ sent' s', Session E numeric rs cap need sent' none s' ∧ s'.high ≤ cap := by
    intro k
    induction k with
    | zero =>
      intro c sent s hs hp hhi hk
      cases c with
      | none => exact ⟨sent, s, hs, hhi⟩
      | some i => have := hp i rfl; simp only [done] at hk; omega
    | succ k ih =>
      intro c sent s hs hp hhi hk
      cases c with
      | none => exact ⟨sent, s, hs, hhi⟩
      | some i =>
        have hi := hp i rfl
        have hget : rs[i]? = some rs[i] := List.getElem?_eq_getElem hi
        have hm : rs[i] ∈ rs := List.getElem_mem hi
        have g0 : Good cap { left := cap, high := s.high } := ⟨rfl, hhi⟩
        obtain ⟨s2, h1, h2, h3⟩ := dumpNext_ok hcap hget (hr _ hm) g0
          (by have := hfit _ hm; have := sep_len i; simp only [List.length_nil]; omega)
        refine ih _ _ s2 (.next (.flush hs) hn h1) (fun j hj => next_pos hj) h3.high ?_
        rw [next_done hi]
        simp only [done] at hk
        omega
  have g0 : Good cap { left := cap } := ⟨rfl, Nat.zero_le _⟩
  obtain ⟨h1, h2⟩ := writeBytes_ok g0 header (by simpa using hh)
  have hst : start true true rs { left := cap } = .ret none (seekHead rs.length) (({ left := cap } : Out).put header) := by
    unfold start
    change (match writeBytes header { left := cap } with | .ub => _ | .fail e s => _ | .ok s => _) = _
    rw [h1]
    rfl
  obtain ⟨sent, s, hs, hhi⟩ := go _ _ _ _ (.start hst) (by
    intro i hi
    unfold seekHead at hi
    split at hi
    · cases hi
    · injection hi with hi; omega) h2.high rfl
  have g1 : Good cap { left := cap, high := s.high } := ⟨rfl, hhi⟩
  have hhl : 4 ≤ header.length := by decide
  have hel : (ascii "\n]}\n").length = 4 := by decide
  obtain ⟨h3, h4⟩ := writeBytes_ok g1 (ascii "\n]}\n") (by rw [hel]; simp only [List.length_nil]; omega)
  refine ⟨_, sent ++ s.text, none, { left := cap, high := s.high }, ({ left := cap, high := s.high } : Out).put (ascii "\n]}\n"), .flush hs, hn, rfl, ?_, rfl⟩
  unfold finish
  rw [h3]
  rfl

end WS.Dump
