import Verif.Model.RouteTable
import Verif.Proof.RouteMatch
/-
Proofs about rule lookup (C09-C11).
-/
namespace WS
open Spec

variable (T : RouteTable) (target : Route) (ares : Option Flags) (contiguous bmAf : Bool) (last : Option Nat)

/-- The best match so far is a rule of the table that passed every test. -/
def BestOK (best : Option (Route × Flags)) : Prop :=
  ∀ r inx, best = some (r, inx) →
    r ∈ T.ents ∧ considered target ares r = true ∧ routeKeyCmp1 r target true = (.eq, inx)

/-- At least as good a priority as `p` has been found. -/
def Found (p : Nat) (best : Option (Route × Flags)) : Prop :=
  ∃ b inx, best = some (b, inx) ∧ b.effPriority ≤ p

theorem improve_ok {best : Option (Route × Flags)} {r : Route} (hb : BestOK T target ares best) (hr : r ∈ T.ents)
    (hc : considered target ares r = true) : BestOK T target ares (improve target best r) := by
  unfold improve
  simp only
  split
  · rename_i heq
    have hrr : routeKeyCmp1 r target true = (.eq, (routeKeyCmp1 r target true).2) := by
      rw [← heq]
    cases best with
    | none => intro r' i h; cases h; exact ⟨hr, hc, hrr⟩
    | some b =>
      obtain ⟨b, bi⟩ := b
      simp only
      split
      · intro r' i h; cases h; exact ⟨hr, hc, hrr⟩
      · split
        · intro r' i h; cases h; exact ⟨hr, hc, hrr⟩
        · exact hb
  · exact hb

theorem improve_mono {best : Option (Route × Flags)} {r : Route} {p : Nat} (h : Found p best) :
    Found p (improve target best r) := by
  obtain ⟨b, i, rfl, hb⟩ := h
  unfold improve
  simp only
  split
  · split
    · exact ⟨_, _, rfl, by omega⟩
    · split
      · rename_i hh; exact ⟨_, _, rfl, by omega⟩
      · exact ⟨_, _, rfl, hb⟩
  · exact ⟨_, _, rfl, hb⟩

theorem improve_found {best : Option (Route × Flags)} {r : Route}
    (hm : (routeKeyCmp1 r target true).1 = .eq) : Found r.effPriority (improve target best r) := by
  unfold improve
  simp only [hm, if_true]
  cases best with
  | none => exact ⟨_, _, rfl, Nat.le_refl _⟩
  | some b =>
    obtain ⟨b, bi⟩ := b
    simp only
    split
    · exact ⟨_, _, rfl, Nat.le_refl _⟩
    · split
      · exact ⟨_, _, rfl, Nat.le_refl _⟩
      · exact ⟨_, _, rfl, by omega⟩

theorem visit_ok {seen : Bool} {best : Option (Route × Flags)} {r : Route} (hb : BestOK T target ares best) (hr : r ∈ T.ents) :
    BestOK T target ares (scanVisit T target ares contiguous bmAf seen best r).1 := by
  unfold scanVisit
  split
  · rename_i hc; exact improve_ok T target ares hb hr hc
  · exact hb

theorem visit_mono {seen : Bool} {best : Option (Route × Flags)} {r : Route} {p : Nat} (h : Found p best) :
    Found p (scanVisit T target ares contiguous bmAf seen best r).1 := by
  unfold scanVisit
  split
  · exact improve_mono target h
  · exact h

theorem visit_done {seen : Bool} {best : Option (Route × Flags)} {r : Route}
    (h : (scanVisit T target ares contiguous bmAf seen best r).2 = true) :
    contiguous = true ∧ Found T.highestPriority (scanVisit T target ares contiguous bmAf seen best r).1 := by
  unfold scanVisit at *
  split at h
  · rename_i hc
    rw [if_pos hc]
    simp only at h ⊢
    cases hi : improve target best r with
    | none => rw [hi] at h; simp [scanDone] at h
    | some b =>
      obtain ⟨b, bi⟩ := b
      rw [hi] at h
      simp only [scanDone, Bool.and_eq_true, decide_eq_true_eq] at h
      exact ⟨h.1.1.1, _, _, rfl, h.1.2⟩
  · simp at h

theorem visit_found {seen : Bool} {best : Option (Route × Flags)} {r : Route}
    (hc : considered target ares r = true) (hm : (routeKeyCmp1 r target true).1 = .eq) :
    Found r.effPriority (scanVisit T target ares contiguous bmAf seen best r).1 := by
  unfold scanVisit
  rw [if_pos hc]
  exact improve_found target hm

theorem scan_sound (fuel : Nat) (i : Option Nat) (seen : Bool) (best : Option (Route × Flags)) (res : Option (Route × Flags))
    (h : scan T target ares contiguous bmAf last fuel i seen best = some res)
    (hb : BestOK T target ares best) : BestOK T target ares res := by
  induction fuel generalizing i seen best with
  | zero => simp [scan] at h
  | succ fuel ih =>
    cases i with
    | none => simp only [scan, Option.some.injEq] at h; exact h ▸ hb
    | some i =>
      simp only [scan] at h
      cases hr : T.ents[i]? with
      | none => rw [hr] at h; simp only [Option.some.injEq] at h; exact h ▸ hb
      | some r =>
        rw [hr] at h
        simp only at h
        have hrm := List.mem_of_getElem? hr
        split at h
        · cases hl : last with
          | none => rw [hl] at h; simp only [Option.some.injEq] at h; exact h ▸ hb
          | some k =>
            rw [hl] at h
            simp only at h
            cases hk : T.ents[k]? with
            | none => rw [hk] at h; simp only [Option.some.injEq] at h; exact h ▸ hb
            | some r' =>
              rw [hk] at h
              simp only at h
              have hrm' := List.mem_of_getElem? hk
              have hv := visit_ok T target ares contiguous bmAf (seen := seen) hb hrm'
              split at h
              · simp only [Option.some.injEq] at h; exact h ▸ hv
              · rw [← hl] at h; exact ih _ _ _ h hv
        · have hv := visit_ok T target ares contiguous bmAf (seen := (seen || r.family == target.family)) hb hrm
          split at h
          · simp only [Option.some.injEq] at h; exact h ▸ hv
          · exact ih _ _ _ h hv

theorem scan_mono (fuel : Nat) (i : Option Nat) (seen : Bool) (best : Option (Route × Flags)) (res : Option (Route × Flags))
    (h : scan T target ares contiguous bmAf last fuel i seen best = some res) (p : Nat)
    (hb : Found p best) : Found p res := by
  induction fuel generalizing i seen best with
  | zero => simp [scan] at h
  | succ fuel ih =>
    cases i with
    | none => simp only [scan, Option.some.injEq] at h; exact h ▸ hb
    | some i =>
      simp only [scan] at h
      cases hr : T.ents[i]? with
      | none => rw [hr] at h; simp only [Option.some.injEq] at h; exact h ▸ hb
      | some r =>
        rw [hr] at h
        simp only at h
        split at h
        · cases hl : last with
          | none => rw [hl] at h; simp only [Option.some.injEq] at h; exact h ▸ hb
          | some k =>
            rw [hl] at h
            simp only at h
            cases hk : T.ents[k]? with
            | none => rw [hk] at h; simp only [Option.some.injEq] at h; exact h ▸ hb
            | some r' =>
              rw [hk] at h
              simp only at h
              have hv := visit_mono T target ares contiguous bmAf (seen := seen) (r := r') hb
              split at h
              · simp only [Option.some.injEq] at h; exact h ▸ hv
              · rw [← hl] at h; exact ih _ _ _ h hv
        · have hv := visit_mono T target ares contiguous bmAf (seen := (seen || r.family == target.family)) (r := r) hb
          split at h
          · simp only [Option.some.injEq] at h; exact h ▸ hv
          · exact ih _ _ _ h hv

/-- No jump to the wildcard rules can happen while scanning from `i` down to `k`: either the
target's family is a wildcard, or every rule there of another family comes before any of the
target's family has been seen. -/
def NoJump (seen : Bool) (k i : Nat) : Prop :=
  target.flags.has RF.SA_FAMILY_WILDCARD = true ∨
  ∀ j r, k ≤ j → j ≤ i → T.ents[j]? = some r → r.family ≠ target.family →
    seen = false ∧ ∀ j' r', j ≤ j' → j' ≤ i → T.ents[j']? = some r' → r'.family ≠ target.family

/-- Every considered, matching rule between the start of the scan and the end of its uninterrupted
run bounds the priority of the result. -/
theorem scan_complete (hprio : contiguous = true → ∀ r ∈ T.ents, T.highestPriority ≤ r.effPriority)
    (fuel i k : Nat) (seen : Bool) (best res : Option (Route × Flags)) (r : Route)
    (h : scan T target ares contiguous bmAf last fuel (some i) seen best = some res)
    (hki : k ≤ i) (hi : i < T.ents.length) (hnj : NoJump T target seen k i)
    (hr : T.ents[k]? = some r) (hc : considered target ares r = true)
    (hm : (routeKeyCmp1 r target true).1 = .eq) : Found r.effPriority res := by
  induction fuel generalizing i seen best with
  | zero => simp [scan] at h
  | succ fuel ih =>
    simp only [scan] at h
    have hri : T.ents[i]? = some T.ents[i] := List.getElem?_eq_getElem hi
    generalize T.ents[i] = ri at hri
    rw [hri] at h
    simp only at h
    have hno : ¬ (ri.family ≠ target.family ∧ seen = true ∧ target.flags.has RF.SA_FAMILY_WILDCARD = false) := by
      rintro ⟨a, b, c⟩
      rcases hnj with hw | hn
      · rw [hw] at c; cases c
      · have := (hn i ri hki (Nat.le_refl _) hri a).1
        rw [b] at this; cases this
    rw [if_neg hno] at h
    have hpr : ∀ b, Found T.highestPriority b → contiguous = true → Found r.effPriority b := by
      rintro b ⟨x, y, e, hx⟩ hcs
      exact ⟨x, y, e, Nat.le_trans hx (hprio hcs _ (List.mem_of_getElem? hr))⟩
    by_cases hik : k = i
    · subst hik
      rw [hr] at hri; cases hri
      have hv := visit_found T target ares contiguous bmAf (seen := (seen || r.family == target.family)) (best := best) hc hm
      split at h
      · simp only [Option.some.injEq] at h; exact h ▸ hv
      · exact scan_mono T target ares contiguous bmAf last _ _ _ _ _ h _ hv
    · split at h
      · rename_i hd
        have := visit_done T target ares contiguous bmAf hd
        simp only [Option.some.injEq] at h
        rw [← h]
        exact hpr _ this.2 this.1
      · have hp : prevIdx i = some (i - 1) := by cases i with | zero => omega | succ n => rfl
        rw [hp] at h
        refine ih _ _ _ h (by omega) (by omega) ?_
        rcases hnj with hw | hn
        · exact Or.inl hw
        · refine Or.inr ?_
          intro j rj hj1 hj2 hj3 hj4
          have := hn j rj hj1 (by omega) hj3 hj4
          refine ⟨?_, fun j' r' a b c => this.2 j' r' a (by omega) c⟩
          have := this.2 i ri (by omega) (Nat.le_refl _) hri
          simp [*]

/-- Steps left below a scan position. -/
def idxMeasure : Option Nat → Nat
  | none => 0
  | some j => j + 1

/-- The scan ends when the wildcard rule the code jumps to is the first rule of the table, or
there is none. -/
theorem scan_terminates (hlast : last = none ∨ last = some 0) (fuel : Nat) (i : Option Nat) (seen : Bool)
    (best : Option (Route × Flags)) (hf : idxMeasure i < fuel) :
    ∃ res, scan T target ares contiguous bmAf last fuel i seen best = some res := by
  induction fuel generalizing i seen best with
  | zero => omega
  | succ fuel ih =>
    cases i with
    | none => exact ⟨best, rfl⟩
    | some i =>
      simp only [scan]
      simp only [idxMeasure] at hf
      cases hr : T.ents[i]? with
      | none => exact ⟨best, rfl⟩
      | some r =>
        simp only
        split
        · rcases hlast with hl | hl
          · subst hl; exact ⟨best, rfl⟩
          · subst hl
            simp only
            cases hk : T.ents[0]? with
            | none => exact ⟨best, rfl⟩
            | some r' =>
              simp only
              split
              · exact ⟨_, rfl⟩
              · apply ih; simp only [prevIdx, idxMeasure]; omega
        · split
          · exact ⟨_, rfl⟩
          · apply ih
            cases i with
            | zero => simp only [prevIdx, idxMeasure]; omega
            | succ n => simp only [prevIdx, idxMeasure]; omega

/-- With a target whose family is a wildcard there are no jumps, so the scan always ends. -/
theorem scan_terminates_wild (hw : target.flags.has RF.SA_FAMILY_WILDCARD = true) (fuel : Nat) (i : Option Nat) (seen : Bool)
    (best : Option (Route × Flags)) (hf : idxMeasure i < fuel) :
    ∃ res, scan T target ares contiguous bmAf last fuel i seen best = some res := by
  induction fuel generalizing i seen best with
  | zero => omega
  | succ fuel ih =>
    cases i with
    | none => exact ⟨best, rfl⟩
    | some i =>
      simp only [scan]
      simp only [idxMeasure] at hf
      cases hr : T.ents[i]? with
      | none => exact ⟨best, rfl⟩
      | some r =>
        simp only
        rw [if_neg (by rw [hw]; simp)]
        split
        · exact ⟨_, rfl⟩
        · apply ih
          cases i with
          | zero => simp only [prevIdx, idxMeasure]; omega
          | succ n => simp only [prevIdx, idxMeasure]; omega

/-! ### Seeking -/

theorem findIdx?_spec {α : Type} (p : α → Bool) (l : List α) :
    match l.findIdx? p with
    | some i => ∃ x, l[i]? = some x ∧ p x = true ∧ ∀ (j : Nat) (y : α), j < i → l[j]? = some y → p y = false
    | none => ∀ (j : Nat) (y : α), l[j]? = some y → p y = false := by
  cases h : l.findIdx? p with
  | some i =>
    rw [List.findIdx?_eq_some_iff_getElem] at h
    obtain ⟨hi, hp, hlt⟩ := h
    refine ⟨l[i], List.getElem?_eq_getElem hi, hp, fun j y hj hy => ?_⟩
    have hjl : j < l.length := by omega
    rw [List.getElem?_eq_getElem hjl] at hy
    cases hy
    have := hlt j hj
    simpa using this
  | none =>
    rw [List.findIdx?_eq_none_iff] at h
    intro j y hy
    exact h y (List.mem_of_getElem? hy)

/-- Table invariant used by lookup (established in C02): rules in strictly increasing key order,
all well-formed. -/
structure SortedTable (l : List Route) : Prop where
  sorted : l.Pairwise (fun a b => routeKeyCmp a b = .lt)
  wf : ∀ r ∈ l, r.WF

theorem exactLex_family {a b : Route} (h : exactLex a b ≠ .gt) : a.family ≤ b.family := by
  unfold exactLex compareLex compareOn at h
  rcases Nat.lt_trichotomy a.family b.family with h1 | h1 | h1
  · omega
  · omega
  · rw [Nat.compare_eq_gt.2 h1] at h; simp [Ordering.then] at h

theorem SortedTable.lt {l : List Route} (h : SortedTable l) {i j : Nat} {a b : Route} (hi : l[i]? = some a)
    (hj : l[j]? = some b) (hij : i < j) : exactLex a b = .lt := by
  have hs := h.sorted
  rw [List.pairwise_iff_getElem] at hs
  obtain ⟨hi1, hi2⟩ := List.getElem?_eq_some_iff.1 hi
  obtain ⟨hj1, hj2⟩ := List.getElem?_eq_some_iff.1 hj
  have := hs i j hi1 hj1 hij
  rw [hi2, hj2, routeKeyCmp_eq a b (h.wf _ (List.mem_of_getElem? hi)) (h.wf _ (List.mem_of_getElem? hj))] at this
  exact this

theorem SortedTable.family {l : List Route} (h : SortedTable l) {i j : Nat} {a b : Route} (hi : l[i]? = some a)
    (hj : l[j]? = some b) (hij : i ≤ j) : a.family ≤ b.family := by
  rcases Nat.lt_or_eq_of_le hij with h1 | h1
  · exact exactLex_family (by rw [h.lt hi hj h1]; decide)
  · subst h1; rw [hi] at hj; cases hj; exact Nat.le_refl _

/-- What the seek finds in a sorted table. -/
theorem seek_spec {l : List Route} (hl : SortedTable l) (t : Route) (ht : t.WF) (hne : l ≠ []) :
    ∃ p x, (seek l t).1 = some p ∧ l[p]? = some x ∧
      (∀ (j : Nat) (y : Route), l[j]? = some y → j < p → exactLex y t = .lt) ∧
      (∀ (j : Nat) (y : Route), l[j]? = some y → exactLex y t ≠ .gt → j ≤ p) ∧
      ((exactLex x t ≠ .lt ∧ (seek l t).2 = exactLex x t) ∨
       (exactLex x t = .lt ∧ (seek l t).2 = .lt ∧ p + 1 = l.length ∧ ∀ y ∈ l, exactLex y t = .lt)) := by
  have hk : ∀ y ∈ l, routeKeyCmp y t = exactLex y t := fun y hy => routeKeyCmp_eq y t (hl.wf y hy) ht
  have hsp := findIdx?_spec (fun r => routeKeyCmp r t != .lt) l
  unfold seek
  cases hf : l.findIdx? (fun r => routeKeyCmp r t != .lt) with
  | some p =>
    rw [hf] at hsp
    obtain ⟨x, hx, hpx, hlt⟩ := hsp
    have hxm := List.mem_of_getElem? hx
    rw [hk x hxm] at hpx
    have hpx' : exactLex x t ≠ .lt := by simpa using hpx
    refine ⟨p, x, rfl, hx, ?_, ?_, Or.inl ⟨hpx', ?_⟩⟩
    · intro j y hy hj
      have := hlt j y hj hy
      rw [hk y (List.mem_of_getElem? hy)] at this
      simpa using this
    · intro j y hy hyt
      refine Nat.le_of_not_lt (fun hc => ?_)
      have := hl.lt hx hy hc
      have h2 : exactLex x t = .lt := by
        cases hyt' : exactLex y t with
        | lt => exact Std.TransCmp.lt_trans this hyt'
        | eq => exact Std.TransCmp.lt_of_lt_of_eq this hyt'
        | gt => exact absurd hyt' hyt
      exact hpx' h2
    · simp [hx, hk x hxm]
  | none =>
    rw [hf] at hsp
    have hpos : 0 < l.length := List.length_pos_iff.2 hne
    have hx : l[l.length - 1]? = some l[l.length - 1] := List.getElem?_eq_getElem (by omega)
    have hall : ∀ (j : Nat) (y : Route), l[j]? = some y → exactLex y t = .lt := by
      intro j y hy
      have := hsp j y hy
      rw [hk y (List.mem_of_getElem? hy)] at this
      simpa using this
    refine ⟨l.length - 1, l[l.length - 1], by simp; omega, hx, fun j y hy _ => hall j y hy, ?_, Or.inr ⟨hall _ _ hx, rfl, by omega, ?_⟩⟩
    · intro j y hy _
      have := (List.getElem?_eq_some_iff.1 hy).1
      omega
    · intro y hy
      obtain ⟨j, hj⟩ := List.mem_iff_getElem?.1 hy
      exact hall j y hj

theorem takeWhile_stop {α : Type} (p : α → Bool) (l : List α) (z : α)
    (h : l[(l.takeWhile p).length]? = some z) : p z = false := by
  induction l with
  | nil => simp at h
  | cons a l ih =>
    rw [List.takeWhile_cons] at h
    by_cases ha : p a = true
    · rw [if_pos ha] at h
      simp only [List.length_cons, List.getElem?_cons_succ] at h
      exact ih h
    · rw [if_neg ha] at h
      simp at h
      subst h
      simpa using ha

theorem spanEnd_spec (l : List Route) (af i : Nat) (hi : i < l.length) :
    i ≤ spanEnd l af i ∧ spanEnd l af i < l.length ∧
    (∀ j y, i ≤ j → j ≤ spanEnd l af i → l[j]? = some y → j ≠ i → y.family = af) ∧
    (∀ y, l[i]? = some y → y.family ≠ af → spanEnd l af i = i) ∧
    (∀ y, l[i]? = some y → y.family = af →
      ∀ z, l[spanEnd l af i + 1]? = some z → z.family ≠ af) := by
  unfold spanEnd
  have hlen : ((l.drop i).takeWhile (fun r => r.family == af)).length ≤ l.length - i := by
    have := (List.takeWhile_prefix (fun r : Route => r.family == af) (l := l.drop i)).length_le
    simpa using this
  have hget : ∀ d y, d < ((l.drop i).takeWhile (fun r => r.family == af)).length → l[i + d]? = some y → y.family = af := by
    intro d y hd hy
    have h1 := List.getElem_mem (l := (l.drop i).takeWhile (fun r => r.family == af)) hd
    have h2 := List.all_takeWhile (p := fun r : Route => r.family == af) (l := l.drop i)
    have h3 : ((l.drop i).takeWhile (fun r => r.family == af))[d] = y := by
      have hp : (l.drop i).takeWhile (fun r => r.family == af) <+: l.drop i := List.takeWhile_prefix _
      have := hp.getElem hd
      rw [this]
      simp only [List.getElem_drop]
      exact (List.getElem?_eq_some_iff.1 hy).2
    rw [List.all_eq_true] at h2
    have := h2 _ h1
    rw [h3] at this
    simpa using this
  have hfirst : ∀ y, l[i]? = some y → (((l.drop i).takeWhile (fun r => r.family == af)).length = 0 ↔ y.family ≠ af) := by
    intro y hy
    obtain ⟨h1, h2⟩ := List.getElem?_eq_some_iff.1 hy
    rw [List.drop_eq_getElem_cons h1, h2]
    by_cases hf : y.family = af
    · simp [hf]
    · simp [hf]
  have hend : ∀ z, l[i + ((l.drop i).takeWhile (fun r => r.family == af)).length]? = some z → z.family ≠ af := by
    intro z hz hzf
    have hd : (l.drop i)[((l.drop i).takeWhile (fun r => r.family == af)).length]? = some z := by
      rw [List.getElem?_drop]; exact hz
    have := takeWhile_stop (fun r : Route => r.family == af) (l.drop i) z hd
    simp [hzf] at this
  generalize ((l.drop i).takeWhile (fun r => r.family == af)).length = n at *
  simp only
  split
  · rename_i h0
    refine ⟨Nat.le_refl _, hi, ?_, fun _ _ _ => rfl, ?_⟩
    · intro j y h1 h2 _ h3; omega
    · intro y hy hyf; exact absurd hyf ((hfirst y hy).1 h0)
  · rename_i h0
    refine ⟨by omega, by omega, ?_, ?_, ?_⟩
    · intro j y h1 h2 h3 _
      exact hget (j - i) y (by omega) (by rw [show i + (j - i) = j by omega]; exact h3)
    · intro y hy hyf; exact absurd ((hfirst y hy).2 hyf) h0
    · intro y hy hyf z hz
      exact hend z (by rw [show i + n = i + n - 1 + 1 by omega]; exact hz)

/-- A result at least as good as priority `p`. -/
def ResFound (p : Nat) (res : Except Err (Route × Flags)) : Prop :=
  ∃ b inx, res = .ok (b, inx) ∧ b.effPriority ≤ p

theorem lookup_contiguous (hT : SortedTable T.ents)
    (hprio : ∀ r ∈ T.ents, T.highestPriority ≤ r.effPriority) (t0 : Route) (ht : t0.WF)
    (hcs : contiguousSearch (inexactTarget t0) = true) (k : Nat) (r : Route) (hr : T.ents[k]? = some r)
    (hc : considered (inexactTarget t0) ares r = true)
    (hm : (routeKeyCmp1 r (inexactTarget t0) true).1 = .eq) (hf : r.family = t0.family)
    (hpos : isBitmaskMatching t0.family T.bitmaskAfs = true ∨ routeKeyCmp r (inexactTarget t0) ≠ .gt)
    (fuel : Nat) (res : Except Err (Route × Flags)) (h : lookup T t0 false ares fuel = some res) :
    ResFound r.effPriority res := by
  have hrm := List.mem_of_getElem? hr
  have hne : T.ents ≠ [] := by intro he; rw [he] at hrm; simp at hrm
  have htw : (inexactTarget t0).WF := ht
  have htf : (inexactTarget t0).family = t0.family := rfl
  unfold lookup at h
  simp only [Bool.false_eq_true, if_false] at h
  generalize inexactTarget t0 = t at *
  rw [hcs] at h
  obtain ⟨p, x, hp, hx, hbelow, hle, hcase⟩ := seek_spec hT t htw hne
  rw [routeKeyCmp_eq r t (hT.wf r hrm) htw] at hpos
  simp only [true_and] at h
  split at h
  · -- short circuit
    rename_i r' hhit
    simp only [Option.some.injEq] at h
    split at hhit
    · split at hhit
      · rename_i r'' _
        split at hhit
        · rename_i hcond
          simp only [Option.some.injEq] at hhit
          subst hhit
          exact ⟨_, _, h.symm, Nat.le_trans hcond.2 (hprio r hrm)⟩
        · cases hhit
      · cases hhit
    · cases hhit
  · clear hcs
    simp only [if_true, hp] at h
    have hpl : p < T.ents.length := (List.getElem?_eq_some_iff.1 hx).1
    have hkl : k < T.ents.length := (List.getElem?_eq_some_iff.1 hr).1
    -- families around the point
    have hfam : ∀ j y, T.ents[j]? = some y → k ≤ j → j < p → y.family = t.family := by
      intro j y hy h1 h2
      have a1 := hT.family hr hy h1
      have a2 := exactLex_family (a := y) (b := t) (by rw [hbelow j y hy h2]; decide)
      omega
    have hxf : p ≤ k → x.family = t.family := by
      intro hpk
      have a1 := hT.family hx hr hpk
      rcases hcase with ⟨c1, _⟩ | ⟨c1, _, c3, _⟩
      · have : exactLex t x ≠ .gt := by
          intro hgt
          have hsw : exactLex t x = (exactLex x t).swap := Std.OrientedCmp.eq_swap
          rw [hsw] at hgt
          cases h' : exactLex x t <;> simp_all
        have := exactLex_family this
        omega
      · have : k = p := by omega
        subst this
        rw [hr] at hx; cases hx
        omega
    have hstart : scanStart T t (T.lastAfWildcard.bind T.indexOf) (some p) = some (some p) := by
      unfold scanStart
      split
      · rfl
      · simp only
        rw [if_neg]
        rcases Nat.lt_or_ge k p with hkp | hkp
        · have hpv : prevIdx p = some (p - 1) := by cases p with | zero => omega | succ n => rfl
          have hy : T.ents[p - 1]? = some T.ents[p - 1] := List.getElem?_eq_getElem (by omega)
          have := hfam (p - 1) _ hy (by omega) (by omega)
          rw [hpv]
          simp only [hy, Option.map_some, this]
          simp
        · simp [hx, hxf hkp]
    rw [hstart] at h
    simp only at h
    -- the start of the scan
    obtain ⟨s, hs, hsl, hks, hspan⟩ : ∃ s, (if isBitmaskMatching t.family T.bitmaskAfs = true then
          Option.map (spanEnd T.ents t.family) (some p) else some p) = some s ∧ s < T.ents.length ∧ k ≤ s ∧
          (∀ j y, p ≤ j → j ≤ s → T.ents[j]? = some y → y.family ≠ t.family → j = p ∧ s = p) := by
      by_cases hbm : isBitmaskMatching t.family T.bitmaskAfs = true
      · obtain ⟨e1, e2, e3, e4, e5⟩ := spanEnd_spec T.ents t.family p hpl
        refine ⟨spanEnd T.ents t.family p, by simp [hbm], e2, ?_, ?_⟩
        · rcases Nat.lt_or_ge p k with hpk | hpk
          · have hxf' := hxf (by omega)
            refine Nat.le_of_not_lt (fun hlt => ?_)
            have hz : T.ents[spanEnd T.ents t.family p + 1]? = some T.ents[spanEnd T.ents t.family p + 1] :=
              List.getElem?_eq_getElem (by omega)
            have a1 := hT.family hx hz (by omega)
            have a2 := hT.family hz hr (by omega)
            exact e5 x hx hxf' _ hz (by omega)
          · omega
        · intro j y h1 h2 h3 h4
          by_cases hjp : j = p
          · subst hjp
            exact ⟨rfl, e4 y h3 h4⟩
          · exact absurd (e3 j y h1 h2 h3 hjp) h4
      · have hbm' : isBitmaskMatching t.family T.bitmaskAfs = false := by simpa using hbm
        refine ⟨p, by simp [hbm'], hpl, ?_, ?_⟩
        · rcases hpos with hb | hb
          · rw [htf, hbm'] at *; cases hb
          · exact hle k r hr hb
        · intro j y h1 h2 _ _; omega
    rw [hs] at h
    split at h
    · cases h
    · rename_i hscan
      have := scan_complete T t ares true _ _ (fun _ => hprio) fuel s k false none _ r hscan hks hsl ?_ hr hc hm
      · obtain ⟨b, i, hb, _⟩ := this; cases hb
      · refine Or.inr ?_
        intro j y h1 h2 h3 h4
        refine ⟨rfl, ?_⟩
        rcases Nat.lt_or_ge j p with hj | hj
        · exact absurd (hfam j y h3 h1 hj) h4
        · obtain ⟨e1, e2⟩ := hspan j y hj h2 h3 h4
          intro j' y' g1 g2 g3
          have : j' = j := by omega
          subst this
          rw [h3] at g3; cases g3; exact h4
    · rename_i hscan
      simp only [Option.some.injEq] at h
      have := scan_complete T t ares true _ _ (fun _ => hprio) fuel s k false none _ r hscan hks hsl ?_ hr hc hm
      · obtain ⟨b, i, hb, hle⟩ := this
        cases hb
        exact ⟨b, i, h.symm, hle⟩
      · refine Or.inr ?_
        intro j y h1 h2 h3 h4
        refine ⟨rfl, ?_⟩
        rcases Nat.lt_or_ge j p with hj | hj
        · exact absurd (hfam j y h3 h1 hj) h4
        · obtain ⟨e1, e2⟩ := hspan j y hj h2 h3 h4
          intro j' y' g1 g2 g3
          have : j' = j := by omega
          subst this
          rw [h3] at g3; cases g3; exact h4

/-- Soundness of the inexact lookup. -/
theorem lookup_sound (t0 : Route) (fuel : Nat) (r : Route) (inx : Flags)
    (h : lookup T t0 false ares fuel = some (.ok (r, inx))) :
    r ∈ T.ents ∧
    ((considered (inexactTarget t0) ares r = true ∧ routeKeyCmp1 r (inexactTarget t0) true = (.eq, inx)) ∨
     (routeKeyCmp r (inexactTarget t0) = .eq ∧ eventFilterOK ares r = true ∧ inx = 0)) := by
  unfold lookup at h
  simp only [Bool.false_eq_true, if_false] at h
  split at h
  · rename_i r' hhit
    simp only [Option.some.injEq, Except.ok.injEq, Prod.mk.injEq] at h
    obtain ⟨rfl, rfl⟩ := h
    split at hhit
    · rename_i hc
      split at hhit
      · rename_i r'' hr''
        split at hhit
        · rename_i hcond
          simp only [Option.some.injEq] at hhit
          subst hhit
          obtain ⟨p, hp, hx⟩ := Option.bind_eq_some_iff.1 hr''
          refine ⟨List.mem_of_getElem? hx, Or.inr ⟨?_, hcond.1, rfl⟩⟩
          have h2 := hc.2
          unfold seek at hp h2
          split at hp
          · simp only [Option.some.injEq] at hp
            subst hp
            rename_i i hfi
            rw [hfi] at h2
            simp only [hx, Option.map_some, Option.getD_some] at h2
            exact h2
          · rename_i hfi
            rw [hfi] at h2
            simp at h2
        · cases hhit
      · cases hhit
    · cases hhit
  · split at h
    · cases h
    · split at h
      · cases h
      · cases h
      · rename_i hscan
        simp only [Option.some.injEq, Except.ok.injEq] at h
        subst h
        have := scan_sound T (inexactTarget t0) ares _ _ _ _ _ _ _ _ hscan (by intro r i h; cases h) r inx rfl
        exact ⟨this.1, Or.inl this.2⟩

/-- Exact lookup. -/
theorem lookup_exact (hT : SortedTable T.ents) (t : Route) (ht : t.WF) (fuel : Nat) (res : Except Err (Route × Flags)) :
    lookup T t true ares fuel = some res ↔
      (∃ r ∈ T.ents, routeKeyCmp r t = .eq ∧ res = .ok (r, 0)) ∨
      ((∀ r ∈ T.ents, routeKeyCmp r t ≠ .eq) ∧ res = .error .itemNotFound) := by
  have hk : ∀ y ∈ T.ents, routeKeyCmp y t = exactLex y t := fun y hy => routeKeyCmp_eq y t (hT.wf y hy) ht
  unfold lookup
  simp only [if_true]
  by_cases hne : T.ents = []
  · have : seek T.ents t = (none, .lt) := by rw [hne]; rfl
    rw [this]
    simp [hne, eq_comm]
  · obtain ⟨p, x, hp, hx, hbelow, hle, hcase⟩ := seek_spec hT t ht hne
    have hxm := List.mem_of_getElem? hx
    generalize hsk : seek T.ents t = sk at *
    obtain ⟨s1, s2⟩ := sk
    simp only at hp hcase
    subst hp
    by_cases hxe : exactLex x t = .eq
    · have hs2 : s2 = .eq := by
        rcases hcase with ⟨_, b⟩ | ⟨b, _⟩
        · rw [b, hxe]
        · rw [hxe] at b; cases b
      subst hs2
      simp only [hx, Option.some.injEq]
      constructor
      · rintro rfl; exact Or.inl ⟨x, hxm, by rw [hk x hxm, hxe], rfl⟩
      · rintro (⟨r, hr, he, rfl⟩ | ⟨hn, _⟩)
        · obtain ⟨j, hj⟩ := List.mem_iff_getElem?.1 hr
          rw [hk r hr] at he
          have h1 := hle j r hj (by rw [he]; decide)
          rcases Nat.lt_or_eq_of_le h1 with h2 | h2
          · rw [hbelow j r hj h2] at he; cases he
          · subst h2; rw [hx] at hj; cases hj; rfl
        · exact absurd (by rw [hk x hxm, hxe]) (hn x hxm)
    · have hs2 : s2 ≠ .eq := by
        rcases hcase with ⟨_, b⟩ | ⟨_, b, _⟩
        · rw [b]; exact hxe
        · rw [b]; decide
      have hnone : ∀ r ∈ T.ents, routeKeyCmp r t ≠ .eq := by
        intro r hr he
        rw [hk r hr] at he
        obtain ⟨j, hj⟩ := List.mem_iff_getElem?.1 hr
        have h1 := hle j r hj (by rw [he]; decide)
        rcases Nat.lt_or_eq_of_le h1 with h2 | h2
        · rw [hbelow j r hj h2] at he; cases he
        · subst h2; rw [hx] at hj; cases hj; exact hxe he
      have h0 : s2 = .lt ∨ s2 = .gt := by cases s2 <;> simp at hs2 ⊢
      have hfin : (some (Except.error Err.itemNotFound : Except Err (Route × Flags)) = some res) ↔
          (∃ r ∈ T.ents, routeKeyCmp r t = .eq ∧ res = .ok (r, 0)) ∨
          ((∀ r ∈ T.ents, routeKeyCmp r t ≠ .eq) ∧ res = .error .itemNotFound) := by
        constructor
        · intro h; simp only [Option.some.injEq] at h; exact Or.inr ⟨hnone, h.symm⟩
        · rintro (⟨r, hr, he, _⟩ | ⟨_, rfl⟩)
          · exact absurd he (hnone r hr)
          · rfl
      rcases h0 with rfl | rfl
      · exact hfin
      · exact hfin

/-- A query with a wildcard family and non-contiguous wildcards scans the whole table. -/
theorem lookup_noncontiguous_wild (t0 : Route) (hcs : contiguousSearch (inexactTarget t0) = false)
    (hw : (inexactTarget t0).flags.has RF.SA_FAMILY_WILDCARD = true) (r : Route) (hrm : r ∈ T.ents)
    (hc : considered (inexactTarget t0) ares r = true)
    (hm : (routeKeyCmp1 r (inexactTarget t0) true).1 = .eq)
    (fuel : Nat) (hfuel : T.ents.length < fuel) :
    ∃ res, lookup T t0 false ares fuel = some res ∧ ResFound r.effPriority res := by
  obtain ⟨k, hr⟩ := List.mem_iff_getElem?.1 hrm
  have hkl : k < T.ents.length := (List.getElem?_eq_some_iff.1 hr).1
  unfold lookup
  simp only [Bool.false_eq_true, if_false]
  rw [hcs]
  generalize inexactTarget t0 = t at *
  have hlen : T.ents.length ≠ 0 := by omega
  have htail : T.ents.length - 1 < T.ents.length := by omega
  simp only [Bool.false_eq_true, false_and, if_false, hlen]
  have hst : scanStart T t (T.lastAfWildcard.bind T.indexOf) (some (T.ents.length - 1)) = some (some (T.ents.length - 1)) := by
    unfold scanStart; rw [if_pos hw]
  rw [hst]
  simp only
  have hend : spanEnd T.ents t.family (T.ents.length - 1) = T.ents.length - 1 := by
    have := spanEnd_spec T.ents t.family (T.ents.length - 1) htail
    omega
  have hs : (if isBitmaskMatching t.family T.bitmaskAfs = true then
      Option.map (spanEnd T.ents t.family) (some (T.ents.length - 1)) else some (T.ents.length - 1)) = some (T.ents.length - 1) := by
    split
    · simp [hend]
    · rfl
  rw [hs]
  obtain ⟨sres, hsres⟩ := scan_terminates_wild T t ares false (isBitmaskMatching t.family T.bitmaskAfs)
    (T.lastAfWildcard.bind T.indexOf) hw fuel (some (T.ents.length - 1)) false none (by simp only [idxMeasure]; omega)
  obtain ⟨b, i, hb, hle⟩ := scan_complete T t ares false _ _ (fun h => by cases h) fuel _ k false none sres r hsres (by omega) htail (Or.inl hw) hr hc hm
  rw [hsres, hb]
  exact ⟨_, rfl, b, i, rfl, hle⟩

theorem scanStart_cases (t : Route) (last point st : Option Nat) (h : scanStart T t last point = some st) :
    st = point ∨ ∃ k, last = some k ∧ st = some k := by
  unfold scanStart at h
  by_cases hw : t.flags.has RF.SA_FAMILY_WILDCARD = true
  · rw [if_pos hw] at h; simp only [Option.some.injEq] at h; exact Or.inl h.symm
  · rw [if_neg hw] at h
    simp only at h
    cases last with
    | none => simp at h; exact Or.inl h.2.symm
    | some k =>
      simp only at h
      have hh : ∀ (off : Bool), (if off = true then some (some k) else some point) = some st →
          st = point ∨ ∃ k', some k = some k' ∧ st = some k' := by
        intro off ho
        cases off
        · simp at ho; exact Or.inl ho.symm
        · simp at ho; exact Or.inr ⟨k, rfl, ho.symm⟩
      exact hh _ h

/-- Termination of every lookup when the wildcard pointer is NULL or points to the first rule. -/
theorem lookup_terminates (hlast : T.lastAfWildcard.bind T.indexOf = none ∨ T.lastAfWildcard.bind T.indexOf = some 0)
    (t0 : Route) (exact : Bool) (fuel : Nat) (hfuel : T.ents.length + 1 < fuel) :
    ∃ res, lookup T t0 exact ares fuel = some res := by
  unfold lookup
  cases exact with
  | true =>
    simp only [if_true]
    split
    · split <;> exact ⟨_, rfl⟩
    · exact ⟨_, rfl⟩
  | false =>
    simp only [Bool.false_eq_true, if_false]
    generalize inexactTarget t0 = t
    split
    · exact ⟨_, rfl⟩
    · split
      · exact ⟨_, rfl⟩
      · rename_i start0 hst
        have hb : ∀ s, start0 = some s → s < T.ents.length ∨ s = 0 := by
          intro s hs
          subst hs
          have hpt : ∀ q, (if contiguousSearch t = true then (seek T.ents t).1
              else if T.ents.length = 0 then none else some (T.ents.length - 1)) = some q → q < T.ents.length ∨ q = 0 := by
            intro q hq
            split at hq
            · unfold seek at hq
              split at hq
              · rename_i i hfi
                simp only [Option.some.injEq] at hq
                subst hq
                left
                have := findIdx?_spec (fun r => routeKeyCmp r t != .lt) T.ents
                rw [hfi] at this
                obtain ⟨x, hx, _⟩ := this
                exact (List.getElem?_eq_some_iff.1 hx).1
              · split at hq
                · cases hq
                · simp only [Option.some.injEq] at hq; omega
            · split at hq
              · cases hq
              · simp only [Option.some.injEq] at hq; omega
          revert hst hpt
          generalize (if contiguousSearch t = true then (seek T.ents t).1
              else if T.ents.length = 0 then none else some (T.ents.length - 1)) = point
          intro hst hpt
          rcases scanStart_cases T t _ _ _ hst with h | ⟨k, hk, h⟩
          · exact hpt s h.symm
          · cases h
            rcases hlast with hl | hl
            · rw [hl] at hk; cases hk
            · rw [hl] at hk; cases hk; exact Or.inr rfl
        have hfu : idxMeasure (if isBitmaskMatching t.family T.bitmaskAfs = true then
            Option.map (spanEnd T.ents t.family) start0 else start0) < fuel := by
          generalize isBitmaskMatching t.family T.bitmaskAfs = bm
          clear hst
          cases start0 with
          | none => cases bm <;> simp [idxMeasure] <;> omega
          | some s =>
            have h1 := hb s rfl
            by_cases hl0 : T.ents.length = 0
            · have hnil := List.length_eq_zero_iff.1 hl0
              have : spanEnd T.ents t.family s = s := by rw [hnil]; simp [spanEnd]
              cases bm <;> simp [this, idxMeasure] <;> omega
            · have hsl : s < T.ents.length := by omega
              have := spanEnd_spec T.ents t.family s hsl
              cases bm <;> simp [idxMeasure] <;> omega
        obtain ⟨sres, hs⟩ := scan_terminates T t ares (contiguousSearch t) (isBitmaskMatching t.family T.bitmaskAfs)
          _ hlast fuel _ false none hfu
        rw [hs]
        cases sres with
        | none => exact ⟨_, rfl⟩
        | some r => exact ⟨_, rfl⟩

end WS
