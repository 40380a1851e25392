import Verif.Proof.ObjRace3
/-
Proofs for C88: contents of objects never change; finite runs for the findings.
-/
namespace WS.OR
open WS.Spec.OR

variable {rr : Bool} {s : St}

theorem exec_other (rr : Bool) (s : St) {t u : Nat} (p : Pc) (h : u ≠ t) : (exec rr s t p).th u = s.th u := by
  cases p <;> simp only [exec] <;> (repeat' split) <;>
    simp [St.go, St.setTh, St.setOb, St.acquire, St.acquireX, St.release, h]

theorem start_other (s : St) {t u : Nat} (c : Call) (h : u ≠ t) : (start s t c).th u = s.th u := by
  simp [start, St.go, St.setTh, h]

theorem exec_contents (rr : Bool) (s : St) (t : Nat) (p : Pc) {x : Nat} (h : x < s.next) :
    ((exec rr s t p).obs x).key = (s.obs x).key ∧ ((exec rr s t p).obs x).val = (s.obs x).val := by
  have hn : x ≠ s.next := by omega
  cases p <;> simp only [exec] <;> (repeat' split) <;>
    simp [St.go, St.setTh, St.setOb, St.acquire, St.acquireX, St.release, hn] <;> (try split) <;>
    simp [Ob.more, Ob.less, Ob.freed, Ob.unlinked]

theorem exec_out (rr : Bool) (s : St) (t k x : Nat) : ((exec rr s t (.valRead k x)).th t).out = some (k, (s.obs x).val) := by
  simp [exec, St.go, St.setTh]

/-! ### Runs of finitely many threads -/

inductive Move
  | step (t : Nat)
  | call (t : Nat) (c : Call)

def grantedB (n : Nat) (s : St) (t : Nat) : Bool :=
  (!sharedPc (s.th t).pc || (List.range n).all fun u => u == t || !(s.th u).excl) &&
  (!exclPc (s.th t).pc || (List.range n).all fun u => u == t || (s.th u).held == 0)

def honestB (s : St) (t : Nat) : Call → Bool
  | .unlock => decide (0 < (s.th t).held)
  | .use x | .release x => (s.th t).bag.contains x
  | _ => true

def move (rr : Bool) (allowed : St → Nat → Call → Bool) (n : Nat) (s : St) : Move → Option St
  | .step t => if decide (t < n) && decide ((s.th t).pc ≠ .idle) && grantedB n s t then some (exec rr s t (s.th t).pc) else none
  | .call t c => if decide (t < n) && decide ((s.th t).pc = .idle) && honestB s t c && allowed s t c then some (start s t c) else none

def drive (rr : Bool) (allowed : St → Nat → Call → Bool) (n : Nat) : List Move → St → Option St
  | [], s => some s
  | m :: ms, s => (move rr allowed n s m).bind (drive rr allowed n ms)

theorem granted_of (n : Nat) {t : Nat} (hq : ∀ u, n ≤ u → s.th u = {}) (h : grantedB n s t = true) : Granted s t := by
  unfold grantedB at h
  simp only [Bool.and_eq_true, Bool.or_eq_true, Bool.not_eq_true', List.all_eq_true, List.mem_range, beq_iff_eq] at h
  constructor
  · intro hs u hu
    rcases h.1 with h1 | h1
    · rw [hs] at h1; cases h1
    · by_cases hn : u < n
      · rcases h1 u hn with e | e
        · exact absurd e hu
        · exact e
      · rw [hq u (by omega)]
  · intro hs u hu
    rcases h.2 with h1 | h1
    · rw [hs] at h1; cases h1
    · by_cases hn : u < n
      · rcases h1 u hn with e | e
        · exact absurd e hu
        · exact e
      · rw [hq u (by omega)]

theorem honest_of {t : Nat} {c : Call} (h : honestB s t c = true) : Honest s t c := by
  cases c <;> simp_all [honestB, Honest]

theorem drive_reach {allowed : St → Nat → Call → Bool} {P : St → Nat → Call → Prop} (hP : ∀ s t c, allowed s t c = true → P s t c) {n : Nat} {ms : List Move} :
    ∀ {s s' : St}, Reach rr P s → (∀ u, n ≤ u → s.th u = {}) → drive rr allowed n ms s = some s' → Reach rr P s' := by
  induction ms with
  | nil => intro s s' hr _ h; cases h; exact hr
  | cons m ms ih =>
    intro s s' hr hq h
    unfold drive at h
    cases hm : move rr allowed n s m with
    | none => rw [hm] at h; cases h
    | some s1 =>
      rw [hm] at h
      cases m with
      | step t =>
        simp only [move] at hm
        split at hm
        · rename_i hc
          simp only [Bool.and_eq_true, decide_eq_true_eq] at hc
          cases hm
          refine ih (.step hr (.run t hc.1.2 (granted_of n hq hc.2))) (fun u hu => ?_) h
          rw [exec_other _ _ _ (by omega)]; exact hq u hu
        · cases hm
      | call t c =>
        simp only [move] at hm
        split at hm
        · rename_i hc
          simp only [Bool.and_eq_true, decide_eq_true_eq] at hc
          cases hm
          refine ih (.step hr (.call t c hc.1.1.2 (honest_of hc.1.2) (hP _ _ _ hc.2))) (fun u hu => ?_) h
          rw [start_other _ _ (by omega)]; exact hq u hu
        · cases hm

/-- The result of a run, and a fact about it. -/
theorem drive_fact {allowed : St → Nat → Call → Bool} {P : St → Nat → Call → Prop} (hP : ∀ s t c, allowed s t c = true → P s t c) {n : Nat} {ms : List Move} {f : St → Bool}
    (h : (drive rr allowed n ms {}).map f = some true) : ∃ s, Reach rr P s ∧ f s = true := by
  cases hd : drive rr allowed n ms {} with
  | none => rw [hd] at h; cases h
  | some s =>
    rw [hd] at h
    injection h with h
    exact ⟨s, drive_reach hP .init (fun _ _ => rfl) hd, h⟩

end WS.OR
