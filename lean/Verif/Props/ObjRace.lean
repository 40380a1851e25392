import Verif.Proof.ObjRace4
/-
C88: Objects stay alive while threads look them up, use, replace, delete and release them at the same time.
The claim in full (no thread ever touches freed memory, whatever calls the threads make) is false of the code: see the findings below.  Proved: it
holds for the calls that take a reference under the lock, and for the others when the caller has the lock around them.
-/
namespace WS.Props
open WS.OR WS.Spec.OR

/-- Any number of threads, any schedule, any calls: nobody touches a freed object, frees one twice or follows a NULL pointer.  Missing from the
full claim: callers must have the lock around the value getters (and around releases, if the compiler reads `parent_table` twice). -/
theorem C88_no_fault_partial {reread : Bool} {P : St → Nat → Call → Prop}
    (hP : ∀ s t c, P s t c → LocksGetters s t c ∧ (reread = true → LocksReleases s t c)) {s : St} (h : Reach reread P s) (t : Nat) : ¬ Fault s t :=
  no_fault (reach_inv hP h) t

/-- Threads that take references, use what they refer to, delete, store, set and clear the default event and release references need no lock of
their own (if `parent_table` is read once). -/
theorem C88_references_safe {s : St}
    (h : Reach false (fun _ _ c => match c with | .getRecord _ | .getValue _ | .getDefault => False | _ => True) s) (t : Nat) : ¬ Fault s t := by
  refine no_fault (reach_inv (rr := false) (fun s t c hc => ⟨?_, by simp⟩) h) t
  cases c <;> first | trivial | exact hc.elim

/-- What a thread has a reference to is there, whether or not it has been deleted from its table, and its count is at least the number of
references all this thread has to it. -/
theorem C88_held_alive_partial {reread : Bool} {P : St → Nat → Call → Prop}
    (hP : ∀ s t c, P s t c → LocksGetters s t c ∧ (reread = true → LocksReleases s t c)) {s : St} (h : Reach reread P s)
    {t x : Nat} (hx : x ∈ (s.th t).bag) : (s.obs x).live = true ∧ (s.th t).bag.count x ≤ (s.obs x).rc := by
  have hi := reach_inv hP h
  have h1 := hi.oTh t x
  have h2 := List.count_pos_iff.mpr hx
  have h3 : (s.obs x).owners.count (.thread t) ≤ (s.obs x).owners.length := List.count_le_length
  refine ⟨hi.alive x fun e => ?_, by rw [hi.rc]; omega⟩
  rw [e] at h1; simp at h1; omega

/-- The contents of an object a thread has a reference to do not change under it, whatever the next step of whatever thread. -/
theorem C88_contents_fixed_partial {reread : Bool} {P : St → Nat → Call → Prop}
    (hP : ∀ s t c, P s t c → LocksGetters s t c ∧ (reread = true → LocksReleases s t c)) {s s' : St} (h : Reach reread P s)
    {t x : Nat} (hx : x ∈ (s.th t).bag) (hs : Step reread P s s') :
    (s'.obs x).key = (s.obs x).key ∧ (s'.obs x).val = (s.obs x).val := by
  have hi := reach_inv hP h
  have hl := (C88_held_alive_partial hP h hx).1
  have hn : x < s.next := by
    rcases Nat.lt_or_ge x s.next with e | e
    · exact e
    · rw [(hi.fresh x e).2] at hl; cases hl
  cases hs with
  | run u hu hg => exact exec_contents reread s u _ hn
  | call u c hu hg hp => exact ⟨rfl, rfl⟩

/-- A value getter gives the value that is stored under the label at the moment it gives it. -/
theorem C88_value_current_partial {reread : Bool} {P : St → Nat → Call → Prop}
    (hP : ∀ s t c, P s t c → LocksGetters s t c ∧ (reread = true → LocksReleases s t c)) {s : St} (h : Reach reread P s)
    {t k x : Nat} (hpc : (s.th t).pc = .valRead k x) :
    ∃ v, stored s k = some v ∧ ((exec reread s t (s.th t).pc).th t).out = some (k, v) := by
  have hi := reach_inv hP h
  have h1 := hi.pc t
  unfold PcOk at h1
  rw [hpc] at h1
  have h2 := hi.back x h1.2.1
  rw [h1.2.2] at h2
  exact ⟨(s.obs x).val, by simp [stored, h2], by rw [hpc]; exact exec_out reread s t k x⟩

/-- A thread about to count a reference to what it found finds it still in the table under the label it asked for: a reference is never given to
something that has been deleted. -/
theorem C88_reference_current_partial {reread : Bool} {P : St → Nat → Call → Prop}
    (hP : ∀ s t c, P s t c → LocksGetters s t c ∧ (reread = true → LocksReleases s t c)) {s : St} (h : Reach reread P s)
    {t x : Nat} (hpc : (s.th t).pc = .refIncr x ∨ (s.th t).pc = .kvIncr x) : s.table (s.obs x).key = some x := by
  have hi := reach_inv hP h
  have h1 := hi.pc t
  unfold PcOk at h1
  rcases hpc with e | e <;> rw [e] at h1 <;> exact hi.back x h1.2

/-- Nothing is lost: once no call is under way and all references have been released, exactly what is in the table or is the default event is
alive, with exactly the references these have. -/
theorem C88_no_leak_partial {reread : Bool} {P : St → Nat → Call → Prop}
    (hP : ∀ s t c, P s t c → LocksGetters s t c ∧ (reread = true → LocksReleases s t c)) {s : St} (h : Reach reread P s)
    (hq : ∀ t, (s.th t).pc = .idle ∧ (s.th t).bag = []) (x : Nat) :
    ((s.obs x).live = true ↔ (∃ k, s.table k = some x) ∨ s.dflt = some x) ∧
    (s.obs x).rc = (if (s.obs x).linked = true then 1 else 0) + (if s.dflt = some x then 1 else 0) := by
  have hi := reach_inv hP h
  have hth : ∀ t, (s.obs x).owners.count (.thread t) = 0 := by
    intro t; rw [hi.oTh t x, (hq t).1, (hq t).2]; rfl
  have hlen : ∀ l : List Owner, (∀ t, l.count (.thread t) = 0) → l.length = l.count .table + l.count .dflt := by
    intro l
    induction l with
    | nil => intro _; rfl
    | cons o l ih =>
      intro hl
      have hl' : ∀ t, l.count (.thread t) = 0 := fun t => by
        have := hl t
        have h3 := List.count_le_count_cons (a := Owner.thread t) (b := o) (l := l)
        omega
      have := ih hl'
      cases o with
      | table => simp; omega
      | dflt => simp; omega
      | thread t => have := hl t; simp at this
  have hrc := hlen _ hth
  rw [← hi.rc, hi.oTab, hi.oDflt] at hrc
  refine ⟨⟨fun hl => ?_, fun hl => ?_⟩, hrc⟩
  · rcases hi.kept x hl with e | ⟨t, e⟩
    · by_cases h1 : (s.obs x).linked = true
      · exact .inl ⟨_, hi.back x h1⟩
      · by_cases h2 : s.dflt = some x
        · exact .inr h2
        · rw [if_neg h1, if_neg h2, hi.rc] at hrc
          exact absurd (List.eq_nil_of_length_eq_zero hrc) e
    · rw [(hq t).1] at e; cases e
  · refine hi.alive x fun e => ?_
    rcases hl with ⟨k, hk⟩ | hd
    · have := hi.oTab x
      rw [e, if_pos (hi.tab k x hk).1] at this; cases this
    · have := hi.oDflt x
      rw [e, if_pos hd] at this; cases this

/-- Whoever deletes or replaces something is alone: no other thread has the lock in any mode. -/
theorem C88_delete_alone_partial {reread : Bool} {P : St → Nat → Call → Prop}
    (hP : ∀ s t c, P s t c → LocksGetters s t c ∧ (reread = true → LocksReleases s t c)) {s : St} (h : Reach reread P s)
    {t : Nat} (hpc : ∃ x, (s.th t).pc = .delUnlink x ∨ ∃ k v, (s.th t).pc = .setUnlink k v x ∨ (s.th t).pc = .link k v) :
    ∀ u, u ≠ t → (s.th u).held = 0 := by
  have hi := reach_inv hP h
  have h1 := hi.pc t
  unfold PcOk at h1
  obtain ⟨x, e | ⟨k, v, e | e⟩⟩ := hpc <;> rw [e] at h1 <;> exact (hi.lock t h1.1).2

/-! ### What goes wrong without the lock -/

/-- All calls allowed. -/
def orAny : St → Nat → Call → Prop := fun _ _ _ => True

def orStore (t k v : Nat) : List Move := .call t (.store k v false) :: List.replicate 4 (.step t)
def orDelete (t k : Nat) : List Move := .call t (.delete k) :: List.replicate 6 (.step t)

def faultB (s : St) (t : Nat) : Bool :=
  (match touched s (s.th t).pc with | some x => !(s.obs x).live | none => false) ||
  (match (s.th t).pc with | .relType x => !(s.obs x).linked | .dgetRead => s.dflt.isNone | _ => false)

theorem fault_of {s : St} {t : Nat} (h : faultB s t = true) : Fault s t := by
  unfold faultB at h
  rw [Bool.or_eq_true] at h
  rcases h with h | h
  · split at h
    · rename_i x e; exact .inl ⟨x, e, by simpa using h⟩
    · cases h
  · split at h
    · rename_i x e; exact .inr (.inl ⟨x, e, by simpa using h⟩)
    · rename_i e; exact .inr (.inr ⟨e, by simpa using h⟩)
    · cases h

/-- Finding: a value getter without the lock reads an object another thread has deleted and freed meanwhile (src/kv.c:257-295: the lock is given back
before the value is read, and no reference is taken). -/
theorem C88_finding_value_after_free : ∃ s x, Reach false orAny s ∧ (s.th 1).pc = .valRead 7 x ∧ (s.obs x).live = false := by
  obtain ⟨s, hr, hf⟩ := drive_fact (rr := false) (allowed := fun _ _ _ => true) (P := orAny) (fun _ _ _ _ => trivial) (n := 2)
    (ms := orStore 0 7 5 ++ [.call 1 (.getValue 7), .step 1, .step 1, .step 1] ++ orDelete 0 7)
    (f := fun s => decide ((s.th 1).pc = .valRead 7 0) && !(s.obs 0).live) (by decide +kernel)
  simp only [Bool.and_eq_true, decide_eq_true_eq, Bool.not_eq_true'] at hf
  exact ⟨s, 0, hr, hf⟩

/-- Finding: wolfsentry_user_value_get_string, _bytes and _json without the lock count a reference to an object that has been freed meanwhile
(src/kv.c:297-310). -/
theorem C88_finding_record_after_free : ∃ s x, Reach false orAny s ∧ (s.th 1).pc = .kvIncr x ∧ (s.obs x).live = false := by
  obtain ⟨s, hr, hf⟩ := drive_fact (rr := false) (allowed := fun _ _ _ => true) (P := orAny) (fun _ _ _ _ => trivial) (n := 2)
    (ms := orStore 0 7 5 ++ [.call 1 (.getRecord 7), .step 1, .step 1, .step 1] ++ orDelete 0 7)
    (f := fun s => decide ((s.th 1).pc = .kvIncr 0) && !(s.obs 0).live) (by decide +kernel)
  simp only [Bool.and_eq_true, decide_eq_true_eq, Bool.not_eq_true'] at hf
  exact ⟨s, 0, hr, hf⟩

/-- Finding: the default event is tested before the lock is taken; another thread clears it in between and the getter follows a NULL pointer
(src/routes.c:3532-3535). -/
theorem C88_finding_default_null : ∃ s, Reach false orAny s ∧ (s.th 1).pc = .dgetRead ∧ s.dflt = none := by
  obtain ⟨s, hr, hf⟩ := drive_fact (rr := false) (allowed := fun _ _ _ => true) (P := orAny) (fun _ _ _ _ => trivial) (n := 2)
    (ms := orStore 0 7 5 ++ [.call 0 (.setDefault 7)] ++ List.replicate 6 (.step 0) ++ [.call 1 .getDefault, .step 1] ++
      [.call 0 .clearDefault] ++ List.replicate 4 (.step 0) ++ [.step 1])
    (f := fun s => decide ((s.th 1).pc = .dgetRead) && s.dflt.isNone) (by decide +kernel)
  simp only [Bool.and_eq_true, decide_eq_true_eq, Option.isNone_iff_eq_none] at hf
  exact ⟨s, hr, hf⟩

/-- Finding: if the compiled code reads `parent_table` twice, releasing a reference without the lock follows a NULL pointer when another thread
deletes the object in between (src/kv.c:93-95, src/actions.c:262, src/events.c:416, src/addr_families.c:373).  Only references, deletions, stores and releases are used. -/
theorem C88_finding_release_null :
    ∃ s x, Reach true (fun s t c => LocksGetters s t c) s ∧ (s.th 1).pc = .relType x ∧ (s.obs x).linked = false := by
  obtain ⟨s, hr, hf⟩ := drive_fact (rr := true) (allowed := fun _ _ c => match c with | .getRecord _ | .getValue _ | .getDefault => false | _ => true)
    (P := fun s t c => LocksGetters s t c) (fun s t c h => by cases c <;> first | trivial | cases h) (n := 2)
    (ms := orStore 0 7 5 ++ [.call 1 (.getReference 7), .step 1, .step 1, .step 1, .step 1, .call 1 (.release 0), .step 1] ++
      [.call 0 (.delete 7), .step 0, .step 0, .step 0])
    (f := fun s => decide ((s.th 1).pc = .relType 0) && !(s.obs 0).linked) (by decide +kernel)
  simp only [Bool.and_eq_true, decide_eq_true_eq, Bool.not_eq_true'] at hf
  exact ⟨s, 0, hr, hf⟩

/-- So the full claim fails for callers without the lock. -/
theorem C88_finding_unlocked_faults : ∃ s t, Reach false orAny s ∧ Fault s t := by
  obtain ⟨s, x, hr, hpc, hl⟩ := C88_finding_value_after_free
  exact ⟨s, 1, hr, .inl ⟨x, by rw [hpc]; rfl, hl⟩⟩

/-! ### The hypotheses are met -/

/-- Two threads, no locks of their own: thread 1 takes a reference, thread 0 deletes the object, thread 1 uses and releases it; at the end it is
gone, and before that it was alive though deleted. -/
example : ∃ s, Reach false (fun s t c => LocksGetters s t c) s ∧ (0 ∈ (s.th 1).bag) ∧ s.table 7 = none ∧ (s.th 0).pc = .idle ∧ (s.obs 0).rc = 1 := by
  obtain ⟨s, hr, hf⟩ := drive_fact (rr := false) (allowed := fun _ _ c => match c with | .getRecord _ | .getValue _ | .getDefault => false | _ => true)
    (P := fun s t c => LocksGetters s t c) (fun s t c h => by cases c <;> first | trivial | cases h) (n := 2)
    (ms := orStore 0 7 5 ++ [.call 1 (.getReference 7), .step 1, .step 1, .step 1, .step 1] ++ [.call 0 (.delete 7)] ++ List.replicate 5 (.step 0))
    (f := fun s => (s.th 1).bag.contains 0 && (s.table 7).isNone && decide ((s.th 0).pc = .idle) && decide ((s.obs 0).rc = 1)) (by decide +kernel)
  simp only [Bool.and_eq_true, decide_eq_true_eq, Option.isNone_iff_eq_none, List.contains_iff_mem] at hf
  exact ⟨s, hr, hf.1.1.1, hf.1.1.2, hf.1.2, hf.2⟩

/-- A value getter about to read while another thread waits to delete what it reads: the caller has the lock, so the deletion waits. -/
example : ∃ s, Reach true (fun s t c => LocksGetters s t c ∧ LocksReleases s t c) s ∧ (s.th 1).pc = .valRead 7 0 ∧ (s.th 0).pc = .delLock 7 := by
  obtain ⟨s, hr, hf⟩ := drive_fact (rr := true)
    (allowed := fun s t c => match c with | .getRecord _ | .getValue _ | .getDefault | .release _ => decide (0 < (s.th t).held) | _ => true)
    (P := fun s t c => LocksGetters s t c ∧ LocksReleases s t c)
    (fun s t c h => by cases c <;> simp_all [LocksGetters, LocksReleases]) (n := 2)
    (ms := orStore 0 7 5 ++ [.call 1 .share, .step 1, .call 0 (.delete 7), .call 1 (.getValue 7), .step 1, .step 1, .step 1])
    (f := fun s => decide ((s.th 1).pc = .valRead 7 0) && decide ((s.th 0).pc = .delLock 7)) (by decide +kernel)
  simp only [Bool.and_eq_true, decide_eq_true_eq] at hf
  exact ⟨s, hr, hf⟩

/-- A quiet end: an object that was stored, referred to, made the default event, deleted and released is still alive, being the default event. -/
example : ∃ s, Reach true (fun s t c => LocksGetters s t c ∧ LocksReleases s t c) s ∧ (s.th 0).pc = .idle ∧ (s.th 0).bag = [] ∧ s.dflt = some 0 ∧
    s.table 7 = none ∧ (s.obs 0).live = true := by
  obtain ⟨s, hr, hf⟩ := drive_fact (rr := true)
    (allowed := fun s t c => match c with | .getRecord _ | .getValue _ | .getDefault | .release _ => decide (0 < (s.th t).held) | _ => true)
    (P := fun s t c => LocksGetters s t c ∧ LocksReleases s t c)
    (fun s t c h => by cases c <;> simp_all [LocksGetters, LocksReleases]) (n := 1)
    (ms := orStore 0 7 5 ++ [.call 0 (.setDefault 7)] ++ List.replicate 6 (.step 0) ++ [.call 0 .share, .step 0, .call 0 (.getReference 7)] ++
      List.replicate 4 (.step 0) ++ [.call 0 (.release 0), .step 0, .step 0, .step 0, .call 0 .unlock, .step 0, .call 0 (.delete 7)] ++ List.replicate 5 (.step 0))
    (f := fun s => decide ((s.th 0).pc = .idle) && decide ((s.th 0).bag = []) && decide (s.dflt = some 0) && (s.table 7).isNone && (s.obs 0).live) (by decide +kernel)
  simp only [Bool.and_eq_true, decide_eq_true_eq, Option.isNone_iff_eq_none] at hf
  exact ⟨s, hr, hf.1.1.1.1, hf.1.1.1.2, hf.1.1.2, hf.1.2, hf.2⟩

end WS.Props
