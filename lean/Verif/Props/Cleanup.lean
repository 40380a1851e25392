import Verif.Spec.Cleanup
/-
C46: cleanup hooks run last-in first-out, each exactly once, duplicates being coalesced.
-/
namespace WS.Props
open WS WS.Spec

/-- Handlers may register further hooks but do not pop. -/
def PushOnly (body : Hook → List HookAct) : Prop := ∀ h a, a ∈ body h → ∃ h', a = .push h'

/-! ### the invariant -/

structure HInv (r : Option Hook) (s : Hooks) : Prop where
  log : HookStack.replay {} s.log = some ⟨s.ents.map (·.hook), r⟩
  nodup : (s.ents.map (·.hook)).Nodup

theorem replay_append (st : HookStack) (a b : List HookEvent) :
    st.replay (a ++ b) = (st.replay a).bind (fun st' => st'.replay b) := by
  induction a generalizing st with
  | nil => rfl
  | cons e a ih =>
    simp only [List.cons_append, HookStack.replay]
    cases st.next e with
    | none => rfl
    | some st' => exact ih st'

theorem hinv_snoc {r r' : Option Hook} {s : Hooks} (h : HInv r s) (e : HookEvent) (st' : List Hook)
    (hn : HookStack.next ⟨s.ents.map (·.hook), r⟩ e = some ⟨st', r'⟩) :
    HookStack.replay {} (s.log ++ [e]) = some ⟨st', r'⟩ := by
  rw [replay_append, h.log]
  simp only [Option.bind_some, HookStack.replay, hn]

theorem push_inv {r : Option Hook} {s : Hooks} (h : HInv r s) (k : Hook) :
    HInv r (hookPush s k) ∧ (∀ i, i ∈ s.ents → i ∈ (hookPush s k).ents) := by
  unfold hookPush
  by_cases hk : s.ents.any (fun i => i.hook == k) = true
  · rw [if_pos hk]; exact ⟨h, fun i hi => hi⟩
  · rw [if_neg hk]
    have hnm : k ∉ s.ents.map (·.hook) := by
      intro hm
      obtain ⟨i, hi, he⟩ := List.mem_map.1 hm
      exact hk (List.any_eq_true.2 ⟨i, hi, by simp [he]⟩)
    refine ⟨⟨hinv_snoc h _ _ ?_, ?_⟩, fun i hi => List.mem_cons_of_mem _ hi⟩
    · simp only [HookStack.next, if_neg hnm, List.map_cons]
    · exact List.nodup_cons.2 ⟨hnm, h.nodup⟩

theorem pushes_inv (body : Hook → List HookAct) (n : Nat) {r : Option Hook} (l : List HookAct)
    (hl : ∀ a, a ∈ l → ∃ h', a = .push h') (s : Hooks) (h : HInv r s) :
    ∃ s', l.foldlM (fun s a => hookAct body n a s) s = .ok s' ∧ HInv r s' ∧ ∀ i, i ∈ s.ents → i ∈ s'.ents := by
  induction l generalizing s with
  | nil => exact ⟨s, rfl, h, fun i hi => hi⟩
  | cons a l ih =>
    obtain ⟨k, rfl⟩ := hl a (by simp)
    obtain ⟨h1, h2⟩ := push_inv h k
    obtain ⟨s', e1, e2, e3⟩ := ih (fun a ha => hl a (by simp [ha])) _ h1
    refine ⟨s', ?_, e2, fun i hi => e3 i (h2 i hi)⟩
    rw [List.foldlM_cons]
    have : hookAct body n (.push k) s = .ok (hookPush s k) := by cases n <;> rfl
    rw [this]
    exact e1

theorem filter_erase (l : List HookEnt) (i : HookEnt) (hi : i ∈ l) (hn : (l.map (·.hook)).Nodup) :
    (l.filter (fun j => j != i)).map (·.hook) = (l.map (·.hook)).erase i.hook := by
  induction l with
  | nil => cases hi
  | cons x l ih =>
    simp only [List.map_cons, List.nodup_cons] at hn
    rw [List.map_cons, List.erase_cons]
    by_cases hx : x = i
    · subst hx
      have hno : l.filter (fun j => j != x) = l := by
        rw [List.filter_eq_self]
        intro j hj
        have : j ≠ x := by rintro rfl; exact hn.1 (List.mem_map.2 ⟨j, hj, rfl⟩)
        simp [this]
      simp only [List.filter_cons, bne_self_eq_false, Bool.false_eq_true, if_false, hno, beq_self_eq_true, if_true]
    · have hil : i ∈ l := by
        rcases List.mem_cons.1 hi with h | h
        · exact absurd h.symm hx
        · exact h
      have hne : (x != i) = true := by simpa using hx
      have hnh : ¬ ((x.hook == i.hook) = true) := by
        intro hc
        have hc' : x.hook = i.hook := by simpa using hc
        exact hn.1 (List.mem_map.2 ⟨i, hil, hc'.symm⟩)
      simp only [List.filter_cons, hne, if_true, List.map_cons, if_neg hnh, ih hil hn.2]

theorem act_inv (body : Hook → List HookAct) (hb : PushOnly body) (n : Nat) (a : HookAct) (s : Hooks) (h : HInv none s) :
    ∃ s', hookAct body (n + 1) a s = .ok s' ∧ HInv none s' := by
  cases a with
  | push k => exact ⟨_, rfl, (push_inv h k).1⟩
  | pop exec =>
    unfold hookAct
    cases he : s.ents with
    | nil => exact ⟨s, rfl, h⟩
    | cons i rest =>
      simp only
      have hi : i ∈ s.ents := by rw [he]; simp
      cases exec with
      | true =>
        simp only [if_true]
        have h1 : HInv (some i.hook) { s with log := s.log ++ [.started i.hook] } := by
          refine ⟨hinv_snoc h _ _ ?_, h.nodup⟩
          simp only [HookStack.next]
          rw [if_pos ⟨by rw [he]; rfl, trivial⟩]
        obtain ⟨s', e1, e2, e3⟩ := pushes_inv body n (body i.hook) (fun a ha => hb i.hook a ha) _ h1
        rw [← he]
        simp only [e1]
        have hi' := e3 i hi
        rw [if_pos hi']
        refine ⟨_, rfl, ⟨hinv_snoc e2 _ _ ?_, ?_⟩⟩
        · simp only [HookStack.next]
          rw [if_pos ⟨trivial, List.mem_map.2 ⟨i, hi', rfl⟩⟩, filter_erase _ _ hi' e2.nodup]
        · show (List.map _ _).Nodup
          rw [filter_erase _ _ hi' e2.nodup]
          exact e2.nodup.erase _
      | false =>
        simp only [Bool.false_eq_true, if_false]
        rw [← he]
        refine ⟨_, rfl, ⟨hinv_snoc h _ _ ?_, ?_⟩⟩
        · simp only [HookStack.next]
          rw [if_pos ⟨by rw [he]; rfl, trivial⟩, filter_erase _ _ hi h.nodup]
        · show (List.map _ _).Nodup
          rw [filter_erase _ _ hi h.nodup]
          exact h.nodup.erase _

theorem all_inv (body : Hook → List HookAct) (hb : PushOnly body) (n : Nat) (s s' : Hooks) (h : HInv none s)
    (hr : hookAll body n s = .ok s') : HInv none s' ∧ s'.ents = [] := by
  induction n generalizing s with
  | zero => cases hr
  | succ n ih =>
    unfold hookAll at hr
    cases he : s.ents with
    | nil => rw [he] at hr; cases hr; exact ⟨h, he⟩
    | cons i rest =>
      rw [he] at hr
      simp only at hr
      obtain ⟨s1, e1, e2⟩ := act_inv body hb n (.pop true) s h
      rw [e1] at hr
      exact ih s1 e2 hr

theorem run_inv (body : Hook → List HookAct) (hb : PushOnly body) (fuel : Nat) (ops : List HookOp) (s s' : Hooks) (h : HInv none s)
    (hr : ops.foldlM (hookOp body fuel) s = .ok s') : HInv none s' := by
  induction ops generalizing s with
  | nil => cases hr; exact h
  | cons op ops ih =>
    rw [List.foldlM_cons] at hr
    cases h1 : hookOp body fuel s op with
    | error c => rw [h1] at hr; cases hr
    | ok s1 =>
      rw [h1] at hr
      refine ih s1 ?_ hr
      cases op with
      | push k =>
        have : hookAct body fuel (.push k) s = .ok (hookPush s k) := by cases fuel <;> rfl
        rw [hookOp, this] at h1
        cases h1
        exact (push_inv h k).1
      | pop e =>
        cases fuel with
        | zero => cases h1
        | succ n =>
          obtain ⟨s2, e1, e2⟩ := act_inv body hb n (.pop e) s h
          rw [hookOp, e1] at h1
          cases h1; exact e2
      | all => exact (all_inv body hb fuel s s1 h h1).1

/-! ### the property -/

/-- For every history of registrations, pops and clean-ups, with handlers that may themselves
register further hooks: the events are those of a stack.  No hook is on it twice, only the top is
started, one at a time, and each started hook finishes once and is then gone (`HookStack.next`). -/
theorem C46_stack_partial (body : Hook → List HookAct) (hb : PushOnly body) (fuel : Nat) (ops : List HookOp) (s : Hooks)
    (hr : hookRun body fuel ops = .ok s) :
    HookStack.replay {} s.log = some ⟨s.ents.map (·.hook), none⟩ := by
  exact (run_inv body hb fuel ops {} s ⟨rfl, List.nodup_nil⟩ hr).log

/-- Exactly once: in such a history a hook has been registered as many times as it has been run or
dropped, plus one if it is still registered. -/
theorem C46_exactly_once_partial (body : Hook → List HookAct) (hb : PushOnly body) (fuel : Nat) (ops : List HookOp) (s : Hooks)
    (hr : hookRun body fuel ops = .ok s) (h : Hook) :
    s.log.count (.registered h) = s.log.count (.started h) + s.log.count (.dropped h) +
      (if h ∈ s.ents.map (·.hook) then 1 else 0) ∧
    s.log.count (.started h) = s.log.count (.finished h) := by
  have key : ∀ (l : List HookEvent) (st st' : HookStack), st.stack.Nodup → st.replay l = some st' →
      st'.stack.Nodup ∧
      l.count (.registered h) + (if h ∈ st.stack then 1 else 0) =
        l.count (.finished h) + l.count (.dropped h) + (if h ∈ st'.stack then 1 else 0) ∧
      l.count (.started h) + (if st.running = some h then 1 else 0) =
        l.count (.finished h) + (if st'.running = some h then 1 else 0) := by
    intro l
    induction l with
    | nil => intro st st' hn he; cases he; exact ⟨hn, by simp, by simp⟩
    | cons e l ih =>
      intro st st' hn he
      simp only [HookStack.replay] at he
      cases hx : st.next e with
      | none => rw [hx] at he; cases he
      | some st1 =>
        rw [hx] at he
        cases e with
        | registered k =>
          simp only [HookStack.next] at hx
          by_cases hk : k ∈ st.stack
          · rw [if_pos hk] at hx; cases hx
          · rw [if_neg hk] at hx; cases hx
            obtain ⟨a1, a2, a3⟩ := ih _ st' (List.nodup_cons.2 ⟨hk, hn⟩) he
            refine ⟨a1, ?_, by simpa [List.count_cons] using a3⟩
            simp only [List.count_cons] at a2 ⊢
            by_cases hkh : k = h
            · subst hkh
              simp only [List.mem_cons, true_or, if_true, hk, if_false] at a2 ⊢
              simp at *; omega
            · have hm : (h ∈ k :: st.stack) ↔ h ∈ st.stack := by simp [Ne.symm hkh]
              simp only [hm] at a2
              simp [hkh] at *; omega
        | started k =>
          simp only [HookStack.next] at hx
          split at hx
          · rename_i hc
            cases hx
            obtain ⟨a1, a2, a3⟩ := ih { st with running := some k } st' hn he
            refine ⟨a1, by simpa [List.count_cons] using a2, ?_⟩
            simp only [List.count_cons, hc.2] at a3 ⊢
            by_cases hkh : k = h
            · subst hkh; simp at *; omega
            · simp [hkh] at *; omega
          · cases hx
        | finished k =>
          simp only [HookStack.next] at hx
          split at hx
          · rename_i hc
            cases hx
            obtain ⟨a1, a2, a3⟩ := ih _ st' (hn.erase k) he
            simp only [List.count_cons, hc.1] at a2 a3 ⊢
            by_cases hkh : k = h
            · subst hkh
              have : k ∉ st.stack.erase k := fun hm => (List.Nodup.mem_erase_iff hn).1 hm |>.1 rfl
              simp [this, hc.2] at *
              exact ⟨a1, by omega, by omega⟩
            · have hm : h ∈ st.stack.erase k ↔ h ∈ st.stack := List.mem_erase_of_ne (Ne.symm hkh)
              simp [hm, hkh] at *
              exact ⟨a1, by omega, by omega⟩
          · cases hx
        | dropped k =>
          simp only [HookStack.next] at hx
          split at hx
          · rename_i hc
            cases hx
            obtain ⟨a1, a2, a3⟩ := ih _ st' (hn.erase k) he
            simp only [List.count_cons, hc.2] at a2 a3 ⊢
            have hkm : k ∈ st.stack := List.mem_of_mem_head? hc.1
            by_cases hkh : k = h
            · subst hkh
              have : k ∉ st.stack.erase k := fun hm => (List.Nodup.mem_erase_iff hn).1 hm |>.1 rfl
              simp [this, hkm] at *
              exact ⟨a1, by omega, by omega⟩
            · have hm : h ∈ st.stack.erase k ↔ h ∈ st.stack := List.mem_erase_of_ne (Ne.symm hkh)
              simp [hm, hkh] at *
              exact ⟨a1, by omega, by omega⟩
          · cases hx
  obtain ⟨_, a2, a3⟩ := key s.log {} _ List.nodup_nil (C46_stack_partial body hb fuel ops s hr)
  simp at a2 a3 ⊢
  omega

/-- No call on hooks crashes or fails to return, except that a clean-up need not return when
handlers keep registering hooks. -/
theorem C46_no_crash_partial (body : Hook → List HookAct) (hb : PushOnly body) (fuel : Nat) (ops : List HookOp)
    (c : HookCrash) (hr : hookRun body (fuel + 1) ops = .error c) : c = .noReturn ∧ HookOp.all ∈ ops := by
  unfold hookRun at hr
  have key : ∀ (ops : List HookOp) (s : Hooks), HInv none s → ops.foldlM (hookOp body (fuel + 1)) s = .error c →
      c = .noReturn ∧ HookOp.all ∈ ops := by
    intro ops
    induction ops with
    | nil => intro s _ hr; cases hr
    | cons op ops ih =>
      intro s h hr
      rw [List.foldlM_cons] at hr
      cases op with
      | push k =>
        have h1 : hookOp body (fuel + 1) s (.push k) = .ok (hookPush s k) := rfl
        rw [h1] at hr
        have := ih _ (push_inv h k).1 hr
        exact ⟨this.1, List.mem_cons_of_mem _ this.2⟩
      | pop e =>
        obtain ⟨s1, e1, e2⟩ := act_inv body hb fuel (.pop e) s h
        have h1 : hookOp body (fuel + 1) s (.pop e) = .ok s1 := e1
        rw [h1] at hr
        have := ih _ e2 hr
        exact ⟨this.1, List.mem_cons_of_mem _ this.2⟩
      | all =>
        cases h1 : hookOp body (fuel + 1) s .all with
        | ok s1 =>
          rw [h1] at hr
          have := ih _ (all_inv body hb _ s s1 h h1).1 hr
          exact ⟨this.1, List.mem_cons_of_mem _ this.2⟩
        | error c' =>
          rw [h1] at hr
          cases hr
          refine ⟨?_, by simp⟩
          have allk : ∀ n s, HInv none s → hookAll body n s = .error c → c = .noReturn := by
            intro n
            induction n with
            | zero => intro s _ he; cases he; rfl
            | succ n ih =>
              intro s h he
              unfold hookAll at he
              cases hes : s.ents with
              | nil => rw [hes] at he; cases he
              | cons i rest =>
                rw [hes] at he
                simp only at he
                obtain ⟨s1, e1, e2⟩ := act_inv body hb n (.pop true) s h
                rw [e1] at he
                exact ih s1 e2 he
          exact allk _ s h h1
  exact key ops {} ⟨rfl, List.nodup_nil⟩ hr

/-- A clean-up that returns leaves no hook registered. -/
theorem C46_all_empties_partial (body : Hook → List HookAct) (hb : PushOnly body) (fuel : Nat) (ops : List HookOp) (s s' : Hooks)
    (hr : hookRun body fuel ops = .ok s) (ha : hookAll body fuel s = .ok s') : s'.ents = [] :=
  (all_inv body hb fuel s s' (run_inv body hb fuel ops {} s ⟨rfl, List.nodup_nil⟩ hr) ha).2

/-- When handlers register nothing, a clean-up returns after running all hooks, most recently
registered first. -/
theorem C46_all_lifo (body : Hook → List HookAct) (hb : ∀ h, body h = []) (fuel : Nat) (ops : List HookOp) (s : Hooks)
    (hr : hookRun body fuel ops = .ok s) (n : Nat) (hn : s.ents.length < n) :
    ∃ s', hookAll body n s = .ok s' ∧ s'.ents = [] ∧
      s'.log = s.log ++ (s.ents.map (·.hook)).flatMap (fun h => [.started h, .finished h]) := by
  have h := run_inv body (by intro h a ha; rw [hb] at ha; cases ha) fuel ops {} s ⟨rfl, List.nodup_nil⟩ hr
  clear hr
  induction n generalizing s with
  | zero => omega
  | succ n ih =>
    unfold hookAll
    cases he : s.ents with
    | nil => exact ⟨s, rfl, he, by simp⟩
    | cons i rest =>
      simp only
      have hact : hookAct body (n + 1) (.pop true) s =
          .ok { s with ents := rest, log := s.log ++ [.started i.hook] ++ [.finished i.hook] } := by
        unfold hookAct
        rw [he]
        simp only [if_true, hb]
        have hnd : ((i :: rest).map (·.hook)).Nodup := by rw [← he]; exact h.nodup
        have hfilter : (i :: rest).filter (fun j => j != i) = rest := by
          rw [List.filter_cons]
          simp only [bne_self_eq_false, Bool.false_eq_true, if_false]
          rw [List.filter_eq_self]
          intro j hj
          have : j ≠ i := by
            rintro rfl
            exact (List.nodup_cons.1 hnd).1 (List.mem_map.2 ⟨j, hj, rfl⟩)
          simp [this]
        rw [List.foldlM_nil]
        show (if i ∈ (i :: rest) then _ else _) = _
        rw [if_pos (by simp)]
        show Except.ok _ = _
        simp only [hfilter]
      rw [hact]
      simp only
      have hs1 : HInv none { s with ents := rest, log := s.log ++ [.started i.hook] ++ [.finished i.hook] } := by
        obtain ⟨s2, e1, e2⟩ := act_inv body (by intro h a ha; rw [hb] at ha; cases ha) n (.pop true) s h
        rw [hact] at e1; cases e1; exact e2
      obtain ⟨s', e1, e2, e3⟩ := ih { s with ents := rest, log := s.log ++ [.started i.hook] ++ [.finished i.hook] }
        (by have : s.ents.length = rest.length + 1 := by rw [he]; rfl
            show rest.length < n; omega) hs1
      refine ⟨s', e1, e2, ?_⟩
      rw [e3]
      simp

/-- Registering a list of hooks leaves its distinct members, the latest on top. -/
theorem C46_registration_order (body : Hook → List HookAct) (fuel : Nat) (l : List Hook) :
    ∃ s, hookRun body fuel (l.map .push) = .ok s ∧ s.ents.map (·.hook) = (distinct l).reverse := by
  have push_hooks : ∀ (s : Hooks) (k : Hook), (hookPush s k).ents.map (·.hook) =
      if k ∈ s.ents.map (·.hook) then s.ents.map (·.hook) else k :: s.ents.map (·.hook) := by
    intro s k
    unfold hookPush
    by_cases hk : k ∈ s.ents.map (·.hook)
    · rw [if_pos hk, if_pos]
      obtain ⟨i, hi, he⟩ := List.mem_map.1 hk
      exact List.any_eq_true.2 ⟨i, hi, by simp [he]⟩
    · rw [if_neg hk, if_neg]
      · rfl
      · intro hc
        obtain ⟨i, hi, he⟩ := List.any_eq_true.1 hc
        exact hk (List.mem_map.2 ⟨i, hi, by simpa using he⟩)
  have key : ∀ (l : List Hook) (s : Hooks), ∃ s', (l.map HookOp.push).foldlM (hookOp body fuel) s = .ok s' ∧
      s'.ents.map (·.hook) = ((distinct l).filter (fun x => x ∉ s.ents.map (·.hook))).reverse ++ s.ents.map (·.hook) := by
    intro l
    induction l with
    | nil => intro s; exact ⟨s, rfl, by simp [distinct]⟩
    | cons k l ih =>
      intro s
      obtain ⟨s', e1, e2⟩ := ih (hookPush s k)
      refine ⟨s', ?_, ?_⟩
      · rw [List.map_cons, List.foldlM_cons]
        have : hookOp body fuel s (.push k) = .ok (hookPush s k) := by cases fuel <;> rfl
        rw [this]; exact e1
      · rw [e2, push_hooks s k]
        by_cases hk : k ∈ s.ents.map (·.hook)
        · rw [if_pos hk]
          simp only [distinct, List.filter_cons, hk, not_true_eq_false, decide_false, Bool.false_eq_true, if_false, List.filter_filter]
          congr 2
          apply List.filter_congr
          intro x _
          by_cases hx : x = k
          · subst hx; simp [hk]
          · simp [hx]
        · rw [if_neg hk]
          simp only [distinct, List.filter_cons, hk, not_false_eq_true, decide_true, if_true, List.filter_filter,
            List.reverse_cons, List.append_assoc, List.cons_append, List.nil_append]
          congr 2
          apply List.filter_congr
          intro x _
          by_cases hx : x = k
          · subst hx; simp
          · simp [hx]
  obtain ⟨s, e1, e2⟩ := key l {}
  refine ⟨s, e1, ?_⟩
  rw [e2]
  simp

/-- The whole story for the simplest use: register hooks, then clean up; they run in reverse order
of (first) registration, each once. -/
theorem C46_register_then_clean (body : Hook → List HookAct) (hb : ∀ h, body h = []) (l : List Hook) :
    ∃ s, hookRun body (l.length + 2) (l.map .push ++ [.all]) = .ok s ∧ s.ents = [] ∧
      s.log.filter (fun e => match e with | .registered _ => false | _ => true) =
        (distinct l).reverse.flatMap (fun h => [.started h, .finished h]) := by
  obtain ⟨s, e1, e2⟩ := C46_registration_order body (l.length + 2) l
  have hlen : s.ents.length < l.length + 2 := by
    have hd : ∀ l : List Hook, (distinct l).length ≤ l.length := by
      intro l
      induction l with
      | nil => simp [distinct]
      | cons k l ih =>
        simp only [distinct, List.length_cons]
        have := List.length_filter_le (fun x => decide (x ≠ k)) (distinct l)
        omega
    have := congrArg List.length e2
    simp only [List.length_map, List.length_reverse] at this
    have := hd l
    omega
  obtain ⟨s', f1, f2, f3⟩ := C46_all_lifo body hb (l.length + 2) _ s e1 (l.length + 2) hlen
  refine ⟨s', ?_, f2, ?_⟩
  · unfold hookRun at e1 ⊢
    rw [List.foldlM_append, e1]
    show (hookAll body (l.length + 2) s >>= fun s => pure s) = _
    rw [f1]; rfl
  · rw [f3, List.filter_append, e2]
    have h1 : s.log.filter (fun e => match e with | .registered _ => false | _ => true) = [] := by
      have reg : ∀ (fuel : Nat) (l : List Hook) (s s' : Hooks), (∀ e ∈ s.log, ∃ h, e = .registered h) →
          (l.map HookOp.push).foldlM (hookOp body fuel) s = .ok s' → ∀ e ∈ s'.log, ∃ h, e = .registered h := by
        intro fuel l
        induction l with
        | nil => intro s s' h he; cases he; exact h
        | cons k l ih =>
          intro s s' h he
          rw [List.map_cons, List.foldlM_cons] at he
          have h1 : hookOp body fuel s (.push k) = .ok (hookPush s k) := by cases fuel <;> rfl
          rw [h1] at he
          refine ih (hookPush s k) s' ?_ he
          unfold hookPush
          split
          · exact h
          · intro e hm
            rcases List.mem_append.1 hm with hm | hm
            · exact h e hm
            · exact ⟨k, by simpa using hm⟩
      rw [List.filter_eq_nil_iff]
      intro e hm
      obtain ⟨h, rfl⟩ := reg (l.length + 2) l {} s (by intro e he; cases he) e1 e hm
      simp
    rw [h1, List.nil_append, List.filter_eq_self]
    intro e hm
    obtain ⟨h, _, hm⟩ := List.mem_flatMap.1 hm
    rcases List.mem_cons.1 hm with rfl | hm
    · rfl
    · rw [List.mem_singleton.1 hm]

/-! ### non-vacuity, and what happens otherwise -/

def hk1 : Hook := ⟨1, 0⟩
def hk2 : Hook := ⟨2, 0⟩

/-- hook 2 registers hook 1 when it runs -/
def bodyReg : Hook → List HookAct := fun h => if h = hk2 then [.push hk1] else []

example : PushOnly bodyReg := by
  intro h a ha; unfold bodyReg at ha; split at ha
  · exact ⟨hk1, by simpa using ha⟩
  · cases ha

example : (hookRun bodyReg 5 [.push hk2, .push hk2, .all]).toOption.map (·.log) =
    some [.registered hk2, .started hk2, .registered hk1, .finished hk2, .started hk1, .finished hk1] := by decide

example : (hookRun (fun _ => []) 5 [.push hk1, .push hk2, .push hk1, .all]).toOption.map (·.log) =
    some [.registered hk1, .registered hk2, .started hk2, .finished hk2, .started hk1, .finished hk1] := by decide

/-- FINDING: the hook is still in the list while its handler runs, so a handler that calls
`wolfsentry_cleanup_pop` without execution frees its own entry, which is then used after free. -/
theorem C46_pop_in_handler_uses_freed :
    hookRun (fun _ => [.pop false]) 5 [.push hk1, .pop true] = .error .useAfterFree := by decide

/-- FINDING: a handler that pops with execution (or cleans up) calls itself again and again,
however deep the stack. -/
theorem C46_pop_in_handler_recurses (fuel : Nat) :
    hookRun (fun _ => [.pop true]) fuel [.push hk1, .pop true] = .error .noReturn := by
  have key : ∀ (n : Nat) (s : Hooks), s.ents ≠ [] → hookAct (fun _ => [.pop true]) n (.pop true) s = .error .noReturn := by
    intro n
    induction n with
    | zero => intro s _; rfl
    | succ n ih =>
      intro s hs
      unfold hookAct
      cases he : s.ents with
      | nil => exact absurd he hs
      | cons i rest =>
        simp only [if_true]
        rw [List.foldlM_cons, ih _ (by simp)]
        rfl
  have h1 : hookAct (fun _ => [.pop true]) fuel (.push hk1) {} = .ok (hookPush {} hk1) := by cases fuel <;> rfl
  show (hookAct (fun _ => [.pop true]) fuel (.push hk1) {} >>= fun s => hookAct (fun _ => [.pop true]) fuel (.pop true) s >>= fun s => pure s) = _
  rw [h1]
  show (hookAct (fun _ => [.pop true]) fuel (.pop true) (hookPush {} hk1) >>= fun s => pure s) = _
  rw [key fuel _ (by decide)]
  rfl

end WS.Props
