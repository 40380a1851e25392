import Verif.Proof.JsonDom
/-
The tree under construction, part 2: every sequence of events of a tree ends in the value of the tree or in an error.
-/
namespace WS.Dom
open WS WS.Sax WS.Spec.Json WS.Spec.Dom WS.JNum WS.Props

variable {S : List Byte → Option (BitVec 64)} {pol : DupKey} {o : Bool}

theorem locate_wrapped {st st' : State} (h : locate pol st = .at st') : st'.wrapped = false := by
  unfold locate at h
  split at h
  · cases h
  · rename_i hw
    rw [Bool.not_eq_true] at hw
    split at h
    · cases h; exact hw
    · cases h; exact hw
    · simp only at h
      split at h
      · split at h
        · cases h
        · cases h; exact hw
        · cases h
      · cases h; exact hw

theorem process_at {st st' : State} (h : locate pol st = .at st') {e : Event} (h1 : e.type ≠ .arrayEnd) (h2 : e.type ≠ .objectEnd)
    (h3 : e.type ≠ .key) : process S pol o st e = create S o st' e.type e.data := by
  simp only [process, h1, h2, h3, or_self, if_false, h]

theorem events_head (t : T) : ∃ e rest, t.events = e :: rest ∧ e.type ≠ .arrayEnd ∧ e.type ≠ .objectEnd ∧ e.type ≠ .key ∧
    (t.Plain → rest = []) := by
  cases t with
  | null => exact ⟨_, _, rfl, by decide, by decide, by decide, fun _ => rfl⟩
  | bool b => exact ⟨_, _, rfl, by cases b <;> decide, by cases b <;> decide, by cases b <;> decide, fun _ => rfl⟩
  | num t => exact ⟨_, _, rfl, by simp, by simp, by simp, fun _ => rfl⟩
  | str t => exact ⟨_, _, rfl, by simp, by simp, by simp, fun _ => rfl⟩
  | arr t => exact ⟨_, _, rfl, by simp, by simp, by simp, fun h => h.elim⟩
  | obj t => exact ⟨_, _, rfl, by simp, by simp, by simp, fun h => h.elim⟩

/-- What the events of a value do. -/
def ValueOut (S : List Byte → Option (BitVec 64)) (pol : DupKey) (o : Bool) (t : T) : Prop :=
  (∃ v, Reads S pol o t v ∧ (∀ v', Reads S pol o t v' → v' = v) ∧
    ∀ st st', locate pol st = .at st' → st'.key = none → run S pol o st t.events = .ok (st'.store v)) ∨
  ((∀ v, ¬ Reads S pol o t v) ∧ ∀ st st', locate pol st = .at st' → st'.key = none → ∃ c, run S pol o st t.events = .err c)

def ElementsOut (S : List Byte → Option (BitVec 64)) (pol : DupKey) (o : Bool) (ts : List T) : Prop :=
  (∃ vs, ReadsAll S pol o ts vs ∧ (∀ vs', ReadsAll S pol o ts vs' → vs' = vs) ∧
    ∀ root ys rest, run S pol o ⟨root, .arr ys :: rest, none, false⟩ (elements ts) = .ok ⟨root, .arr (ys ++ vs) :: rest, none, false⟩) ∨
  ((∀ vs, ¬ ReadsAll S pol o ts vs) ∧ ∀ root ys rest, ∃ c, run S pol o ⟨root, .arr ys :: rest, none, false⟩ (elements ts) = .err c)

def MembersOut (S : List Byte → Option (BitVec 64)) (pol : DupKey) (o : Bool) (ms : List (List Byte × T)) : Prop :=
  ∀ es : List (List Byte × V), (pol = .useFirst → ∀ e ∈ ms, e.1 ∈ es.map (·.1) → e.2.Plain) →
  (∃ es', After S pol o es ms es' ∧ (∀ es1, After S pol o es ms es1 → es1 = es') ∧
    ∀ root od slot rest, ∃ slot', run S pol o ⟨root, .dict od es slot :: rest, none, false⟩ (members ms) =
      .ok ⟨root, .dict od es' slot' :: rest, none, false⟩) ∨
  ((∀ es', ¬ After S pol o es ms es') ∧ ∀ root od slot rest, ∃ c,
    run S pol o ⟨root, .dict od es slot :: rest, none, false⟩ (members ms) = .err c)

theorem scalar_out {t : T} {e : Event} {v : V} (he : t.events = [e]) (hr : Reads S pol o t v) (hu : ∀ v', Reads S pol o t v' → v' = v)
    (h1 : e.type ≠ .arrayEnd) (h2 : e.type ≠ .objectEnd) (h3 : e.type ≠ .key)
    (hc : ∀ st, create S o st e.type e.data = .ok (st.store v)) : ValueOut S pol o t := by
  refine Or.inl ⟨v, hr, hu, fun st st' hl _ => ?_⟩
  simp only [he, run, process_at hl h1 h2 h3, hc]

theorem pop_close (st : State) (f : Frame) (hw : st.wrapped = false) : pop { st with path := f :: st.path } = st.store f.close := by
  obtain ⟨root, path, key, w⟩ := st
  simp only at hw
  subst hw
  rfl

theorem locate_arr (root : V) (ys : List V) (rest : List Frame) :
    locate pol ⟨root, .arr ys :: rest, none, false⟩ = .at ⟨root, .arr ys :: rest, none, false⟩ := rfl

theorem locate_key (root : V) (od : Bool) (es : List (List Byte × V)) (slot k : List Byte) (rest : List Frame) :
    locate pol ⟨root, .dict od es slot :: rest, some k, false⟩ =
      if k ∈ es.map (·.1) then (match pol with
        | .useFirst => .skip ⟨root, .dict od es k :: rest, none, false⟩
        | .useLast => .at ⟨root, .dict od es k :: rest, none, false⟩
        | .abort => .dup)
      else .at ⟨root, .dict od (es ++ [(k, .null)]) k :: rest, none, false⟩ := by
  simp only [locate, Bool.false_eq_true, if_false, Option.getD_some, has_iff, Rb.absStep, Bool.not_true, Bool.or_false, decide_eq_true_eq]
  by_cases hk : k ∈ es.map (·.1)
  · simp only [hk, if_true]
    cases pol <;> rfl
  · simp only [hk, if_false]

theorem store_new (root : V) (od : Bool) (es : List (List Byte × V)) (k : List Byte) (rest : List Frame) (v : V) (hk : k ∉ es.map (·.1)) :
    State.store ⟨root, .dict od (es ++ [(k, .null)]) k :: rest, none, false⟩ v = ⟨root, .dict od (es ++ [(k, v)]) k :: rest, none, false⟩ := by
  simp only [State.store, Frame.put, absSet]
  have : set k v (es ++ [(k, .null)]) = es ++ [(k, v)] := by
    have h0 := set_none k v es hk
    simp only [set, List.map_append, List.map_cons, if_true, List.map_nil] at h0 ⊢
    rw [h0]
  rw [this]

theorem store_old (root : V) (od : Bool) (es : List (List Byte × V)) (k : List Byte) (rest : List Frame) (v : V) :
    State.store ⟨root, .dict od es k :: rest, none, false⟩ v = ⟨root, .dict od (set k v es) k :: rest, none, false⟩ := by
  simp only [State.store, Frame.put, absSet]

mutual
theorem value_out : ∀ t : T, t.Numeric → (pol = .useFirst → t.Tame) → ValueOut S pol o t
  | .null, _, _ => scalar_out rfl .null (by intro v' h; cases h; rfl) (by decide) (by decide) (by decide) (fun _ => rfl)
  | .bool b, _, _ => scalar_out rfl (.bool b) (by intro v' h; cases h; rfl) (by cases b <;> decide) (by cases b <;> decide)
      (by cases b <;> decide) (fun _ => by cases b <;> rfl)
  | .str s, _, _ => scalar_out rfl (.str s) (by intro v' h; cases h; rfl) (by simp) (by simp) (by simp) (fun _ => rfl)
  | .num t, hn, _ => by
    rcases num_cases (S := S) (t := t) hn with ⟨v, hv⟩ | ⟨he, hno⟩
    · refine scalar_out rfl (.num hv) ?_ (by simp) (by simp) (by simp) (fun st => ?_)
      · intro v' h
        cases h with
        | num h =>
          have h1 := initNumber_of_num h
          rw [initNumber_of_num hv] at h1
          cases h1; rfl
      · simp only [create, initNumber_of_num hv]
    · refine Or.inr ⟨fun v h => ?_, fun st st' hl _ => ⟨-2, ?_⟩⟩
      · cases h with
        | num h => exact hno _ h
      · simp only [T.events, run]
        rw [process_at hl (by simp) (by simp) (by simp)]
        simp only [create, he]
  | .arr ts, hn, ht => by
    have hstep : ∀ st st', locate pol st = .at st' → run S pol o st (T.arr ts).events =
        run S pol o { st' with path := .arr [] :: st'.path } (elements ts ++ [⟨.arrayEnd, []⟩]) := by
      intro st st' hl
      simp only [T.events, run]
      rw [process_at hl (by simp) (by simp) (by simp)]
      simp only [create]
    rcases elements_out ts hn ht with ⟨vs, hr, hu, hrun⟩ | ⟨hno, hrun⟩
    · refine Or.inl ⟨.array vs, .arr hr, ?_, fun st st' hl hk => ?_⟩
      · intro v' h
        cases h with
        | arr h => rw [hu _ h]
      · rw [hstep st st' hl]
        have hw := locate_wrapped hl
        obtain ⟨root, path, key, wr⟩ := st'
        simp only at hk hw
        subst hk hw
        rw [run_append_ok _ (hrun root [] path)]
        simp only [run, process, true_or, if_true, List.nil_append]
        exact congrArg Out.ok (pop_close ⟨root, path, none, false⟩ (.arr vs) rfl)
    · refine Or.inr ⟨fun v h => ?_, fun st st' hl hk => ?_⟩
      · cases h with
        | arr h => exact hno _ h
      · rw [hstep st st' hl]
        have hw := locate_wrapped hl
        obtain ⟨root, path, key, wr⟩ := st'
        simp only at hk hw
        subst hk hw
        obtain ⟨c, hc⟩ := hrun root [] path
        exact ⟨c, run_append_err _ hc⟩
  | .obj ms, hn, ht => by
    have hstep : ∀ st st', locate pol st = .at st' → run S pol o st (T.obj ms).events =
        run S pol o { st' with path := .dict o [] [] :: st'.path } (members ms ++ [⟨.objectEnd, []⟩]) := by
      intro st st' hl
      simp only [T.events, run]
      rw [process_at hl (by simp) (by simp) (by simp)]
      simp only [create]
    rcases members_out ms hn (fun h => (ht h).1) (fun h => (ht h).2) [] (by simp) with ⟨es, hr, hu, hrun⟩ | ⟨hno, hrun⟩
    · refine Or.inl ⟨.dict o es, (after_reads ms _).2 ⟨es, hr, rfl⟩, ?_, fun st st' hl hk => ?_⟩
      · intro v' h
        obtain ⟨es', h1, rfl⟩ := (after_reads ms _).1 h
        rw [hu _ h1]
      · rw [hstep st st' hl]
        have hw := locate_wrapped hl
        obtain ⟨root, path, key, wr⟩ := st'
        simp only at hk hw
        subst hk hw
        obtain ⟨slot', hs⟩ := hrun root o [] path
        rw [run_append_ok _ hs]
        simp only [run, process, or_true, if_true]
        exact congrArg Out.ok (pop_close ⟨root, path, none, false⟩ (.dict o es slot') rfl)
    · refine Or.inr ⟨fun v h => ?_, fun st st' hl hk => ?_⟩
      · obtain ⟨es', h1, rfl⟩ := (after_reads ms _).1 h
        exact hno _ h1
      · rw [hstep st st' hl]
        have hw := locate_wrapped hl
        obtain ⟨root, path, key, wr⟩ := st'
        simp only at hk hw
        subst hk hw
        obtain ⟨c, hc⟩ := hrun root o [] path
        exact ⟨c, run_append_err _ hc⟩
theorem elements_out : ∀ ts : List T, allNumeric ts → (pol = .useFirst → allTame ts) → ElementsOut S pol o ts
  | [], _, _ => Or.inl ⟨[], .nil, by intro vs h; cases h; rfl, fun root ys rest => by simp [elements, run]⟩
  | t :: ts, hn, ht => by
    rcases value_out t hn.1 (fun h => (ht h).1) with ⟨v, hv, huv, hrv⟩ | ⟨hnv, hrv⟩
    · rcases elements_out ts hn.2 (fun h => (ht h).2) with ⟨vs, hr, hu, hrun⟩ | ⟨hno, hrun⟩
      · refine Or.inl ⟨v :: vs, .cons hv hr, ?_, fun root ys rest => ?_⟩
        · intro vs' h
          cases h with
          | cons h1 h2 => rw [huv _ h1, hu _ h2]
        · rw [elements, run_append_ok _ (hrv _ _ (locate_arr root ys rest) rfl)]
          simp only [State.store, Frame.put]
          rw [hrun]
          simp
      · refine Or.inr ⟨fun vs h => ?_, fun root ys rest => ?_⟩
        · cases h with
          | cons h1 h2 => exact hno _ h2
        · rw [elements, run_append_ok _ (hrv _ _ (locate_arr root ys rest) rfl)]
          exact hrun _ _ _
    · refine Or.inr ⟨fun vs h => ?_, fun root ys rest => ?_⟩
      · cases h with
        | cons h1 h2 => exact hnv _ h1
      · obtain ⟨c, hc⟩ := hrv _ _ (locate_arr root ys rest) rfl
        exact ⟨c, by rw [elements]; exact run_append_err _ hc⟩
theorem members_out : ∀ ms : List (List Byte × T), membersNumeric ms → (pol = .useFirst → RepeatsPlain ms) →
    (pol = .useFirst → membersTame ms) → MembersOut S pol o ms
  | [], _, _, _ => fun es _ => Or.inl ⟨es, .nil, by intro es1 h; cases h; rfl, fun root od slot rest => ⟨slot, rfl⟩⟩
  | (k, t) :: ms, hn, hp, ht => by
    intro es hes
    have hkey : ∀ root od slot rest, run S pol o ⟨root, .dict od es slot :: rest, none, false⟩ (members ((k, t) :: ms)) =
        run S pol o ⟨root, .dict od es slot :: rest, some k, false⟩ (t.events ++ members ms) := by
      intro root od slot rest
      simp only [members, run]
      rfl
    have ihm := members_out ms hn.2 (fun h => (hp h).2) (fun h => (ht h).2)
    have ihv := value_out t hn.1 (fun h => (ht h).1)
    by_cases hk : k ∈ es.map (·.1)
    · rcases hpol : pol with _ | _ | _
      · -- ABORT
        subst hpol
        refine Or.inr ⟨fun es' h => ?_, fun root od slot rest => ⟨-1000, ?_⟩⟩
        · cases h with
          | new h _ _ => exact h hk
          | first h _ _ => cases h
          | last h _ _ _ => cases h
        · rw [hkey]
          obtain ⟨e, r, he, h1, h2, h3, _⟩ := events_head t
          rw [he]
          simp only [List.cons_append, run, process, h1, h2, h3, or_self, if_false, locate_key, hk, if_true]
      · -- USEFIRST
        subst hpol
        have hplain : t.Plain := hes rfl _ List.mem_cons_self hk
        obtain ⟨e, r, he, h1, h2, h3, h4⟩ := events_head t
        rw [h4 hplain] at he
        have hskip : ∀ root od slot rest, run S .useFirst o ⟨root, .dict od es slot :: rest, none, false⟩ (members ((k, t) :: ms)) =
            run S .useFirst o ⟨root, .dict od es k :: rest, none, false⟩ (members ms) := by
          intro root od slot rest
          rw [hkey, he]
          simp only [List.cons_append, List.nil_append, run, process, h1, h2, h3, or_self, if_false, locate_key, hk, if_true]
        rcases ihm es (fun h e he => hes h e (List.mem_cons_of_mem _ he)) with ⟨es', hr, hu, hrun⟩ | ⟨hno, hrun⟩
        · refine Or.inl ⟨es', .first rfl hk hr, ?_, fun root od slot rest => ?_⟩
          · intro es1 h
            cases h with
            | new h _ _ => exact absurd hk h
            | first _ _ h => exact hu _ h
            | last h _ _ _ => cases h
          · rw [hskip]; exact hrun _ _ _ _
        · refine Or.inr ⟨fun es1 h => ?_, fun root od slot rest => ?_⟩
          · cases h with
            | new h _ _ => exact absurd hk h
            | first _ _ h => exact hno _ h
            | last h _ _ _ => cases h
          · rw [hskip]; exact hrun _ _ _ _
      · -- USELAST
        subst hpol
        have hloc : ∀ root od slot rest, locate .useLast ⟨root, .dict od es slot :: rest, some k, false⟩ =
            .at ⟨root, .dict od es k :: rest, none, false⟩ := by
          intro root od slot rest
          simp only [locate_key, hk, if_true]
        rcases ihv with ⟨v, hv, huv, hrv⟩ | ⟨hnv, hrv⟩
        · have hone : ∀ root od slot rest, run S .useLast o ⟨root, .dict od es slot :: rest, none, false⟩ (members ((k, t) :: ms)) =
              run S .useLast o ⟨root, .dict od (set k v es) k :: rest, none, false⟩ (members ms) := by
            intro root od slot rest
            rw [hkey, run_append_ok _ (hrv _ _ (hloc root od slot rest) rfl), store_old]
          rcases ihm (set k v es) (fun h => by cases h) with ⟨es', hr, hu, hrun⟩ | ⟨hno, hrun⟩
          · refine Or.inl ⟨es', .last rfl hk hv hr, ?_, fun root od slot rest => ?_⟩
            · intro es1 h
              cases h with
              | new h _ _ => exact absurd hk h
              | first h _ _ => cases h
              | last _ _ h1 h2 => rw [huv _ h1] at h2; exact hu _ h2
            · rw [hone]; exact hrun _ _ _ _
          · refine Or.inr ⟨fun es1 h => ?_, fun root od slot rest => ?_⟩
            · cases h with
              | new h _ _ => exact absurd hk h
              | first h _ _ => cases h
              | last _ _ h1 h2 => rw [huv _ h1] at h2; exact hno _ h2
            · rw [hone]; exact hrun _ _ _ _
        · refine Or.inr ⟨fun es1 h => ?_, fun root od slot rest => ?_⟩
          · cases h with
            | new h _ _ => exact absurd hk h
            | first h _ _ => cases h
            | last _ _ h1 _ => exact hnv _ h1
          · obtain ⟨c, hc⟩ := hrv _ _ (hloc root od slot rest) rfl
            exact ⟨c, by rw [hkey]; exact run_append_err _ hc⟩
    · have hloc : ∀ root od slot rest, locate pol ⟨root, .dict od es slot :: rest, some k, false⟩ =
          .at ⟨root, .dict od (es ++ [(k, .null)]) k :: rest, none, false⟩ := by
        intro root od slot rest
        simp only [locate_key, hk, if_false]
      rcases ihv with ⟨v, hv, huv, hrv⟩ | ⟨hnv, hrv⟩
      · have hone : ∀ root od slot rest, run S pol o ⟨root, .dict od es slot :: rest, none, false⟩ (members ((k, t) :: ms)) =
            run S pol o ⟨root, .dict od (es ++ [(k, v)]) k :: rest, none, false⟩ (members ms) := by
          intro root od slot rest
          rw [hkey, run_append_ok _ (hrv _ _ (hloc root od slot rest) rfl), store_new _ _ _ _ _ _ hk]
        have hes' : pol = .useFirst → ∀ e ∈ ms, e.1 ∈ (es ++ [(k, v)]).map (·.1) → e.2.Plain := by
          intro h e he hm
          rw [List.map_append] at hm
          rcases List.mem_append.1 hm with hm | hm
          · exact hes h e (List.mem_cons_of_mem _ he) hm
          · exact (hp h).1 e he (by simpa using hm)
        rcases ihm (es ++ [(k, v)]) hes' with ⟨es', hr, hu, hrun⟩ | ⟨hno, hrun⟩
        · refine Or.inl ⟨es', .new hk hv hr, ?_, fun root od slot rest => ?_⟩
          · intro es1 h
            cases h with
            | new _ h1 h2 => rw [huv _ h1] at h2; exact hu _ h2
            | first _ h _ => exact absurd h hk
            | last _ h _ _ => exact absurd h hk
          · rw [hone]; exact hrun _ _ _ _
        · refine Or.inr ⟨fun es1 h => ?_, fun root od slot rest => ?_⟩
          · cases h with
            | new _ h1 h2 => rw [huv _ h1] at h2; exact hno _ h2
            | first _ h _ => exact absurd h hk
            | last _ h _ _ => exact absurd h hk
          · rw [hone]; exact hrun _ _ _ _
      · refine Or.inr ⟨fun es1 h => ?_, fun root od slot rest => ?_⟩
        · cases h with
          | new _ h1 _ => exact hnv _ h1
          | first _ h _ => exact absurd h hk
          | last _ h _ _ => exact absurd h hk
        · obtain ⟨c, hc⟩ := hrv _ _ (hloc root od slot rest) rfl
          exact ⟨c, by rw [hkey]; exact run_append_err _ hc⟩
end

end WS.Dom
