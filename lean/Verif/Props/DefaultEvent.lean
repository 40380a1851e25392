import Verif.Proof.DefaultEvent
/- Property C79: the default event of the rule table. -/
namespace WS.Props
open WS WS.DE Spec.DE

/-- A history with, for every call, whether it succeeded; latest call first. -/
def deRecords (ops : List Op) : List Record :=
  (ops.foldl (fun (x : S × List Record) o =>
    ((step x.1 o).2, (o, match (step x.1 o).1 with | .ok _ => true | .error _ => false) :: x.2)) ({}, [])).2

/-- The state and the records agree. -/
structure DeAgree (s : S) (rs : List Record) : Prop where
  inv : Inv s
  force : s.default.map s.label = inForce rs
  known : ∀ l, l ∈ s.table.map (·.1) ↔ Known l rs = true

theorem deStep {s : S} {rs : List Record} (h : DeAgree s rs) (o : Op) :
    DeAgree (step s o).2 ((o, match (step s o).1 with | .ok _ => true | .error _ => false) :: rs) := by
  have hi := step_inv h.inv o
  refine ⟨hi, ?_, ?_⟩
  · cases o with
    | create l =>
      simp only [inForce, step]
      rw [← h.force]
      unfold create
      split
      · rfl
      · cases hd : s.default with
        | none => simp
        | some e =>
          have : e < s.next := by
            apply Nat.lt_of_not_le; intro hle
            exact (h.inv.fresh e hle).2 hd
          simp only [Option.map_some, upd]
          rw [if_neg (by omega)]
    | delete l =>
      simp only [inForce, step]
      rw [← h.force]
      unfold delete
      cases hg : s.get l with
      | none => rfl
      | some e => dsimp only; unfold drop; split <;> rfl
    | flush =>
      simp only [inForce, step]
      rw [← h.force, (flush_inv h.inv).2.2.1, (flush_inv h.inv).2.2.2.1]
    | take l =>
      simp only [inForce, step]
      rw [← h.force, (take_inv h.inv l).2.2.1, (take_inv h.inv l).2.2.2]
    | release e =>
      simp only [inForce, step]
      rw [← h.force, (release_inv h.inv e).2.2.2.1, (release_inv h.inv e).2.2.2.2]
    | setDefault l =>
      simp only [step]
      rcases set_cases h.inv l with ⟨_, h2⟩ | ⟨_, _, _, h2⟩ | ⟨e, s', hg, _, h2, _, h4, _, h6, _⟩ <;> rw [h2]
      · simp only [inForce]; exact h.force
      · simp only [inForce]; exact h.force
      · simp only [inForce]
        rw [h4, h6, Option.map_some, (h.inv.stored _ (get_some hg)).1]
    | clearDefault =>
      simp only [step]
      obtain ⟨_, h2, h3, _⟩ := clear_inv h.inv
      rw [h2, h3]
      rfl
  · intro l
    cases o with
    | create m =>
      simp only [step]
      unfold create
      split
      · simp only [Known]; exact h.known l
      · simp only [Known, List.map_cons, List.mem_cons, Bool.or_eq_true, beq_iff_eq, ← h.known l]
        constructor
        · rintro (h | h)
          · exact .inl h.symm
          · exact .inr h
        · rintro (h | h)
          · exact .inl h.symm
          · exact .inr h
    | delete m =>
      simp only [step]
      obtain ⟨_, h1, h2⟩ := delete_inv h.inv m
      by_cases hm : m ∈ s.table.map (·.1)
      · rw [h1.2 hm]
        simp only [Known, Bool.and_eq_true, bne_iff_ne, ← h.known l]
        have : (delete s m).2.table = s.table.filter (fun p => p.1 != m) := by
          unfold delete
          cases hg : s.get m with
          | none => exact absurd hm (get_none.1 hg)
          | some e => dsimp only; unfold drop; split <;> rfl
        rw [this]
        simp only [List.mem_map, List.mem_filter, bne_iff_ne]
        constructor
        · rintro ⟨p, ⟨hp, hne⟩, rfl⟩; exact ⟨fun e => hne e.symm, ⟨p, hp, rfl⟩⟩
        · rintro ⟨hne, ⟨p, hp, rfl⟩⟩; exact ⟨p, ⟨hp, fun e => hne e.symm⟩, rfl⟩
      · rw [h2 hm]
        simp only [Known]; exact h.known l
    | flush =>
      simp only [step, Known]
      rw [(flush_inv h.inv).2.1]
      simp
    | take m =>
      simp only [step, Known]
      rw [(take_inv h.inv m).2.1]; exact h.known l
    | release e =>
      simp only [step, Known]
      rw [(release_inv h.inv e).2.2.1]; exact h.known l
    | setDefault m =>
      simp only [step, Known]
      rw [← h.known l]
      rcases set_cases h.inv m with ⟨_, h2⟩ | ⟨_, _, _, h2⟩ | ⟨e, s', hg, _, h2, _, h4, h5, h6, _⟩ <;> rw [h2]
      rw [h5]
    | clearDefault =>
      simp only [step, Known]
      rw [(clear_inv h.inv).2.2.2.1]; exact h.known l

theorem deAgree (ops : List Op) : DeAgree (run ops) (deRecords ops) := by
  unfold run deRecords
  suffices ∀ (ops : List Op) (s : S) (rs : List Record), DeAgree s rs →
      DeAgree (ops.foldl (fun s o => (step s o).2) s)
        (ops.foldl (fun (x : S × List Record) o =>
          ((step x.1 o).2, (o, match (step x.1 o).1 with | .ok _ => true | .error _ => false) :: x.2)) (s, rs)).2 from
    this ops {} [] ⟨inv_init, rfl, by intro l; simp [Known]⟩
  intro ops
  induction ops with
  | nil => intro s rs h; exact h
  | cons o os ih => intro s rs h; exact ih _ _ (deStep h o)

/-- C79: after every history, asking for the default event answers with the label set last — whatever has
happened to the event since — or that there is none, and leaves in the caller's buffer exactly the label and
a terminating zero, or nothing if they do not fit. -/
theorem C79_get (ops : List Op) (buf : List Byte) (len : Int) :
    getDefault (run ops) buf len = Answer (inForce (deRecords ops)) buf len := by
  rw [← (deAgree ops).force]
  unfold getDefault Answer
  cases (run ops).default with
  | none => rfl
  | some e =>
    simp only [Option.map_some]
    by_cases h : ((run ops).label e).length ≥ len
    · rw [if_pos h, if_neg (by omega)]
    · rw [if_neg h, if_pos (by omega)]; simp

/-- C79: an event can be made the default event exactly when one of that label exists (and can take
another reference); otherwise nothing changes. -/
theorem C79_set (ops : List Op) (l : Label) :
    (Known l (deRecords ops) = false → setDefault (run ops) l = (.error .itemNotFound, run ops)) ∧
    (Known l (deRecords ops) = true →
      (∃ s', setDefault (run ops) l = (.ok (), s')) ∨ setDefault (run ops) l = (.error .overflowAverted, run ops)) := by
  have ha := deAgree ops
  constructor
  · intro he
    rcases set_cases ha.inv l with ⟨_, h2⟩ | ⟨e, hg, _⟩ | ⟨e, _, hg, _⟩
    · exact h2
    all_goals
      have := (ha.known l).1 (List.mem_map.2 ⟨_, get_some hg, rfl⟩)
      rw [he] at this; cases this
  · intro he
    rcases set_cases ha.inv l with ⟨h1, _⟩ | ⟨_, _, _, h2⟩ | ⟨_, s', _, _, h2, _⟩
    · exact absurd ((ha.known l).2 he) (get_none.1 h1)
    · exact .inr h2
    · exact .inl ⟨s', h2⟩

/-- C79: the overflow cannot happen before 2^32 - 3 references have been taken. -/
theorem C79_set_succeeds (ops : List Op) (l : Label) (he : Known l (deRecords ops) = true)
    (hr : ∀ e, (run ops).held e < 4294967293) : ∃ s', setDefault (run ops) l = (.ok (), s') := by
  rcases (C79_set ops l).2 he with h | h
  · exact h
  · exfalso
    have ha := deAgree ops
    rcases set_cases ha.inv l with ⟨_, h2⟩ | ⟨e, hg, h3, _⟩ | ⟨_, s', _, _, h2, _⟩
    · rw [h2] at h; cases h
    · have := ha.inv.count e
      have := hr e
      unfold inTab isDef at *
      split at * <;> split at * <;> omega
    · rw [h2] at h; cases h

/-- C79: giving up the default event always succeeds. -/
theorem C79_clear (ops : List Op) : (clearDefault (run ops)).1 = .ok () ∧ (clearDefault (run ops)).2.default = none :=
  ⟨(clear_inv (deAgree ops).inv).2.1, (clear_inv (deAgree ops).inv).2.2.1⟩

/-- C79: an event object is released exactly when it is not in the table, is not the default event, and
nobody else holds a reference. -/
theorem C79_released_iff (ops : List Op) (e : Nat) :
    (run ops).rc e = 0 ↔ (∀ l, (l, e) ∉ (run ops).table) ∧ (run ops).default ≠ some e ∧ (run ops).held e = 0 := by
  have hc := (deAgree ops).inv.count e
  have hm : e ∈ (run ops).table.map (·.2) ↔ ∃ l, (l, e) ∈ (run ops).table := by
    simp only [List.mem_map]
    constructor
    · rintro ⟨⟨l, x⟩, hp, rfl⟩; exact ⟨l, hp⟩
    · rintro ⟨l, hp⟩; exact ⟨_, hp, rfl⟩
  unfold inTab isDef at hc
  rw [hc]
  constructor
  · intro h
    refine ⟨fun l hl => ?_, fun hd => ?_, by omega⟩
    · rw [if_pos (hm.2 ⟨l, hl⟩)] at h; omega
    · rw [if_pos hd] at h; omega
  · rintro ⟨h1, h2, h3⟩
    rw [if_neg (fun h => by obtain ⟨l, hl⟩ := hm.1 h; exact h1 l hl), if_neg h2, h3]

/-- The calls of the examples. -/
def deOps : List Op := [.create [101, 49], .create [101, 50], .setDefault [101, 49], .take [101, 49], .setDefault [101, 50], .delete [101, 50]]

example : inForce (deRecords deOps) = some [101, 50] ∧ Known [101, 49] (deRecords deOps) = true ∧
    Known [101, 50] (deRecords deOps) = false ∧ (run deOps).rc 0 = 2 ∧ (run deOps).rc 1 = 1 ∧
    getDefault (run deOps) [7, 7, 7, 7] 4 = (.ok (), [101, 50, 0, 7]) ∧ getDefault (run deOps) [7, 7, 7, 7] 2 = (.error .bufferTooSmall, [7, 7, 7, 7]) := by
  decide
example : (run (deOps ++ [.clearDefault])).rc 1 = 0 := by decide

/-- Finding: deleting the default event leaves it in force, under a label that no event has any more: the
label the caller is told cannot be used to set it again, nor to look at the event. -/
theorem C79_finding_deleted_stays_in_force :
    inForce (deRecords deOps) = some [101, 50] ∧ (run deOps).get [101, 50] = none ∧
    setDefault (run deOps) [101, 50] = (.error .itemNotFound, run deOps) := by
  refine ⟨by decide, by decide, ?_⟩
  exact (C79_set deOps _).1 (by decide)

/-- Finding: a new event of the same label is not the one in force. -/
theorem C79_finding_namesake : ∃ e e', (run (deOps ++ [.create [101, 50]])).default = some e ∧ (run (deOps ++ [.create [101, 50]])).get [101, 50] = some e' ∧ e ≠ e' :=
  ⟨1, 2, by decide, by decide, by decide⟩

end WS.Props
