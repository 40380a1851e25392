import Verif.Proof.DomDump4
/-
Writing values, part 5: values that were read are read back exactly.
-/
namespace WS.Dom
open WS WS.Sax WS.Spec.Json WS.Spec.Dom WS.JNum WS.Props

mutual
/-- Integers have the first type that fits and dictionaries keep the order. -/
def Canonical : V → Prop
  | .int32 i => -2 ^ 31 ≤ i ∧ i < 2 ^ 31
  | .uint32 n => 2 ^ 31 ≤ n ∧ n < 2 ^ 32
  | .int64 i => -2 ^ 63 ≤ i ∧ i < 2 ^ 63 ∧ (i < -2 ^ 31 ∨ 2 ^ 32 ≤ i)
  | .uint64 n => 2 ^ 63 ≤ n ∧ n < 2 ^ 64
  | .array xs => allCanonical xs
  | .dict o es => o = true ∧ membersCanonical es
  | _ => True
def allCanonical : List V → Prop
  | [] => True
  | v :: vs => Canonical v ∧ allCanonical vs
def membersCanonical : List (List Byte × V) → Prop
  | [] => True
  | (_, v) :: es => Canonical v ∧ membersCanonical es
end

theorem membersCanonical_iff : ∀ es : List (List Byte × V), membersCanonical es ↔ ∀ e ∈ es, Canonical e.2
  | [] => by simp [membersCanonical]
  | (k, v) :: es => by
    simp only [membersCanonical, membersCanonical_iff es, List.mem_cons, forall_eq_or_imp]

theorem num_canonical {S : List Byte → Option (BitVec 64)} {t : List Byte} {v : V} (h : Num S t v) : Canonical v := by
  cases h with
  | int32 _ h1 h2 => exact ⟨h1, h2⟩
  | uint32 _ h1 h2 => exact ⟨h1, h2⟩
  | int64 _ h1 h2 h3 => exact ⟨h1, h2, h3⟩
  | uint64 _ h1 h2 => exact ⟨h1, h2⟩
  | double _ _ _ => exact trivial

theorem int_unique {v w : V} {i : Int} (hv : intOf v = some i) (hw : intOf w = some i) (cv : Canonical v) (cw : Canonical w) : v = w := by
  cases v <;> simp only [intOf, Option.some.injEq, reduceCtorEq] at hv <;> cases w <;> simp only [intOf, Option.some.injEq, reduceCtorEq] at hw <;>
    simp only [Canonical] at cv cw <;> subst hv <;>
    first
      | (exfalso; omega)
      | (congr 1; omega)
      | (rw [hw])

variable {S : List Byte → Option (BitVec 64)} {pol : DupKey}

theorem lasts_mem {β : Type} {l es : List (List Byte × β)} (h : Lasts l es) : ∀ e ∈ es, e ∈ l := by
  intro e he
  have := h.2 e he
  have hm := List.mem_of_getLast? this
  obtain ⟨x, hx, hx2⟩ := List.mem_map.1 hm
  obtain ⟨hx1, hk⟩ := List.mem_filter.1 hx
  simp only [decide_eq_true_eq] at hk
  obtain ⟨k, v⟩ := e
  obtain ⟨k', v'⟩ := x
  simp only at hk hx2
  subst hk hx2
  exact hx1

mutual
theorem reads_canonical : ∀ {t : T} {v : V}, Reads S pol true t v → Canonical v
  | _, _, .null => trivial
  | _, _, .bool _ => trivial
  | _, _, .num h => num_canonical h
  | _, _, .str _ => trivial
  | _, _, .arr h => readsAll_canonical h
  | _, _, .distinct _ _ h => ⟨rfl, readsMembers_canonical h⟩
  | _, _, .first _ h => ⟨rfl, readsMembers_canonical h⟩
  | _, _, .last _ h hl => ⟨rfl, (membersCanonical_iff _).2 fun e he => (membersCanonical_iff _).1 (readsMembers_canonical h) e (lasts_mem hl e he)⟩
theorem readsAll_canonical : ∀ {ts : List T} {vs : List V}, ReadsAll S pol true ts vs → allCanonical vs
  | _, _, .nil => trivial
  | _, _, .cons h1 h2 => ⟨reads_canonical h1, readsAll_canonical h2⟩
theorem readsMembers_canonical : ∀ {ms : List (List Byte × T)} {es : List (List Byte × V)}, ReadsMembers S pol true ms es → membersCanonical es
  | _, _, .nil => trivial
  | _, _, .cons h1 h2 => ⟨reads_canonical h1, readsMembers_canonical h2⟩
end

mutual
theorem same_unique : ∀ {v w : V}, Same true true v w → Canonical v → Canonical w → v = w
  | _, _, .null, _, _ => rfl
  | _, _, .bool _, _, _ => rfl
  | _, _, .int h1 h2, c1, c2 => int_unique h1 h2 c1 c2
  | _, _, .double _, _, _ => rfl
  | _, _, .string _, _, _ => rfl
  | _, _, .array h, c1, c2 => by rw [sameAll_unique h c1 c2]
  | _, _, .dict hl h, c1, c2 => by
    rw [c1.1] at hl
    simp only [and_self, if_true] at hl
    subst hl
    rw [c1.1, sameMembers_unique h c1.2 c2.2]
theorem sameAll_unique : ∀ {vs ws : List V}, SameAll true true vs ws → allCanonical vs → allCanonical ws → vs = ws
  | _, _, .nil, _, _ => rfl
  | _, _, .cons h1 h2, c1, c2 => by rw [same_unique h1 c1.1 c2.1, sameAll_unique h2 c1.2 c2.2]
theorem sameMembers_unique : ∀ {es fs : List (List Byte × V)}, SameMembers true true es fs → membersCanonical es → membersCanonical fs → es = fs
  | _, _, .nil, _, _ => rfl
  | _, _, .cons h1 h2, c1, c2 => by rw [same_unique h1 c1.1 c2.1, sameMembers_unique h2 c1.2 c2.2]
end

/-! ### Values that were read can be written -/

theorem body_scalar {b : List Byte} {s : List Nat} (h : Body b s) : ∀ n ∈ s, Scalar n := by
  induction h with
  | nil => intro n hn; cases hn
  | raw _ h _ _ _ ih =>
    intro n hn
    rcases List.mem_append.1 hn with hn | hn
    · exact ih n hn
    · rw [List.mem_singleton.1 hn]; exact h
  | esc _ h ih =>
    intro n hn
    rcases List.mem_append.1 hn with hn | hn
    · exact ih n hn
    · rw [List.mem_singleton.1 hn]
      left
      simp only [escapes, List.mem_cons, Prod.mk.injEq, List.not_mem_nil, or_false] at h
      omega
  | uni _ _ h ih =>
    intro n hn
    rcases List.mem_append.1 hn with hn | hn
    · exact ih n hn
    · rw [List.mem_singleton.1 hn]; exact h
  | pair _ _ _ h1 h2 h3 h4 ih =>
    intro n hn
    rcases List.mem_append.1 hn with hn | hn
    · exact ih n hn
    · rw [List.mem_singleton.1 hn]
      right
      omega

theorem body_utf8 {b : List Byte} {s : List Nat} (h : Body b s) : Utf8 (utf8s s) := ⟨s, body_scalar h, rfl⟩

def TextsIn (evs : List Event) : Prop := ∀ e ∈ evs, e.type = .string ∨ e.type = .key → Utf8 e.data

theorem textsIn_append {a b : List Event} : TextsIn (a ++ b) ↔ TextsIn a ∧ TextsIn b := by
  simp only [TextsIn, List.mem_append]
  exact ⟨fun h => ⟨fun e he => h e (Or.inl he), fun e he => h e (Or.inr he)⟩, fun h e he => he.elim (h.1 e) (h.2 e)⟩

theorem textsIn_cons {x : Event} {b : List Event} : TextsIn (x :: b) ↔ (x.type = .string ∨ x.type = .key → Utf8 x.data) ∧ TextsIn b := by
  simp only [TextsIn, List.mem_cons]
  exact ⟨fun h => ⟨h x (Or.inl rfl), fun e he => h e (Or.inr he)⟩, fun h e he => he.elim (fun hx => hx ▸ h.1) (h.2 e)⟩

mutual
theorem texts_value {cfg : Config} : ∀ {d : Nat} {t : List Byte} {evs : List Event}, Value cfg d t evs → TextsIn evs
  | _, _, _, .null => by simp [TextsIn]
  | _, _, _, .false => by simp [TextsIn]
  | _, _, _, .true => by simp [TextsIn]
  | _, _, _, .number _ _ => by simp [TextsIn]
  | _, _, _, .string h _ => by simpa [TextsIn] using body_utf8 h
  | _, _, _, .emptyArray _ _ => by simp [TextsIn]
  | _, _, _, .emptyObject _ _ => by simp [TextsIn]
  | _, _, _, .array _ he => by
    rw [List.cons_append, textsIn_cons, textsIn_append]
    exact ⟨by simp, texts_elements he, by simp [TextsIn]⟩
  | _, _, _, .object _ he => by
    rw [List.cons_append, textsIn_cons, textsIn_append]
    exact ⟨by simp, texts_members he, by simp [TextsIn]⟩
theorem texts_elements {cfg : Config} : ∀ {d : Nat} {t : List Byte} {evs : List Event}, Elements cfg d t evs → TextsIn evs
  | _, _, _, .one _ hv _ => texts_value hv
  | _, _, _, .more h0 _ hv _ => textsIn_append.2 ⟨texts_elements h0, texts_value hv⟩
theorem texts_members {cfg : Config} : ∀ {d : Nat} {t : List Byte} {evs : List Event}, Members cfg d t evs → TextsIn evs
  | _, _, _, .one hv => texts_member hv
  | _, _, _, .more h0 hv => textsIn_append.2 ⟨texts_members h0, texts_member hv⟩
theorem texts_member {cfg : Config} : ∀ {d : Nat} {t : List Byte} {evs : List Event}, Member cfg d t evs → TextsIn evs
  | _, _, _, .mk _ hb _ _ _ hv _ => textsIn_cons.2 ⟨fun _ => body_utf8 hb, texts_value hv⟩
end

theorem membersWritable_iff {print : BitVec 64 → List Byte} {conv : List Byte → BitVec 64} : ∀ es : List (List Byte × V),
    membersWritable print conv es ↔ ∀ e ∈ es, Utf8 e.1 ∧ Writable print conv e.2
  | [] => by simp [membersWritable]
  | (k, v) :: es => by
    simp only [membersWritable, membersWritable_iff es, List.mem_cons, forall_eq_or_imp, and_assoc]

variable {print : BitVec 64 → List Byte} {conv : List Byte → BitVec 64} {o : Bool}

theorem num_writable {t : List Byte} {v : V} (h : Num S t v) (hd : ∀ d ∈ doubles v, Writable print conv (.double d)) : Writable print conv v := by
  cases h with
  | int32 _ h1 h2 => exact ⟨h1, h2⟩
  | uint32 _ h1 h2 => exact h2
  | int64 _ h1 h2 h3 => exact ⟨h1, h2⟩
  | uint64 _ h1 h2 => exact h2
  | double _ _ _ => exact hd _ (by simp [doubles])

theorem firsts_mem {β : Type} : ∀ (l : List (List Byte × β)), ∀ e ∈ firsts l, e ∈ l
  | [], e, h => by cases h
  | x :: l, e, h => by
    rcases List.mem_cons.1 h with rfl | h
    · exact List.mem_cons_self
    · exact List.mem_cons_of_mem _ (firsts_mem l e (List.mem_filter.1 h).1)

theorem firsts_nodup {β : Type} : ∀ (l : List (List Byte × β)), ((firsts l).map (·.1)).Nodup
  | [] => List.nodup_nil
  | x :: l => by
    rw [firsts, List.map_cons, List.nodup_cons]
    refine ⟨fun hc => ?_, ?_⟩
    · obtain ⟨y, hy, hk⟩ := List.mem_map.1 hc
      have := (List.mem_filter.1 hy).2
      simp only [ne_eq, decide_not, Bool.not_eq_true', decide_eq_false_iff_not] at this
      exact this hk
    · exact (firsts_nodup l).sublist (List.Sublist.map _ List.filter_sublist)

mutual
/-- Strings and keys of a tree. -/
def Textual : T → Prop
  | .str s => Utf8 s
  | .arr ts => allTextual ts
  | .obj ms => membersTextual ms
  | _ => True
def allTextual : List T → Prop
  | [] => True
  | t :: ts => Textual t ∧ allTextual ts
def membersTextual : List (List Byte × T) → Prop
  | [] => True
  | (k, t) :: ms => Utf8 k ∧ Textual t ∧ membersTextual ms
end

mutual
theorem textual_value : ∀ t : T, TextsIn t.events → Textual t
  | .null, _ => trivial
  | .bool _, _ => trivial
  | .num _, _ => trivial
  | .str s, h => by
    have := h ⟨.string, s⟩ (by simp [T.events]) (Or.inl rfl)
    exact this
  | .arr ts, h => by
    rw [T.events, textsIn_cons, textsIn_append] at h
    exact textual_elements ts h.2.1
  | .obj ts, h => by
    rw [T.events, textsIn_cons, textsIn_append] at h
    exact textual_members ts h.2.1
theorem textual_elements : ∀ ts : List T, TextsIn (Spec.Dom.elements ts) → allTextual ts
  | [], _ => trivial
  | t :: ts, h => by
    rw [Spec.Dom.elements, textsIn_append] at h
    exact ⟨textual_value t h.1, textual_elements ts h.2⟩
theorem textual_members : ∀ ts : List (List Byte × T), TextsIn (Spec.Dom.members ts) → membersTextual ts
  | [], _ => trivial
  | (k, t) :: ts, h => by
    rw [Spec.Dom.members, textsIn_cons, textsIn_append] at h
    exact ⟨h.1 (Or.inr rfl), textual_value t h.2.1, textual_members ts h.2.2⟩
end

theorem membersTextual_iff : ∀ ms : List (List Byte × T), membersTextual ms ↔ ∀ e ∈ ms, Utf8 e.1 ∧ Textual e.2
  | [] => by simp [membersTextual]
  | (k, v) :: es => by
    simp only [membersTextual, membersTextual_iff es, List.mem_cons, forall_eq_or_imp, and_assoc]

theorem doublesOf_mem : ∀ (es : List (List Byte × V)) (e : List Byte × V), e ∈ es → ∀ d ∈ doubles e.2, d ∈ doublesOf es
  | [], _, h, _, _ => by cases h
  | (k, v) :: es, e, h, d, hd => by
    rw [doublesOf, List.mem_append]
    rcases List.mem_cons.1 h with rfl | h
    · exact Or.inl hd
    · exact Or.inr (doublesOf_mem es e h d hd)

/-- Only the numbers inside the kept members matter, so members are treated one by one. -/
def Fine (print : BitVec 64 → List Byte) (conv : List Byte → BitVec 64) (v : V) : Prop :=
  (∀ d ∈ doubles v, Writable print conv (.double d)) → Writable print conv v

mutual
theorem reads_writable : ∀ {t : T} {v : V}, Reads S pol o t v → Textual t → Fine print conv v
  | _, _, .null, _ => fun _ => trivial
  | _, _, .bool _, _ => fun _ => trivial
  | _, _, .num h, _ => num_writable h
  | _, _, .str _, h => fun _ => h
  | _, _, .arr h, ht => fun hd => readsAll_writable h ht hd
  | _, _, .distinct _ hn h, ht => fun hd => ⟨by rw [readsMembers_keys h]; exact hn, (membersWritable_iff _).2 fun e he =>
      let r := readsMembers_fine h ht e he; ⟨r.1, r.2 fun d hd' => hd d (by rw [doubles]; exact doublesOf_mem _ e he d hd')⟩⟩
  | .obj ms, _, .first _ h, ht => fun hd => ⟨by rw [readsMembers_keys h]; exact firsts_nodup _, (membersWritable_iff _).2 fun e he =>
      let r := readsMembers_fine h ((membersTextual_iff _).2 fun x hx => (membersTextual_iff _).1 ht x (firsts_mem _ x hx)) e he
      ⟨r.1, r.2 fun d hd' => hd d (by rw [doubles]; exact doublesOf_mem _ e he d hd')⟩⟩
  | _, _, .last _ h hl, ht => fun hd => ⟨by rw [hl.1]; exact firsts_nodup _, (membersWritable_iff _).2 fun e he =>
      let r := readsMembers_fine h ht e (lasts_mem hl e he); ⟨r.1, r.2 fun d hd' => hd d (by rw [doubles]; exact doublesOf_mem _ e he d hd')⟩⟩
theorem readsAll_writable : ∀ {ts : List T} {vs : List V}, ReadsAll S pol o ts vs → allTextual ts →
    (∀ d ∈ doublesAll vs, Writable print conv (.double d)) → allWritable print conv vs
  | _, _, .nil, _, _ => trivial
  | _, _, .cons h1 h2, ht, hd => ⟨reads_writable h1 ht.1 fun d h => hd d (by rw [doublesAll, List.mem_append]; exact Or.inl h),
      readsAll_writable h2 ht.2 fun d h => hd d (by rw [doublesAll, List.mem_append]; exact Or.inr h)⟩
theorem readsMembers_fine : ∀ {ms : List (List Byte × T)} {es : List (List Byte × V)}, ReadsMembers S pol o ms es → membersTextual ms →
    ∀ e ∈ es, Utf8 e.1 ∧ Fine print conv e.2
  | _, _, .nil, _, _, he => by cases he
  | _, _, .cons h1 h2, ht, e, he => (List.mem_cons.1 he).elim (fun hx => hx ▸ ⟨ht.1, reads_writable h1 ht.2.1⟩)
      (readsMembers_fine h2 ht.2.2 e)
end

theorem document_textual {cfg : Config} {text : List Byte} {t : T} (h : Document cfg text t.events) : Textual t := by
  obtain ⟨w1, x, w2, _, _, _, hv⟩ := h.1
  exact textual_value t (texts_value hv)

end WS.Dom
