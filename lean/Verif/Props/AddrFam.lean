import Verif.Proof.AddrFam
/-
C40: address family names and numbers map one-to-one.
-/
namespace WS.Props
open WS WS.Spec

/-- "FOO" as bytes, and "foo". -/
def nmFOO : List Byte := [70#8, 79#8, 79#8]
def nmfoo : List Byte := [102#8, 111#8, 111#8]

/-- After any history of calls on a context, two registered families have the same number exactly
if they have the same name, and then they are the same family. -/
theorem C40_one_to_one (ops : List AfOp) : OneToOne (registered (afRun ops)) := (afRun_inv ops).oneToOne

/-- ... and every registered family is well formed. -/
theorem C40_well_formed (ops : List AfOp) (f : Family) (h : registered (afRun ops) f) : GoodFamily f :=
  (afRun_inv ops).regGood h

/-- Every call, after every history, does what the specification says: an installation with good
arguments adds exactly the new family if number and name are both unused and otherwise changes
nothing; a removal removes exactly the family asked for; any other outcome is an error that changes
nothing.  The one exception is an installation that fails, changing nothing, because the 32-bit
object IDs have run out. -/
theorem C40_calls (ops : List AfOp) (op : AfOp) :
    AfSpecStep (registered (afRun ops)) op (afStep (afRun ops) op).1 (registered (afRun (ops ++ [op]))) ∨
    ((∃ a, op = .install a) ∧ (afStep (afRun ops) op).1 = .error .invalidArg ∧
      registered (afRun (ops ++ [op])) = registered (afRun ops)) := by
  rw [afRun_snoc]; exact (afStep_spec (afRun_inv ops) op).2

/-- The exception cannot arise in the first 2^31 - 2 calls. -/
theorem C40_calls_short (ops : List AfOp) (op : AfOp) (h : ops.length < 2147483646) :
    AfSpecStep (registered (afRun ops)) op (afStep (afRun ops) op).1 (registered (afRun (ops ++ [op]))) := by
  rcases C40_calls ops op with hs | ⟨⟨a, rfl⟩, h2, h3⟩
  · exact hs
  · rcases afCheck_cases a with ⟨nm, p, f, a1, a2, a3, a4, a5, a6⟩ | ⟨a1, a2⟩
    · exfalso
      have hb := afRun_bound ops (by simp only [idModulus]; omega)
      have := (afInsertCore_bound (afRun_inv ops) hb (by simp only [idModulus]; omega) a.number nm ⟨p, f, a.maxBits.toNat⟩).1
      simp only [afStep, afInsert, a6] at h2
      exact this h2
    · exact Or.inr ⟨a1, Or.inl h2, h3⟩

theorem n_ents_pos {s : Af} (h : AfInv s) {f : Family} (hf : registered s f) :
    (s.store.tables tblNum).nEnts > 0 ∧ (s.store.tables tblName).nEnts > 0 := by
  obtain ⟨e, he, _⟩ := hf
  refine ⟨?_, ?_⟩
  · rw [h.store.count]; exact List.length_pos_of_mem he
  · rw [h.store.count]; exact List.length_pos_of_mem (h.fwd e he).1

/-- Looking up the name of a registered family gives its number, and looking up its number gives
its name: both directions agree after every history. -/
theorem C40_lookups_agree (ops : List AfOp) (f : Family) (h : registered (afRun ops) f) :
    afPton (afRun ops) (some f.name) = .ok f.number ∧ afNtop (afRun ops) f.number true = .ok f.name := by
  have hi := afRun_inv ops
  obtain ⟨p1, p2⟩ := n_ents_pos hi h
  refine ⟨?_, ?_⟩
  · unfold afPton
    simp only
    rw [if_pos p2]
    rcases hi.byName (some f.name) with ⟨e, g, h1, _, hg, hn, k1, _⟩ | ⟨_, hn⟩
    · rw [h1]
      simp only [k1, AfKey.number]
      have := ((hi.oneToOne g f hg h).1).2 (Option.some.inj hn)
      rw [this]
    · exact absurd rfl (hn f h)
  · unfold afNtop
    rw [if_pos ⟨rfl, p1⟩]
    rcases hi.byNumber f.number with ⟨e, g, h1, _, hg, hn, _, k2, _⟩ | ⟨_, hn⟩
    · rw [h1]
      simp only [k2, AfKey.nameBytes]
      have := ((hi.oneToOne g f hg h).1).1 hn
      rw [this]
    · exact absurd rfl (hn f h)

/-- A successful look-up of a name or number that is not registered can only have come from the
built-in tables. -/
theorem C40_lookups_sound (ops : List AfOp) :
    (∀ nm n, afPton (afRun ops) (some nm) = .ok n →
      (∃ f, registered (afRun ops) f ∧ f.name = nm ∧ f.number = n) ∨
      ((∀ f, registered (afRun ops) f → f.name ≠ nm) ∧ afPtonBuiltin nm = .ok n)) ∧
    (∀ n nm, afNtop (afRun ops) n true = .ok nm →
      (∃ f, registered (afRun ops) f ∧ f.number = n ∧ f.name = nm) ∨
      ((∀ f, registered (afRun ops) f → f.number ≠ n) ∧ afNtopBuiltin n = .ok nm)) := by
  have hi := afRun_inv ops
  refine ⟨?_, ?_⟩
  · intro nm n hr
    by_cases hf : ∃ f, registered (afRun ops) f ∧ f.name = nm
    · obtain ⟨f, hf, rfl⟩ := hf
      left
      rw [(C40_lookups_agree ops f hf).1] at hr
      exact ⟨f, hf, rfl, Except.ok.inj hr⟩
    · right
      refine ⟨fun f h1 h2 => hf ⟨f, h1, h2⟩, ?_⟩
      unfold afPton at hr
      simp only at hr
      split at hr
      · rcases hi.byName (some nm) with ⟨e, g, _, _, hg, hn, _⟩ | ⟨⟨x, h1, h2, h3, h4, h5⟩, _⟩
        · exact absurd ⟨g, hg, Option.some.inj hn⟩ hf
        · rw [h1] at hr
          cases x <;> simp at hr
          exact hr
      · exact hr
  · intro n nm hr
    by_cases hf : ∃ f, registered (afRun ops) f ∧ f.number = n
    · obtain ⟨f, hf, rfl⟩ := hf
      left
      rw [(C40_lookups_agree ops f hf).2] at hr
      exact ⟨f, hf, rfl, Except.ok.inj hr⟩
    · right
      refine ⟨fun f h1 h2 => hf ⟨f, h1, h2⟩, ?_⟩
      unfold afNtop at hr
      split at hr
      · rcases hi.byNumber n with ⟨e, g, _, _, hg, hn, _⟩ | ⟨h1, _⟩
        · exact absurd ⟨g, hg, hn⟩ hf
        · rw [h1] at hr; exact hr
      · exact hr

/-- The handlers found by number are those of the registered family, and there are none
otherwise. -/
theorem C40_handlers (ops : List AfOp) (n : Nat) :
    (∀ f, registered (afRun ops) f → f.number = n →
      afGetParser (afRun ops) n = .ok f.h.parser ∧ afGetFormatter (afRun ops) n = .ok f.h.formatter ∧
      (∀ b, afMaxBitsBuiltin n = .ok b → afMaxBits (afRun ops) n = .ok b) ∧
      ((∀ b, afMaxBitsBuiltin n ≠ .ok b) → afMaxBits (afRun ops) n = .ok f.h.maxBits)) ∧
    ((∀ f, registered (afRun ops) f → f.number ≠ n) →
      afGetParser (afRun ops) n = .error .itemNotFound ∧ afGetFormatter (afRun ops) n = .error .itemNotFound) := by
  have hi := afRun_inv ops
  refine ⟨?_, ?_⟩
  · intro f hf hn
    rcases hi.byNumber n with ⟨e, g, h1, _, hg, hgn, _, _, k3⟩ | ⟨_, hno⟩
    · have : g = f := (hi.oneToOne g f hg hf).2 (by rw [hgn, hn])
      subst this
      refine ⟨?_, ?_, ?_, ?_⟩
      · simp only [afGetParser, h1, Except.map, k3]
      · simp only [afGetFormatter, h1, Except.map, k3]
      · intro b hb; simp only [afMaxBits, hb]
      · intro hb
        unfold afMaxBits
        cases hx : afMaxBitsBuiltin n with
        | ok b => exact absurd hx (hb b)
        | error x => simp only [h1, Except.map, k3]
    · exact absurd hn (hno f hf)
  · intro hno
    rcases hi.byNumber n with ⟨e, g, h1, _, hg, hgn, _⟩ | ⟨h1, _⟩
    · exact absurd hgn (hno g hg)
    · exact ⟨by simp only [afGetParser, h1, Except.map], by simp only [afGetFormatter, h1, Except.map]⟩

/-! ### non-vacuity -/

def afDemoInstall (n : Nat) (nm : List Byte) : AfOp := .install ⟨n, some nm, some 1, some 2, 48⟩

theorem af_demo_first (a : AfArgs) (nm : List Byte) (p f : Nat) (h1 : a.name = some nm) (h2 : a.parser = some p) (h3 : a.formatter = some f)
    (hg : GoodFamily ⟨a.number, nm, ⟨p, f, a.maxBits.toNat⟩⟩) :
    ∀ g, registered (afRun [.install a]) g ↔ g = ⟨a.number, nm, ⟨p, f, a.maxBits.toNat⟩⟩ := by
  have := C40_calls_short [] (.install a) (by decide)
  have hempty : ∀ g, ¬ registered (afRun []) g := by rintro g ⟨e, he, _⟩; cases he
  rcases this with ⟨nm', p', f', a1, a2, a3, _, _, b | b⟩ | ⟨a1, _⟩
  · obtain ⟨⟨g, hg, _⟩, _⟩ := b; exact absurd hg (hempty g)
  · rw [h1] at a1; rw [h2] at a2; rw [h3] at a3
    cases a1; cases a2; cases a3
    intro g
    have := b.2.2 g
    rw [List.nil_append] at this
    rw [this]
    constructor
    · rintro (h | h)
      · exact absurd h (hempty g)
      · exact h
    · exact Or.inr
  · exact absurd hg (a1 nm p f h1 h2 h3)

/-- Two families in one context. -/
theorem af_demo_two (nm1 nm2 : List Byte) (hne : nm1 ≠ nm2) (l1 : 1 ≤ nm1.length) (l2 : 1 ≤ nm2.length)
    (l1' : nm1.length ≤ 32) (l2' : nm2.length ≤ 32) (n1 n2 : Nat) (h1 : n1 ≠ 0) (h2 : n2 ≠ 0) (h12 : n1 ≠ n2) :
    ∀ g, registered (afRun [afDemoInstall n1 nm1, afDemoInstall n2 nm2]) g ↔ g = ⟨n1, nm1, ⟨1, 2, 48⟩⟩ ∨ g = ⟨n2, nm2, ⟨1, 2, 48⟩⟩ := by
  have first := af_demo_first ⟨n1, some nm1, some 1, some 2, 48⟩ nm1 1 2 rfl rfl rfl ⟨h1, l1, l1', (by show 1 ≤ 48; decide), (by show 48 ≤ 128; decide)⟩
  have := C40_calls_short [afDemoInstall n1 nm1] (afDemoInstall n2 nm2) (by show 1 < 2147483646; decide)
  rcases this with ⟨nm', p', f', a1, a2, a3, _, _, b | b⟩ | ⟨a1, _⟩
  · obtain ⟨⟨g, hg, hn⟩, _⟩ := b
    cases a1
    rw [(first g).1 hg] at hn
    rcases hn with hn | hn
    · exact absurd hn h12
    · exact absurd hn hne
  · cases a1; cases a2; cases a3
    intro g
    have h := b.2.2 g
    rw [List.cons_append, List.nil_append] at h
    rw [h]
    have f' := first g
    constructor
    · rintro (h | h)
      · exact Or.inl (f'.1 h)
      · exact Or.inr h
    · rintro (h | h)
      · exact Or.inl (f'.2 h)
      · exact Or.inr h
  · exact absurd ⟨h2, l2, l2', (by show 1 ≤ 48; decide), (by show 48 ≤ 128; decide)⟩ (a1 nm2 1 2 rfl rfl rfl)

example : registered (afRun [afDemoInstall 300 nmFOO]) ⟨300, nmFOO, ⟨1, 2, 48⟩⟩ ∧
    afPton (afRun [afDemoInstall 300 nmFOO]) (some nmFOO) = .ok 300 := by
  have h : registered (afRun [afDemoInstall 300 nmFOO]) ⟨300, nmFOO, ⟨1, 2, 48⟩⟩ :=
    (af_demo_first ⟨300, some nmFOO, some 1, some 2, 48⟩ nmFOO 1 2 rfl rfl rfl ⟨by decide, by decide, by decide, by decide, by decide⟩ _).2 rfl
  exact ⟨h, (C40_lookups_agree _ _ h).1⟩

/-! ### the built-in families -/

/-- Two names that differ only in ASCII case. -/
def SameUpToCase (a b : List Byte) : Prop := a.map asciiLower = b.map asciiLower

theorem strCaseEq_iff (a b : List Byte) : strCaseEq a b = true ↔ SameUpToCase a b := by
  unfold strCaseEq SameUpToCase
  induction a generalizing b with
  | nil => cases b <;> simp
  | cons x a ih =>
    cases b with
    | nil => simp
    | cons y b =>
      have := ih b
      simp only [List.length_cons, List.zip_cons_cons, List.all_cons, List.map_cons, List.cons.injEq] at this ⊢
      rw [← this]
      simp
      constructor
      · rintro ⟨h1, h2, h3⟩; exact ⟨h2, h1, h3⟩
      · rintro ⟨h2, h1, h3⟩; exact ⟨h1, h2, h3⟩

/-- Built-in names are recognised regardless of case. -/
theorem C40_builtin_case_insensitive (a b : List Byte) (h : SameUpToCase a b) : afPtonBuiltin a = afPtonBuiltin b := by
  have : (fun p : List Byte × Nat => strCaseEq a p.1) = (fun p => strCaseEq b p.1) := by
    funext p
    rw [Bool.eq_iff_iff, strCaseEq_iff, strCaseEq_iff]
    unfold SameUpToCase at *
    rw [h]
  unfold afPtonBuiltin
  rw [this]

theorem builtin_names_back : ∀ p ∈ afBuiltinPton, p.2 = 119 ∨
    (∃ q ∈ afBuiltinNtop, q.1 = p.2 ∧ afNtopBuiltin p.2 = .ok q.2 ∧ afPtonBuiltin q.2 = .ok p.2) := by decide +kernel

theorem builtin_numbers_back : ∀ q ∈ afBuiltinNtop, q.1 = 0 ∨ afPtonBuiltin q.2 = .ok q.1 := by decide +kernel

/-- The number of a built-in name has a name, which leads back to the number; the only exception is
LINK64 (119), whose number has no name. -/
theorem C40_builtin_name_number_name (nm : List Byte) (n : Nat) (h : afPtonBuiltin nm = .ok n) (hx : n ≠ 119) :
    ∃ nm', afNtopBuiltin n = .ok nm' ∧ afPtonBuiltin nm' = .ok n := by
  unfold afPtonBuiltin at h
  split at h
  · rename_i p hp
    have hm := List.mem_of_find?_eq_some hp
    have he : p.2 = n := Except.ok.inj h
    rcases builtin_names_back p hm with h1 | ⟨q, _, _, h2, h3⟩
    · exact absurd (he ▸ h1) hx
    · rw [he] at h2 h3; exact ⟨q.2, h2, h3⟩
  · cases h

/-- The name of a built-in number leads back to it; the only exception is UNSPEC (0), whose name is
not recognised. -/
theorem C40_builtin_number_name_number (n : Nat) (nm : List Byte) (h : afNtopBuiltin n = .ok nm) (hx : n ≠ 0) :
    afPtonBuiltin nm = .ok n := by
  unfold afNtopBuiltin at h
  split at h
  · rename_i q hq
    have hm := List.mem_of_find?_eq_some hq
    have h1 := List.find?_some hq
    simp only [beq_iff_eq] at h1
    have he : q.2 = nm := Except.ok.inj h
    rcases builtin_numbers_back q hm with h2 | h2
    · exact absurd (h1 ▸ h2) hx
    · rw [he, h1] at h2; exact h2
  · cases h

example : afPtonBuiltin [105#8, 110#8, 101#8, 116#8] = .ok 2 ∧ afNtopBuiltin 10 = .ok [73#8, 78#8, 69#8, 84#8, 54#8] := by
  decide +kernel

/-! ### what the code does not do -/

/-- FINDING: names of registered families are distinguished by case (`memcmp`), unlike built-in
names: "FOO" and "foo" can be registered under different numbers. -/
theorem C40_case_sensitive :
    registered (afRun [afDemoInstall 300 nmFOO, afDemoInstall 301 nmfoo]) ⟨300, nmFOO, ⟨1, 2, 48⟩⟩ ∧
    registered (afRun [afDemoInstall 300 nmFOO, afDemoInstall 301 nmfoo]) ⟨301, nmfoo, ⟨1, 2, 48⟩⟩ ∧
    SameUpToCase nmFOO nmfoo := by
  have h := af_demo_two nmFOO nmfoo (by decide) (by decide) (by decide) (by decide) (by decide) 300 301 (by decide) (by decide) (by decide)
  exact ⟨(h _).2 (Or.inl rfl), (h _).2 (Or.inr rfl), by unfold SameUpToCase; decide⟩

/-- FINDING: a registered family may reuse a built-in name: with "INET" registered as 300, the name
of family 2 is still "INET", but "INET" means 300. -/
theorem C40_builtin_shadowed :
    let s := afRun [afDemoInstall 300 [73#8, 78#8, 69#8, 84#8]]
    afNtop s 2 true = .ok [73#8, 78#8, 69#8, 84#8] ∧ afPton s (some [73#8, 78#8, 69#8, 84#8]) = .ok 300 := by
  intro s
  have hr := af_demo_first ⟨300, some [73#8, 78#8, 69#8, 84#8], some 1, some 2, 48⟩ [73#8, 78#8, 69#8, 84#8] 1 2 rfl rfl rfl ⟨by decide, by decide, by decide, by decide, by decide⟩
  have h1 := (hr ⟨300, [73#8, 78#8, 69#8, 84#8], ⟨1, 2, 48⟩⟩).2 rfl
  refine ⟨?_, (C40_lookups_agree _ _ h1).1⟩
  have hb : afNtopBuiltin 2 = .ok [73#8, 78#8, 69#8, 84#8] := by decide +kernel
  show afNtop (afRun [.install _]) 2 true = _
  unfold afNtop
  split
  · rcases (afRun_inv [.install ⟨300, some [73#8, 78#8, 69#8, 84#8], some 1, some 2, 48⟩]).byNumber 2 with ⟨e, g, _, _, hg, hn, _⟩ | ⟨h2, _⟩
    · rw [(hr g).1 hg] at hn; exact absurd hn (by decide)
    · have h2' : afGetByNumber (afRun [afDemoInstall 300 [73#8, 78#8, 69#8, 84#8]]) 2 = .error .itemNotFound := h2
      show (match afGetByNumber (afRun [afDemoInstall 300 [73#8, 78#8, 69#8, 84#8]]) 2 with
        | .ok e => _ | .error .itemNotFound => _ | .error x => _) = _
      rw [h2']; exact hb
  · exact hb

/-- FINDING: `wolfsentry_addr_family_ntop` called without an object pointer does not consult the
registered families at all. -/
theorem C40_ntop_without_object (s : Af) (n : Nat) : afNtop s n false = afNtopBuiltin n := by
  unfold afNtop
  rw [if_neg (by intro h; cases h.1)]

end WS.Props
