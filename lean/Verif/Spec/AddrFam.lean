import Verif.Model.AddrFam
/-
What users are told about address families: a set of registered families, each with a number, a
name and its handlers.
-/
namespace WS.Spec
open WS

structure Family where
  number : Nat
  name : List Byte
  h : AfHandlers
  deriving DecidableEq, Repr

/-- A set of families. -/
abbrev Families := Family → Prop

/-- Numbers and names are in one-to-one correspondence. -/
def OneToOne (R : Families) : Prop :=
  ∀ f g, R f → R g → (f.number = g.number ↔ f.name = g.name) ∧ (f.number = g.number → f = g)

/-- Well-formed families: a number other than 0, a name of 1 to 32 bytes, 1 to 128 address bits. -/
def GoodFamily (f : Family) : Prop :=
  f.number ≠ 0 ∧ 1 ≤ f.name.length ∧ f.name.length ≤ 32 ∧ 1 ≤ f.h.maxBits ∧ f.h.maxBits ≤ 128

/-- What a call may return and do to the set. -/
def AfSpecStep (R : Families) (op : AfOp) (r : Except Err Unit) (R' : Families) : Prop :=
  match op with
  | .install a =>
    -- every argument must be present and in range, ...
    (∃ nm p f, a.name = some nm ∧ a.parser = some p ∧ a.formatter = some f ∧
       GoodFamily ⟨a.number, nm, ⟨p, f, a.maxBits.toNat⟩⟩ ∧ a.maxBits ≤ 128 ∧
       -- ... and neither number nor name may be in use
       (((∃ g, R g ∧ (g.number = a.number ∨ g.name = nm)) ∧ r = .error .itemAlreadyPresent ∧ R' = R) ∨
        ((∀ g, R g → g.number ≠ a.number ∧ g.name ≠ nm) ∧ r = .ok () ∧
          ∀ g, R' g ↔ R g ∨ g = ⟨a.number, nm, ⟨p, f, a.maxBits.toNat⟩⟩))) ∨
    ((∀ nm p f, a.name = some nm → a.parser = some p → a.formatter = some f →
       ¬ (GoodFamily ⟨a.number, nm, ⟨p, f, a.maxBits.toNat⟩⟩)) ∧
      (r = .error .invalidArg ∨ r = .error .stringArgTooLong) ∧ R' = R)
  | .removeByNumber n =>
    (∃ f, R f ∧ f.number = n ∧ r = .ok () ∧ ∀ g, R' g ↔ R g ∧ g ≠ f) ∨
    ((∀ f, R f → f.number ≠ n) ∧ r = .error .itemNotFound ∧ R' = R)
  | .removeByName name =>
    (∃ f, R f ∧ some f.name = name ∧ r = .ok () ∧ ∀ g, R' g ↔ R g ∧ g ≠ f) ∨
    ((∀ f, R f → some f.name ≠ name) ∧ (∃ x, r = .error x) ∧ R' = R)
  | .otherInsert _ _ | .otherDelete _ _ => R' = R

/-- The families registered in a context. -/
def registered (s : Af) : Families := fun f =>
  ∃ e, e ∈ (s.store.tables tblNum).ents ∧ e.key = .num f.number ∧
    (s.nameOf e.id).key = .name f.name ∧ s.handlers e.id = f.h

end WS.Spec
