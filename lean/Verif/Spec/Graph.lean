import Mathlib.Logic.Relation

/-! # Specification of connected groups -/

namespace Starworlds.Spec

/-- `a` and `b` are joined by a chain of directly related numbers below `n`; `inter` is only consulted with
the smaller number first. -/
def Linked (n : Nat) (inter : Nat → Nat → Bool) : Nat → Nat → Prop :=
  Relation.EqvGen fun a b => a < b ∧ b < n ∧ inter a b = true

/-- What Python's `list(set(l))` is used for: some list of the distinct elements of `l`. -/
def IsSetList (setList : List Nat → List Nat) : Prop :=
  ∀ l, (setList l).Nodup ∧ ∀ x, x ∈ setList l ↔ x ∈ l

end Starworlds.Spec
