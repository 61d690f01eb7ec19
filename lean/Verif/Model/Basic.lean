import Mathlib.Algebra.Order.Field.Basic
import Mathlib.Algebra.Order.AbsoluteValue.Basic
import Mathlib.Algebra.Field.Rat
import Mathlib.Algebra.Order.Ring.Rat
import Mathlib.Algebra.Module.Prod

/-!
# Basic vocabulary of the model

Points of the plane are pairs.  Python floats are modelled by the elements of a linearly
ordered field `K` (or by `ℝ` where square roots or angles are involved).  Python exceptions are
values of `PyErr`.
-/

namespace Starworlds

/-- A point of the plane: models the 2-element numpy arrays / lists / `Point` objects used
throughout /repo (utils/cg.py:77-97 `class Point`).  Simplification: exact numbers, no NaN. -/
abbrev Pt (K : Type*) := K × K

/-- Python exceptions raised (implicitly or explicitly) by the modelled code.
`nonFinite` models a numpy division by zero, which does not raise but produces inf/nan. -/
inductive PyErr where
  | attributeError
  | typeError
  | indexError
  | valueError
  | keyError
  | runtimeError
  | unboundLocalError
  | invalidFrameError
  | zeroDivisionError
  | nonFinite
  deriving DecidableEq, Repr

end Starworlds
