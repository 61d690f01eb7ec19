import Mathlib.Algebra.Order.Field.Basic
import Mathlib.Algebra.Module.Prod
import Verif.Model.Basic

/-!
# Specification vocabulary for plane geometry

Independent of the model's functions: textbook notions only.
-/

namespace Starworlds.Spec

variable {K : Type*} [Field K] [LinearOrder K]

/-- `p` is on the infinite line through `a` and `b`. -/
def OnLine (a b p : Pt K) : Prop := ∃ t : K, p = a + t • (b - a)

/-- `p` is on the closed segment from `a` to `b`. -/
def OnSegment (a b p : Pt K) : Prop := ∃ t : K, 0 ≤ t ∧ t ≤ 1 ∧ p = a + t • (b - a)

/-- `p` is on the ray that starts at `a` and runs through `b`. -/
def OnRay (a b p : Pt K) : Prop := ∃ t : K, 0 ≤ t ∧ p = a + t • (b - a)

/-- Cross product (z component) of two plane vectors. -/
def cross (u v : Pt K) : K := u.1 * v.2 - u.2 * v.1

/-- Dot product. -/
def dot (u v : Pt K) : K := u.1 * v.1 + u.2 * v.2

/-- Squared Euclidean length. -/
def normSq (u : Pt K) : K := u.1 ^ 2 + u.2 ^ 2

/-- `p` is strictly to the left of the directed line from `a` to `b`. -/
def LeftOf (a b p : Pt K) : Prop := 0 < cross (b - a) (p - a)

/-- `p` is a convex combination of `a`, `b`, `c`. -/
def InTriangle (a b c p : Pt K) : Prop :=
  ∃ s t u : K, 0 ≤ s ∧ 0 ≤ t ∧ 0 ≤ u ∧ s + t + u = 1 ∧ p = s • a + t • b + u • c

/-- `v` is a strictly positive combination of `d1` and `d2` (open convex sector). -/
def InOpenSector (d1 d2 v : Pt K) : Prop := ∃ s t : K, 0 < s ∧ 0 < t ∧ v = s • d1 + t • d2

end Starworlds.Spec
