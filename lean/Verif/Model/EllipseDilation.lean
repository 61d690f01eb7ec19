import Verif.Model.Ellipse
import Mathlib.Analysis.Convex.Hull

/-!
# obstacles/ellipse.py:25-35, 212-217: the cached polygon of an ellipse and dilation

The polygon is the region that it covers (the vertices lie on an ellipse, so it is the convex hull of its
vertices).  `buffer` is shapely's `buffer(padding, cap_style=1, join_style=1)`, with the laws
`Spec.BufferOk`.  The frame is that of the obstacle; the global polygon is computed from this one.
-/

namespace Starworlds

/-- An `Ellipse` with `_polygon` (`none` before it is computed). -/
structure EllObj where
  ell : Ell
  polygon : Option (Set (Pt ℝ))

/-- obstacles/ellipse.py:212-217 `_compute_polygon_representation`. -/
noncomputable def Ell.polygonRegion (e : Ell) : Set (Pt ℝ) := convexHull ℝ {p | p ∈ e.polygonVertices}

/-- obstacles/obstacle.py:73-75 `polygon()`: computed at the first call. -/
noncomputable def EllObj.polygonCall (o : EllObj) : Set (Pt ℝ) × EllObj :=
  match o.polygon with
  | some s => (s, o)
  | none => (o.ell.polygonRegion, { o with polygon := some o.ell.polygonRegion })

/-- obstacles/ellipse.py:25-35 `dilated_obstacle`: a copy (whose polygon is not computed yet) with longer axes; if the
polygon of the original has been computed, the buffered polygon is stored in the copy. -/
def EllObj.dilated (buffer : Set (Pt ℝ) → ℝ → Set (Pt ℝ)) (o : EllObj) (padding : ℝ) : EllObj :=
  ⟨o.ell.dilated padding, match o.polygon with
    | some s => some (buffer s padding)
    | none => none⟩

/-- What a program can do; after `dilate` it goes on with the dilated obstacle. -/
inductive EllOp where
  | polygon
  | dilate (padding : ℝ)

/-- One operation. -/
noncomputable def EllObj.step (buffer : Set (Pt ℝ) → ℝ → Set (Pt ℝ)) (o : EllObj) : EllOp → EllObj
  | .polygon => o.polygonCall.2
  | .dilate r => o.dilated buffer r

/-- A history. -/
noncomputable def EllObj.run (buffer : Set (Pt ℝ) → ℝ → Set (Pt ℝ)) (o : EllObj) (ops : List EllOp) : EllObj :=
  ops.foldl (EllObj.step buffer) o

end Starworlds
