import Verif.Spec.Kernel
import Verif.Spec.StarPolygon
import Verif.Spec.Ellipse
import Mathlib.MeasureTheory.Measure.Lebesgue.Basic
import Mathlib.Data.List.Rotate

/-! # Specification: the area of an obstacle -/

namespace Starworlds.Spec

open MeasureTheory

/-- The area of a region of the plane. -/
noncomputable def areaOf (S : Set (Pt ℝ)) : ℝ := (volume S).toReal

/-- The points of the polygon with the vertices `v` at a pose, in a frame. -/
def ringAt (mm : Option Pose) (f : Frame) (v : List (Pt ℝ)) : Set (Pt ℝ) := {q | ∃ p ∈ filled v, q = inFrame mm f p}

/-- The polygon with these vertices, in counter-clockwise order, can be cut along diagonals into pieces that run around a point
(for instance triangles). The pieces of a cut have no inner points in common. -/
inductive Cuttable : List (Pt ℝ) → Prop
  | star {c v} (h : StarAbout c v) : Cuttable v
  | rotate {v} (n : ℕ) (h : Cuttable v) : Cuttable (v.rotate n)
  | cut {a b : Pt ℝ} {l m : List (Pt ℝ)} (h1 : Cuttable (a :: l ++ [b])) (h2 : Cuttable (b :: m ++ [a]))
      (h : ∀ p, ¬ (Inside (a :: l ++ [b]) p ∧ Inside (b :: m ++ [a]) p)) : Cuttable (a :: l ++ b :: m)

/-- The vertices, from some vertex on and in one of the two directions, are those of a polygon that can be cut into pieces. -/
def CutEitherWay (w : List (Pt ℝ)) : Prop := ∃ v, Cuttable v ∧ (v ~r w ∨ v ~r w.reverse)

end Starworlds.Spec
