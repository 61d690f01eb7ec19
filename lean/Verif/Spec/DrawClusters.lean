import Verif.Model.DrawClusters
import Verif.Spec.DrawGeometry

/-! # Specification: what the pictures of a clustering show -/

namespace Starworlds.Spec

/-- The points of the polygon of an obstacle at a pose. -/
def placedPolygon (base : Shape) (mm : Option Pose) : Set (Pt ℝ) := {x | ∃ p ∈ filled base, x = worldOf mm p}

/-- Law of `shapely.ops.unary_union`: the result has the points of the polygons. -/
def UnionOk (union : List Shape → ShGeom) : Prop := ∀ vs, geomArea (union vs) = {x | ∃ v ∈ vs, x ∈ filled v}

/-- The drawings that a picture of clusters should have: obstacle and colour. -/
def wantedInks (clusters : List (List Nat)) (colour : Nat → Colour) : List (Nat × Colour) :=
  (clusters.zipIdx).flatMap fun p => p.1.map fun i => (i, colour p.2)

/-- What a drawing should show: the cluster obstacle at the current pose with its reference point, or the polygons of the obstacles of the
cluster at the poses `pose`. -/
def HullShows (os : Nat → DrawObj) (base : Nat → Shape) (mx : Nat → Option Pose × Pt ℝ) (pose : Nat → Nat → Option Pose)
    (clusters : List HullCluster) (c : Canvas) (k : Ink HullPart) : Prop :=
  match k.of with
  | .star j => ∃ cl st, clusters[j]? = some cl ∧ cl.star = some st ∧ match st with
    | .obstacle i => Depicts (os i) (base i) (mx i).1 (mx i).2 .global true false k.handles c
    | .comb parts xr _ => coveredBy k.handles c = {x | (∃ v ∈ parts, x ∈ filled v) ∨ x = xr}
  | .members j => ∃ cl, clusters[j]? = some cl ∧
      coveredBy k.handles c = {x | ∃ i ∈ cl.obstacles, x ∈ placedPolygon (base i) (pose j i)}

/-- The drawings that `draw_star_hull` should make, with their colours. -/
def wantedHulls (clusters : List HullCluster) (j : Nat := 0) : List (HullPart × Colour) :=
  (clusters.zipIdx j).flatMap fun p => match p.1.star with
    | some _ => [(.star p.2, .green), (.members p.2, .lightgrey)]
    | none => [(.members p.2, .red)]

/-- Whether drawing the cluster obstacle marks a reference point with `set_data`. -/
def starMarked (os : Nat → DrawObj) : Option HullStar → Bool
  | some (.obstacle i) => marked (os i).kind true
  | _ => false

end Starworlds.Spec
