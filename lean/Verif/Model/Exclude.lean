import Verif.Model.Admissible
import Verif.Model.Flags
import Verif.Model.Ellipse

/-!
# Model of `exclude_obstacles`

starshaped_hull/cluster_and_starify.py:214-225 and 350-359. The entries of the dictionaries are kept with the obstacles
instead of their ids, which is the same when the ids are different.
-/

namespace Starworlds

/-- An obstacle with the methods used for `exclude_obstacles`, in the global frame. -/
structure ExObs where
  obs : ConvObs
  /-- obstacles/obstacle.py:61-62 `exterior_point` -/
  exterior : Pt ℝ → Except PyErr Bool
  /-- obstacles/polygon.py:35-37 `extreme_points`; the other classes have no such method -/
  extreme : Except PyErr (List (Pt ℝ))

variable {G : Type}

/-- starshaped_hull/cluster_and_starify.py:223-225. -/
noncomputable def excludeLoop (geo : ConeGeo G) (o : ConvObs) (cur : G) : List (Pt ℝ) → Except PyErr G
  | [] => .ok cur
  | v :: vs => do
    let c ← coneOf v o
    let p ← coneShape geo c
    excludeLoop geo o (geo.intersection cur p) vs

/-- starshaped_hull/cluster_and_starify.py:218-225: the entry for the obstacle with the extreme points `vs`. -/
noncomputable def excludeKernel (geo : ConeGeo G) (o : ExObs) (vs : List (Pt ℝ)) : Except PyErr (Option G) := do
  let ext ← vs.mapM o.exterior
  if ext.all id then
    match vs with
    | [] => .error .indexError
    | v :: vs => do
      let c ← coneOf v o.obs
      let p ← coneShape geo c
      let g ← excludeLoop geo o.obs p vs
      .ok (some g)
  else .ok none

/-- starshaped_hull/cluster_and_starify.py:214-225: the entries of one obstacle. -/
noncomputable def excludeRow (geo : ConeGeo G) (all : List ExObs) (o : ExObs) : Except PyErr (List (Option G)) :=
  (all.filter fun e => decide (e.obs.id ≠ o.obs.id)).mapM fun e => do
    let vs ← e.extreme
    excludeKernel geo o vs

/-- starshaped_hull/cluster_and_starify.py:340-359 with `exclude_obstacles`: `all` are the obstacles of the call and `cl` those
of the cluster. -/
noncomputable def admissibleExclude (geo : ConeGeo G) (x xg : Pt ℝ) (all cl : List ExObs) : Except PyErr G := do
  let rows ← cl.mapM (excludeRow geo all)
  admissibleLoop geo x xg (rows.flatten.filterMap id) (cl.map (·.obs))

/-- A convex `StarshapedPolygon` without motion model, with the points `pts`. -/
noncomputable def polygonEx (id : Option Nat) (v : List (Pt ℝ)) (pts : Set (Pt ℝ)) : ExObs where
  obs := ⟨id, true, fun x => polygonTangentPoints none v x .global .global, pts⟩
  exterior x := exteriorPoint (polygonLoc none v x .global)
  extreme := .ok v

/-- An `Ellipse`, with the points `pts` of its polygon; it has no method `extreme_points`. -/
noncomputable def ellipseEx (id : Option Nat) (e : Ell) (pts : Set (Pt ℝ)) : ExObs where
  obs := ⟨id, true, fun x => e.tangentPoints x .global .global, pts⟩
  exterior x := e.exteriorPoint x .global
  extreme := .error .attributeError

/-- starshaped_hull/cluster_and_starify.py:215-225 as the work done for one obstacle in the initial loop. -/
noncomputable def excludeWork (geo : ConeGeo G) (all : List ExObs) (o : ExObs) : Except PyErr Unit := do
  let _ ← excludeRow geo all o
  .ok ()

end Starworlds
