import Verif.Model.Cluster
import Verif.Model.StarHull
import Verif.Model.KernelPoints
import Verif.Spec.StarHull
import Mathlib.Topology.Instances.Real.Lemmas

/-!
# Model of starshaped_hull/cluster_and_starify.py: the geometry of convex obstacles

`starGeo` fills the oracles of `Geo` for convex obstacles ("Input: Convex obstacles", line 167) with the computations
that the program makes: `admissible_kernel`, `kernel_starshaped_hull` and the constructors of the cluster obstacles.
A shapely polygon is the set of its points here. The selection of the kernel points is an argument (`select`), which
`selectPoints` fills with `compute_kernel_points`. `exclude_obstacles` is False. A hull computation that does not
finish is an error, so that nothing is claimed about it.
-/

namespace Starworlds

open Classical

/-- What the clustering uses of a convex obstacle, in the global frame. -/
structure ConvObs where
  id : Option Nat
  /-- a subclass of `StarshapedObstacle`, which has the methods `kernel` and `set_xr` -/
  hasKernel : Bool
  tangentPoints : Pt ℝ → Except PyErr (List (Pt ℝ))
  /-- the points of `polygon()` -/
  polygon : Set (Pt ℝ)

/-- Three kernel points. -/
abbrev Triple := Pt ℝ × Pt ℝ × Pt ℝ

def Triple.points (T : Triple) : List (Pt ℝ) := [T.1, T.2.1, T.2.2]

/-- `np.mean(kernel_points, axis=0)`. -/
noncomputable def Triple.mean (T : Triple) : Pt ℝ := (1 / 3 : ℝ) • (T.1 + T.2.1 + T.2.2)

/-- A cluster obstacle: an input obstacle or a `StarshapedPrimitiveCombination` of members and hull, or a
`StarshapedPolygon` (no members, only the hull). `xr` is what the call has computed; `xr = none` is the reference point
that the input obstacle has (`Model/StarifyEffects.lean`). -/
structure ClusterObs where
  members : List ConvObs
  hull : Option (Set (Pt ℝ))
  xr : Option (Pt ℝ)

/-- `polygon()` of the cluster obstacle; obstacles/starshaped_primitive_combination.py:222-226 for a combination. -/
def ClusterObs.polygon (s : ClusterObs) : Set (Pt ℝ) := {p | ∃ o ∈ s.members, p ∈ o.polygon} ∪ s.hull.getD ∅

/-- The arguments of the call, the choice of kernel points, and the remaining answers of libraries and clock. -/
structure StarCfg where
  x : Pt ℝ
  xg : Pt ℝ
  unique : List (Pt ℝ) → List (Pt ℝ)
  hullFuel : Nat
  setList : List Nat → List Nat
  timeoutInit : Nat → Bool
  timeoutIter : Nat → Bool
  timeoutConvex : Nat → Bool
  /-- lines 340-344 -/
  admEmpty : Nat → List ConvObs → Except PyErr Bool
  /-- `compute_kernel_points`, without the access to the kernels of the obstacles -/
  select : Nat → List ConvObs → Option Triple → Except PyErr Triple
  /-- `cluster_obstacle.is_convex()` -/
  isConvex : ClusterObs → Bool

/-- starshaped_hull/starshaped_hull.py:18-32 `kernel_starshaped_hull` of a list of convex obstacles as a polygon. -/
noncomputable def clusterHull (cfg : StarCfg) (obs : List ConvObs) (kp : Triple) : Except PyErr (Option (Set (Pt ℝ))) :=
  match kernelHull cfg.unique (obs.map fun o => .convex o.tangentPoints) kp.points cfg.hullFuel with
  | .error e => .error e
  | .ok none => .error .runtimeError
  | .ok (some r) => .ok (r.map Spec.regions)

/-- The oracles of `cluster_and_starify` for convex obstacles. -/
noncomputable def starGeo (cfg : StarCfg) : Geo ConvObs ClusterObs Triple (Set (Pt ℝ)) where
  id o := o.id
  prim o := ⟨[o], none, none⟩
  starPoly s := s.polygon
  inter p q := decide (p ∩ q).Nonempty
  setList := cfg.setList
  timeoutInit := cfg.timeoutInit
  timeoutIter := cfg.timeoutIter
  timeoutConvex := cfg.timeoutConvex
  robotFree o := (admissibleKernel o.tangentPoints cfg.x).map (·.isSome)
  goalFree o := (admissibleKernel o.tangentPoints cfg.xg).map (·.isSome)
  exclude _ := .ok ()
  admEmpty := cfg.admEmpty
  -- lines 102-104: convex obstacles report `is_starshaped()`, so that `o.kernel()` is called for all of them
  kernelSel n obs prev := if obs.all (·.hasKernel) then cfg.select n obs prev else .error .attributeError
  -- lines 255-266
  firstStar o kp := do
    match ← clusterHull cfg [o] kp with
    | none => if o.hasKernel then .ok ⟨[o], none, some kp.mean⟩ else .error .attributeError
    | some h => .ok ⟨[o], some h, some kp.mean⟩
  -- lines 380-387
  loopStar _ obs kp := do
    let h ← clusterHull cfg obs kp
    .ok ⟨obs, h, some kp.mean⟩
  isConvex := cfg.isConvex
  -- lines 426-428: the convex hull of the exterior vertices
  hullOf p := .ok (convexHull ℝ p)
  -- line 429: `contains` is false for points on the border
  blocked h := decide (cfg.x ∈ interior h ∨ cfg.xg ∈ interior h)
  -- line 432
  hullStar h st := ⟨[], some h, st.xr⟩

/-- starshaped_hull/cluster_and_starify.py:86-157 as the choice of kernel points: `adm` is the admissible kernel of the
cluster, `poly` its polygon, `kernelOf` the kernels of the obstacles. Draws that are not enough are an error. -/
noncomputable def selectPoints {G : Type} (geo : PolyOps G) (adm : Nat → List ConvObs → Except PyErr G)
    (poly : List ConvObs → G) (ws : G) (kernelOf : ConvObs → G) (x xg : Pt ℝ) (eps : ℝ)
    (draws : Nat → List ConvObs → List (Pt ℝ)) (clock : Nat → List ConvObs → Clock)
    (n : Nat) (obs : List ConvObs) (prev : Option Triple) : Except PyErr Triple := do
  let A ← adm n obs
  match ← kernelPoints geo A (poly obs) ws (some (obs.map kernelOf)) x xg eps (prev.map Triple.mean) (draws n obs)
    (clock n obs) with
  | none => .error .runtimeError
  | some T => .ok T

end Starworlds
