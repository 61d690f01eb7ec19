import Verif.Model.DrawGeometry

/-!
# Pictures of a clustering

starshaped_hull/cluster_and_starify.py:31-34 `ObstacleCluster.polygon_excluding_hull`, 452-463 `draw_clustering` and 466-480
`draw_star_hull`. The marks of robot and goal, the limits of the axes, edge colours and transparency are left out. The obstacles are
numbered; two clusters can have the same obstacle.
-/

namespace Starworlds

/-- The colours of the patches: an entry of the colour map `plt.cm.rainbow`, 'g', 'lightgrey' and 'r'. -/
inductive Colour where
  | rainbow (entry : Nat)
  | green
  | lightgrey
  | red
deriving DecidableEq

/-- starshaped_hull/cluster_and_starify.py:453 `plt.cm.rainbow(np.linspace(0, 1, n))[i]`. The colour map has 256 entries, a number `t` in
[0, 1] gets entry `int(256 * t)`, and 1 gets the last one. Exact arithmetic. -/
def rainbowEntry (n i : Nat) : Nat := if n ≤ 1 then 0 else min 255 (256 * i / (n - 1))

/-- What has been drawn: whose drawing it is, its handles and its colour. -/
structure Ink (α : Type) where
  of : α
  handles : List Handle
  colour : Colour

/-- The obstacles, the axes, and the drawings. -/
structure Sheet (α : Type) where
  obs : Nat → ObState
  canvas : Canvas
  inks : List (Ink α)

/-- starshaped_hull/cluster_and_starify.py:456: the loop over the obstacles of a cluster. -/
noncomputable def drawMembers (scalarOk : Bool) (os : Nat → DrawObj) (rnd : Shape) (col : Colour) : List Nat → Sheet Nat → Except PyErr (Sheet Nat)
  | [], s => .ok s
  | i :: is, s =>
    match drawCall scalarOk rnd (os i) (s.obs i) .global false false s.canvas with
    | (.error e, _, _) => .error e
    | (.ok hs, o, c) => drawMembers scalarOk os rnd col is ⟨Function.update s.obs i o, c, s.inks ++ [⟨i, hs, col⟩]⟩

/-- starshaped_hull/cluster_and_starify.py:455-456: the clusters from number `j` on, of `n`. -/
noncomputable def drawColoured (scalarOk : Bool) (os : Nat → DrawObj) (rnd : Shape) (n : Nat) : Nat → List (List Nat) → Sheet Nat → Except PyErr (Sheet Nat)
  | _, [], s => .ok s
  | j, cl :: cls, s => do
    let s ← drawMembers scalarOk os rnd (.rainbow (rainbowEntry n j)) cl s
    drawColoured scalarOk os rnd n (j + 1) cls s

/-- starshaped_hull/cluster_and_starify.py:452-463 `draw_clustering`, on new axes: the clusters as lists of obstacles. -/
noncomputable def drawClustering (scalarOk : Bool) (os : Nat → DrawObj) (rnd : Shape) (obs : Nat → ObState) (clusters : List (List Nat)) :
    Except PyErr (Sheet Nat) := drawColoured scalarOk os rnd clusters.length 0 clusters ⟨obs, [], []⟩

/-- `cluster_obstacle`: one of the obstacles, or a combination. -/
inductive HullStar where
  | obstacle (i : Nat)
  | comb (parts : List Shape) (xr : Pt ℝ) (name : String)

/-- A cluster: `cluster_obstacle`, `obstacles` and `_polygon_excluding_hull`. -/
structure HullCluster where
  star : Option HullStar
  obstacles : List Nat
  cache : Option ShGeom

/-- `[o.polygon() for o in obstacles]`. -/
noncomputable def polygonsOf : List Nat → (Nat → ObState) → Except PyErr (List Shape) × (Nat → ObState)
  | [], obs => (.ok [], obs)
  | i :: is, obs =>
    match polygonCall (obs i) .global with
    | (.error e, o) => (.error e, Function.update obs i o)
    | (.ok v, o) =>
      match polygonsOf is (Function.update obs i o) with
      | (.error e, obs) => (.error e, obs)
      | (.ok vs, obs) => (.ok (v :: vs), obs)

/-- starshaped_hull/cluster_and_starify.py:31-34 `polygon_excluding_hull`: the value, the obstacles and the cluster after the call; `union` is
`shapely.ops.unary_union`. -/
noncomputable def excludingHull (union : List Shape → ShGeom) (cl : HullCluster) (obs : Nat → ObState) :
    Except PyErr ShGeom × (Nat → ObState) × HullCluster :=
  match cl.cache with
  | some g => (.ok g, obs, cl)
  | none =>
    match polygonsOf cl.obstacles obs with
    | (.error e, obs) => (.error e, obs, cl)
    | (.ok vs, obs) => (.ok (union vs), obs, { cl with cache := some (union vs) })

/-- What a drawing in `draw_star_hull` is of: the cluster obstacle, or the obstacles, of the cluster with this number. -/
inductive HullPart where
  | star (j : Nat)
  | members (j : Nat)
deriving DecidableEq

/-- starshaped_hull/cluster_and_starify.py:470: `cl.cluster_obstacle.draw(ax=ax, fc='g', alpha=0.8)`. -/
noncomputable def drawHullStar (scalarOk : Bool) (os : Nat → DrawObj) (rnd : Shape) (j : Nat) (st : HullStar) (s : Sheet HullPart) :
    Except PyErr (Sheet HullPart) :=
  match st with
  | .obstacle i =>
    match drawCall scalarOk rnd (os i) (s.obs i) .global true false s.canvas with
    | (.error e, _, _) => .error e
    | (.ok hs, o, c) => .ok ⟨Function.update s.obs i o, c, s.inks ++ [⟨.star j, hs, .green⟩]⟩
  | .comb parts xr name =>
    let (hs, c) := combInitPlot parts xr name true false s.canvas
    .ok ⟨s.obs, c, s.inks ++ [⟨.star j, hs, .green⟩]⟩

/-- starshaped_hull/cluster_and_starify.py:471 and 473: `draw_shapely_polygon(cl.polygon_excluding_hull(), ax=ax, fc=.., ec='k')`. The cache of the
cluster after the call is left out. -/
noncomputable def drawHullMembers (union : List Shape → ShGeom) (j : Nat) (cl : HullCluster) (col : Colour) (s : Sheet HullPart) :
    Except PyErr (Sheet HullPart) :=
  match excludingHull union cl s.obs with
  | (.error e, _, _) => .error e
  | (.ok g, obs, _) =>
    match drawShapely (fun p _ => .polygon p) g none none s.canvas with
    | (.error e, _) => .error e
    | (.ok hs, c) => .ok ⟨obs, c, s.inks ++ [⟨.members j, hs, col⟩]⟩

/-- starshaped_hull/cluster_and_starify.py:468-473: the clusters from number `j` on. -/
noncomputable def drawHulls (scalarOk : Bool) (os : Nat → DrawObj) (rnd : Shape) (union : List Shape → ShGeom) :
    Nat → List HullCluster → Sheet HullPart → Except PyErr (Sheet HullPart)
  | _, [], s => .ok s
  | j, cl :: cls, s =>
    match cl.star with
    | some st => do
      let s ← drawHullStar scalarOk os rnd j st s
      let s ← drawHullMembers union j cl .lightgrey s
      drawHulls scalarOk os rnd union (j + 1) cls s
    | none => do
      let s ← drawHullMembers union j cl .red s
      drawHulls scalarOk os rnd union (j + 1) cls s

/-- starshaped_hull/cluster_and_starify.py:466-480 `draw_star_hull`, on new axes. -/
noncomputable def drawStarHull (scalarOk : Bool) (os : Nat → DrawObj) (rnd : Shape) (union : List Shape → ShGeom) (obs : Nat → ObState)
    (clusters : List HullCluster) : Except PyErr (Sheet HullPart) := drawHulls scalarOk os rnd union 0 clusters ⟨obs, [], []⟩

end Starworlds
