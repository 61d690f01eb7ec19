import Verif.Model.CgReal

/-!
# Model of starshaped_hull/cluster_and_starify.py: compute_kernel_points

The shapely geometries are elements of a type `G` with the operations that are used; the random draws and the clock
readings are arguments.
-/

namespace Starworlds

/-- The shapely operations used by `compute_kernel_points`. -/
structure PolyOps (G : Type) where
  difference : G → G → G
  intersection : G → G → G
  within : G → G → Bool
  area : G → ℝ
  /-- `g.centroid.coords[0]` -/
  centroid : G → Except PyErr (Pt ℝ)
  /-- `shapely.ops.nearest_points(a, b.centroid)[0].coords[0]` -/
  nearestToCentroid : G → G → Except PyErr (Pt ℝ)
  contains : G → Pt ℝ → Bool
  /-- `shapely.ops.split(g, LineString([a, b])).geoms` -/
  split : G → Pt ℝ → Pt ℝ → Except PyErr (List G)
  /-- `g.geom_type == 'Polygon'` -/
  isPolygon : G → Bool
  /-- `g.geoms` -/
  geoms : G → List G
  /-- `g.exterior.distance(Point(p))` -/
  exteriorDistance : G → Pt ℝ → Except PyErr ℝ

variable {G : Type}

/-- starshaped_hull/cluster_and_starify.py:92-98: limiting the admissible kernel to the outside of the workspace. -/
noncomputable def limitToExterior (geo : PolyOps G) (adm poly ws : G) : G :=
  if !geo.within poly ws then
    let tmp := geo.intersection (geo.difference adm ws) poly
    if geo.area tmp > 1e-6 then tmp else adm
  else adm

/-- starshaped_hull/cluster_and_starify.py:92-111: the triangle centre selection set. `adm` is the admissible kernel
and `poly` the polygon of the cluster without hull, `kernels` are the kernels of the obstacles if all are
starshaped. -/
noncomputable def selectionSet (geo : PolyOps G) (adm poly ws : G) (kernels : Option (List G)) : G :=
  let tcss := limitToExterior geo adm poly ws
  let tmp := match kernels with
    | some ks => ks.foldl geo.intersection tcss
    | none => tcss
  let tmp := if geo.area tmp < 1e-6 then geo.intersection tcss poly else tmp
  if geo.area tmp > 1e-6 then tmp else tcss

/-- starshaped_hull/cluster_and_starify.py:117-118: the draws are added until the centre is not collinear with robot
and goal; `none` when the given draws are not enough. -/
noncomputable def perturb (x xg : Pt ℝ) (tc : Pt ℝ) : List (Pt ℝ) → Option (Pt ℝ)
  | [] => if isCollinear x xg tc then none else some tc
  | d :: ds => if isCollinear x xg tc then perturb x xg (tc + d) ds else some tc

/-- starshaped_hull/cluster_and_starify.py:127-132: the first part, from the second on, whose centroid is on the same
side of the line from robot to goal as the previous centre; the first part if there is none. -/
noncomputable def sameSide (geo : PolyOps G) (x xg prev : Pt ℝ) (first : G) : List G → Except PyErr G
  | [] => .ok first
  | g :: gs => do
    let c ← geo.centroid g
    if isCcw x xg c = isCcw x xg prev then .ok g else sameSide geo x xg prev first gs

/-- starshaped_hull/cluster_and_starify.py:114-134: the triangle centre. -/
noncomputable def triangleCentre (geo : PolyOps G) (adm tcss : G) (x xg : Pt ℝ) (prev : Option (Pt ℝ)) (draws : List (Pt ℝ)) :
    Except PyErr (Option (Pt ℝ)) :=
  match prev with
  | none => do
    let tc ← geo.nearestToCentroid adm tcss
    .ok (perturb x xg tc draws)
  | some prev =>
    if geo.contains tcss prev && !isCollinear x xg prev then .ok (some prev)
    else do
      match ← geo.split tcss x xg with
      | [] => .error .indexError
      | first :: rest => do
        let g ← sameSide geo x xg prev first rest
        let tc ← geo.nearestToCentroid adm g
        .ok (some tc)

/-- starshaped_hull/cluster_and_starify.py:145-149: the distance from the border of the selection set. -/
noncomputable def borderDistance (geo : PolyOps G) (tcss : G) (tc : Pt ℝ) : Except PyErr ℝ :=
  if geo.isPolygon tcss then geo.exteriorDistance tcss tc
  else do
    match ← (geo.geoms tcss).mapM fun p => geo.exteriorDistance p tc with
    | [] => .error .valueError
    | d :: ds => .ok (ds.foldl min d)

/-- starshaped_hull/cluster_and_starify.py:145-151: the kernel points around a triangle centre. -/
noncomputable def kernelTriangle (geo : PolyOps G) (tcss : G) (tc : Pt ℝ) (eps : ℝ) : Except PyErr (Pt ℝ × Pt ℝ × Pt ℝ) := do
  let dist ← borderDistance geo tcss tc
  .ok (equilateralTriangle tc (min eps (0.9 * dist)) 0)

/-- The clock readings in `compute_kernel_points` (utils/misc.py:9-14): `tic()` at line 89, and those of the five `toc`
calls at lines 100, 105, 109, 136 and 152. -/
structure Clock where
  t0 : ℝ
  t1 : ℝ
  t2 : ℝ
  t3 : ℝ
  t4 : ℝ
  t5 : ℝ

/-- starshaped_hull/cluster_and_starify.py:100, 105, 109, 136, 152-155: the time statistics. Every entry is the time
since the start minus the entry before; only whether the division by their sum raises is kept. -/
noncomputable def timings (c : Clock) : Except PyErr Unit :=
  let toc (t : ℝ) : ℝ := (t - c.t0) * 1000
  let a := toc c.t1
  let b := toc c.t2 - a
  let d := toc c.t3 - b
  let e := toc c.t4 - d
  let f := toc c.t5 - e
  if 0 + a + b + d + e + f = 0 then .error .zeroDivisionError else .ok ()

/-- starshaped_hull/cluster_and_starify.py:86-157 `compute_kernel_points`; `prev` is the mean of the kernel points of
the previous cluster. -/
noncomputable def kernelPoints (geo : PolyOps G) (adm poly ws : G) (kernels : Option (List G)) (x xg : Pt ℝ) (eps : ℝ)
    (prev : Option (Pt ℝ)) (draws : List (Pt ℝ)) (clock : Clock) : Except PyErr (Option (Pt ℝ × Pt ℝ × Pt ℝ)) := do
  let tcss := selectionSet geo adm poly ws kernels
  match ← triangleCentre geo adm tcss x xg prev draws with
  | none => .ok none
  | some tc => do
    let T ← kernelTriangle geo tcss tc eps
    timings clock
    .ok (some T)

end Starworlds
