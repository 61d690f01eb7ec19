import Verif.Model.Obstacle

/-!
# Model of obstacles/ellipse.py

Over `ℝ`, single points, frames through `transform` and `rotate` of `Verif.Model.Obstacle`.
-/

namespace Starworlds

open Real

/-- obstacles/ellipse.py:10-18: the fields of an `Ellipse`.  `_a2` and `enclosing_ball_diameter` are
functions of `_a`: the only places that write `_a` (the constructor and lines 27-29) update them too. -/
structure Ell where
  a : Pt ℝ
  xr : Pt ℝ
  nPol : Nat
  mm : Option Pose

/-- obstacles/ellipse.py:18. -/
noncomputable def Ell.diameter (e : Ell) : ℝ := max (2 * e.a.1) (2 * e.a.2)

/-- obstacles/ellipse.py:90-93 `point_location`. -/
noncomputable def Ell.pointLocation (e : Ell) (x : Pt ℝ) (fin : Frame) : Except PyErr ℝ := do
  let y ← transform e.mm x fin .obstacle
  if e.a.1 = 0 ∨ e.a.2 = 0 then .error .nonFinite
  else .ok ((y.1 / e.a.1) ^ 2 + (y.2 / e.a.2) ^ 2 - 1)

/-- obstacles/obstacle.py:58-59 `interior_point`. -/
noncomputable def Ell.interiorPoint (e : Ell) (x : Pt ℝ) (fin : Frame) : Except PyErr Bool := do
  let v ← e.pointLocation x fin
  .ok (decide (v < 0))

/-- obstacles/obstacle.py:61-62 `exterior_point`. -/
noncomputable def Ell.exteriorPoint (e : Ell) (x : Pt ℝ) (fin : Frame) : Except PyErr Bool := do
  let v ← e.pointLocation x fin
  .ok (decide (0 < v))

/-- obstacles/obstacle.py:64-65 `boundary_point` (`np.isclose` with its default tolerances). -/
noncomputable def Ell.boundaryPoint (e : Ell) (x : Pt ℝ) (fin : Frame) : Except PyErr Bool := do
  let v ← e.pointLocation x fin
  .ok (isClose v 0 (1 / 10 ^ 5) (1 / 10 ^ 8))

open scoped Classical in
/-- obstacles/ellipse.py:111-127, the branch for vertical lines, in the obstacle frame. -/
noncomputable def ellVertical (a left right : Pt ℝ) : List (Pt ℝ) :=
  if right.1 < -a.1 ∨ right.1 > a.1 then []
  else
    let top := if right.2 > left.2 then right else left
    let bottom := if right.2 > left.2 then left else right
    if top.2 ≥ a.2 ∧ bottom.2 ≤ -a.2 then [(0, a.2), (0, -a.2)]
    else if top.2 ≥ a.2 ∧ bottom.2 ≤ a.2 then [(0, a.2)]
    else if top.2 ≥ -a.2 ∧ bottom.2 ≤ -a.2 then [(0, -a.2)]
    else []

open scoped Classical in
/-- obstacles/ellipse.py:129-161, the branch for a line `y = m x + c`, in the obstacle frame. -/
noncomputable def ellSloped (a left right : Pt ℝ) (m c : ℝ) : Except PyErr (List (Pt ℝ)) :=
  let kx2 := a.1 ^ 2 * m ^ 2 + a.2 ^ 2
  let kx := 2 * a.1 ^ 2 * m * c
  let k1 := a.1 ^ 2 * (c ^ 2 - a.2 ^ 2)
  let discriminant := a.1 ^ 2 * m ^ 2 + a.2 ^ 2 - c ^ 2
  if discriminant < 0 then .ok []
  else if kx2 = 0 then .error .nonFinite
  else if discriminant = 0 then
    let x := -kx / (2 * kx2)
    .ok [(x, m * x + c)]
  else
    let inSqrt := kx ^ 2 / (4 * kx2 ^ 2) - k1 / kx2
    let inSqrt := if isClose inSqrt 0 (1 / 10 ^ 5) (1 / 10 ^ 8) then 0 else inSqrt
    let xl := -kx / (2 * kx2) - √inSqrt
    let xr := -kx / (2 * kx2) + √inSqrt
    let pl : Pt ℝ := (xl, m * xl + c)
    let pr : Pt ℝ := (xr, m * xr + c)
    if right.1 < pl.1 ∨ pr.1 < left.1 ∨ (pl.1 < left.1 ∧ left.1 < right.1 ∧ right.1 < pr.1) then .ok []
    else if pl.1 < left.1 then .ok [pr]
    else if right.1 < pr.1 then .ok [pl]
    else .ok [pl, pr]

open scoped Classical in
/-- obstacles/ellipse.py:99-161 `line_intersection` in the obstacle frame. -/
noncomputable def ellLine (a l0 l1 : Pt ℝ) : Except PyErr (List (Pt ℝ)) :=
  let left := if l0.1 < l1.1 then l0 else l1
  let right := if l0.1 < l1.1 then l1 else l0
  if |right.1 - left.1| < 1 / 10 ^ 4 then .ok (ellVertical a left right)
  else
    let m := (right.2 - left.2) / (right.1 - left.1)
    let c := left.2 - m * left.1
    if |m| > 100 then .ok (ellVertical a left right)
    else ellSloped a left right m c

/-- obstacles/ellipse.py:95-161 `line_intersection`.  With an invalid output frame the code may raise also
when no point is returned. -/
noncomputable def Ell.lineIntersection (e : Ell) (l0 l1 : Pt ℝ) (fin fout : Frame) :
    Except PyErr (List (Pt ℝ)) := do
  let p0 ← transform e.mm l0 fin .obstacle
  let p1 ← transform e.mm l1 fin .obstacle
  let ps ← ellLine e.a p0 p1
  ps.mapM fun p => transform e.mm p .obstacle fout

open scoped Classical in
/-- obstacles/ellipse.py:67-80 `boundary_mapping`; `none` is `None`. -/
noncomputable def Ell.boundaryMapping (e : Ell) (x : Pt ℝ) (fin fout : Frame) :
    Except PyErr (Option (Pt ℝ)) := do
  let y ← transform e.mm x fin .obstacle
  let d ← referenceDirection e.mm e.xr y .obstacle .obstacle
  let ps ← e.lineIntersection e.xr (e.xr + (1.1 * e.diameter) • d) .obstacle .obstacle
  match ps with
  | [] => .ok none
  | [p] => do
    let q ← transform e.mm p .obstacle fout
    .ok (some q)
  | p0 :: p1 :: _ =>
    if norm2 (p0 - y) < norm2 (p1 - y) then do
      let q ← transform e.mm p0 .obstacle fout
      .ok (some q)
    else do
      let q ← transform e.mm p1 .obstacle fout
      .ok (some q)

/-- obstacles/starshaped_obstacle.py:35-40 `distance_function`, which the ellipse inherits; with `None` for the boundary
point the subtraction raises TypeError. -/
noncomputable def Ell.distanceFunction (e : Ell) (x : Pt ℝ) (fin : Frame) : Except PyErr ℝ := do
  let y ← transform e.mm x fin .obstacle
  match ← e.boundaryMapping y .obstacle .obstacle with
  | none => .error .typeError
  | some b =>
    if norm2 (b - e.xr) = 0 then .error .nonFinite
    else .ok ((norm2 (y - e.xr) / norm2 (b - e.xr)) ^ 2)

/-- obstacles/ellipse.py:82-88 `normal`; `none` is `None`. -/
noncomputable def Ell.normal (e : Ell) (x : Pt ℝ) (fin fout : Frame) (xIsBoundary : Bool) :
    Except PyErr (Option (Pt ℝ)) := do
  let b ← if xIsBoundary then (transform e.mm x fin .obstacle).map some else e.boundaryMapping x fin .obstacle
  match b with
  | none => .ok none
  | some b =>
    let n : Pt ℝ := (e.a.2 ^ 2 * b.1, e.a.1 ^ 2 * b.2)
    if norm2 n = 0 then .error .nonFinite
    else do
      let r ← rotate e.mm (n.1 / norm2 n, n.2 / norm2 n) .obstacle fout
      .ok (some r)

/-- obstacles/ellipse.py:171 the test for a vertical tangent. -/
noncomputable def ellVerticalTangent (a p : Pt ℝ) : Bool := decide (|a.1 ^ 2 - p.1 ^ 2| < 1 / 10 ^ 5)

/-- obstacles/ellipse.py:169-192 the two tangent points in the obstacle frame, before ordering. Both axes
are non-zero here, since `point_location` has been evaluated. -/
noncomputable def ellTangents (a p : Pt ℝ) : Except PyErr (Pt ℝ × Pt ℝ) :=
  if ellVerticalTangent a p then
    if 2 * p.1 * p.2 = 0 then .error .nonFinite
    else
      let m2 := (p.2 ^ 2 - a.2 ^ 2) / (2 * p.1 * p.2)
      let x2 := (p.1 * m2 ^ 2 - p.2 * m2) / (a.2 ^ 2 / a.1 ^ 2 + m2 ^ 2)
      let y2 := m2 * (x2 - p.1) + p.2
      .ok ((p.1, 0), (x2, y2))
  else
    let tmp := p.1 ^ 2 - a.1 ^ 2
    let c1 := p.1 * p.2 / tmp
    let c2 := (a.2 ^ 2 - p.2 ^ 2) / tmp
    let s := √(c1 ^ 2 + c2)
    let m1 := c1 + s
    let m2 := c1 - s
    let r := a.2 ^ 2 / a.1 ^ 2
    let x1 := (p.1 * m1 ^ 2 - p.2 * m1) / (r + m1 ^ 2)
    let x2 := (p.1 * m2 ^ 2 - p.2 * m2) / (r + m2 ^ 2)
    .ok ((x1, m1 * (x1 - p.1) + p.2), (x2, m2 * (x2 - p.1) + p.2))

/-- obstacles/ellipse.py:163-200 `tangent_points`.  Line 197 compares the point as given (input frame) with
the tangent points in the output frame. -/
noncomputable def Ell.tangentPoints (e : Ell) (x : Pt ℝ) (fin fout : Frame) : Except PyErr (List (Pt ℝ)) := do
  let y ← transform e.mm x fin .obstacle
  let ext ← e.exteriorPoint y .obstacle
  if !ext then .ok []
  else do
    let (t1, t2) ← ellTangents e.a y
    let t1 ← transform e.mm t1 .obstacle fout
    let t2 ← transform e.mm t2 .obstacle fout
    if isCcw x t1 t2 then .ok [t2, t1] else .ok [t1, t2]

/-- obstacles/ellipse.py:25-29 `dilated_obstacle`, without the cached polygon (lines 30-34). The copy shares
the motion model. -/
def Ell.dilated (e : Ell) (padding : ℝ) : Ell := { e with a := (e.a.1 + padding, e.a.2 + padding) }

/-- obstacles/ellipse.py:212-217: the vertices passed to `shapely.geometry.Polygon`;
`np.linspace(0, 2π, n, endpoint=False)` is `k * (2π / n)`. -/
noncomputable def Ell.polygonVertices (e : Ell) : List (Pt ℝ) :=
  (List.range e.nPol).map fun k : ℕ =>
    let t : ℝ := k * (2 * π / e.nPol)
    ((e.a.1 + 1 / 10 ^ 3) * cos t, (e.a.2 + 1 / 10 ^ 3) * sin t)

end Starworlds
