import Verif.Model.Cg
import Mathlib.Analysis.SpecialFunctions.Trigonometric.Basic
import Mathlib.Analysis.SpecialFunctions.Complex.Arg
import Mathlib.Analysis.SpecialFunctions.Sqrt
import Mathlib.Algebra.BigOperators.Group.List.Basic

/-!
# Model of the parts of utils/cg.py that use sqrt, sin, cos or arctan2

Over `ℝ`.  `np.arctan2(y, x)` is `Complex.arg ⟨x, y⟩` (same range `(-π, π]`, same value `0` at the
origin).  Random draws are explicit arguments.
-/

namespace Starworlds

open Real

/-- `np.arctan2(y, x)` (used in utils/cg.py:297-298, 477 and in the obstacle classes). -/
noncomputable def arctan2 (y x : ℝ) : ℝ := Complex.arg ⟨x, y⟩

/-- `np.linalg.norm` of a plane vector. -/
noncomputable def norm2 (v : Pt ℝ) : ℝ := √(v.1 ^ 2 + v.2 ^ 2)

/-- `np.isclose(a, b, rtol, atol)` for finite numbers: `|a - b| <= atol + rtol * |b|`. -/
noncomputable def isClose (a b rtol atol : ℝ) : Bool := decide (|a - b| ≤ atol + rtol * |b|)

/-- utils/cg.py:12-24 `affine_transform`. -/
noncomputable def affineTransform (x : Pt ℝ) (rotation : ℝ) (translation : Pt ℝ) (inverse : Bool) : Pt ℝ :=
  if inverse then
    let xt : Pt ℝ := (x.1 - translation.1, x.2 - translation.2)
    if rotation = 0 then xt
    else
      let c := cos rotation
      let s := sin rotation
      (c * xt.1 + s * xt.2, -s * xt.1 + c * xt.2)
  else if rotation ≠ 0 then
    let c := cos rotation
    let s := sin rotation
    (c * x.1 - s * x.2 + translation.1, s * x.1 + c * x.2 + translation.2)
  else (x.1 + translation.1, x.2 + translation.2)

/-- utils/cg.py:69-70 `is_between` (`np.isclose` with `rtol=1e-7` and the default `atol=1e-8`). -/
noncomputable def isBetween (a b c : Pt ℝ) : Bool :=
  isClose (norm2 (a - b) + norm2 (c - b)) (norm2 (a - c)) (1 / 10 ^ 7) (1 / 10 ^ 8)

/-- utils/cg.py:186-203 `get_intersection`.  Division of the numpy scalars by zero gives a
non-finite result, reported as `PyErr.nonFinite`. -/
noncomputable def getIntersection (a1 a2 b1 b2 : Pt ℝ) : Except PyErr (Option (Pt ℝ)) :=
  if !(intersect a1 a2 b1 b2) then
    if isBetween b1 a1 b2 then .ok (some a1)
    else if isBetween b1 a2 b2 then .ok (some a2)
    else if isBetween a1 b1 a2 then .ok (some b1)
    else if isBetween a1 b2 a2 then .ok (some b2)
    else .ok none
  else
    let da := a2 - a1
    let db := b2 - b1
    let dp := a1 - b1
    let dap : Pt ℝ := (-da.2, da.1)
    let denom := dap.1 * db.1 + dap.2 * db.2
    let num := dap.1 * dp.1 + dap.2 * dp.2
    if denom = 0 then .error .nonFinite
    else .ok (some ((num / denom) • db + b1))

/-- utils/cg.py:206-215 `equilateral_triangle`: the three rows of the returned array. -/
noncomputable def equilateralTriangle (centroid : Pt ℝ) (L rot : ℝ) : Pt ℝ × Pt ℝ × Pt ℝ :=
  let t0 : Pt ℝ := (centroid.1 + 0, centroid.2 + 1 / √3 * L)
  let t1 : Pt ℝ := (centroid.1 + 1 / 2 * L, centroid.2 + -1 / (2 * √3) * L)
  let t2 : Pt ℝ := (centroid.1 + -1 / 2 * L, centroid.2 + -1 / (2 * √3) * L)
  if rot = 0 then (t0, t1, t2)
  else
    let c := cos rot
    let s := sin rot
    ((c * t0.1 - s * t0.2, s * t0.1 + c * t0.2),
     (c * t1.1 - s * t1.2, s * t1.1 + c * t1.2),
     (c * t2.1 - s * t2.2, s * t2.1 + c * t2.2))

/-! ## Cone.polygon: utils/cg.py:268-347 -/

/-- utils/cg.py:271 `bb_width`. -/
def bbWidth {K : Type*} [Field K] : K := 10 ^ 6

/-- utils/cg.py:272-280: `bb_edges[i]` (indices are always taken mod 4). -/
def bbEdge {K : Type*} [Field K] : Fin 4 → Line K
  | 0 => ⟨(-bbWidth, -bbWidth), (bbWidth, -bbWidth)⟩
  | 1 => ⟨(bbWidth, -bbWidth), (bbWidth, bbWidth)⟩
  | 2 => ⟨(-bbWidth, bbWidth), (bbWidth, bbWidth)⟩
  | 3 => ⟨(-bbWidth, bbWidth), (-bbWidth, -bbWidth)⟩

/-- utils/cg.py:281: `bb_corners[i]`. -/
def bbCorner {K : Type*} [Field K] : Fin 4 → Pt K
  | 0 => (bbWidth, -bbWidth)
  | 1 => (bbWidth, bbWidth)
  | 2 => (-bbWidth, bbWidth)
  | 3 => (-bbWidth, -bbWidth)

/-- utils/cg.py:297-316: index of the box edge tried first for a ray direction. -/
noncomputable def sectorIdx (dir : Pt ℝ) : Fin 4 :=
  let angle := arctan2 dir.2 dir.1 + π
  if π / 4 * 1 ≤ angle ∧ angle < π / 4 * 3 then 0
  else if π / 4 * 3 ≤ angle ∧ angle < π / 4 * 5 then 1
  else if π / 4 * 5 ≤ angle ∧ angle < π / 4 * 7 then 2
  else 3

/-- utils/cg.py:318-335: the border point of a ray with the two retries; the second component is
the final edge index.  `none` is the "SOMETHING WRONG!" case. -/
def borderPoint {K : Type*} [Field K] [LinearOrder K] (ray : Line K) (idx : Fin 4) :
    Option (Pt K) × Fin 4 :=
  match ray.rayIntersection (bbEdge idx) with
  | some p => (some p, idx)
  | none =>
    match ray.rayIntersection (bbEdge (idx + 1)) with
    | some p => (some p, idx + 1)
    | none => (ray.rayIntersection (bbEdge (idx + 1 + 2)), idx + 1 + 2)

/-- utils/cg.py:340-344: the `while True` corner walk, with fuel; `none` = fuel exhausted. -/
def cornerWalk {K : Type*} [Field K] (stop : Fin 4) : Nat → Fin 4 → Option (List (Pt K))
  | 0, _ => none
  | fuel + 1, c =>
    if c + 1 = stop then some [bbCorner c]
    else (cornerWalk stop fuel (c + 1)).map (bbCorner c :: ·)

/-- utils/cg.py:337-345: the vertex list, given the two border points and indices.  `r.xy` of a
missing border point raises AttributeError (the first one at line 337, the second one at line 345).
The four-fuel corner walk never runs out (theorem `C16_corner_walk`). -/
def conePolygonVertices {K : Type*} [Field K] [LinearOrder K] (c : Cone K)
    (b1 b2 : Option (Pt K) × Fin 4) (fuel : Nat) : Except PyErr (Option (List (Pt K))) :=
  match b1.1 with
  | none => .error .attributeError
  | some p1 =>
    let corners : Option (List (Pt K)) :=
      if !(c.isConvex && decide (b1.2 = b2.2)) then cornerWalk b2.2 fuel b1.2 else some []
    match b2.1 with
    | none => .error .attributeError
    | some p2 => .ok (corners.map fun cs => [c.apex, p1] ++ cs ++ [p2])

/-- utils/cg.py:295-347 `Cone.polygon`: the vertices handed to `shapely.geometry.Polygon`. -/
noncomputable def conePolygon (c : Cone ℝ) (fuel : Nat) : Except PyErr (Option (List (Pt ℝ))) :=
  conePolygonVertices c (borderPoint c.ray1 (sectorIdx c.dir1)) (borderPoint c.ray2 (sectorIdx c.dir2)) fuel

/-! ## Random polygons: utils/cg.py:421-593 -/

/-- utils/cg.py:443-452 (and 458-467): split the interior points of a sorted pool into two chains;
`coins` are the results of `np.random.randint(2)`. -/
def chainVec {K : Type*} [Field K] (mx : K) : List (K × Bool) → K → K → List K
  | [], lastTop, lastBot => [mx - lastTop, lastBot - mx]
  | (p, coin) :: rest, lastTop, lastBot =>
    if coin then (p - lastTop) :: chainVec mx rest p lastBot
    else (lastBot - p) :: chainVec mx rest lastTop p

/-- utils/cg.py:426-467 for one coordinate: the vector components built from the sorted pool.
`pool` must be non-empty (`xPool[0]` raises IndexError otherwise). -/
def poolVec {K : Type*} [Field K] (pool : List K) (coins : List Bool) : List K :=
  chainVec (pool.getLastD 0) ((pool.drop 1).dropLast.zip coins) (pool.headD 0) (pool.headD 0)

/-- Lexicographic order of pairs, as used by `sorted(zip(...))` (utils/cg.py:478-479). -/
def lexLe {K : Type*} [LinearOrder K] (p q : K × K) : Bool := decide (p.1 < q.1 ∨ (p.1 = q.1 ∧ p.2 ≤ q.2))

/-- utils/cg.py:478 `[x for _, x in sorted(zip(angle, xVec))]`. -/
def sortedBy {K : Type*} [LinearOrder K] (angle vec : List K) : List K :=
  ((angle.zip vec).mergeSort lexLe).map Prod.snd

/-- utils/cg.py:482-489: the partial sums (the points before the final shifts). -/
def layEnd {K : Type*} [Field K] : Pt K → List (Pt K) → List (Pt K)
  | _, [] => []
  | p, v :: vs => p :: layEnd (p + v) vs

/-- utils/cg.py:491-492: running minimum of the partial sums, started at 0. -/
def runMin {K : Type*} [Field K] [LinearOrder K] (acc : K) : K → List K → K
  | _, [] => acc
  | x, v :: vs => runMin (min acc (x + v)) (x + v) vs

/-- utils/cg.py:503 `np.mean(points, axis=0)`. -/
def meanPt {K : Type*} [Field K] (ps : List (Pt K)) : Pt K :=
  ((ps.map Prod.fst).sum / ps.length, (ps.map Prod.snd).sum / ps.length)

/-- utils/cg.py:426-431: a sorted pool; `us` are the results of `np.random.uniform()` and `w` the
factor, which is `box[0]` for both pools. -/
noncomputable def sortedPool (w : ℝ) (us : List ℝ) : List ℝ :=
  (us.map (w * ·)).mergeSort (fun a b => decide (a ≤ b))

/-- utils/cg.py:421-515 `generate_convex_polygon`, for `n >= 2`: `ux`, `uy` are the `n` uniform draws
of each pool, `xCoins`, `yCoins` the `n - 2` results of `randint(2)`, `shuffle` the in-place
`np.random.shuffle` (line 470).  The plotting branch (lines 508-513) has no effect on the result and
is left out. -/
noncomputable def generateConvexPolygon (box : Pt ℝ) (ux uy : List ℝ) (xCoins yCoins : List Bool)
    (shuffle : List ℝ → List ℝ) : List (Pt ℝ) :=
  let xPool := sortedPool box.1 ux
  let yPool := sortedPool box.1 uy
  let xVec := poolVec xPool xCoins
  let yVec := shuffle (poolVec yPool yCoins)
  let angle := (xVec.zip yVec).map fun v => arctan2 v.2 v.1
  let xs := sortedBy angle xVec
  let ys := sortedBy angle yVec
  let pts := layEnd (0, 0) (xs.zip ys)
  let xShift := xPool.headD 0 - runMin 0 0 xs
  let yShift := yPool.headD 0 - runMin 0 0 ys
  let pts2 := pts.map fun p => ((p.1 + (xShift - box.1 / 2), p.2 + (yShift - box.2 / 2)) : Pt ℝ)
  let xr := meanPt pts2
  pts2.map fun p => (p.1 - xr.1, p.2 - xr.2)

/-- utils/cg.py:568-593 `random_angle_steps`; `us` are the underlying uniform draws on `[0,1]`, one
per step (`np.random.uniform(lower, upper) = lower + (upper - lower) * u`).  Divisions of Python
floats by zero raise ZeroDivisionError. -/
noncomputable def randomAngleSteps (us : List ℝ) (irregularity : ℝ) : Except PyErr (List ℝ) :=
  if us.length = 0 then .error .zeroDivisionError
  else
    let lower := 2 * π / us.length - irregularity
    let upper := 2 * π / us.length + irregularity
    let angles := us.map fun u => lower + (upper - lower) * u
    let cumsum := angles.sum / (2 * π)
    if cumsum = 0 then .error .zeroDivisionError else .ok (angles.map (· / cumsum))

/-- `np.clip(r, lo, hi)`. -/
noncomputable def clip (r lo hi : ℝ) : ℝ := min (max r lo) hi

/-- utils/cg.py:559-564: the loop that places the vertices. -/
noncomputable def starPoints (center : Pt ℝ) (avg : ℝ) : ℝ → List (ℝ × ℝ) → List (Pt ℝ)
  | _, [] => []
  | angle, (normal, step) :: rest =>
    let radius := clip normal 0 (2 * avg)
    (center.1 + radius * cos angle, center.2 + radius * sin angle) ::
      starPoints center avg (angle + step) rest

/-- utils/cg.py:517-566 `generate_star_polygon`; `us` are the uniform draws for the angle steps,
`a0` the initial angle, `normals` the draws of `np.random.normal(avg_radius, spikiness)` (any real
numbers; a negative `avg_radius * spikiness` would make numpy raise ValueError and is not modelled); `num_vertices = us.length = normals.length`. -/
noncomputable def generateStarPolygon (center : Pt ℝ) (avg irregularity spikiness : ℝ)
    (us normals : List ℝ) (a0 : ℝ) : Except PyErr (List (Pt ℝ)) :=
  if irregularity < 0 ∨ irregularity > 1 then .error .valueError
  else if spikiness < 0 ∨ spikiness > 1 then .error .valueError
  else if us.length = 0 then .error .zeroDivisionError
  else
    match randomAngleSteps us (irregularity * (2 * π / us.length)) with
    | .error e => .error e
    | .ok steps => .ok (starPoints center avg a0 (normals.zip steps))

end Starworlds
