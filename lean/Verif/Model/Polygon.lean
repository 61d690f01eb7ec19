import Verif.Model.Cg
import Verif.Model.Obstacle

/-!
# Model of obstacles/polygon.py

The shapely predicates used are modelled by what they mean for simple polygons: `exterior.contains(p)` by "on
one of the edges", `contains(p)` by the even-odd rule off the ring.
-/

namespace Starworlds

section Generic

variable {K : Type*} [Field K] [LinearOrder K]

/-- The consecutive pairs of a list of points. -/
def edgesOf : List (Pt K) → List (Pt K × Pt K)
  | a :: b :: l => (a, b) :: edgesOf (b :: l)
  | _ => []

/-- `polygon.exterior.coords`: the vertices with the first repeated at the end (obstacles/polygon.py:18
`circular_vertices`). -/
def ringOf : List (Pt K) → List (Pt K)
  | [] => []
  | a :: l => a :: l ++ [a]

/-! ## _check_convexity -/

/-- obstacles/polygon.py:146-149: the loop that looks for a vertex that is not near-collinear. `v[N]` raises
IndexError before the counter exceeds `N`. -/
def firstBend (v : List (Pt K)) : Nat → Nat → Except PyErr Nat
  | 0, _ => .error .runtimeError
  | fuel + 1, i =>
    if v.length ≤ i then .error .indexError
    else if isCollinear (ptAt v ((i + v.length - 1) % v.length)) (ptAt v i) (ptAt v ((i + 1) % v.length)) then
      if i + 1 > v.length then .error .runtimeError else firstBend v fuel (i + 1)
    else .ok i

/-- obstacles/polygon.py:141-154 `_check_convexity`: the value given to `_is_convex`; `v` is the list of
vertices without the repeated one. Line 151 indexes `v[i+1]` without the modulus. -/
def checkConvexity (v : List (Pt K)) : Except PyErr Bool := do
  let n := v.length
  let i ← firstBend v (n + 1) 0
  if n ≤ i + 1 then .error .indexError
  else if isCw (ptAt v ((i + n - 1) % n)) (ptAt v i) (ptAt v (i + 1)) then
    .ok !((List.range n).any fun j => isCcw (ptAt v ((j + n - 1) % n)) (ptAt v j) (ptAt v ((j + 1) % n)))
  else
    .ok !((List.range n).any fun j => isCw (ptAt v ((j + n - 1) % n)) (ptAt v j) (ptAt v ((j + 1) % n)))

/-! ## point_location -/

/-- A point is on a segment: the directions to the ends are collinear and not the same. -/
def onSegB (a b p : Pt K) : Bool :=
  decide ((a.1 - p.1) * (b.2 - p.2) - (a.2 - p.2) * (b.1 - p.1) = 0) &&
    decide ((a.1 - p.1) * (b.1 - p.1) + (a.2 - p.2) * (b.2 - p.2) ≤ 0)

/-- `polygon.exterior.contains(Point(p))`. -/
def ringContains (v : List (Pt K)) (p : Pt K) : Bool := (edgesOf (ringOf v)).any fun e => onSegB e.1 e.2 p

/-- The horizontal ray to the right of `p` crosses the edge. -/
def rayCrosses (p : Pt K) (e : Pt K × Pt K) : Bool :=
  (decide (p.2 < e.1.2) != decide (p.2 < e.2.2)) &&
    decide (p.1 < e.1.1 + (p.2 - e.1.2) * (e.2.1 - e.1.1) / (e.2.2 - e.1.2))

/-- `polygon.contains(Point(p))`: `p` is an interior point (even-odd rule). -/
def polyContains (v : List (Pt K)) (p : Pt K) : Bool :=
  !ringContains v p && decide ((edgesOf (ringOf v)).countP (rayCrosses p) % 2 = 1)

/-- `polygon.bounds`: (xmin, ymin, xmax, ymax) of a polygon with vertices `a :: l`. -/
def boundsOf (a : Pt K) (l : List (Pt K)) : K × K × K × K :=
  (l.foldl (fun m p => min m p.1) a.1, l.foldl (fun m p => min m p.2) a.2,
   l.foldl (fun m p => max m p.1) a.1, l.foldl (fun m p => max m p.2) a.2)

/-- obstacles/polygon.py:62-71 `point_location`, for a point in the obstacle frame. (Without vertices
shapely's bounds are nan, every comparison is false, and 1 is returned.) -/
def polyLocation (v : List (Pt K)) (x : Pt K) : Int :=
  match v with
  | [] => 1
  | a :: l =>
    let b := boundsOf a l
    if !(decide (b.1 < x.1) && decide (x.1 < b.2.2.1) && (decide (b.2.1 < x.2) && decide (x.2 < b.2.2.2))) then 1
    else if polyContains (a :: l) x then -1
    else if ringContains (a :: l) x then 0
    else 1

end Generic

/-! ## tangent_points -/

open Real

/-- obstacles/polygon.py:95-96: the angle of a vertex seen from `x`, in [0, 2π). -/
noncomputable def rawAngle (x p : Pt ℝ) : ℝ :=
  let t := arctan2 (p.2 - x.2) (p.1 - x.1)
  if t < 0 then t + 2 * π else t

open scoped Classical in
/-- obstacles/polygon.py:97-112 the unwrapped angles.  The code computes all differences first and then shifts
every suffix that starts after a jump; the offset below is the sum of the shifts of the jumps passed so far. -/
noncomputable def unwrapFrom (offset prev : ℝ) : List ℝ → List ℝ
  | [] => []
  | t :: l =>
    let offset' := if t - prev > π then offset - 2 * π else if t - prev < -π then offset + 2 * π else offset
    (t + offset') :: unwrapFrom offset' t l

/-- obstacles/polygon.py:95-112. -/
noncomputable def unwrapAngles : List ℝ → List ℝ
  | [] => []
  | t :: l => t :: unwrapFrom 0 t l

/-- `np.argmin`: index of the first smallest entry (non-empty list). -/
noncomputable def argminIdx (l : List ℝ) : Nat :=
  (List.range l.length).foldl (fun m i => if l.getD i 0 < l.getD m 0 then i else m) 0

/-- `np.argmax`: index of the first largest entry (non-empty list). -/
noncomputable def argmaxIdx (l : List ℝ) : Nat :=
  (List.range l.length).foldl (fun m i => if l.getD m 0 < l.getD i 0 then i else m) 0

open scoped Classical in
/-- obstacles/polygon.py:94-128 `tangent_points` in the obstacle frame. -/
noncomputable def polyTangents (v : List (Pt ℝ)) (x : Pt ℝ) : List (Pt ℝ) :=
  let cv := ringOf v
  let phi := unwrapAngles (cv.map (rawAngle x))
  let imin := argminIdx phi
  let imax := argmaxIdx phi
  if |phi.getD 0 0 - phi.getD (phi.length - 1) 0| > 1 / 10 ^ 5 then []
  else if phi.getD imax 0 - phi.getD imin 0 ≥ 2 * π then []
  else [ptAt cv imax, ptAt cv imin]

/-- obstacles/polygon.py:91-135 `tangent_points`. -/
noncomputable def polygonTangentPoints (mm : Option Pose) (v : List (Pt ℝ)) (x : Pt ℝ) (fin fout : Frame) :
    Except PyErr (List (Pt ℝ)) := do
  let y ← transform mm x fin .obstacle
  (polyTangents v y).mapM fun p => transform mm p .obstacle fout

/-- obstacles/polygon.py:61-71 `point_location`. -/
noncomputable def polygonPointLocation (mm : Option Pose) (v : List (Pt ℝ)) (x : Pt ℝ) (fin : Frame) :
    Except PyErr Int := do
  let y ← transform mm x fin .obstacle
  .ok (polyLocation v y)

end Starworlds
