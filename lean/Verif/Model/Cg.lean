import Verif.Model.Basic

/-!
# Model of utils/cg.py, exact-arithmetic part

Orientation predicates, lines, segments, rays, gift-wrapping hull, cones (angle-free part) and
`point_in_triangle`.  Everything here uses only field operations and comparisons, so it is
stated over an arbitrary linearly ordered field and is executable on `ℚ`.
-/

namespace Starworlds

variable {K : Type*} [Field K] [LinearOrder K]

/-- utils/cg.py:9 `COLLINEAR_THRESHOLD = 1e-10`. -/
def collinearThreshold : K := 1 / 10 ^ 10

/-- utils/cg.py:51-52 `orientation_val`. -/
def orientationVal (a b c : Pt K) : K :=
  (b.2 - a.2) * (c.1 - b.1) - (b.1 - a.1) * (c.2 - b.2)

/-- utils/cg.py:55-56 `is_collinear`. -/
def isCollinear (a b c : Pt K) : Bool :=
  decide (|orientationVal a b c| < collinearThreshold)

/-- utils/cg.py:59-60 `is_cw`. -/
def isCw (a b c : Pt K) : Bool :=
  decide (orientationVal a b c > collinearThreshold)

/-- utils/cg.py:63-64 `is_ccw`. -/
def isCcw (a b c : Pt K) : Bool :=
  decide (orientationVal a b c < -collinearThreshold)

/-- utils/cg.py:73-74 `intersect`. -/
def intersect (a1 a2 b1 b2 : Pt K) : Bool :=
  (isCcw a1 b1 b2 != isCcw a2 b1 b2) && (isCcw a1 a2 b1 != isCcw a1 a2 b2)

/-- utils/cg.py:100-104 `class Line`, 128 `class LineSegment(Line)`, 152 `class Ray(Line)`:
all three carry the two points `p1`, `p2`.  Simplification: one structure for the three classes;
the method determines how it is read. -/
structure Line (K : Type*) where
  p1 : Pt K
  p2 : Pt K
  deriving DecidableEq, Repr

/-- utils/cg.py:109-122 `Line.line_intersection`.  `none` models the returned `None`. -/
def Line.lineIntersection (self other : Line K) : Option (Pt K) :=
  let selfDx := self.p1.1 - self.p2.1
  let otherDx := other.p1.1 - other.p2.1
  let selfDy := self.p1.2 - self.p2.2
  let otherDy := other.p1.2 - other.p2.2
  let den := selfDx * otherDy - selfDy * otherDx
  if |den| < 1 / 10 ^ 10 then none
  else
    let tmp1 := self.p1.1 * self.p2.2 - self.p1.2 * self.p2.1
    let tmp2 := other.p1.1 * other.p2.2 - other.p1.2 * other.p2.1
    let ipX := (tmp1 * otherDx - selfDx * tmp2) / den
    let ipY := (tmp1 * otherDy - selfDy * tmp2) / den
    some (ipX, ipY)

/-- utils/cg.py:124-125 `Line.intersects` (with the repeated `other.p1`, as in the code). -/
def Line.intersects (self other : Line K) : Bool :=
  (isCcw self.p1 other.p1 other.p1 != isCcw self.p2 other.p1 other.p1) &&
    (isCcw self.p1 self.p2 other.p1 != isCcw self.p1 self.p2 other.p2)

/-- utils/cg.py:133-150 `LineSegment.line_segment_intersection`. -/
def Line.lineSegmentIntersection (self other : Line K) : Option (Pt K) :=
  let selfDx := self.p1.1 - self.p2.1
  let otherDx := other.p1.1 - other.p2.1
  let selfDy := self.p1.2 - self.p2.2
  let otherDy := other.p1.2 - other.p2.2
  let p1Dx := self.p1.1 - other.p1.1
  let p1Dy := self.p1.2 - other.p1.2
  let den := selfDx * otherDy - selfDy * otherDx
  if |den| < 1 / 10 ^ 10 then none
  else
    let t := (p1Dx * otherDy - p1Dy * otherDx) / den
    let u := (p1Dx * selfDy - p1Dy * selfDx) / den
    if t < 0 ∨ t > 1 ∨ u < 0 ∨ u > 1 then none
    else some (self.p1.1 - t * selfDx, self.p1.2 - t * selfDy)

/-- utils/cg.py:157-174 `Ray.ray_intersection`. -/
def Line.rayIntersection (self other : Line K) : Option (Pt K) :=
  let selfDx := self.p1.1 - self.p2.1
  let otherDx := other.p1.1 - other.p2.1
  let selfDy := self.p1.2 - self.p2.2
  let otherDy := other.p1.2 - other.p2.2
  let p1Dx := self.p1.1 - other.p1.1
  let p1Dy := self.p1.2 - other.p1.2
  let den := selfDx * otherDy - selfDy * otherDx
  if |den| < 1 / 10 ^ 10 then none
  else
    let t := (p1Dx * otherDy - p1Dy * otherDx) / den
    let u := (p1Dx * selfDy - p1Dy * selfDx) / den
    if t < 0 ∨ u < 0 then none
    else some (self.p1.1 - t * selfDx, self.p1.2 - t * selfDy)

/-- utils/cg.py:33-39 `point_in_triangle`; the two draws of `np.random.rand(2)` are the
arguments `x`, `y`. -/
def pointInTriangle (a b c : Pt K) (x y : K) : Pt K :=
  let q := |x - y|
  let s := q
  let t := (1 / 2) * (x + y - q)
  let u := 1 - (1 / 2) * (q + x + y)
  (s * a.1 + t * b.1 + u * c.1, s * a.2 + t * b.2 + u * c.2)

/-! ## Gift wrapping: utils/cg.py:218-267 `convex_hull` -/

/-- Reading `points[i]` for an index known to be in range (utils/cg.py:224 etc.).  The default
value is never used: all indices produced by the algorithm are `< n`. -/
def ptAt (points : List (Pt K)) (i : Nat) : Pt K := points.getD i (0, 0)

/-- One round of the loop utils/cg.py:223-228 that looks for the leftmost (then topmost) point. -/
def leftmostStep (points : List (Pt K)) (l i : Nat) : Nat :=
  if (ptAt points i).1 < (ptAt points l).1 then i
  else if (ptAt points i).1 = (ptAt points l).1 then
    if (ptAt points i).2 > (ptAt points l).2 then i else l
  else l

/-- utils/cg.py:221-228: index of the leftmost point (`range(1, n)` scanned from `l = 0`). -/
def leftmost (points : List (Pt K)) : Nat :=
  (List.range' 1 (points.length - 1)).foldl (leftmostStep points) 0

/-- One round of the inner loop utils/cg.py:250-255. -/
def wrapStep (points : List (Pt K)) (p q i : Nat) : Nat :=
  if isCcw (ptAt points p) (ptAt points i) (ptAt points q) then i else q

/-- utils/cg.py:248-261: the next hull index after `p`. -/
def wrapNext (points : List (Pt K)) (p : Nat) : Nat :=
  (List.range points.length).foldl (wrapStep points p) ((p + 1) % points.length)

/-- utils/cg.py:236-265: the `while True` loop, with fuel.  `none` = not finished within `fuel`
rounds.  The result is the list of hull points in the order they are appended. -/
def wrapLoop (points : List (Pt K)) (l : Nat) : Nat → Nat → Option (List Nat)
  | 0, _ => none
  | fuel + 1, p =>
    let q := wrapNext points p
    if q = l then some [p]
    else (wrapLoop points l fuel q).map (p :: ·)

/-- utils/cg.py:218-267 `convex_hull`, as indices into `points` (the Python function returns the
coordinates `[points[p][0], points[p][1]]` of these indices), with fuel for the `while True`.
For the empty list Python raises IndexError (`points[l]`); the model is only used on non-empty
lists. -/
def convexHullIdx (points : List (Pt K)) (fuel : Nat) : Option (List Nat) :=
  wrapLoop points (leftmost points) fuel (leftmost points)

/-- utils/cg.py:218-267 `convex_hull`: the returned coordinates. -/
def convexHullPts (points : List (Pt K)) (fuel : Nat) : Option (List (Pt K)) :=
  (convexHullIdx points fuel).map (·.map (ptAt points))

/-! ## Cones: utils/cg.py:270-411 (angle-free part) -/

/-- utils/cg.py:284-290 `Cone.__init__`.  `is_convex`, `ray1`, `ray2` are computed from the three
stored arrays, see below. -/
structure Cone (K : Type*) where
  apex : Pt K
  dir1 : Pt K
  dir2 : Pt K
  deriving DecidableEq, Repr

/-- utils/cg.py:288 `self.is_convex = is_ccw([0, 0], self.dir1, self.dir2)`. -/
def Cone.isConvex (c : Cone K) : Bool := isCcw (0, 0) c.dir1 c.dir2

/-- utils/cg.py:289 `self.ray1`. -/
def Cone.ray1 (c : Cone K) : Line K := ⟨c.apex, c.apex + c.dir1⟩

/-- utils/cg.py:290 `self.ray2`. -/
def Cone.ray2 (c : Cone K) : Line K := ⟨c.apex, c.apex + c.dir2⟩

/-- utils/cg.py:349-353 `Cone.point_in_cone`. -/
def Cone.pointInCone (c : Cone K) (x : Pt K) : Bool :=
  if c.isConvex then
    isCcw c.apex c.ray1.p2 x && isCw c.apex c.ray2.p2 x
  else
    !(isCcw c.apex c.ray2.p2 x && isCw c.apex c.ray1.p2 x)

/-- utils/cg.py:365-384 `Cone.intersection_same_apex`. -/
def Cone.intersectionSameApex (self other : Cone K) : List (Cone K) :=
  let otherDir1InSelf := self.pointInCone (other.apex + other.dir1)
  let otherDir2InSelf := self.pointInCone (other.apex + other.dir2)
  let selfDir1InOther := other.pointInCone (self.apex + self.dir1)
  if otherDir1InSelf && otherDir2InSelf then
    if selfDir1InOther then
      [⟨self.apex, self.dir1, other.dir2⟩, ⟨self.apex, other.dir1, self.dir2⟩]
    else [other]
  else if otherDir1InSelf then [⟨self.apex, other.dir1, self.dir2⟩]
  else if otherDir2InSelf then [⟨self.apex, self.dir1, other.dir2⟩]
  else if selfDir1InOther then [self]
  else []

/-- utils/cg.py:395-405: the loop of `Cone.list_intersection` with `same_apex=True`, on the current
list of cones.  An empty current list makes the Python code return the empty polygon at once;
continuing with the empty list gives the same result. -/
def Cone.listIntersectionLoop (current : List (Cone K)) : List (Cone K) → List (Cone K)
  | [] => current
  | c :: cs => Cone.listIntersectionLoop (current.flatMap fun ci => ci.intersectionSameApex c) cs

/-- utils/cg.py:386-411 `Cone.list_intersection(cones, same_apex=True)`, up to the final
conversion of the cones to (a union of) shapely polygons.  `cones[0]` on an empty list raises
IndexError. -/
def Cone.listIntersection : List (Cone K) → Except PyErr (List (Cone K))
  | [] => .error .indexError
  | c :: cs => .ok (Cone.listIntersectionLoop [c] cs)

end Starworlds
