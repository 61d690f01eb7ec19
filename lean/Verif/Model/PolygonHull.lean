import Verif.Model.CgReal
import Verif.Model.Polygon

/-!
# Model of `polygon_kernel_starshaped_hull`, starshaped_hull/starshaped_hull.py:49-206

The shapely operations are arguments (`HullOps`). Plotting (`debug`) is left out.
-/

namespace Starworlds

/-- What shapely returns for the intersection of a segment with a polygon or with another segment; a collection lists
its points and the nodes of its line strings. -/
inductive Meet where
  | empty
  | point (p : Pt ℝ)
  | multiPoint (l : List (Pt ℝ))
  | lineString (l : List (Pt ℝ))
  | multiLineString (ls : List (List (Pt ℝ)))
  | collection (points : List (Pt ℝ)) (lines : List (List (Pt ℝ)))

/-- The shapely calls; `polygon` is the argument of `polygon_kernel_starshaped_hull`. -/
structure HullOps where
  /-- `LineString([a, b]).disjoint(polygon)`; `intersects` is its negation -/
  disjoint : Pt ℝ → Pt ℝ → Bool
  /-- `LineString([a, b]).intersection(polygon)` -/
  meetPolygon : Pt ℝ → Pt ℝ → Meet
  /-- `LineString([a, b]).intersection(LineString([c, d]))` -/
  meetLine : Pt ℝ × Pt ℝ → Pt ℝ × Pt ℝ → Meet
  /-- `convex_kernel_subset.contains(Point(p))` -/
  kernelContains : Pt ℝ → Bool

/-- utils/cg.py:28-29 `line`: the end points of the LineString. -/
noncomputable def openLine (a b : Pt ℝ) : Pt ℝ × Pt ℝ :=
  (a + (1 / 10 ^ 4 : ℝ) • (b - a), a + (9999 / 10 ^ 4 : ℝ) • (b - a))

/-- utils/cg.py:43-44 `ray`: the end points of the LineString. -/
noncomputable def openRay (a b c : Pt ℝ) : Pt ℝ × Pt ℝ :=
  (a + (1 / 10 ^ 4 : ℝ) • (c - b), a + (10 ^ 5 : ℝ) • (c - b))

/-- `[kv.x, kv.y]`: only points have coordinates. -/
def Meet.xy : Meet → Except PyErr (Pt ℝ)
  | .point p => .ok p
  | _ => .error .attributeError

/-- `is_empty`. -/
def Meet.isEmpty : Meet → Bool
  | .empty => true
  | _ => false

/-- starshaped_hull/starshaped_hull.py:107-120: the candidates for `u`. Of a collection only the points are taken
(line 117 tests the type of the collection instead of that of its member). -/
def Meet.candidates : Meet → List (Pt ℝ)
  | .lineString l => l
  | .multiLineString ls => ls.flatten
  | .collection ps _ => ps
  | _ => []

/-- `l[i]` for a Python index. -/
def pyGet (l : List (Pt ℝ)) (i : Int) : Except PyErr (Pt ℝ) :=
  let j := if i < 0 then i + l.length else i
  if 0 ≤ j ∧ j < l.length then .ok (l.getD j.toNat (0, 0)) else .error .indexError

/-- `l[i] = p` for a Python index that is known to be valid. -/
def pySet (l : List (Pt ℝ)) (i : Int) (p : Pt ℝ) : List (Pt ℝ) :=
  l.set (if i < 0 then i + l.length else i).toNat p

/-- The local variables of the main loop. -/
structure HullState where
  star : List (Pt ℝ)
  vBar : Pt ℝ
  e1 : Int
  e2 : Int
  included : List Bool

/-- starshaped_hull/starshaped_hull.py:68-73: the vertices start at the largest `x` and run counter-clockwise. -/
noncomputable def orderVertices (vertices : List (Pt ℝ)) : List (Pt ℝ) :=
  let start := argmaxIdx (vertices.map Prod.fst)
  let vs := vertices.rotate start
  if isCw (vs.getLastD (0, 0)) (ptAt vs 0) (ptAt vs 1) then
    let fl := vs.reverse
    fl.rotate (fl.length - 1)
  else vs

/-- starshaped_hull/starshaped_hull.py:89-96: adjusting `e1` for one kernel point; the flag is `adjust_e1`. -/
noncomputable def adjustOne (ops : HullOps) (v e1p e2p : Pt ℝ) (e1 : Int) (st : List (Pt ℝ) × Bool) (k : Pt ℝ) :
    Except PyErr (List (Pt ℝ) × Bool) := do
  let m := ops.meetLine (openLine k v) (openLine e1p e2p)
  if m.isEmpty then .ok st
  else
    let p ← m.xy
    let cur ← pyGet st.1 e1
    if norm2 (e2p - p) < norm2 (e2p - cur) then .ok (pySet st.1 e1 p, true) else .ok (st.1, true)

/-- starshaped_hull/starshaped_hull.py:139-148, 155-163: appending a point, new last edge, swap if not
counter-clockwise. -/
noncomputable def appendPoint (st : HullState) (u v vPrev : Pt ℝ) : Except PyErr HullState :=
  let star := st.star ++ [u]
  let n : Int := star.length
  if isCcw u v vPrev then
    if star.length < 2 then .error .indexError
    else
      let l := star.length
      .ok { st with star := (star.set (l - 2) u).set (l - 1) (ptAt star (l - 2)), e1 := n - 2, e2 := n - 1 }
  else .ok { st with star := star, e1 := n - 1, e2 := n - 2 }

/-- starshaped_hull/starshaped_hull.py:134-137: `u` is moved to the crossing with `l(k', v_bar)`. -/
noncomputable def moveU (ops : HullOps) (vBar : Pt ℝ) (uv : Pt ℝ × Pt ℝ) (u : Pt ℝ) :
    List (Pt ℝ) → Except PyErr (Pt ℝ)
  | [] => .ok u
  | kp :: kps =>
    let m := ops.meetLine (openLine kp vBar) uv
    if m.isEmpty then moveU ops vBar uv u kps
    else do
      let p ← m.xy
      moveU ops vBar uv p kps

/-- starshaped_hull/starshaped_hull.py:100-164: the loop body for kernel point number `i`. -/
noncomputable def augmentOne (ops : HullOps) (ks : List (Pt ℝ)) (v vPrev : Pt ℝ) (st : HullState) (i : Nat) :
    Except PyErr HullState := do
  let k := ptAt ks i
  let kps := ks.filter fun kp => decide (kp ≠ k)
  let m := ops.meetPolygon (openLine k v).1 (openLine k v).2
  if !m.isEmpty then
    match m.candidates.find? fun u => ops.disjoint (openLine u v).1 (openLine u v).2 with
    | none => .ok st
    | some u =>
      if kps.any fun kp => !ops.disjoint (openRay u kp v).1 (openRay u kp v).2 then .ok st
      else do
        let u' ← moveU ops st.vBar (openLine u v) u kps
        appendPoint st u' v vPrev
  else if !(st.included.getD i false) &&
      !(kps.any fun kp => !ops.disjoint (openRay k kp v).1 (openRay k kp v).2) then
    appendPoint { st with included := st.included.set i true } k v vPrev
  else .ok st

/-- starshaped_hull/starshaped_hull.py:82-96: adjusting the last augmented edge. -/
noncomputable def adjustEdge (ops : HullOps) (ks star : List (Pt ℝ)) (e1 e2 : Int) (v : Pt ℝ) :
    Except PyErr (List (Pt ℝ) × Bool) :=
  if star.isEmpty then .ok (star, false)
  else do
    let e1p ← pyGet star e1
    let e2p ← pyGet star e2
    ks.foldlM (adjustOne ops v e1p e2p e1) (star, false)

/-- starshaped_hull/starshaped_hull.py:98-164: augmenting, unless an edge has been adjusted. -/
noncomputable def augment (ops : HullOps) (ks : List (Pt ℝ)) (v vPrev : Pt ℝ) (adjusted : Bool) (st : HullState) :
    Except PyErr HullState :=
  if adjusted then .ok st else (List.range ks.length).foldlM (augmentOne ops ks v vPrev) st

/-- starshaped_hull/starshaped_hull.py:80-81: the current vertex is added unless it is inside of the kernel points. -/
def addVertex (ops : HullOps) (ks star : List (Pt ℝ)) (v : Pt ℝ) : List (Pt ℝ) :=
  if ks.length < 3 || !ops.kernelContains v then star ++ [v] else star

/-- starshaped_hull/starshaped_hull.py:76-166: the loop body for one vertex. -/
noncomputable def visitVertex (ops : HullOps) (ks : List (Pt ℝ)) (st : HullState) (v vPrev : Pt ℝ) :
    Except PyErr HullState :=
  if ks.all fun k => ops.disjoint (openRay v k v).1 (openRay v k v).2 then do
    let r ← adjustEdge ops ks (addVertex ops ks st.star v) st.e1 st.e2 v
    let st ← augment ops ks v vPrev r.2 { st with star := r.1 }
    let last ← pyGet st.star (-1)
    .ok { st with vBar := last }
  else .ok st

/-- starshaped_hull/starshaped_hull.py:181-186: the kernel points tested against edge `j`. -/
noncomputable def insertKernel (ks : List (Pt ℝ)) (v vp : Pt ℝ) (j : Nat) (st : List (Pt ℝ) × List Bool) (i : Nat) :
    List (Pt ℝ) × List Bool :=
  if !(st.2.getD i false) && isCw (ptAt ks i) v vp then
    (st.1.take j ++ [ptAt ks i] ++ st.1.drop j, st.2.set i true)
  else st

/-- starshaped_hull/starshaped_hull.py:179-186: the remaining kernel points. -/
noncomputable def insertKernels (ks : List (Pt ℝ)) (star : List (Pt ℝ)) (included : List Bool) : List (Pt ℝ) :=
  ((List.range star.length).foldl (fun st j =>
    let v := if j = 0 then st.1.getLastD (0, 0) else ptAt st.1 (j - 1)
    (List.range ks.length).foldl (insertKernel ks v (ptAt st.1 j) j) st) (star, included)).1

/-- starshaped_hull/starshaped_hull.py:49-206 `polygon_kernel_starshaped_hull`: the vertices of the returned polygon;
`vertices` is `polygon.exterior.coords` without the repeated vertex. shapely raises ValueError for a ring of one or
two points. -/
noncomputable def polygonKernelHull (ops : HullOps) (vertices ks : List (Pt ℝ)) : Except PyErr (List (Pt ℝ)) :=
  match ks with
  | [] => .error .indexError
  | k0 :: _ => do
    let vs := orderVertices vertices
    let st ← (List.range vs.length).foldlM (fun st i =>
        visitVertex ops ks st (ptAt vs i) (if i = 0 then vs.getLastD (0, 0) else ptAt vs (i - 1)))
      { star := [], vBar := k0, e1 := 0, e2 := 0, included := ks.map fun _ => false }
    let star := insertKernels ks st.star st.included
    if star.length = 1 ∨ star.length = 2 then .error .valueError else .ok star

end Starworlds
