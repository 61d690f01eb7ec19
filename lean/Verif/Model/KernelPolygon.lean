import Verif.Model.CgReal
import Verif.Model.Polygon

/-!
# Model of StarshapedPolygon._compute_kernel

obstacles/starshaped_polygon.py:185-866, the algorithm of Lee and Preparata. The control flow is written once over an
abstract type `P` of points and a record of the geometric primitives it uses; `realOps` are the primitives of the code
over `ℝ`. Plots and prints are left out; `debug` is kept because `delta` at line 464 is only assigned when it is set.
-/

namespace Starworlds

/-- The geometric primitives used by `_compute_kernel`; `INF_VAL = 300` (line 247). -/
structure KernelOps (P : Type) where
  /-- utils/cg.py:186-203 `get_intersection`. -/
  meet : P → P → P → P → Except PyErr (Option P)
  /-- utils/cg.py:55-56 `is_collinear`. -/
  collinear : P → P → P → Bool
  /-- utils/cg.py:59-60 `is_cw`. -/
  cw : P → P → P → Bool
  /-- utils/cg.py:63-64 `is_ccw`. -/
  ccw : P → P → P → Bool
  /-- utils/cg.py:69-70 `is_between`. -/
  between : P → P → P → Bool
  /-- `orientation_val(a, b, c) * orientation_val(d, e, f) > 0` (lines 415-416 and 695-698). -/
  agree : P → P → P → P → P → P → Bool
  /-- `a - INF_VAL * (b - a) / norm(b - a)` (lines 249-250, 285). -/
  before : P → P → Except PyErr P
  /-- `a + INF_VAL * (b - a) / norm(b - a)` (line 559). -/
  beyond : P → P → Except PyErr P
  /-- `a + INF_VAL * (b - a)` (`line_end_point`, lines 531, 550, 776, 807, 837). -/
  stretch : P → P → P

section Control

variable {P : Type}

/-! ## Python lists -/

/-- `l[i]` for a Python index. -/
def kGet (l : List P) (i : Int) : Except PyErr P :=
  let j := if i < 0 then i + l.length else i
  if j < 0 then .error .indexError
  else match l[j.toNat]? with
    | some p => .ok p
    | none => .error .indexError

/-- The position of a slice bound. -/
def kClamp (n : Nat) (i : Int) : Nat := (if i < 0 then i + n else i).toNat

/-- `l[i:j]`. -/
def kSlice (l : List P) (i j : Int) : List P := (l.take (kClamp l.length j)).drop (kClamp l.length i)

/-- `l[i:]`. -/
def kFrom (l : List P) (i : Int) : List P := l.drop (kClamp l.length i)

/-- `l[:j]`. -/
def kTo (l : List P) (j : Int) : List P := l.take (kClamp l.length j)

/-! ## Vertices -/

/-- Lines 226-230: the indices in `v_idcs` after the vertices within a line have been overwritten by their predecessor. -/
def dropInline (ops : KernelOps P) (v : List P) : List Int → List Int → Except PyErr (List Int)
  | idcs, [] => .ok idcs
  | idcs, i :: is => do
    let i2 ← kGet idcs (i - 2)
    let i1 ← kGet idcs (i - 1)
    let i0 ← kGet idcs i
    let a ← kGet v i2
    let b ← kGet v i1
    let c ← kGet v i0
    let j := (if i - 1 < 0 then i - 1 + idcs.length else i - 1).toNat
    dropInline ops v (if ops.collinear a b c then idcs.set j i2 else idcs) is

/-- Lines 226-234: the vertices without those within a line. `np.unique` sorts the indices. -/
def reduceVertices (ops : KernelOps P) (v : List P) : Except PyErr (List P) := do
  let all := (List.range v.length).map Int.ofNat
  let idcs ← dropInline ops v all all
  let w ← (all.filter fun i => i ∈ idcs).mapM (kGet v)
  let a ← kGet w (-2)
  let b ← kGet w (-1)
  let c ← kGet w 0
  .ok (if ops.collinear a b c then w.dropLast else w)

/-- Lines 191-192 `is_reflex`. -/
def isReflex (ops : KernelOps P) (v : List P) (i : Nat) : Except PyErr Bool := do
  let a ← kGet v (Int.ofNat i - 1)
  let b ← kGet v i
  let c ← kGet v (((i + 1) % v.length : Nat) : Int)
  .ok (ops.cw a b c)

/-- Lines 237-242: start at the first reflex vertex, if there is one. -/
def startReflex (ops : KernelOps P) (v : List P) : List Nat → Except PyErr (List P)
  | [] => .ok v
  | i :: is => do
    let reflex ← isReflex ops v i
    if reflex then .ok (v.drop i ++ v.take i) else startReflex ops v is

/-! ## The main loop -/

/-- The local variables that live from one round to the next: `xk`, `F1_idx`, `L1_idx`, `xk_bounded`, `delta`. -/
structure KernelState (P : Type) where
  xk : List P
  f : Int
  l : Int
  bounded : Bool
  delta : Option (List P)

/-- The loops looking for the first edge that intersects the line from `c` to `d`: `edge t` are the two positions
in `xk` of the edge for the loop variable `t`. -/
def scanMeet (ops : KernelOps P) (xk : List P) (edge : Int → Int × Int) (c d : P) :
    List Int → Except PyErr (Option (Int × P))
  | [] => .ok none
  | t :: ts => do
    let a ← kGet xk (edge t).1
    let b ← kGet xk (edge t).2
    let r ← ops.meet a b c d
    match r with
    | some w => .ok (some (t, w))
    | none => scanMeet ops xk edge c d ts

/-- The loops looking for the first vertex `wt` with `wt+1` on the requested side of the line from `p` through `wt`
(lines 527-534, 546-553, 773-792, 804-825, 832-858); `cur` is the value kept if there is none. -/
def scanTurn (side : P → P → P → Bool) (stretch : P → P → P) (xk : List P) (p : P) (cur : Int) :
    List Int → Except PyErr Int
  | [] => .ok cur
  | t :: ts => do
    let w ← kGet xk t
    let next ← kGet xk ((t + 1) % xk.length)
    if side p (stretch p w) next then .ok t else scanTurn side stretch xk p cur ts

/-- `(i + off) % n for off in range(n)`. -/
def around (i : Int) (n : Nat) : List Int := (List.range n).map fun off => (i + Int.ofNat off) % n

/-- `(i + off) % n for off in range(1, n + 1)`, left at 0 if `xk` is not bounded (lines 304-308, 635-640). -/
def ahead (i : Int) (n : Nat) (bounded : Bool) : List Int :=
  ((List.range n).map fun off => (i + Int.ofNat off + 1) % n).takeWhile fun t => bounded || t != 0

/-- The members up to the first one equal to `stop` (lines 331-332). -/
def upTo (stop : Int) : List Int → List Int
  | [] => []
  | t :: ts => if t = stop then [t] else t :: upTo stop ts

/-- Lines 349-350: `np.flip(np.roll(np.arange(n), -F1_idx - 1))` or `range(F1_idx, 0, -1)`. -/
def backFrom (f : Int) (n : Nat) (bounded : Bool) : List Int :=
  if bounded then (List.range n).map fun off => (f - Int.ofNat off) % n
  else (List.range f.toNat).map fun off => f - Int.ofNat off

/-- Lines 587-596: `L1_idx - off`, wrapped once, left at `F1_idx`. -/
def backTo (l f : Int) (n : Nat) : List Int :=
  ((List.range n).map fun off => if l - Int.ofNat off < 0 then l - Int.ofNat off + n else l - Int.ofNat off).takeWhile
    fun t => t != f

/-- Lines 447-502: the edge found when `xk` is scanned from its end, with the value of `delta`. Line 464, where the closing edge
is the one found, is inside `if debug:`. -/
def lastEdge (ops : KernelOps P) (debug : Bool) (st : KernelState P) (start vi1 : P) (t : Int) :
    Option P → Except PyErr (Option (Option (List P) × P))
  | some w2 => .ok (some (if debug then some (kSlice st.xk t st.xk.length) else st.delta, w2))
  | none => do
    let r ← scanMeet ops st.xk (fun r => (r, r - 1)) start vi1
      ((List.range (st.xk.length - 1)).map fun k => Int.ofNat st.xk.length - 1 - Int.ofNat k)
    .ok (r.map fun x => (some (kSlice st.xk t x.1), x.2))

/-- Lines 507-514: `np.vstack((delta, w2, w1))`, with `delta` possibly unbound and `w2` possibly None. -/
def closeReflex (st : KernelState P) (t : Int) (w1 : P) :
    Option (Option (List P) × P) → Except PyErr (KernelState P)
  | some (some delta, w2) =>
    .ok { xk := delta ++ [w2, w1], f := delta.length, l := min (st.l - t) (delta.length + 1), bounded := true,
          delta := some delta }
  | some (none, _) => .error .unboundLocalError
  | none => match st.delta with
    | some _ => .error .valueError
    | none => .error .unboundLocalError

/-- Lines 347-514, the update of `xk` at a reflex vertex once `w1` is found on the edge ending at `t`. Lines 517-523 then set
`F1_idx` to the index of `w2`, or to 0. -/
def cutReflex (ops : KernelOps P) (debug : Bool) (st : KernelState P) (start vi1 : P) (t : Int) (w1 : P) :
    Except PyErr (KernelState P) := do
  let r ← scanMeet ops st.xk (fun s => (s - 1, s)) start vi1 (backFrom st.f st.xk.length st.bounded)
  match r with
  | some (s, w2) =>
    if st.bounded && decide (s > t) then
      .ok { st with xk := w2 :: w1 :: kSlice st.xk t s, f := 0, l := st.l - t + 2 }
    else
      .ok { st with
        xk := kTo st.xk s ++ w2 :: w1 :: kFrom st.xk t, f := (kTo st.xk s).length, l := st.l - t + s + 2 }
  | none => do
    let e2 ← kGet st.xk (-2)
    let e1 ← kGet st.xk (-1)
    let e0 ← kGet st.xk 0
    if ops.agree e2 e1 start vi1 start e0 then
      .ok { st with xk := start :: w1 :: kFrom st.xk t, f := 0, l := st.l - (t - 1) }
    else if st.bounded then do
      let wrap ← ops.meet e0 e1 start vi1
      let found ← lastEdge ops debug st start vi1 t wrap
      closeReflex st t w1 found
    else do
      let found ← lastEdge ops debug st start vi1 t none
      closeReflex st t w1 found

/-- Lines 284-534: `xk`, `F1_idx` (and a first value of `L1_idx`) of a round at a reflex vertex. -/
def reflexCut (ops : KernelOps P) (debug : Bool) (st : KernelState P) (f1 start vi1 : P) :
    Except PyErr (Option (KernelState P)) :=
  if ops.ccw start vi1 f1 then do
    let f ← scanTurn ops.cw ops.stretch st.xk vi1 st.f (around st.f st.xk.length)
    .ok (some { st with f := f })
  else do
    let r ← scanMeet ops st.xk (fun t => (t - 1, t)) start vi1 (upTo st.l (ahead st.f st.xk.length st.bounded))
    match r with
    | none => .ok none
    | some (t, w1) => do
      let s ← cutReflex ops debug st start vi1 t w1
      .ok (some s)

/-- Lines 284-553: a round at a reflex vertex. `none` is `return False` (line 340). -/
def reflexRound (ops : KernelOps P) (debug : Bool) (st : KernelState P) (vi vi1 : P) :
    Except PyErr (Option (KernelState P)) := do
  let f1 ← kGet st.xk st.f
  let start ← ops.before vi vi1
  let next ← reflexCut ops debug st f1 start vi1
  match next with
  | none => .ok none
  | some s => do
    let l ← scanTurn ops.ccw ops.stretch s.xk vi1 s.l (around s.l s.xk.length)
    .ok (some { s with l := l })

/-- Lines 633-765, the update of `xk` at a convex vertex once `w1` is found on the edge ending at `t`: the new state, the index of
`w1`, and `w2` with its index. -/
def cutConvex (ops : KernelOps P) (st : KernelState P) (vi stop : P) (t : Int) (w1 : P) :
    Except PyErr (KernelState P × Int × Option (P × Int)) := do
  let r ← scanMeet ops st.xk (fun s => (s - 1, s)) vi stop (ahead st.l st.xk.length st.bounded)
  match r with
  | some (s, w2) =>
    if st.bounded && decide (t > s) then
      .ok ({ st with xk := w1 :: w2 :: kSlice st.xk s t }, 0, some (w2, 1))
    else
      .ok ({ st with xk := kTo st.xk t ++ w1 :: w2 :: kFrom st.xk s }, (kTo st.xk t).length,
        some (w2, (kTo st.xk t).length + 1))
  | none => do
    let e2 ← kGet st.xk (-2)
    let e1 ← kGet st.xk (-1)
    let e0 ← kGet st.xk 0
    if !st.bounded && ops.agree e2 e1 stop vi stop e0 then
      .ok ({ st with xk := kTo st.xk t ++ [w1, stop], f := 0, l := (kTo st.xk t).length + 1 }, (kTo st.xk t).length, none)
    else do
      let q ← scanMeet ops st.xk (fun r => (r - 1, r % st.xk.length)) vi stop
        ((List.range st.xk.length).map fun k => Int.ofNat k + 1)
      match q with
      | some (r, w2) =>
        .ok ({ xk := kSlice st.xk r t ++ [w1, w2], f := 0, l := min (st.l - t) ((kSlice st.xk r t).length + 1),
               bounded := true, delta := some (kSlice st.xk r t) }, (kSlice st.xk r t).length,
          some (w2, (kSlice st.xk r t).length + 1))
      | none => match st.delta with
        | some _ => .error .valueError
        | none => .error .unboundLocalError

/-- Lines 770-794, `F1_idx` when `w1` was found. -/
def convexF (ops : KernelOps P) (s : KernelState P) (vi vi1 w1 : P) (i1 : Int) : Except PyErr Int :=
  if ops.between vi vi1 w1 then scanTurn ops.cw ops.stretch s.xk vi1 s.f (around s.f s.xk.length) else .ok i1

/-- Lines 796-826, `L1_idx` when `w1` was found. -/
def convexL (ops : KernelOps P) (s : KernelState P) (vi vi1 : P) : Option (P × Int) → Except PyErr Int
  | none => .ok (Int.ofNat s.xk.length - 1)
  | some (w2, i2) =>
    if ops.between vi vi1 w2 then .ok i2 else scanTurn ops.ccw ops.stretch s.xk vi1 s.l (around i2 s.xk.length)

/-- Lines 555-858: a round at a vertex that is not reflex. `none` is `return False` (line 625). -/
def convexRound (ops : KernelOps P) (st : KernelState P) (vi vi1 : P) : Except PyErr (Option (KernelState P)) := do
  let l1 ← kGet st.xk st.l
  let stop ← ops.beyond vi vi1
  if ops.ccw vi stop l1 then do
    let f ← scanTurn ops.cw ops.stretch st.xk vi1 st.f (around st.f st.xk.length)
    if st.bounded then do
      let l ← scanTurn ops.ccw ops.stretch st.xk vi1 st.l (around st.l st.xk.length)
      .ok (some { st with f := f, l := l })
    else .ok (some { st with f := f })
  else do
    let r ← scanMeet ops st.xk (fun t => (t, t - 1)) vi stop (backTo st.l st.f st.xk.length)
    match r with
    | none => .ok none
    | some (t, w1) => do
      let c ← cutConvex ops st vi stop t w1
      let f ← convexF ops c.1 vi vi1 w1 c.2.1
      let l ← convexL ops c.1 vi vi1 c.2.2
      .ok (some { c.1 with f := f, l := l })

/-- Lines 282-858: one round. -/
def kernelRound (ops : KernelOps P) (debug : Bool) (st : KernelState P) (vi vi1 : P) (reflex : Bool) :
    Except PyErr (Option (KernelState P)) :=
  if reflex then reflexRound ops debug st vi vi1 else convexRound ops st vi vi1

/-- Lines 269-858: the rounds `i` in the list. -/
def kernelRounds (ops : KernelOps P) (debug : Bool) (v : List P) :
    List Nat → KernelState P → Except PyErr (Option (KernelState P))
  | [], st => .ok (some st)
  | i :: is, st => do
    let _ ← kGet st.xk st.l
    let _ ← kGet st.xk st.f
    let vi ← kGet v i
    let vi1 ← kGet v (((i + 1) % v.length : Nat) : Int)
    let reflex ← isReflex ops v i
    let next ← kernelRound ops debug st vi vi1 reflex
    match next with
    | none => .ok none
    | some st' => kernelRounds ops debug v is st'

/-- Lines 248-254. -/
def kernelInit (ops : KernelOps P) (v : List P) : Except PyErr (KernelState P) := do
  let v0 ← kGet v 0
  let v1 ← kGet v 1
  let vn ← kGet v (-1)
  let f1 ← ops.before v0 v1
  let l1 ← ops.before v0 vn
  .ok ⟨[f1, v0, l1], 0, 2, false, none⟩

/-- Lines 862-863: `np.unique` with the first indices, in the order of the list. -/
def keepFirst [DecidableEq P] (l : List P) : List P := l.foldl (fun acc p => if p ∈ acc then acc else acc ++ [p]) []

/-- Lines 221-864 for the counter-clockwise vertices of a polygon that is not convex: the vertices given to
`shapely.geometry.Polygon`, which needs three of them; `none` if the function returns False and leaves `_kernel` as it was. -/
def kernelVertices [DecidableEq P] (ops : KernelOps P) (debug : Bool) (v : List P) :
    Except PyErr (Option (List P)) := do
  let w ← reduceVertices ops v
  let w ← startReflex ops w (List.range w.length)
  let st ← kernelInit ops w
  let r ← kernelRounds ops debug w ((List.range (w.length - 1)).map (· + 1)) st
  match r with
  | none => .ok none
  | some st =>
    if (keepFirst st.xk).length < 3 then .error .valueError else .ok (some (keepFirst st.xk))

end Control

section Entry

variable {K : Type} [Field K] [LinearOrder K]

/-- Twice the signed area. -/
def signedArea2 (v : List (Pt K)) : K :=
  ((edgesOf (ringOf v)).map fun e => e.1.1 * e.2.2 - e.2.1 * e.1.2).sum

/-- Line 221 `shapely.ops.orient`, without the repeated vertex: a clockwise ring is read backwards. -/
def orientRing (v : List (Pt K)) : List (Pt K) :=
  if 0 ≤ signedArea2 v then v else v.take 1 ++ (v.drop 1).reverse

/-- obstacles/starshaped_polygon.py:185-864 `_compute_kernel` for a new obstacle: the value of `_kernel` afterwards, as the list
of its vertices. -/
def polygonKernel (ops : KernelOps (Pt K)) (debug : Bool) (v : List (Pt K)) : Except PyErr (Option (List (Pt K))) := do
  let convex ← checkConvexity v
  if convex then .ok (some v) else kernelVertices ops debug (orientRing v)

/-- obstacles/starshaped_polygon.py:12-17: the kernel found by the constructor when no `xr` is given;
`self._kernel.contains` raises AttributeError if `_kernel` is None. -/
def constructKernel (ops : KernelOps (Pt K)) (v : List (Pt K)) : Except PyErr (List (Pt K)) := do
  let r ← polygonKernel ops false v
  match r with
  | some k => .ok k
  | none => .error .attributeError

/-- The primitives that need no square root, and `norm` and `is_between` as parameters. -/
def kernelOps (norm : Pt K → K) (between : Pt K → Pt K → Pt K → Bool) : KernelOps (Pt K) where
  meet a1 a2 b1 b2 :=
    if !(intersect a1 a2 b1 b2) then
      if between b1 a1 b2 then .ok (some a1)
      else if between b1 a2 b2 then .ok (some a2)
      else if between a1 b1 a2 then .ok (some b1)
      else if between a1 b2 a2 then .ok (some b2)
      else .ok none
    else
      let da := a2 - a1
      let db := b2 - b1
      let dp := a1 - b1
      let dap : Pt K := (-da.2, da.1)
      let denom := dap.1 * db.1 + dap.2 * db.2
      let num := dap.1 * dp.1 + dap.2 * dp.2
      if denom = 0 then .error .nonFinite
      else .ok (some ((num / denom) • db + b1))
  collinear := isCollinear
  cw := isCw
  ccw := isCcw
  between := between
  agree a b c d e f := decide (0 < orientationVal a b c * orientationVal d e f)
  before a b := if norm (b - a) = 0 then .error .nonFinite else .ok (a - (300 / norm (b - a)) • (b - a))
  beyond a b := if norm (b - a) = 0 then .error .nonFinite else .ok (a + (300 / norm (b - a)) • (b - a))
  stretch a b := a + (300 : K) • (b - a)

end Entry

/-- The primitives of the code. -/
noncomputable def realOps : KernelOps (Pt ℝ) := kernelOps norm2 isBetween

end Starworlds
