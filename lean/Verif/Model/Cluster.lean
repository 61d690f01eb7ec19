import Verif.Model.Basic

/-!
# Model of starshaped_hull/cluster_and_starify.py

The control flow of `get_intersection_clusters` and `cluster_and_starify` with the geometry and the clock
as oracles (`Geo`): every theorem about it holds for all values of the oracles.  Each clock test
`max_compute_time < toc(t0)` is reached at most once per program point, so the clock is a Boolean per
program point.  Clusters are values here; `Model/ClusterObjects.lean` has the version with shared objects,
and C119 says where both agree.  Printing, drawing and the timing vector are left out.
-/

namespace Starworlds

/-- The flags of starshaped_hull/cluster_and_starify.py:177-179. -/
inductive Flag where
  | incomplete
  | complete
  | maxComputeTimeConvexHull
  deriving DecidableEq

/-- starshaped_hull/cluster_and_starify.py:10-18 the fields of `ObstacleCluster` (`admissible_kernel` and
`_polygon_excluding_hull` only feed the geometry oracles). -/
structure Cl (Ob Star KP P : Type) where
  name : String
  obstacles : List Ob
  star : Option Star
  kernelPoints : Option KP
  polygon : Option P

/-- Everything `cluster_and_starify` gets from its arguments, the geometry library, the random generator
and the clock. -/
structure Geo (Ob Star KP P : Type) where
  /-- `o.id()` -/
  id : Ob → Option Nat
  /-- an obstacle as its own cluster obstacle -/
  prim : Ob → Star
  /-- `cluster_obstacle.polygon()` -/
  starPoly : Star → P
  /-- `p.intersects(q)` -/
  inter : P → P → Bool
  /-- `list(set(l))` -/
  setList : List Nat → List Nat
  /-- line 198, for the obstacle with this index -/
  timeoutInit : Nat → Bool
  /-- line 320, in the iteration with this number -/
  timeoutIter : Nat → Bool
  /-- line 421, for the cluster with this index -/
  timeoutConvex : Nat → Bool
  /-- line 201: `sh.admissible_kernel(o, x)` is not `None` -/
  robotFree : Ob → Except PyErr Bool
  /-- line 202: `sh.admissible_kernel(o, xg)` is not `None` -/
  goalFree : Ob → Except PyErr Bool
  /-- lines 215-226, the work done with `exclude_obstacles` (nothing if not asked for) -/
  exclude : Ob → Except PyErr Unit
  /-- lines 340-344: the admissible kernel of the cluster is empty -/
  admEmpty : Nat → List Ob → Except PyErr Bool
  /-- lines 86-157 after line 87: iteration, obstacles, previous kernel points -/
  kernelSel : Nat → List Ob → Option KP → Except PyErr KP
  /-- lines 255-266: the cluster obstacle of a single obstacle in the first iteration -/
  firstStar : Ob → KP → Except PyErr Star
  /-- lines 380-387: the cluster obstacle of a cluster in the loop -/
  loopStar : Nat → List Ob → KP → Except PyErr Star
  /-- `cluster_obstacle.is_convex()` -/
  isConvex : Star → Bool
  /-- lines 426-428: polygon of the convex hull of the vertices -/
  hullOf : P → Except PyErr P
  /-- line 429: the polygon contains `x` or `xg` -/
  blocked : P → Bool
  /-- line 432: `StarshapedPolygon(hull_polygon, xr=...)` -/
  hullStar : P → Star → Star

variable {Ob Star KP P : Type}

/-- `str(o.id())` as characters. -/
def idChars : Option Nat → List Char
  | some k => Nat.toDigits 10 k
  | none => ['N', 'o', 'n', 'e']

/-- starshaped_hull/cluster_and_starify.py:12 `'_'.join([str(o.id()) for o in obstacles])`. -/
def clusterName (ids : List (Option Nat)) : String :=
  String.ofList (List.intercalate ['_'] (ids.map idChars))

/-- starshaped_hull/cluster_and_starify.py:11-18 `ObstacleCluster(obstacles)` for a non-empty list. -/
def newCluster (g : Geo Ob Star KP P) (obs : List Ob) : Cl Ob Star KP P :=
  { name := clusterName (obs.map g.id)
    obstacles := obs
    star := if obs.length > 1 then none else obs.head?.map g.prim
    kernelPoints := none
    polygon := none }

/-- starshaped_hull/cluster_and_starify.py:23-29 `ObstacleCluster.polygon`: the object after the call, its
`polygon` field being the returned value. -/
def cachePolygon (g : Geo Ob Star KP P) (cl : Cl Ob Star KP P) : Cl Ob Star KP P :=
  match cl.polygon with
  | some _ => cl
  | none => { cl with polygon := cl.star.map g.starPoly }

/-! ## get_intersection_clusters -/

/-- starshaped_hull/cluster_and_starify.py:53-57: `intersection_idcs[i]` after the first pass. -/
def initIdcs (n : Nat) (inter : Nat → Nat → Bool) (i : Nat) : List Nat :=
  i :: ((List.range n).filter fun j => decide (i < j) && inter i j)

/-- Assignment to one entry of the list `intersection_idcs` (a function from indices here). -/
def setIdx (idcs : Nat → List Nat) (k : Nat) (v : List Nat) : Nat → List Nat :=
  fun m => if m = k then v else idcs m

/-- starshaped_hull/cluster_and_starify.py:65-74, the loop over `j = i-1, ..., 0` for a fixed `i`. -/
def mergeInner (setList : List Nat → List Nat) (idcs : Nat → List Nat) (i : Nat) : Nat → (Nat → List Nat)
  | 0 => idcs
  | j + 1 =>
    if (idcs j).any fun l => decide (l ∈ idcs i) then
      setIdx (setIdx idcs j (setList (idcs j ++ idcs i))) i []
    else mergeInner setList idcs i j

/-- starshaped_hull/cluster_and_starify.py:64, the loop over `i = k, ..., 1`. -/
def mergeOuter (setList : List Nat → List Nat) : (Nat → List Nat) → Nat → (Nat → List Nat)
  | idcs, 0 => idcs
  | idcs, i + 1 => mergeOuter setList (mergeInner setList idcs (i + 1) (i + 1)) i

/-- The non-empty index groups after the merge loop, lines 64-80. -/
def mergedGroups (setList : List Nat → List Nat) (n : Nat) (inter : Nat → Nat → Bool) : List (List Nat) :=
  ((List.range n).map (mergeOuter setList (initIdcs n inter) (n - 1))).filter (· ≠ [])

/-- `cluster_polygons[i].intersects(cluster_polygons[j])`; a missing second argument gives `False`. -/
def interIdx (g : Geo Ob Star KP P) (cls : List (Cl Ob Star KP P)) (i j : Nat) : Bool :=
  match cls[i]?, cls[j]? with
  | some a, some b => match a.polygon, b.polygon with
    | some p, some q => g.inter p q
    | _, _ => false
  | _, _ => false

/-- Line 77: `cluster_obstacles[j]`. -/
def obstaclesAt (cls : List (Cl Ob Star KP P)) (j : Nat) : List Ob :=
  match cls[j]? with
  | some c => c.obstacles
  | none => []

/-- starshaped_hull/cluster_and_starify.py:44-83 `get_intersection_clusters`. `None.intersects` raises when a
cluster other than the last one has no polygon. -/
def getIntersectionClusters (g : Geo Ob Star KP P) (clusters : List (Cl Ob Star KP P)) :
    Except PyErr (List (Cl Ob Star KP P) × Bool) :=
  let cls := clusters.map (cachePolygon g)
  if cls.dropLast.any fun c => c.polygon.isNone then .error .attributeError
  else
    let inter := interIdx g cls
    let n := cls.length
    if (List.range n).any fun i => decide (1 < (initIdcs n inter i).length) then
      .ok ((mergedGroups g.setList n inter).map fun grp =>
        newCluster g (grp.flatMap (obstaclesAt cls)), true)
    else .ok (cls, false)

/-! ## cluster_and_starify -/

/-- starshaped_hull/cluster_and_starify.py:87 and 86-157: `np.mean(cl_prev.kernel_points, axis=0)` raises
when the previous cluster has no kernel points. -/
def computeKernelPoints (g : Geo Ob Star KP P) (n : Nat) (obs : List Ob) (prev : Option (Cl Ob Star KP P)) :
    Except PyErr KP :=
  match prev with
  | none => g.kernelSel n obs none
  | some c => match c.kernelPoints with
    | none => .error .valueError
    | some kp => g.kernelSel n obs (some kp)

/-- Lines 254 and 379: `"new" if cl_prev is None else cl_prev.cluster_obstacle.id()`; only whether it
raises matters here. -/
def prevId (prev : Option (Cl Ob Star KP P)) : Except PyErr Unit :=
  match prev with
  | none => .ok ()
  | some c => match c.star with
    | none => .error .attributeError
    | some _ => .ok ()

/-- starshaped_hull/cluster_and_starify.py:159-165 `extract_cluster`: the first with the same name. -/
def extractCluster (name : String) (prev : Option (List (Cl Ob Star KP P))) : Option (Cl Ob Star KP P) :=
  match prev with
  | none => none
  | some l => l.find? fun c => c.name == name

/-- Lines 367-371: the last one with the same name. -/
def lastCluster (name : String) (prev : Option (List (Cl Ob Star KP P))) : Option (Cl Ob Star KP P) :=
  match prev with
  | none => none
  | some l => l.reverse.find? fun c => c.name == name

/-- Lines 234-275, one obstacle of the first iteration. -/
def firstCluster (g : Geo Ob Star KP P) (prev : Option (List (Cl Ob Star KP P))) (o : Ob) :
    Except PyErr (Cl Ob Star KP P) := do
  let cl := newCluster g [o]
  let clPrev := extractCluster cl.name prev
  let kp ← computeKernelPoints g 0 [o] clPrev
  prevId clPrev
  let st ← g.firstStar o kp
  .ok { cl with kernelPoints := some kp, star := some st }

/-- The dictionary `cluster_history`. -/
abbrev History (Ob Star KP P : Type) := String → Option (Cl Ob Star KP P)

/-- `cluster_history[cl.name] = cl`. -/
def History.insert (h : History Ob Star KP P) (cl : Cl Ob Star KP P) : History Ob Star KP P :=
  fun nm => if nm = cl.name then some cl else h nm

/-- Line 299: `{cl.name: cl for cl in clusters}`. -/
def firstHistory (cls : List (Cl Ob Star KP P)) : History Ob Star KP P :=
  cls.foldl History.insert fun _ => none

/-- Lines 333-394, the body for one cluster that is not in the history: `none` is the INCOMPLETE exit. -/
def starifyCluster (g : Geo Ob Star KP P) (prev : Option (List (Cl Ob Star KP P))) (n : Nat)
    (cl : Cl Ob Star KP P) : Except PyErr (Option (Cl Ob Star KP P)) :=
  match g.admEmpty n cl.obstacles with
  | .error e => .error e
  | .ok true => .ok none
  | .ok false => do
    let clPrev := lastCluster cl.name prev
    let kp ← computeKernelPoints g n cl.obstacles clPrev
    prevId clPrev
    let st ← g.loopStar n cl.obstacles kp
    .ok (some (cachePolygon g { cl with kernelPoints := some kp, star := some st }))

/-- Put a cluster in front of the result of the rest of the loop. -/
def consStarified (c : Cl Ob Star KP P) :
    Except PyErr (List (Cl Ob Star KP P) ⊕ (List (Cl Ob Star KP P) × History Ob Star KP P)) →
    Except PyErr (List (Cl Ob Star KP P) ⊕ (List (Cl Ob Star KP P) × History Ob Star KP P))
  | .error e => .error e
  | .ok (.inl part) => .ok (.inl (c :: part))
  | .ok (.inr (rest, h)) => .ok (.inr (c :: rest, h))

/-- Lines 327-394, the loop over the clusters. The result is either the cluster list at the INCOMPLETE exit
or the new list with the new history. -/
def starifyAll (g : Geo Ob Star KP P) (prev : Option (List (Cl Ob Star KP P))) (n : Nat) :
    List (Cl Ob Star KP P) → History Ob Star KP P →
    Except PyErr (List (Cl Ob Star KP P) ⊕ (List (Cl Ob Star KP P) × History Ob Star KP P))
  | [], h => .ok (.inr ([], h))
  | cl :: cls, h =>
    match h cl.name with
    | some c => consStarified c (starifyAll g prev n cls h)
    | none =>
      match starifyCluster g prev n cl with
      | .error e => .error e
      | .ok none => .ok (.inl (cl :: cls))
      | .ok (some c) => consStarified c (starifyAll g prev n cls (h.insert c))

/-- How the clustering loop ended. -/
inductive LoopEnd (Ob Star KP P : Type) where
  | incomplete (nIter : Nat) (iters : List (List (Cl Ob Star KP P)))
  | done (clusters : List (Cl Ob Star KP P)) (nIter : Nat) (iters : List (List (Cl Ob Star KP P)))

/-- The parameters of the call. `maxIterations = none` is infinity. -/
structure Params where
  maxIterations : Option Nat
  makeConvex : Bool
  returnHistory : Bool

/-- Line 410: `n_iter >= max_iterations`. -/
def reachedMax (par : Params) (n : Nat) : Bool :=
  match par.maxIterations with
  | none => false
  | some m => decide (m ≤ n)

/-- Lines 311-411, `while intersection_exists`. The first argument is fuel; `none` means that it ran out. -/
def clusterLoop (g : Geo Ob Star KP P) (par : Params) (prev : Option (List (Cl Ob Star KP P))) :
    Nat → List (Cl Ob Star KP P) → Bool → History Ob Star KP P → Nat → List (List (Cl Ob Star KP P)) →
    Option (Except PyErr (LoopEnd Ob Star KP P))
  | _, cls, false, _, n, iters => some (.ok (.done cls n iters))
  | 0, _, true, _, _, _ => none
  | fuel + 1, cls, true, h, n, iters =>
    if g.timeoutIter n then some (.ok (.incomplete n (iters ++ [cls])))
    else
      match starifyAll g prev n cls h with
      | .error e => some (.error e)
      | .ok (.inl part) => some (.ok (.incomplete n (iters ++ [part])))
      | .ok (.inr (cls', h')) =>
        match getIntersectionClusters g cls' with
        | .error e => some (.error e)
        | .ok (cls'', ex) =>
          let iters' := if par.returnHistory then iters ++ [cls'] else iters
          if reachedMax par (n + 1) then
            some (.ok (.done cls'' (n + 1) iters'))
          else clusterLoop g par prev fuel cls'' ex h' (n + 1) iters'

/-- Line 430: the hull meets the polygon of another cluster. -/
def meetsOther (g : Geo Ob Star KP P) (cls : List (Cl Ob Star KP P)) (j : Nat) (h : P) : Bool :=
  (List.range cls.length).any fun m => decide (m ≠ j) &&
    (match cls[m]? with
     | some c => match c.polygon with | some q => g.inter h q | none => false
     | none => false)

/-- Lines 415-434, the loop of the `make_convex` stage at cluster index `j`, with the number of clusters
still to visit as recursion argument. `Sum.inl` is the time-out exit. -/
def makeConvexLoop (g : Geo Ob Star KP P) : Nat → Nat → List (Cl Ob Star KP P) →
    Except PyErr (List (Cl Ob Star KP P) ⊕ List (Cl Ob Star KP P))
  | 0, _, cls => .ok (.inr cls)
  | k + 1, j, cls =>
    match cls[j]? with
    | none => .ok (.inr cls)
    | some cl =>
      match cl.star with
      | none => .error .attributeError
      | some st =>
        if g.isConvex st then makeConvexLoop g k (j + 1) cls
        else if g.timeoutConvex j then .ok (.inl cls)
        else
          match (cachePolygon g cl).polygon with
          | none => .error .attributeError
          | some p =>
            match g.hullOf p with
            | .error e => .error e
            | .ok h =>
              if g.blocked h || meetsOther g (cls.map (cachePolygon g)) j h then
                makeConvexLoop g k (j + 1) (cls.map (cachePolygon g))
              else
                makeConvexLoop g k (j + 1) ((cls.map (cachePolygon g)).modify j fun c =>
                  { c with star := some (g.hullStar h st) })

/-- The history entry of the result: `default_result` returns a flat list when no iteration was made. -/
inductive HistVal (Ob Star KP P : Type) where
  | flat (cls : List (Cl Ob Star KP P))
  | iters (l : List (List (Cl Ob Star KP P)))

/-- The returned tuple without the timing vector; `history = none` is a tuple of four entries. -/
structure Res (Ob Star KP P : Type) where
  clusters : List (Cl Ob Star KP P)
  flag : Flag
  nIter : Nat
  history : Option (HistVal Ob Star KP P)

/-- The number of entries of the returned tuple (the timing vector is the fourth common one). -/
def Res.entries (r : Res Ob Star KP P) : Nat := if r.history.isSome then 5 else 4

/-- Lines 189-194 `default_result`. -/
def defaultResult (g : Geo Ob Star KP P) (par : Params) (obstacles : List Ob) (n : Nat)
    (iters : List (List (Cl Ob Star KP P))) : Res Ob Star KP P :=
  { clusters := obstacles.map fun o => newCluster g [o]
    flag := .incomplete
    nIter := n
    history := if par.returnHistory then
        some (if n > 0 then .iters iters else .flat (obstacles.map fun o => newCluster g [o]))
      else none }

/-- Lines 197-226, the loop over the obstacles starting at index `i`: `false` is the `default_result` exit. -/
def initLoop (g : Geo Ob Star KP P) : Nat → List Ob → Except PyErr Bool
  | _, [] => .ok true
  | i, o :: os =>
    if g.timeoutInit i then .ok false
    else do
      let robot ← g.robotFree o
      let goal ← g.goalFree o
      if !robot || !goal then .ok false
      else do
        g.exclude o
        initLoop g (i + 1) os

/-- Lines 168-449 `cluster_and_starify`, with fuel for the clustering loop. -/
def clusterAndStarify (g : Geo Ob Star KP P) (par : Params) (prev : Option (List (Cl Ob Star KP P)))
    (fuel : Nat) (obstacles : List Ob) : Option (Except PyErr (Res Ob Star KP P)) :=
  match initLoop g 0 obstacles with
  | .error e => some (.error e)
  | .ok false => some (.ok (defaultResult g par obstacles 0 []))
  | .ok true =>
    match obstacles.mapM (firstCluster g prev) with
    | .error e => some (.error e)
    | .ok cls0 =>
      let iters := if par.returnHistory then [cls0] else []
      match getIntersectionClusters g cls0 with
      | .error e => some (.error e)
      | .ok (cls1, ex) =>
        match clusterLoop g par prev fuel cls1 ex (firstHistory cls0) 1 iters with
        | none => none
        | some (.error e) => some (.error e)
        | some (.ok (.incomplete n iters)) => some (.ok (defaultResult g par obstacles n iters))
        | some (.ok (.done cls n iters)) =>
          let hist := if par.returnHistory then some (HistVal.iters iters) else none
          if par.makeConvex then
            match makeConvexLoop g cls.length 0 cls with
            | .error e => some (.error e)
            | .ok (.inl cls) => some (.ok ⟨cls, .maxComputeTimeConvexHull, n, none⟩)
            | .ok (.inr cls) => some (.ok ⟨cls, .complete, n, hist⟩)
          else some (.ok ⟨cls, .complete, n, hist⟩)

end Starworlds
