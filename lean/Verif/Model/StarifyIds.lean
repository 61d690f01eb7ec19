import Verif.Model.Cluster
import Verif.Model.Obstacle

/-!
# Model of starshaped_hull/cluster_and_starify.py: the ids of the cluster obstacles

The run of `cluster_and_starify` (`Model/Cluster.lean`) with the class attribute `Obstacle.id_counter` and with the id of
each cluster obstacle. A cluster obstacle is a pair of a geometry and an id. The counter after an exception is left out.
-/

namespace Starworlds

variable {Ob Star KP P : Type}

/-- A cluster whose cluster obstacle has an id. -/
abbrev IdCl (Ob Star KP P : Type) := Cl Ob (Star × Option Nat) KP P

/-- The geometry of cluster obstacles with ids. An obstacle that is its own cluster obstacle has its own id. The ids given
by the constructors are in the functions below. -/
def idGeo (g : Geo Ob Star KP P) : Geo Ob (Star × Option Nat) KP P where
  id := g.id
  prim o := (g.prim o, g.id o)
  starPoly s := g.starPoly s.1
  inter := g.inter
  setList := g.setList
  timeoutInit := g.timeoutInit
  timeoutIter := g.timeoutIter
  timeoutConvex := g.timeoutConvex
  robotFree := g.robotFree
  goalFree := g.goalFree
  exclude := g.exclude
  admEmpty := g.admEmpty
  kernelSel := g.kernelSel
  firstStar o kp := (g.firstStar o kp).map (·, none)
  loopStar n obs kp := (g.loopStar n obs kp).map (·, none)
  isConvex s := g.isConvex s.1
  hullOf := g.hullOf
  blocked := g.blocked
  hullStar h s := (g.hullStar h s.1, none)

/-- starshaped_hull/cluster_and_starify.py:254 and 379 `"new" if cl_prev is None else cl_prev.cluster_obstacle.id()`. The
id `None` is neither a string nor an integer. -/
def idRequest (prev : Option (IdCl Ob Star KP P)) : Except PyErr IdReq :=
  match prev with
  | none => .ok .new
  | some c => match c.star with
    | none => .error .attributeError
    | some s => match s.2 with
      | some k => .ok (.int k)
      | none => .ok .other

/-- starshaped_hull/cluster_and_starify.py:234-275, one obstacle of the first iteration. `own` tells that there is no hull
extension (line 259), so that the obstacle itself, with its id, is the cluster obstacle; otherwise lines 265-266. -/
def firstClusterId (g : Geo Ob Star KP P) (own : Star → Bool) (prev : Option (List (IdCl Ob Star KP P))) (o : Ob)
    (counter : Nat) : Except PyErr (IdCl Ob Star KP P × Nat) := do
  let cl := newCluster (idGeo g) [o]
  let clPrev := extractCluster cl.name prev
  let kp ← computeKernelPoints (idGeo g) 0 [o] clPrev
  let req ← idRequest clPrev
  let st ← g.firstStar o kp
  if own st then
    .ok ({ cl with kernelPoints := some kp, star := some (st, g.id o) }, counter)
  else
    .ok ({ cl with kernelPoints := some kp, star := some (st, (setId counter req).2) }, (setId counter req).1)

/-- Line 234, the loop over the obstacles. -/
def firstLoopId (g : Geo Ob Star KP P) (own : Star → Bool) (prev : Option (List (IdCl Ob Star KP P))) :
    List Ob → Nat → Except PyErr (List (IdCl Ob Star KP P) × Nat)
  | [], counter => .ok ([], counter)
  | o :: l, counter =>
    match firstClusterId g own prev o counter with
    | .error e => .error e
    | .ok (c, counter) =>
      match firstLoopId g own prev l counter with
      | .error e => .error e
      | .ok (cls, counter) => .ok (c :: cls, counter)

/-- Lines 333-394, the body for one cluster that is not in the history; the constructor is in line 387. -/
def starifyClusterId (g : Geo Ob Star KP P) (prev : Option (List (IdCl Ob Star KP P))) (n : Nat)
    (cl : IdCl Ob Star KP P) (counter : Nat) : Except PyErr (Option (IdCl Ob Star KP P × Nat)) :=
  match g.admEmpty n cl.obstacles with
  | .error e => .error e
  | .ok true => .ok none
  | .ok false => do
    let clPrev := lastCluster cl.name prev
    let kp ← computeKernelPoints (idGeo g) n cl.obstacles clPrev
    let req ← idRequest clPrev
    let st ← g.loopStar n cl.obstacles kp
    .ok (some (cachePolygon (idGeo g) { cl with kernelPoints := some kp, star := some (st, (setId counter req).2) },
      (setId counter req).1))

/-- Lines 327-394, the loop over the clusters: the cluster list at the INCOMPLETE exit or the new list with the new
history, and the counter. -/
def starifyAllId (g : Geo Ob Star KP P) (prev : Option (List (IdCl Ob Star KP P))) (n : Nat) :
    List (IdCl Ob Star KP P) → History Ob (Star × Option Nat) KP P → Nat →
    Except PyErr ((List (IdCl Ob Star KP P) ⊕ (List (IdCl Ob Star KP P) × History Ob (Star × Option Nat) KP P)) × Nat)
  | [], h, counter => .ok (.inr ([], h), counter)
  | cl :: cls, h, counter =>
    match h cl.name with
    | some c =>
      match starifyAllId g prev n cls h counter with
      | .error e => .error e
      | .ok (.inl part, counter) => .ok (.inl (c :: part), counter)
      | .ok (.inr (rest, h), counter) => .ok (.inr (c :: rest, h), counter)
    | none =>
      match starifyClusterId g prev n cl counter with
      | .error e => .error e
      | .ok none => .ok (.inl (cl :: cls), counter)
      | .ok (some (c, counter)) =>
        match starifyAllId g prev n cls (h.insert c) counter with
        | .error e => .error e
        | .ok (.inl part, counter) => .ok (.inl (c :: part), counter)
        | .ok (.inr (rest, h), counter) => .ok (.inr (c :: rest, h), counter)

/-- Lines 311-411, `while intersection_exists`, with fuel. -/
def clusterLoopId (g : Geo Ob Star KP P) (par : Params) (prev : Option (List (IdCl Ob Star KP P))) :
    Nat → List (IdCl Ob Star KP P) → Bool → History Ob (Star × Option Nat) KP P → Nat → List (List (IdCl Ob Star KP P)) →
    Nat → Option (Except PyErr (LoopEnd Ob (Star × Option Nat) KP P × Nat))
  | _, cls, false, _, n, iters, counter => some (.ok (.done cls n iters, counter))
  | 0, _, true, _, _, _, _ => none
  | fuel + 1, cls, true, h, n, iters, counter =>
    if g.timeoutIter n then some (.ok (.incomplete n (iters ++ [cls]), counter))
    else
      match starifyAllId g prev n cls h counter with
      | .error e => some (.error e)
      | .ok (.inl part, counter) => some (.ok (.incomplete n (iters ++ [part]), counter))
      | .ok (.inr (cls', h'), counter) =>
        match getIntersectionClusters (idGeo g) cls' with
        | .error e => some (.error e)
        | .ok (cls'', ex) =>
          let iters' := if par.returnHistory then iters ++ [cls'] else iters
          if reachedMax par (n + 1) then
            some (.ok (.done cls'' (n + 1) iters', counter))
          else clusterLoopId g par prev fuel cls'' ex h' (n + 1) iters' counter

/-- Lines 415-434, the loop of the `make_convex` stage. Line 432 passes no id, so that the polygon gets a new one
(obstacles/obstacle.py:24). -/
def makeConvexLoopId (g : Geo Ob Star KP P) : Nat → Nat → List (IdCl Ob Star KP P) → Nat →
    Except PyErr ((List (IdCl Ob Star KP P) ⊕ List (IdCl Ob Star KP P)) × Nat)
  | 0, _, cls, counter => .ok (.inr cls, counter)
  | k + 1, j, cls, counter =>
    match cls[j]? with
    | none => .ok (.inr cls, counter)
    | some cl =>
      match cl.star with
      | none => .error .attributeError
      | some st =>
        if g.isConvex st.1 then makeConvexLoopId g k (j + 1) cls counter
        else if g.timeoutConvex j then .ok (.inl cls, counter)
        else
          match (cachePolygon (idGeo g) cl).polygon with
          | none => .error .attributeError
          | some p =>
            match g.hullOf p with
            | .error e => .error e
            | .ok h =>
              if g.blocked h || meetsOther (idGeo g) (cls.map (cachePolygon (idGeo g))) j h then
                makeConvexLoopId g k (j + 1) (cls.map (cachePolygon (idGeo g))) counter
              else
                makeConvexLoopId g k (j + 1) ((cls.map (cachePolygon (idGeo g))).modify j fun c =>
                  { c with star := some (g.hullStar h st.1, (setId counter .new).2) }) (setId counter .new).1

/-- Line 174: without a workspace, an ellipse is made, which gets a new id (obstacles/obstacle.py:24). -/
def workspaceCounter (workspace : Bool) (counter : Nat) : Nat :=
  if workspace then counter else (setId counter .new).1

/-- Lines 168-449 `cluster_and_starify` with the id counter; `workspace` tells whether a workspace is given. -/
def clusterAndStarifyId (g : Geo Ob Star KP P) (own : Star → Bool) (par : Params) (workspace : Bool)
    (prev : Option (List (IdCl Ob Star KP P))) (fuel : Nat) (obstacles : List Ob) (counter : Nat) :
    Option (Except PyErr (Res Ob (Star × Option Nat) KP P × Nat)) :=
  match initLoop (idGeo g) 0 obstacles with
  | .error e => some (.error e)
  | .ok false => some (.ok (defaultResult (idGeo g) par obstacles 0 [], workspaceCounter workspace counter))
  | .ok true =>
    match firstLoopId g own prev obstacles (workspaceCounter workspace counter) with
    | .error e => some (.error e)
    | .ok (cls0, counter) =>
      let iters := if par.returnHistory then [cls0] else []
      match getIntersectionClusters (idGeo g) cls0 with
      | .error e => some (.error e)
      | .ok (cls1, ex) =>
        match clusterLoopId g par prev fuel cls1 ex (firstHistory cls0) 1 iters counter with
        | none => none
        | some (.error e) => some (.error e)
        | some (.ok (.incomplete n iters, counter)) =>
          some (.ok (defaultResult (idGeo g) par obstacles n iters, counter))
        | some (.ok (.done cls n iters, counter)) =>
          let hist := if par.returnHistory then some (HistVal.iters iters) else none
          if par.makeConvex then
            match makeConvexLoopId g cls.length 0 cls counter with
            | .error e => some (.error e)
            | .ok (.inl cls, counter) => some (.ok (⟨cls, .maxComputeTimeConvexHull, n, none⟩, counter))
            | .ok (.inr cls, counter) => some (.ok (⟨cls, .complete, n, hist⟩, counter))
          else some (.ok (⟨cls, .complete, n, hist⟩, counter))

end Starworlds
