import Verif.Model.Cluster

/-!
# Model of starshaped_hull/cluster_and_starify.py: the cluster objects

`Model/Cluster.lean` treats clusters as values. Here they are objects: the list of clusters, the dictionary `cluster_history` and the
entries of `cluster_iterations` hold addresses, and the fields of an object may change after its address has been stored. The cached
polygon is set in `ObstacleCluster.polygon` (line 28), the cluster obstacle and the kernel points in the loop (lines 374-387), and the
cluster obstacle again in the `make_convex` stage (line 432). Simplified as in `Model/Cluster.lean`; the lists that hold the addresses are
values, since no list is changed after it has been stored in `cluster_iterations` (line 330 changes the list that line 403 has made).
-/

namespace Starworlds

variable {Ob Star KP P : Type}

/-- The objects by their addresses. -/
abbrev ClHeap (Ob Star KP P : Type) := List (Cl Ob Star KP P)

/-- The objects of a list. -/
def ClHeap.read (H : ClHeap Ob Star KP P) (l : List Nat) : List (Cl Ob Star KP P) := l.filterMap (H[·]?)

/-- `cl.polygon()` for all objects of a list. -/
def ClHeap.cache (g : Geo Ob Star KP P) (H : ClHeap Ob Star KP P) (l : List Nat) : ClHeap Ob Star KP P :=
  l.foldl (fun H a => H.modify a (cachePolygon g)) H

/-- starshaped_hull/cluster_and_starify.py:44-83: the polygons are cached in the objects; without an intersection the list is returned as
it is (line 61), otherwise new objects are made (line 81). -/
def gicObj (g : Geo Ob Star KP P) (H : ClHeap Ob Star KP P) (l : List Nat) : Except PyErr (ClHeap Ob Star KP P × List Nat × Bool) :=
  match getIntersectionClusters g ((H.cache g l).read l) with
  | .error e => .error e
  | .ok (_, false) => .ok (H.cache g l, l, false)
  | .ok (new, true) => .ok (H.cache g l ++ new, List.range' H.length new.length, true)

/-- `cluster_history`: the addresses by name. -/
abbrev ObjHistory := String → Option Nat

/-- `cluster_history[name] = cl`. -/
def ObjHistory.insert (h : ObjHistory) (name : String) (a : Nat) : ObjHistory := fun nm => if nm = name then some a else h nm

/-- Put an address in front of the result of the rest of the loop. -/
def consAddress (a : Nat) : Except PyErr (ClHeap Ob Star KP P × (List Nat ⊕ (List Nat × ObjHistory))) →
    Except PyErr (ClHeap Ob Star KP P × (List Nat ⊕ (List Nat × ObjHistory)))
  | .error e => .error e
  | .ok (H, .inl part) => .ok (H, .inl (a :: part))
  | .ok (H, .inr (rest, h)) => .ok (H, .inr (a :: rest, h))

/-- Lines 327-394, the loop over the clusters: a cluster whose name is in the history is replaced by the object in the history
(line 330), the others are filled in. (All addresses are those of objects.) -/
def starifyAllObj (g : Geo Ob Star KP P) (prev : Option (List (Cl Ob Star KP P))) (n : Nat) :
    List Nat → ClHeap Ob Star KP P → ObjHistory → Except PyErr (ClHeap Ob Star KP P × (List Nat ⊕ (List Nat × ObjHistory)))
  | [], H, h => .ok (H, .inr ([], h))
  | a :: l, H, h =>
    match H[a]? with
    | none => .error .indexError
    | some cl =>
      match h cl.name with
      | some b => consAddress b (starifyAllObj g prev n l H h)
      | none =>
        match starifyCluster g prev n cl with
        | .error e => .error e
        | .ok none => .ok (H, .inl (a :: l))
        | .ok (some c) => consAddress a (starifyAllObj g prev n l (H.set a c) (h.insert c.name a))

/-- How the clustering loop ended, with addresses. -/
inductive ObjEnd where
  | incomplete (nIter : Nat) (iters : List (List Nat))
  | done (clusters : List Nat) (nIter : Nat) (iters : List (List Nat))

/-- Lines 311-411, `while intersection_exists`, with fuel. -/
def clusterLoopObj (g : Geo Ob Star KP P) (par : Params) (prev : Option (List (Cl Ob Star KP P))) :
    Nat → List Nat → Bool → ClHeap Ob Star KP P → ObjHistory → Nat → List (List Nat) →
    Option (Except PyErr (ClHeap Ob Star KP P × ObjEnd))
  | _, l, false, H, _, n, iters => some (.ok (H, .done l n iters))
  | 0, _, true, _, _, _, _ => none
  | fuel + 1, l, true, H, h, n, iters =>
    if g.timeoutIter n then some (.ok (H, .incomplete n (iters ++ [l])))
    else
      match starifyAllObj g prev n l H h with
      | .error e => some (.error e)
      | .ok (H, .inl part) => some (.ok (H, .incomplete n (iters ++ [part])))
      | .ok (H, .inr (l, h)) =>
        match gicObj g H l with
        | .error e => some (.error e)
        | .ok (H, l2, ex) =>
          let iters := if par.returnHistory then iters ++ [l] else iters
          if reachedMax par (n + 1) then some (.ok (H, .done l2 (n + 1) iters))
          else clusterLoopObj g par prev fuel l2 ex H h (n + 1) iters

/-- Lines 415-434, the `make_convex` stage: the cluster obstacle is replaced in the object. -/
def makeConvexObj (g : Geo Ob Star KP P) (l : List Nat) : Nat → Nat → ClHeap Ob Star KP P →
    Except PyErr (Bool × ClHeap Ob Star KP P)
  | 0, _, H => .ok (true, H)
  | k + 1, j, H =>
    match l[j]? with
    | none => .ok (true, H)
    | some a =>
      match H[a]? with
      | none => .error .indexError
      | some cl =>
        match cl.star with
        | none => .error .attributeError
        | some st =>
          if g.isConvex st then makeConvexObj g l k (j + 1) H
          else if g.timeoutConvex j then .ok (false, H)
          else
            match (cachePolygon g cl).polygon with
            | none => .error .attributeError
            | some p =>
              match g.hullOf p with
              | .error e => .error e
              | .ok h =>
                let H := H.cache g l
                if g.blocked h || meetsOther g (H.read l) j h then makeConvexObj g l k (j + 1) H
                else makeConvexObj g l k (j + 1) (H.modify a fun c => { c with star := some (g.hullStar h st) })

/-- The history entry of the returned tuple, with addresses. -/
inductive ObjHist where
  | flat (l : List Nat)
  | iters (l : List (List Nat))

/-- The returned tuple and the objects at the end of the call. -/
structure ObjRes (Ob Star KP P : Type) where
  heap : ClHeap Ob Star KP P
  clusters : List Nat
  flag : Flag
  nIter : Nat
  history : Option ObjHist

/-- Lines 189-194 `default_result`: new objects, and another list of new objects for the history. -/
def defaultObj (g : Geo Ob Star KP P) (par : Params) (obstacles : List Ob) (H : ClHeap Ob Star KP P) (n : Nat) (iters : List (List Nat)) :
    ObjRes Ob Star KP P :=
  let singles := obstacles.map fun o => newCluster g [o]
  { heap := H ++ singles ++ singles
    clusters := List.range' H.length obstacles.length
    flag := .incomplete
    nIter := n
    history := if par.returnHistory then
        some (if n > 0 then .iters iters else .flat (List.range' (H.length + obstacles.length) obstacles.length))
      else none }

/-- Line 299: `{cl.name: cl for cl in clusters}`, for the objects from address `a` on. -/
def firstObjHistory : Nat → List (Cl Ob Star KP P) → ObjHistory → ObjHistory
  | _, [], h => h
  | a, c :: cls, h => firstObjHistory (a + 1) cls (h.insert c.name a)

/-- Lines 168-449 `cluster_and_starify`, with fuel for the clustering loop. -/
def clusterAndStarifyObj (g : Geo Ob Star KP P) (par : Params) (prev : Option (List (Cl Ob Star KP P)))
    (fuel : Nat) (obstacles : List Ob) : Option (Except PyErr (ObjRes Ob Star KP P)) :=
  match initLoop g 0 obstacles with
  | .error e => some (.error e)
  | .ok false => some (.ok (defaultObj g par obstacles [] 0 []))
  | .ok true =>
    match obstacles.mapM (firstCluster g prev) with
    | .error e => some (.error e)
    | .ok cls0 =>
      let l0 := List.range' 0 cls0.length
      let iters := if par.returnHistory then [l0] else []
      match gicObj g cls0 l0 with
      | .error e => some (.error e)
      | .ok (H, l1, ex) =>
        match clusterLoopObj g par prev fuel l1 ex H (firstObjHistory 0 cls0 fun _ => none) 1 iters with
        | none => none
        | some (.error e) => some (.error e)
        | some (.ok (H, .incomplete n iters)) => some (.ok (defaultObj g par obstacles H n iters))
        | some (.ok (H, .done l n iters)) =>
          let hist := if par.returnHistory then some (ObjHist.iters iters) else none
          if par.makeConvex then
            match makeConvexObj g l l.length 0 H with
            | .error e => some (.error e)
            | .ok (false, H) => some (.ok ⟨H, l, .maxComputeTimeConvexHull, n, none⟩)
            | .ok (true, H) => some (.ok ⟨H, l, .complete, n, hist⟩)
          else some (.ok ⟨H, l, .complete, n, hist⟩)

end Starworlds
