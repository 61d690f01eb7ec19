import Verif.Proofs.ClusterObjects
import Verif.Props.Cluster

/-! # C119: the returned history shows the iterations -/

namespace Starworlds

open Spec

variable {Ob Star KP P : Type}

/-- With the clusters as objects, a call without `make_convex` returns what the call with clusters as values returns, and what the
caller sees through the history afterwards is what was recorded. -/
theorem C119_objects (g : Geo Ob Star KP P) (par : Params) (hc : par.makeConvex = false) (prev : Option (List (Cl Ob Star KP P)))
    (fuel : Nat) (obstacles : List Ob) :
    SameCall g (fun _ => []) (clusterAndStarifyObj g par prev fuel obstacles) (clusterAndStarify g par prev fuel obstacles) := by
  have h := clusterAndStarifyObj_spec (g := g) par prev fuel obstacles fun h => by rw [hc] at h; cases h
  have : changedBy (Ob := Ob) (Star := Star) (KP := KP) (P := P) par = fun _ => [] := funext fun ro => by simp [changedBy, hc]
  rwa [this] at h

/-- The history of a finished call without `make_convex`: one entry for each iteration; the first one shows the clusters of the single
obstacles, and without a limit of the iterations the last one has the returned objects.
Missing: `make_convex` (false, `C119_convex_false`). -/
theorem C119_partial (g : Geo Ob Star KP P) (par : Params) (hc : par.makeConvex = false) (hh : par.returnHistory = true)
    (prev : Option (List (Cl Ob Star KP P))) (fuel : Nat) (obstacles : List Ob) (ro : ObjRes Ob Star KP P)
    (h : clusterAndStarifyObj g par prev fuel obstacles = some (.ok ro)) (hf : ro.flag = .complete) :
    ∃ its, ro.history = some (.iters its) ∧ its.length = ro.nIter ∧
      (∃ l, its.head? = some l ∧ l.map (fun a => (ro.heap[a]?).map (·.obstacles)) = obstacles.map fun o => some [o]) ∧
      (par.maxIterations = none → its.getLast? = some ro.clusters) := by
  unfold clusterAndStarifyObj at h
  split at h
  · simp at h
  · simp only [Option.some.injEq, Except.ok.injEq] at h
    rw [← h] at hf; simp [defaultObj] at hf
  · split at h
    · simp at h
    · rename_i cls0 h0
      simp only at h
      cases hgic : getIntersectionClusters g cls0 with
      | error e =>
        have hr0 : Reads cls0 (List.range' 0 cls0.length) cls0 := by simpa using reads_range [] cls0
        rw [gicObj_error (hr0.shows (g := g)) hgic] at h
        simp at h
      | ok r =>
        obtain ⟨cls1, ex⟩ := r
        obtain ⟨H, l1, e1, hla⟩ := loopAgree_first par hgic
        rw [e1] at h
        simp only at h
        rcases clusterLoopObj_spec par prev fuel hla with ⟨k1, k2⟩ | ⟨e, k1, k2⟩ | ⟨m, it', H', itO', k1, k2, k3, k4⟩ |
          ⟨out, m, it', H', l', itO', k1, k2, k3, k4, k5, k6, k7⟩
        · rw [k2] at h; simp at h
        · rw [k2] at h; simp at h
        · rw [k2] at h
          simp only [Option.some.injEq, Except.ok.injEq] at h
          rw [← h] at hf; simp [defaultObj] at hf
        · rw [k2] at h
          simp only [hc, hh, Bool.false_eq_true, if_false, if_true, Option.some.injEq, Except.ok.injEq] at h
          subst h
          refine ⟨itO', rfl, by rw [k4.length_eq, k6 hh], ?_, fun hmax => k7 hmax hh⟩
          rw [if_pos hh, if_pos hh] at k5
          obtain ⟨⟨t, rfl⟩, ⟨t', rfl⟩⟩ := k5
          refine ⟨_, rfl, ?_⟩
          cases k4 with
          | cons k4 _ =>
          have hobs : cls0.map (·.obstacles) = obstacles.map fun o => [o] := mapM_first_obstacles obstacles h0
          have key : ∀ {l cls}, Shows g H' l cls →
              l.map (fun a => (H'[a]?).map (·.obstacles)) = (cls.map (·.obstacles)).map some := by
            intro l cls hs
            induction hs with
            | nil => rfl
            | cons hd _ ih =>
              obtain ⟨d, d1, d2⟩ := hd
              simp only [List.map_cons, d1, Option.map_some, d2.2.1, ih]
          rw [key k4, hobs, List.map_map]
          rfl

/-- With `make_convex` (without a limit of the iterations and for obstacles with different ids) the returned clusters are the same, and
the clusters of the history that are not returned are as they were recorded.  Missing: the returned clusters (false,
`C119_convex_false`). -/
theorem C119_convex_partial (g : Geo Ob Star KP P) (hs : IsSetList g.setList) (par : Params) (hmax : par.maxIterations = none)
    (prev : Option (List (Cl Ob Star KP P))) (fuel : Nat) (obstacles : List Ob) (hid : (obstacles.map g.id).Nodup) :
    SameCall g (fun ro => ro.clusters) (clusterAndStarifyObj g par prev fuel obstacles) (clusterAndStarify g par prev fuel obstacles) := by
  cases hc : par.makeConvex with
  | true =>
    have h := clusterAndStarifyObj_spec (g := g) par prev fuel obstacles fun _ => ⟨hs, hmax, hid⟩
    have : changedBy (Ob := Ob) (Star := Star) (KP := KP) (P := P) par = fun ro => ro.clusters := funext fun ro => by simp [changedBy, hc]
    rwa [this] at h
  | false =>
    have h := C119_objects g par hc prev fuel obstacles
    generalize clusterAndStarifyObj g par prev fuel obstacles = x at h ⊢
    generalize clusterAndStarify g par prev fuel obstacles = y at h ⊢
    cases h with
    | none => exact .none
    | error e => exact .error e
    | @ok ro r h1 h2 h3 h4 =>
      refine .ok h1 h2 h3 ?_
      generalize ro.history = x at h4 ⊢
      generalize r.history = y at h4 ⊢
      cases h4 with
      | none => exact .none
      | flat h4 => exact .flat (List.Forall₂.imp (fun a c hac _ => hac (by simp)) h4)
      | iters h4 => exact .iters (List.Forall₂.imp (fun x y hxy => List.Forall₂.imp (fun a c hac _ => hac (by simp)) hxy) h4)

/-! ## Examples -/

/-- Obstacles 0 and 1 meet; the cluster obstacles are not convex, the convex hull adds the mark 100. -/
def objGeo : Geo Nat (List Nat) Unit (List Nat) :=
  { demoGeo with isConvex := fun s => s.contains 100, hullStar := fun p _ => p ++ [100] }

/-- The obstacles and the cluster obstacle behind the addresses of a result. -/
def ObjRes.view (r : ObjRes Nat (List Nat) Unit (List Nat)) (l : List Nat) : List (List Nat × List Nat) :=
  (r.heap.read l).map fun c => (c.obstacles, c.star.getD [])

/-- Returned clusters and history, as the caller sees them after the call. -/
def seenBy (r : Option (Except PyErr (ObjRes Nat (List Nat) Unit (List Nat)))) :
    Option (Except PyErr (List (List Nat × List Nat) × Nat × List (List (List Nat × List Nat)))) :=
  r.map fun e => e.map fun ro => (ro.view ro.clusters, ro.nIter,
    match ro.history with
    | some (.iters l) => l.map ro.view
    | some (.flat l) => [ro.view l]
    | none => [])

/-- The history as it was recorded. -/
def recorded (r : Option (Except PyErr (Res Nat (List Nat) Unit (List Nat)))) :
    Option (Except PyErr (List (List (List Nat × List Nat)))) :=
  r.map fun e => e.map fun r =>
    match r.history with
    | some (.iters l) => l.map fun cls => cls.map fun c => (c.obstacles, c.star.getD [])
    | some (.flat cls) => [cls.map fun c => (c.obstacles, c.star.getD [])]
    | none => []

set_option synthInstance.maxSize 512 in
set_option maxRecDepth 4000 in
example : isOk ([([0, 1], [0, 1]), ([3], [3])], 2,
      [[([0], [0]), ([1], [1]), ([3], [3])], [([0, 1], [0, 1]), ([3], [3])]])
    (seenBy (clusterAndStarifyObj objGeo ⟨none, false, true⟩ none 4 [0, 1, 3])) = true := by decide +kernel

set_option synthInstance.maxSize 512 in
/-- With `make_convex` all entries of the history show the convex cluster obstacle of obstacle 3, also the entry of the first iteration;
it was recorded with the cluster obstacle of that iteration. -/
theorem C119_convex_false :
    isOk ([([0, 1], [0, 1, 100]), ([3], [3, 100])], 2,
        [[([0], [0]), ([1], [1]), ([3], [3, 100])], [([0, 1], [0, 1, 100]), ([3], [3, 100])]])
      (seenBy (clusterAndStarifyObj objGeo ⟨none, true, true⟩ none 4 [0, 1, 3])) = true ∧
    isOk [[([0], [0]), ([1], [1]), ([3], [3])], [([0, 1], [0, 1]), ([3], [3])]]
      (recorded (clusterAndStarify objGeo ⟨none, true, true⟩ none 4 [0, 1, 3])) = true := by decide +kernel

/-- The obstacles 0 and 1 become one cluster; the objects of the first iteration that are not returned are unchanged. -/
example : SameCall objGeo (fun ro => ro.clusters) (clusterAndStarifyObj objGeo ⟨none, true, true⟩ none 4 [0, 1, 3])
    (clusterAndStarify objGeo ⟨none, true, true⟩ none 4 [0, 1, 3]) :=
  C119_convex_partial objGeo isSetList_dedup _ rfl none 4 [0, 1, 3] (by decide)

end Starworlds
