import Verif.Model.StarifyIds
import Verif.Proofs.ClusterMade
import Mathlib.Tactic.Set

/-! # Helper lemmas for the ids of cluster obstacles -/

namespace Starworlds

open Spec

variable {Ob Star KP P : Type} {g : Geo Ob Star KP P} {own : Star → Bool} {par : Params}

/-! ## Without the ids it is the run of `Model/Cluster.lean` -/

/-- The cluster without the id of its cluster obstacle. -/
def eraseCl (c : IdCl Ob Star KP P) : Cl Ob Star KP P :=
  ⟨c.name, c.obstacles, c.star.map Prod.fst, c.kernelPoints, c.polygon⟩

/-- The previous clusters without the ids. -/
def erasePrev (prev : Option (List (IdCl Ob Star KP P))) : Option (List (Cl Ob Star KP P)) := prev.map (List.map eraseCl)

def eraseHist (h : History Ob (Star × Option Nat) KP P) : History Ob Star KP P := fun nm => (h nm).map eraseCl

theorem eraseCl_name (c : IdCl Ob Star KP P) : (eraseCl c).name = c.name := rfl

theorem eraseCl_obstacles (c : IdCl Ob Star KP P) : (eraseCl c).obstacles = c.obstacles := rfl

theorem newCluster_erase (obs : List Ob) : eraseCl (newCluster (idGeo g) obs) = newCluster g obs := by
  simp only [eraseCl, newCluster]
  split
  · rfl
  · cases obs <;> rfl

theorem cachePolygon_erase (c : IdCl Ob Star KP P) : eraseCl (cachePolygon (idGeo g) c) = cachePolygon g (eraseCl c) := by
  obtain ⟨nm, obs, st, kp, p⟩ := c
  cases p with
  | some p => rfl
  | none => cases st <;> rfl

theorem map_cachePolygon_erase (cls : List (IdCl Ob Star KP P)) :
    (cls.map (cachePolygon (idGeo g))).map eraseCl = (cls.map eraseCl).map (cachePolygon g) := by
  simp [cachePolygon_erase]

theorem interIdx_erase (cls : List (IdCl Ob Star KP P)) (i j : Nat) :
    interIdx g (cls.map eraseCl) i j = interIdx (idGeo g) cls i j := by
  simp only [interIdx, List.getElem?_map]
  cases cls[i]? <;> cases cls[j]? <;> rfl

theorem obstaclesAt_erase (cls : List (IdCl Ob Star KP P)) (j : Nat) :
    obstaclesAt (cls.map eraseCl) j = obstaclesAt cls j := by
  simp only [obstaclesAt, List.getElem?_map]
  cases cls[j]? <;> rfl

theorem gic_erase (cls : List (IdCl Ob Star KP P)) :
    getIntersectionClusters g (cls.map eraseCl) =
      (getIntersectionClusters (idGeo g) cls).map fun r => (r.1.map eraseCl, r.2) := by
  have hany : ∀ l : List (IdCl Ob Star KP P), (l.map eraseCl).any (fun c => c.polygon.isNone) = l.any fun c => c.polygon.isNone := by
    intro l
    rw [List.any_map]
    rfl
  simp only [getIntersectionClusters, ← map_cachePolygon_erase, ← List.map_dropLast, hany]
  have hi : interIdx g ((cls.map (cachePolygon (idGeo g))).map eraseCl) = interIdx (idGeo g) (cls.map (cachePolygon (idGeo g))) := by
    funext i j; exact interIdx_erase _ i j
  have ho : obstaclesAt ((cls.map (cachePolygon (idGeo g))).map eraseCl) = obstaclesAt (cls.map (cachePolygon (idGeo g))) := by
    funext j; exact obstaclesAt_erase _ j
  rw [hi, ho]
  split
  · rfl
  · simp only [List.length_map]
    split
    · simp only [Except.map, List.map_map]
      congr 3
      funext grp
      exact (newCluster_erase _).symm
    · rfl

theorem find_erase (l : List (IdCl Ob Star KP P)) (nm : String) :
    (l.map eraseCl).find? (fun c => c.name == nm) = (l.find? fun c => c.name == nm).map eraseCl := by
  rw [List.find?_map]
  rfl

theorem extractCluster_erase (prev : Option (List (IdCl Ob Star KP P))) (nm : String) :
    extractCluster nm (erasePrev prev) = (extractCluster nm prev).map eraseCl := by
  cases prev with
  | none => rfl
  | some l => exact find_erase l nm

theorem lastCluster_erase (prev : Option (List (IdCl Ob Star KP P))) (nm : String) :
    lastCluster nm (erasePrev prev) = (lastCluster nm prev).map eraseCl := by
  cases prev with
  | none => rfl
  | some l =>
    simp only [lastCluster, erasePrev, Option.map_some, ← List.map_reverse]
    exact find_erase _ nm

theorem computeKernelPoints_erase (n : Nat) (obs : List Ob) (prev : Option (IdCl Ob Star KP P)) :
    computeKernelPoints g n obs (prev.map eraseCl) = computeKernelPoints (idGeo g) n obs prev := by
  cases prev with
  | none => rfl
  | some c => obtain ⟨nm, obs', st, kp, p⟩ := c; cases kp <;> rfl

theorem idRequest_erase (prev : Option (IdCl Ob Star KP P)) :
    prevId (prev.map eraseCl) = (idRequest prev).map fun _ => () := by
  cases prev with
  | none => rfl
  | some c =>
    obtain ⟨nm, obs', st, kp, p⟩ := c
    rcases st with _ | ⟨s, _ | k⟩ <;> rfl

theorem firstCluster_erase (prev : Option (List (IdCl Ob Star KP P))) (o : Ob) (counter : Nat) :
    firstCluster g (erasePrev prev) o = (firstClusterId g own prev o counter).map fun r => eraseCl r.1 := by
  have hn : (newCluster g [o]).name = (newCluster (idGeo g) [o]).name := rfl
  simp only [firstCluster, firstClusterId, hn, extractCluster_erase, computeKernelPoints_erase, idRequest_erase]
  cases computeKernelPoints (idGeo g) 0 [o] (extractCluster (newCluster (idGeo g) [o]).name prev) with
  | error e => rfl
  | ok kp =>
    cases idRequest (extractCluster (newCluster (idGeo g) [o]).name prev) with
    | error e => rfl
    | ok req =>
      cases hst : g.firstStar o kp with
      | error e => simp [bind, Except.bind, Except.map, hst]
      | ok st =>
        simp only [bind, Except.bind, Except.map, hst]
        cases own st <;> rfl

theorem firstLoop_erase (prev : Option (List (IdCl Ob Star KP P))) (l : List Ob) (counter : Nat) :
    l.mapM (firstCluster g (erasePrev prev)) = (firstLoopId g own prev l counter).map fun r => r.1.map eraseCl := by
  induction l generalizing counter with
  | nil => rfl
  | cons o l ih =>
    rw [List.mapM_cons, firstLoopId, firstCluster_erase (own := own) prev o counter]
    cases firstClusterId g own prev o counter with
    | error e => rfl
    | ok r =>
      obtain ⟨c, counter'⟩ := r
      simp only [Except.map, bind, Except.bind, ih counter']
      cases firstLoopId g own prev l counter' with
      | error e => rfl
      | ok r => rfl

theorem insert_erase (h : History Ob (Star × Option Nat) KP P) (c : IdCl Ob Star KP P) :
    eraseHist (h.insert c) = (eraseHist h).insert (eraseCl c) := by
  funext nm
  simp only [eraseHist, History.insert, eraseCl_name]
  by_cases e : nm = c.name <;> simp [e]

theorem firstHistory_erase (cls : List (IdCl Ob Star KP P)) : eraseHist (firstHistory cls) = firstHistory (cls.map eraseCl) := by
  have key : ∀ (l : List (IdCl Ob Star KP P)) (h : History Ob (Star × Option Nat) KP P),
      eraseHist (l.foldl History.insert h) = (l.map eraseCl).foldl History.insert (eraseHist h) := by
    intro l
    induction l with
    | nil => intro h; rfl
    | cons c l ih => intro h; simp only [List.foldl_cons, List.map_cons, ih, insert_erase]
  exact key cls _

theorem starifyCluster_erase (prev : Option (List (IdCl Ob Star KP P))) (n : Nat) (cl : IdCl Ob Star KP P) (counter : Nat) :
    starifyCluster g (erasePrev prev) n (eraseCl cl) = (starifyClusterId g prev n cl counter).map fun r => r.map fun r => eraseCl r.1 := by
  simp only [starifyCluster, starifyClusterId, eraseCl_obstacles]
  rcases g.admEmpty n cl.obstacles with e | _ | _
  · rfl
  · simp only [eraseCl_name, lastCluster_erase, computeKernelPoints_erase, idRequest_erase]
    cases computeKernelPoints (idGeo g) n cl.obstacles (lastCluster cl.name prev) with
    | error e => rfl
    | ok kp =>
      cases idRequest (lastCluster cl.name prev) with
      | error e => rfl
      | ok req =>
        cases hst : g.loopStar n cl.obstacles kp with
        | error e => simp [bind, Except.bind, Except.map, hst]
        | ok st =>
          simp only [bind, Except.bind, Except.map, hst, Option.map_some, cachePolygon_erase]
          rfl
  · rfl

def eraseSum (s : List (IdCl Ob Star KP P) ⊕ (List (IdCl Ob Star KP P) × History Ob (Star × Option Nat) KP P)) :
    List (Cl Ob Star KP P) ⊕ (List (Cl Ob Star KP P) × History Ob Star KP P) :=
  match s with
  | .inl part => .inl (part.map eraseCl)
  | .inr (rest, h) => .inr (rest.map eraseCl, eraseHist h)

theorem starifyAll_erase (prev : Option (List (IdCl Ob Star KP P))) (n : Nat) (cls : List (IdCl Ob Star KP P))
    (h : History Ob (Star × Option Nat) KP P) (counter : Nat) :
    starifyAll g (erasePrev prev) n (cls.map eraseCl) (eraseHist h) = (starifyAllId g prev n cls h counter).map fun r => eraseSum r.1 := by
  induction cls generalizing h counter with
  | nil => rfl
  | cons cl cls ih =>
    have hcons : ∀ (c : IdCl Ob Star KP P) h counter, consStarified (eraseCl c) (starifyAll g (erasePrev prev) n (cls.map eraseCl) (eraseHist h)) =
        Except.map (fun r => eraseSum r.1) (match starifyAllId g prev n cls h counter with
          | .error e => .error e
          | .ok (.inl part, counter) => .ok (.inl (c :: part), counter)
          | .ok (.inr (rest, h), counter) => .ok (.inr (c :: rest, h), counter)) := by
      intro c h counter
      rw [ih h counter]
      rcases starifyAllId g prev n cls h counter with e | ⟨part | ⟨rest, h⟩, counter⟩ <;> rfl
    simp only [List.map_cons, starifyAll, starifyAllId, eraseCl_name]
    cases hn : h cl.name with
    | some c =>
      have : eraseHist h cl.name = some (eraseCl c) := by simp [eraseHist, hn]
      rw [this]
      exact hcons c h counter
    | none =>
      have : eraseHist h cl.name = none := by simp [eraseHist, hn]
      rw [this]
      simp only [starifyCluster_erase prev n cl counter]
      rcases starifyClusterId g prev n cl counter with e | _ | ⟨c, counter'⟩
      · rfl
      · rfl
      · simp only [Except.map, Option.map_some, ← insert_erase]
        exact hcons c (h.insert c) counter'

def eraseEnd : LoopEnd Ob (Star × Option Nat) KP P → LoopEnd Ob Star KP P
  | .incomplete n iters => .incomplete n (iters.map (List.map eraseCl))
  | .done cls n iters => .done (cls.map eraseCl) n (iters.map (List.map eraseCl))

theorem clusterLoop_erase (prev : Option (List (IdCl Ob Star KP P))) (fuel : Nat) (cls : List (IdCl Ob Star KP P)) (ex : Bool)
    (h : History Ob (Star × Option Nat) KP P) (n : Nat) (iters : List (List (IdCl Ob Star KP P))) (counter : Nat) :
    clusterLoop g par (erasePrev prev) fuel (cls.map eraseCl) ex (eraseHist h) n (iters.map (List.map eraseCl)) =
      (clusterLoopId g par prev fuel cls ex h n iters counter).map fun r => r.map fun r => eraseEnd r.1 := by
  induction fuel generalizing cls ex h n iters counter with
  | zero => cases ex <;> simp [clusterLoop, clusterLoopId, Except.map, eraseEnd]
  | succ fuel ih =>
    cases ex with
    | false => simp [clusterLoop, clusterLoopId, Except.map, eraseEnd]
    | true =>
      simp only [clusterLoop, clusterLoopId]
      split
      · simp [Except.map, eraseEnd]
      · rw [starifyAll_erase prev n cls h counter]
        rcases starifyAllId g prev n cls h counter with e | ⟨part | ⟨cls', h'⟩, counter'⟩
        · rfl
        · simp [Except.map, eraseEnd, eraseSum]
        · simp only [Except.map, eraseSum, gic_erase]
          rcases getIntersectionClusters (idGeo g) cls' with e | ⟨cls'', ex⟩
          · rfl
          · simp only
            have hit : (if par.returnHistory = true then iters.map (List.map eraseCl) ++ [cls'.map eraseCl] else iters.map (List.map eraseCl)) =
                (if par.returnHistory = true then iters ++ [cls'] else iters).map (List.map eraseCl) := by
              split <;> simp
            rw [hit]
            split
            · rfl
            · exact ih _ _ _ _ _ _

theorem meetsOther_erase (cls : List (IdCl Ob Star KP P)) (j : Nat) (h : P) :
    meetsOther g (cls.map eraseCl) j h = meetsOther (idGeo g) cls j h := by
  simp only [meetsOther, List.length_map, List.getElem?_map]
  congr 1
  funext m
  cases cls[m]? <;> rfl

def eraseConvex : List (IdCl Ob Star KP P) ⊕ List (IdCl Ob Star KP P) → List (Cl Ob Star KP P) ⊕ List (Cl Ob Star KP P)
  | .inl l => .inl (l.map eraseCl)
  | .inr l => .inr (l.map eraseCl)

theorem modify_erase (cls : List (IdCl Ob Star KP P)) (j : Nat) (st : Star) (k : Option Nat) :
    (cls.modify j fun c => { c with star := some (st, k) }).map eraseCl = (cls.map eraseCl).modify j fun c => { c with star := some st } := by
  induction cls generalizing j with
  | nil => cases j <;> rfl
  | cons c cls ih =>
    cases j with
    | zero => rfl
    | succ j => simp only [List.modify_succ_cons, List.map_cons, ih]

theorem makeConvexLoop_erase (k j : Nat) (cls : List (IdCl Ob Star KP P)) (counter : Nat) :
    makeConvexLoop g k j (cls.map eraseCl) = (makeConvexLoopId g k j cls counter).map fun r => eraseConvex r.1 := by
  induction k generalizing j cls counter with
  | zero => rfl
  | succ k ih =>
    simp only [makeConvexLoop, makeConvexLoopId, List.getElem?_map]
    cases cls[j]? with
    | none => rfl
    | some cl =>
      have hst : (eraseCl cl).star = cl.star.map Prod.fst := rfl
      have hp : (cachePolygon g (eraseCl cl)).polygon = (cachePolygon (idGeo g) cl).polygon := by
        rw [← cachePolygon_erase]; rfl
      simp only [Option.map_some, hst, hp]
      cases cl.star with
      | none => rfl
      | some st =>
        simp only [Option.map_some]
        split
        · exact ih _ _ _
        · split
          · rfl
          · cases (cachePolygon (idGeo g) cl).polygon with
            | none => rfl
            | some p =>
              simp only
              cases g.hullOf p with
              | error e => rfl
              | ok h =>
                simp only [← map_cachePolygon_erase, meetsOther_erase]
                split
                · exact ih _ _ _
                · rw [← modify_erase _ _ _ (setId counter .new).2]
                  exact ih _ _ _

def eraseHistVal : HistVal Ob (Star × Option Nat) KP P → HistVal Ob Star KP P
  | .flat cls => .flat (cls.map eraseCl)
  | .iters l => .iters (l.map (List.map eraseCl))

def eraseRes (r : Res Ob (Star × Option Nat) KP P) : Res Ob Star KP P :=
  ⟨r.clusters.map eraseCl, r.flag, r.nIter, r.history.map eraseHistVal⟩

theorem defaultResult_erase (obstacles : List Ob) (n : Nat) (iters : List (List (IdCl Ob Star KP P))) :
    eraseRes (defaultResult (idGeo g) par obstacles n iters) = defaultResult g par obstacles n (iters.map (List.map eraseCl)) := by
  have he : (obstacles.map fun o => newCluster (idGeo g) [o]).map eraseCl = obstacles.map fun o => newCluster g [o] := by
    simp [newCluster_erase]
  simp only [eraseRes, defaultResult, he]
  congr 1
  split
  · split
    · rfl
    · simp only [Option.map_some, eraseHistVal, he]
  · rfl

theorem initLoop_erase (i : Nat) (l : List Ob) : initLoop (idGeo g) i l = initLoop g i l := by
  induction l generalizing i with
  | nil => rfl
  | cons o l ih =>
    simp only [initLoop, ih]
    rfl

/-- Without the ids, the run with ids is the run of `Model/Cluster.lean`. -/
theorem clusterAndStarify_erase (workspace : Bool) (prev : Option (List (IdCl Ob Star KP P))) (fuel : Nat) (obstacles : List Ob)
    (counter : Nat) : clusterAndStarify g par (erasePrev prev) fuel obstacles =
      (clusterAndStarifyId g own par workspace prev fuel obstacles counter).map fun r => r.map fun r => eraseRes r.1 := by
  simp only [clusterAndStarify, clusterAndStarifyId, initLoop_erase]
  rcases initLoop g 0 obstacles with e | _ | _
  · rfl
  · simp only [Option.map_some, Except.map, defaultResult_erase]
    rfl
  · simp only [firstLoop_erase (own := own) prev obstacles (workspaceCounter workspace counter)]
    rcases firstLoopId g own prev obstacles (workspaceCounter workspace counter) with e | ⟨cls0, counter0⟩
    · rfl
    · simp only [Except.map, gic_erase]
      rcases getIntersectionClusters (idGeo g) cls0 with e | ⟨cls1, ex⟩
      · rfl
      · have hit : (if par.returnHistory = true then [cls0.map eraseCl] else []) =
            (if par.returnHistory = true then [cls0] else []).map (List.map eraseCl) := by
          split <;> rfl
        simp only [Except.map, hit, ← firstHistory_erase,
          clusterLoop_erase prev fuel cls1 ex (firstHistory cls0) 1 _ counter0]
        rcases clusterLoopId g par prev fuel cls1 ex (firstHistory cls0) 1 _ counter0 with _ | e | ⟨⟨n, iters⟩ | ⟨cls, n, iters⟩, counter1⟩
        · rfl
        · rfl
        · simp only [Option.map_some, eraseEnd, defaultResult_erase]
        · simp only [Option.map_some, eraseEnd]
          have hh : (if par.returnHistory = true then some (HistVal.iters (iters.map (List.map eraseCl))) else none) =
              (if par.returnHistory = true then some (HistVal.iters iters) else none).map eraseHistVal := by
            split <;> rfl
          split
          · rw [List.length_map, makeConvexLoop_erase _ _ cls counter1]
            rcases makeConvexLoopId g cls.length 0 cls counter1 with e | ⟨l | l, counter2⟩
            · rfl
            · rfl
            · simp only [Except.map, eraseConvex, Option.map_some, eraseRes, hh]
          · simp only [Option.map_some, eraseRes, hh]

end Starworlds
