import Verif.Model.Cluster

/-! # Two calls of `cluster_and_starify` whose inputs and geometry routines correspond -/

namespace Starworlds

variable {Ob Star KP P Ob' Star' KP' P' : Type}

/-- How obstacles, cluster obstacles, kernel points and polygons correspond. -/
structure Maps (Ob Star KP P Ob' Star' KP' P' : Type) where
  ob : Ob → Ob'
  st : Star → Star'
  kp : KP → KP'
  pl : P → P'

def Maps.cl (m : Maps Ob Star KP P Ob' Star' KP' P') (c : Cl Ob Star KP P) : Cl Ob' Star' KP' P' :=
  ⟨c.name, c.obstacles.map m.ob, c.star.map m.st, c.kernelPoints.map m.kp, c.polygon.map m.pl⟩

def Maps.hist (m : Maps Ob Star KP P Ob' Star' KP' P') : HistVal Ob Star KP P → HistVal Ob' Star' KP' P'
  | .flat l => .flat (l.map m.cl)
  | .iters l => .iters (l.map (List.map m.cl))

def Maps.res (m : Maps Ob Star KP P Ob' Star' KP' P') (r : Res Ob Star KP P) : Res Ob' Star' KP' P' :=
  ⟨r.clusters.map m.cl, r.flag, r.nIter, r.history.map m.hist⟩

def Maps.dict (m : Maps Ob Star KP P Ob' Star' KP' P') (h : History Ob Star KP P) : History Ob' Star' KP' P' :=
  fun nm => (h nm).map m.cl

/-- The routines of both calls correspond. -/
structure Commutes (m : Maps Ob Star KP P Ob' Star' KP' P') (g : Geo Ob Star KP P) (g' : Geo Ob' Star' KP' P') : Prop where
  id : ∀ o, g'.id (m.ob o) = g.id o
  prim : ∀ o, g'.prim (m.ob o) = m.st (g.prim o)
  starPoly : ∀ s, g'.starPoly (m.st s) = m.pl (g.starPoly s)
  inter : ∀ p q, g'.inter (m.pl p) (m.pl q) = g.inter p q
  setList : g'.setList = g.setList
  timeoutInit : g'.timeoutInit = g.timeoutInit
  timeoutIter : g'.timeoutIter = g.timeoutIter
  timeoutConvex : g'.timeoutConvex = g.timeoutConvex
  robotFree : ∀ o, g'.robotFree (m.ob o) = g.robotFree o
  goalFree : ∀ o, g'.goalFree (m.ob o) = g.goalFree o
  exclude : ∀ o, g'.exclude (m.ob o) = g.exclude o
  admEmpty : ∀ n l, g'.admEmpty n (l.map m.ob) = g.admEmpty n l
  kernelSel : ∀ n l k, g'.kernelSel n (l.map m.ob) (k.map m.kp) = (g.kernelSel n l k).map m.kp
  firstStar : ∀ o k, g'.firstStar (m.ob o) (m.kp k) = (g.firstStar o k).map m.st
  loopStar : ∀ n l k, g'.loopStar n (l.map m.ob) (m.kp k) = (g.loopStar n l k).map m.st
  isConvex : ∀ s, g'.isConvex (m.st s) = g.isConvex s
  hullOf : ∀ p, g'.hullOf (m.pl p) = (g.hullOf p).map m.pl
  blocked : ∀ p, g'.blocked (m.pl p) = g.blocked p
  hullStar : ∀ p s, g'.hullStar (m.pl p) (m.st s) = m.st (g.hullStar p s)

variable {m : Maps Ob Star KP P Ob' Star' KP' P'} {g : Geo Ob Star KP P} {g' : Geo Ob' Star' KP' P'} (hm : Commutes m g g')

include hm

theorem Commutes.new (l : List Ob) : newCluster g' (l.map m.ob) = m.cl (newCluster g l) := by
  have e : (g'.id ∘ m.ob) = g.id := funext hm.id
  have e2 : (g'.prim ∘ m.ob) = (m.st ∘ g.prim) := funext hm.prim
  simp only [newCluster, Maps.cl, List.map_map, e, List.length_map, List.head?_map, Option.map_map, e2, Option.map_none]
  split <;> simp

theorem Commutes.cache (c : Cl Ob Star KP P) : cachePolygon g' (m.cl c) = m.cl (cachePolygon g c) := by
  obtain ⟨nm, l, s, k, p⟩ := c
  cases p with
  | some p => rfl
  | none => cases s <;> simp [cachePolygon, Maps.cl, hm.starPoly]

theorem Commutes.caches (l : List (Cl Ob Star KP P)) :
    (l.map m.cl).map (cachePolygon g') = (l.map (cachePolygon g)).map m.cl := by
  simp only [List.map_map]
  exact List.map_congr_left fun c _ => hm.cache c

theorem Commutes.interIdx (l : List (Cl Ob Star KP P)) : Starworlds.interIdx g' (l.map m.cl) = Starworlds.interIdx g l := by
  funext i j
  simp only [Starworlds.interIdx, List.getElem?_map]
  cases l[i]? with
  | none => simp
  | some a =>
    cases l[j]? with
    | none => simp
    | some b =>
      cases ha : a.polygon <;> cases hb : b.polygon <;> simp [Maps.cl, ha, hb, hm.inter]

omit hm in
theorem Maps.obstaclesAt (m : Maps Ob Star KP P Ob' Star' KP' P') (l : List (Cl Ob Star KP P)) (j : Nat) :
    Starworlds.obstaclesAt (l.map m.cl) j = (Starworlds.obstaclesAt l j).map m.ob := by
  simp only [Starworlds.obstaclesAt, List.getElem?_map]
  cases l[j]? <;> simp [Maps.cl]

omit hm in
theorem Maps.missing (m : Maps Ob Star KP P Ob' Star' KP' P') (l : List (Cl Ob Star KP P)) :
    ((l.map m.cl).dropLast.any fun c => c.polygon.isNone) = l.dropLast.any fun c => c.polygon.isNone := by
  rw [← List.map_dropLast, List.any_map]
  congr 1
  funext c
  simp [Maps.cl]

theorem Commutes.gic (l : List (Cl Ob Star KP P)) : getIntersectionClusters g' (l.map m.cl) =
    (getIntersectionClusters g l).map fun r => (r.1.map m.cl, r.2) := by
  simp only [getIntersectionClusters, hm.caches, Maps.missing, hm.interIdx, List.length_map, hm.setList]
  split
  · rfl
  · split
    · generalize l.map (cachePolygon g) = l'
      simp only [Except.map, Except.ok.injEq, Prod.mk.injEq, and_true]
      rw [List.map_map]
      refine List.map_congr_left fun grp _ => ?_
      simp only [Function.comp, ← hm.new, List.map_flatMap]
      rw [show Starworlds.obstaclesAt (l'.map m.cl) = fun a => (Starworlds.obstaclesAt l' a).map m.ob from funext fun a => m.obstaclesAt l' a]
    · rfl

theorem Commutes.kernelPoints (n : Nat) (l : List Ob) (c : Option (Cl Ob Star KP P)) :
    computeKernelPoints g' n (l.map m.ob) (c.map m.cl) = (computeKernelPoints g n l c).map m.kp := by
  cases c with
  | none => exact hm.kernelSel n l none
  | some c =>
    simp only [computeKernelPoints, Option.map_some, Maps.cl]
    cases hk : c.kernelPoints with
    | none => rfl
    | some k => exact hm.kernelSel n l (some k)

omit hm in
theorem Maps.prevId (m : Maps Ob Star KP P Ob' Star' KP' P') (c : Option (Cl Ob Star KP P)) :
    Starworlds.prevId (c.map m.cl) = Starworlds.prevId c := by
  cases c with
  | none => rfl
  | some c => cases h : c.star <;> simp [Starworlds.prevId, Maps.cl, h]

omit hm in
theorem Maps.find (m : Maps Ob Star KP P Ob' Star' KP' P') (nm : String) (l : List (Cl Ob Star KP P)) :
    ((l.map m.cl).find? fun c => c.name == nm) = (l.find? fun c => c.name == nm).map m.cl := by
  rw [List.find?_map]
  rfl

omit hm in
theorem Maps.extract (m : Maps Ob Star KP P Ob' Star' KP' P') (nm : String) (prev : Option (List (Cl Ob Star KP P))) :
    extractCluster nm (prev.map (List.map m.cl)) = (extractCluster nm prev).map m.cl := by
  cases prev with
  | none => rfl
  | some l => exact m.find nm l

omit hm in
theorem Maps.last (m : Maps Ob Star KP P Ob' Star' KP' P') (nm : String) (prev : Option (List (Cl Ob Star KP P))) :
    lastCluster nm (prev.map (List.map m.cl)) = (lastCluster nm prev).map m.cl := by
  cases prev with
  | none => rfl
  | some l =>
    simp only [lastCluster, Option.map_some, ← List.map_reverse]
    exact m.find nm _

theorem Commutes.first (prev : Option (List (Cl Ob Star KP P))) (o : Ob) :
    firstCluster g' (prev.map (List.map m.cl)) (m.ob o) = (firstCluster g prev o).map m.cl := by
  have hn : newCluster g' [m.ob o] = m.cl (newCluster g [o]) := hm.new [o]
  have hk := hm.kernelPoints 0 [o] (extractCluster (newCluster g [o]).name prev)
  rw [List.map_singleton] at hk
  have hnm : (m.cl (newCluster g [o])).name = (newCluster g [o]).name := rfl
  simp only [firstCluster, hn, hnm, m.extract, hk, m.prevId, bind, Except.bind]
  cases computeKernelPoints g 0 [o] (extractCluster (newCluster g [o]).name prev) with
  | error e => rfl
  | ok k =>
    simp only [Except.map]
    cases prevId (extractCluster (newCluster g [o]).name prev) with
    | error e => rfl
    | ok u =>
      simp only [hm.firstStar]
      cases g.firstStar o k with
      | error e => rfl
      | ok s => simp [Except.map, Maps.cl]

theorem Commutes.starify (prev : Option (List (Cl Ob Star KP P))) (n : Nat) (c : Cl Ob Star KP P) :
    starifyCluster g' (prev.map (List.map m.cl)) n (m.cl c) = (starifyCluster g prev n c).map (Option.map m.cl) := by
  have ho : (m.cl c).obstacles = c.obstacles.map m.ob := rfl
  have hnm : (m.cl c).name = c.name := rfl
  simp only [starifyCluster, ho, hnm, hm.admEmpty, m.last, hm.kernelPoints, m.prevId, bind, Except.bind]
  cases g.admEmpty n c.obstacles with
  | error e => rfl
  | ok b =>
    cases b with
    | true => rfl
    | false =>
      simp only
      cases computeKernelPoints g n c.obstacles (lastCluster c.name prev) with
      | error e => rfl
      | ok k =>
        simp only [Except.map]
        cases prevId (lastCluster c.name prev) with
        | error e => rfl
        | ok u =>
          simp only [hm.loopStar]
          cases g.loopStar n c.obstacles k with
          | error e => rfl
          | ok s =>
            simp only [Except.map, Option.map_some, ← hm.cache]
            rfl

omit hm in
theorem Maps.insert (m : Maps Ob Star KP P Ob' Star' KP' P') (h : History Ob Star KP P) (c : Cl Ob Star KP P) :
    (m.dict h).insert (m.cl c) = m.dict (h.insert c) := by
  funext nm
  have hnm : (m.cl c).name = c.name := rfl
  simp only [History.insert, Maps.dict, hnm]
  split <;> rfl

/-- The result of the loop over the clusters. -/
def Maps.all (m : Maps Ob Star KP P Ob' Star' KP' P') :
    List (Cl Ob Star KP P) ⊕ (List (Cl Ob Star KP P) × History Ob Star KP P) →
    List (Cl Ob' Star' KP' P') ⊕ (List (Cl Ob' Star' KP' P') × History Ob' Star' KP' P')
  | .inl l => .inl (l.map m.cl)
  | .inr (l, h) => .inr (l.map m.cl, m.dict h)

omit hm in
theorem Maps.cons (m : Maps Ob Star KP P Ob' Star' KP' P') (c : Cl Ob Star KP P)
    (r : Except PyErr (List (Cl Ob Star KP P) ⊕ (List (Cl Ob Star KP P) × History Ob Star KP P))) :
    consStarified (m.cl c) (r.map m.all) = (consStarified c r).map m.all := by
  rcases r with e | l | ⟨l, h⟩ <;> rfl

theorem Commutes.all (prev : Option (List (Cl Ob Star KP P))) (n : Nat) (l : List (Cl Ob Star KP P)) (h : History Ob Star KP P) :
    starifyAll g' (prev.map (List.map m.cl)) n (l.map m.cl) (m.dict h) = (starifyAll g prev n l h).map m.all := by
  induction l generalizing h with
  | nil => rfl
  | cons c l ih =>
    have hd : m.dict h (m.cl c).name = (h c.name).map m.cl := rfl
    simp only [List.map_cons, starifyAll, hd]
    cases h c.name with
    | some d => simp only [Option.map_some, ih, m.cons]
    | none =>
      simp only [Option.map_none, hm.starify]
      cases starifyCluster g prev n c with
      | error e => rfl
      | ok r =>
        cases r with
        | none => rfl
        | some d =>
          have := m.cons d (starifyAll g prev n l (h.insert d))
          simp only [Option.map_some, m.insert, ih, Except.map] at this ⊢
          exact this

/-- The end of the loop. -/
def Maps.ending (m : Maps Ob Star KP P Ob' Star' KP' P') : LoopEnd Ob Star KP P → LoopEnd Ob' Star' KP' P'
  | .incomplete n l => .incomplete n (l.map (List.map m.cl))
  | .done c n l => .done (c.map m.cl) n (l.map (List.map m.cl))

theorem Commutes.loop (par : Params) (prev : Option (List (Cl Ob Star KP P))) (fuel : Nat) (l : List (Cl Ob Star KP P)) (ex : Bool)
    (h : History Ob Star KP P) (n : Nat) (iters : List (List (Cl Ob Star KP P))) :
    clusterLoop g' par (prev.map (List.map m.cl)) fuel (l.map m.cl) ex (m.dict h) n (iters.map (List.map m.cl)) =
      (clusterLoop g par prev fuel l ex h n iters).map (Except.map m.ending) := by
  induction fuel generalizing l ex h n iters with
  | zero => cases ex <;> simp [clusterLoop, Except.map, Maps.ending]
  | succ fuel ih =>
    cases ex with
    | false => simp [clusterLoop, Except.map, Maps.ending]
    | true =>
      simp only [clusterLoop, hm.timeoutIter, hm.all]
      split
      · simp [Except.map, Maps.ending]
      · cases starifyAll g prev n l h with
        | error e => rfl
        | ok r =>
          rcases r with part | ⟨l', h'⟩
          · simp [Except.map, Maps.ending, Maps.all]
          · simp only [Except.map, Maps.all, hm.gic]
            cases getIntersectionClusters g l' with
            | error e => rfl
            | ok r =>
              obtain ⟨l'', ex'⟩ := r
              have e : (if par.returnHistory = true then iters.map (List.map m.cl) ++ [l'.map m.cl] else iters.map (List.map m.cl)) =
                  (if par.returnHistory = true then iters ++ [l'] else iters).map (List.map m.cl) := by split <;> simp
              simp only [e]
              split
              · rfl
              · exact ih _ _ _ _ _

theorem Commutes.meets (l : List (Cl Ob Star KP P)) (j : Nat) (p : P) :
    meetsOther g' (l.map m.cl) j (m.pl p) = meetsOther g l j p := by
  simp only [meetsOther, List.length_map, List.getElem?_map]
  congr 1
  funext i
  cases l[i]? with
  | none => rfl
  | some c => cases hc : c.polygon <;> simp [Maps.cl, hc, hm.inter]

theorem Commutes.convex (k j : Nat) (l : List (Cl Ob Star KP P)) :
    makeConvexLoop g' k j (l.map m.cl) = (makeConvexLoop g k j l).map (Sum.map (List.map m.cl) (List.map m.cl)) := by
  induction k generalizing j l with
  | zero => rfl
  | succ k ih =>
    simp only [makeConvexLoop, List.getElem?_map]
    cases hj : l[j]? with
    | none => rfl
    | some c =>
      have hs : (m.cl c).star = c.star.map m.st := rfl
      simp only [Option.map_some, hs]
      cases c.star with
      | none => rfl
      | some s =>
        simp only [Option.map_some, hm.isConvex, hm.timeoutConvex, ih]
        split
        · rfl
        · split
          · rfl
          · rw [hm.cache]
            have hp : (m.cl (cachePolygon g c)).polygon = (cachePolygon g c).polygon.map m.pl := rfl
            rw [hp]
            cases (cachePolygon g c).polygon with
            | none => rfl
            | some p =>
              simp only [Option.map_some, hm.hullOf]
              cases g.hullOf p with
              | error e => rfl
              | ok q =>
                simp only [Except.map, hm.blocked, hm.caches, hm.meets, ih]
                split
                · rfl
                · have e : ((l.map (cachePolygon g)).map m.cl).modify j (fun c => { c with star := some (g'.hullStar (m.pl q) (m.st s)) }) =
                      ((l.map (cachePolygon g)).modify j fun c => { c with star := some (g.hullStar q s) }).map m.cl := by
                    refine List.ext_getElem? fun i => ?_
                    simp only [List.getElem?_modify, List.getElem?_map]
                    cases (l[i]?) with
                    | none => simp
                    | some d => by_cases hij : j = i <;> simp [hij, Maps.cl, hm.hullStar]
                  rw [e, ih]
                  rfl

theorem Commutes.default (par : Params) (obstacles : List Ob) (n : Nat) (iters : List (List (Cl Ob Star KP P))) :
    defaultResult g' par (obstacles.map m.ob) n (iters.map (List.map m.cl)) = m.res (defaultResult g par obstacles n iters) := by
  have e : (obstacles.map m.ob).map (fun o => newCluster g' [o]) = (obstacles.map fun o => newCluster g [o]).map m.cl := by
    simp only [List.map_map]
    exact List.map_congr_left fun o _ => hm.new [o]
  simp only [defaultResult, Maps.res, e, Res.mk.injEq, true_and]
  split
  · split <;> rfl
  · rfl

theorem Commutes.init (i : Nat) (obstacles : List Ob) : initLoop g' i (obstacles.map m.ob) = initLoop g i obstacles := by
  induction obstacles generalizing i with
  | nil => rfl
  | cons o l ih => simp only [List.map_cons, initLoop, hm.timeoutInit, hm.robotFree, hm.goalFree, hm.exclude, ih]

theorem Commutes.mapM (prev : Option (List (Cl Ob Star KP P))) (l : List Ob) :
    (l.map m.ob).mapM (firstCluster g' (prev.map (List.map m.cl))) = (l.mapM (firstCluster g prev)).map (List.map m.cl) := by
  induction l with
  | nil => rfl
  | cons o l ih =>
    simp only [List.map_cons, List.mapM_cons, hm.first, ih, bind, Except.bind, pure, Except.pure]
    cases firstCluster g prev o with
    | error e => rfl
    | ok c => cases l.mapM (firstCluster g prev) <;> rfl

omit hm in
theorem Maps.firstHistory (m : Maps Ob Star KP P Ob' Star' KP' P') (l : List (Cl Ob Star KP P)) :
    Starworlds.firstHistory (l.map m.cl) = m.dict (Starworlds.firstHistory l) := by
  have key : ∀ (l : List (Cl Ob Star KP P)) (h : History Ob Star KP P),
      (l.map m.cl).foldl History.insert (m.dict h) = m.dict (l.foldl History.insert h) := by
    intro l
    induction l with
    | nil => intro h; rfl
    | cons c l ih => intro h; rw [List.map_cons, List.foldl_cons, m.insert, ih, List.foldl_cons]
  exact key l fun _ => none

/-- The result of one call corresponds to the result of the other. -/
theorem Commutes.result (par : Params) (prev : Option (List (Cl Ob Star KP P))) (fuel : Nat) (obstacles : List Ob) :
    clusterAndStarify g' par (prev.map (List.map m.cl)) fuel (obstacles.map m.ob) =
      (clusterAndStarify g par prev fuel obstacles).map (Except.map m.res) := by
  simp only [clusterAndStarify, hm.init, hm.mapM]
  cases initLoop g 0 obstacles with
  | error e => rfl
  | ok b =>
    cases b with
    | false =>
      have := hm.default par obstacles 0 []
      simp only [List.map_nil] at this
      simp only [this]
      rfl
    | true =>
      simp only
      cases obstacles.mapM (firstCluster g prev) with
      | error e => rfl
      | ok cls0 =>
        simp only [Except.map, hm.gic]
        cases getIntersectionClusters g cls0 with
        | error e => rfl
        | ok r =>
          obtain ⟨cls1, ex⟩ := r
          have e : (if par.returnHistory = true then [cls0.map m.cl] else []) =
              (if par.returnHistory = true then [cls0] else []).map (List.map m.cl) := by split <;> simp
          simp only [e, m.firstHistory, hm.loop]
          cases clusterLoop g par prev fuel cls1 ex (firstHistory cls0) 1 (if par.returnHistory = true then [cls0] else []) with
          | none => rfl
          | some r =>
            rcases r with er | ⟨n, iters⟩ | ⟨cls, n, iters⟩
            · rfl
            · simp only [Option.map_some, Except.map, Maps.ending, hm.default]
            · simp only [Option.map_some, Except.map, Maps.ending, List.length_map, hm.convex]
              split
              · cases makeConvexLoop g cls.length 0 cls with
                | error e => rfl
                | ok r =>
                  rcases r with l | l
                  · rfl
                  · simp only [Except.map, Sum.map_inr, Option.map_some, Maps.res]
                    split <;> rfl
              · split <;> rfl

end Starworlds
