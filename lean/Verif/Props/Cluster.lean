import Verif.Proofs.Cluster
import Verif.Proofs.ConvexPair
import Mathlib.Data.List.Dedup
import Mathlib.Analysis.Convex.Topology

/-! # C50-C57, C61, C62: clustering and `cluster_and_starify` -/

namespace Starworlds

open Spec

variable {Ob Star KP P : Type}

/-! ## C50 -/

/-- The index groups are non-empty, use every index once, and two indices share a group exactly when a
chain of intersecting pairs joins them. -/
theorem C50_components (setList : List Nat → List Nat) (hs : IsSetList setList) (n : Nat)
    (inter : Nat → Nat → Bool) :
    (∀ grp ∈ mergedGroups setList n inter, grp ≠ []) ∧
    List.Perm (mergedGroups setList n inter).flatten (List.range n) ∧
    ∀ a b, a < n → b < n →
      ((∃ grp ∈ mergedGroups setList n inter, a ∈ grp ∧ b ∈ grp) ↔ Linked n inter a b) :=
  ⟨fun _ hg => (mem_mergedGroups.1 hg).2, mergedGroups_flatten hs n inter,
    fun a b ha _ => mergedGroups_same hs n inter a b ha⟩

/-- The clusters returned after a merge are the unions of the index groups. -/
theorem C50_clusters (g : Geo Ob Star KP P) (cls out : List (Cl Ob Star KP P))
    (h : getIntersectionClusters g cls = .ok (out, true)) :
    out.map (·.obstacles) =
      (mergedGroups g.setList cls.length (interIdx g (cls.map (cachePolygon g)))).map
        fun grp => grp.flatMap fun j => ((cls[j]?).map (·.obstacles)).getD [] := by
  rw [(gic_true h).1, List.map_map]
  refine List.map_congr_left fun grp _ => ?_
  simp only [Function.comp, newCluster]
  congr 1
  funext j
  simp only [obstaclesAt, List.getElem?_map]
  cases cls[j]? with
  | none => rfl
  | some c => simp [cachePolygon_obstacles]

/-- Every obstacle of every input cluster is in exactly one output cluster. -/
theorem C50_partition (g : Geo Ob Star KP P) (hs : IsSetList g.setList) (cls out : List (Cl Ob Star KP P))
    (ex : Bool) (h : getIntersectionClusters g cls = .ok (out, ex)) :
    List.Perm (out.flatMap (·.obstacles)) (cls.flatMap (·.obstacles)) :=
  gic_perm hs h

theorem isSetList_dedup : IsSetList List.dedup :=
  fun l => ⟨List.nodup_dedup l, fun _ => List.mem_dedup⟩

/-- Six clusters in a chain `0 - 3 - 1` and a pair `2 - 5`; 4 is alone. -/
def demoInter (a b : Nat) : Bool := decide ((a, b) ∈ [(0, 3), (1, 3), (2, 5)])

example : (mergedGroups List.dedup 6 demoInter).map (fun grp => (List.range 6).filter (· ∈ grp)) =
    [[0, 1, 3], [2, 5], [4]] := by decide +kernel

/-! ## C51 -/

/-- The flag says whether some two polygons intersect; no merge leaves the clusters alone, a merge leaves
fewer clusters. -/
theorem C51_flag (g : Geo Ob Star KP P) (hs : IsSetList g.setList) (cls out : List (Cl Ob Star KP P)) (ex : Bool)
    (h : getIntersectionClusters g cls = .ok (out, ex)) :
    (ex = true ↔ ∃ (i j : Nat) (c d : Cl Ob Star KP P) (p q : P), i < j ∧ cls[i]? = some c ∧ cls[j]? = some d ∧
      (cachePolygon g c).polygon = some p ∧ (cachePolygon g d).polygon = some q ∧ g.inter p q = true) ∧
    (ex = false → out = cls.map (cachePolygon g)) ∧
    (ex = true → out.length < cls.length) := by
  have key : ∀ i j, interIdx g (cls.map (cachePolygon g)) i j = true ↔
      ∃ (c d : Cl Ob Star KP P) (p q : P), cls[i]? = some c ∧ cls[j]? = some d ∧
      (cachePolygon g c).polygon = some p ∧ (cachePolygon g d).polygon = some q ∧ g.inter p q = true := by
    intro i j
    simp only [interIdx, List.getElem?_map]
    cases hc : cls[i]? with
    | none => simp
    | some c =>
      cases hd : cls[j]? with
      | none => simp
      | some d =>
        simp only [Option.map_some]
        cases hp : (cachePolygon g c).polygon with
        | none =>
          simp only [Bool.false_eq_true, false_iff]
          rintro ⟨c', d', p, q, hc', hd', hp', hq', _⟩
          injection hc' with hc'; subst hc'
          rw [hp] at hp'; cases hp'
        | some p =>
          cases hq : (cachePolygon g d).polygon with
          | none =>
            simp only [Bool.false_eq_true, false_iff]
            rintro ⟨c', d', p, q, hc', hd', hp', hq', _⟩
            injection hd' with hd'; subst hd'
            rw [hq] at hq'; cases hq'
          | some q =>
            constructor
            · intro hi; exact ⟨c, d, p, q, rfl, rfl, hp, hq, hi⟩
            · rintro ⟨c', d', p', q', hc', hd', hp', hq', hi⟩
              injection hc' with hc'; subst hc'
              injection hd' with hd'; subst hd'
              rw [hp] at hp'; rw [hq] at hq'
              injection hp' with hp'; injection hq' with hq'
              subst hp' hq'
              exact hi
  refine ⟨?_, ?_, fun hex => ((gic_length hs h).1 hex).2⟩
  · constructor
    · rintro rfl
      obtain ⟨_, i, j, hij, _, hi⟩ := gic_true h
      obtain ⟨c, d, p, q, h1⟩ := (key i j).1 hi
      exact ⟨i, j, c, d, p, q, hij, h1⟩
    · rintro ⟨i, j, c, d, p, q, hij, h1⟩
      cases ex with
      | true => rfl
      | false =>
        have hj : j < cls.length := (List.getElem?_eq_some_iff.1 h1.2.1).1
        have := (gic_false h).2 i j hij hj
        rw [(key i j).2 ⟨c, d, p, q, h1⟩] at this
        exact this.symm
  · rintro rfl
    exact (gic_false h).1

/-! ## A concrete geometry for the examples

Obstacles are numbers, polygons are lists of obstacles.  0 meets 1, and the hull of 0 and 1 meets 2. -/

def demoMeet (p q : List Nat) : Bool :=
  (p.contains 0 && q.contains 1) || (p.contains 1 && q.contains 0) ||
  (p.contains 0 && p.contains 1 && q.contains 2) || (p.contains 2 && q.contains 0 && q.contains 1)

def demoGeo : Geo Nat (List Nat) Unit (List Nat) where
  id := some
  prim o := [o]
  starPoly := id
  inter := demoMeet
  setList := List.dedup
  timeoutInit _ := false
  timeoutIter _ := false
  timeoutConvex _ := false
  robotFree _ := .ok true
  goalFree _ := .ok true
  exclude _ := .ok ()
  admEmpty _ _ := .ok false
  kernelSel _ _ _ := .ok ()
  firstStar o _ := .ok [o]
  loopStar _ l _ := .ok l
  isConvex _ := false
  hullOf p := .ok p
  blocked _ := false
  hullStar p _ := p

/-- What the examples look at: obstacles, whether there is a cluster obstacle, flag and counter. -/
def Res.view (r : Res Ob Star KP P) : List (List Ob × Bool) × Flag × Nat × Nat :=
  (r.clusters.map fun c => (c.obstacles, c.star.isSome), r.flag, r.nIter, r.entries)

def viewOf (r : Option (Except PyErr (Res Ob Star KP P))) :
    Option (Except PyErr (List (List Ob × Bool) × Flag × Nat × Nat)) := r.map fun e => e.map Res.view

def demoPar : Params := ⟨none, false, false⟩

def isOk {α : Type} (v : α) [DecidableEq α] : Option (Except PyErr α) → Bool
  | some (.ok w) => decide (w = v)
  | _ => false

def isErr {α : Type} : Option (Except PyErr α) → Bool
  | some (.error _) => true
  | _ => false

set_option maxRecDepth 4000 in
example : isOk ([([0, 1, 2], true), ([3], true)], Flag.complete, 3, 4)
    (viewOf (clusterAndStarify demoGeo demoPar none 4 [0, 1, 2, 3])) = true := by decide +kernel

/-! ## C52 -/

/-- The loop ends (with as much fuel as there are obstacles it never runs dry) and the iteration counter is
at most the number of obstacles, or 1 if there are none. -/
theorem C52_terminates (g : Geo Ob Star KP P) (hs : IsSetList g.setList) (par : Params)
    (prev : Option (List (Cl Ob Star KP P))) (obstacles : List Ob) (fuel : Nat) (hfuel : obstacles.length ≤ fuel) :
    ∃ r, clusterAndStarify g par prev fuel obstacles = some r ∧
      ∀ v, r = .ok v → v.nIter ≤ max 1 obstacles.length := by
  unfold clusterAndStarify
  split
  · exact ⟨_, rfl, by simp⟩
  · refine ⟨_, rfl, ?_⟩
    intro v hv
    injection hv with hv; subst hv
    simp [defaultResult]
  · split
    · exact ⟨_, rfl, by simp⟩
    · rename_i cls0 h0
      simp only
      obtain ⟨_, _, hlen⟩ := mapM_first (g := g) obstacles (fun o ho => ho) h0
      split
      · exact ⟨_, rfl, by simp⟩
      · rename_i cls1 ex h1
        obtain ⟨g1, g2⟩ := gic_length hs h1
        obtain ⟨r, hr, hi, hd⟩ := clusterLoop_terminates hs par prev obstacles.length fuel cls1 ex
          (firstHistory cls0) 1 (if par.returnHistory then [cls0] else [])
          (fun hex => by have := g1 hex; omega) (by omega) (fun hex => by have := g1 hex; omega)
        rw [hr]
        rcases r with e | e
        · exact ⟨_, rfl, by simp⟩
        · rcases e with ⟨n, it⟩ | ⟨out, n, it⟩
          · refine ⟨_, rfl, ?_⟩
            intro v hv
            injection hv with hv; subst hv
            exact hi n it rfl
          · have hn := hd out n it rfl
            simp only
            split
            · split
              · exact ⟨_, rfl, by simp⟩
              · refine ⟨_, rfl, ?_⟩
                intro v hv
                injection hv with hv; subst hv; exact hn
              · refine ⟨_, rfl, ?_⟩
                intro v hv
                injection hv with hv; subst hv; exact hn
            · refine ⟨_, rfl, ?_⟩
              intro v hv
              injection hv with hv; subst hv; exact hn

/-! ## C53 -/

/-- Without an iteration limit, every call that does not return INCOMPLETE gives every cluster an obstacle,
the cluster polygons do not intersect, and (distinct ids) the input obstacles are distributed over the
clusters.  Missing: calls with a finite `max_iterations`. -/
theorem C53_complete_partial (g : Geo Ob Star KP P) (hs : IsSetList g.setList) (par : Params)
    (hmax : par.maxIterations = none) (prev : Option (List (Cl Ob Star KP P))) (fuel : Nat) (obstacles : List Ob)
    (r : Res Ob Star KP P) (h : clusterAndStarify g par prev fuel obstacles = some (.ok r))
    (hf : r.flag ≠ .incomplete) :
    (∀ c ∈ r.clusters, c.star.isSome ∧ c.polygon.isSome) ∧
    (r.clusters.Pairwise fun c d => ∀ p q, c.polygon = some p → d.polygon = some q → g.inter p q = false) ∧
    ((obstacles.map g.id).Nodup → List.Perm (r.clusters.flatMap (·.obstacles)) obstacles) := by
  obtain ⟨cls, hfin, hstrip, _, _⟩ := clusterAndStarify_final hs hmax h hf
  have hst : ∀ c ∈ cls, c.star.isSome := fun c hc => (hfin.good c hc).1.star
  have hpo : ∀ c ∈ cls, c.polygon.isSome := fun c hc => by
    rw [(hfin.good c hc).2, Option.isSome_map]; exact hst c hc
  refine ⟨fun c hc => ⟨strip_star hstrip hst c hc, strip_polygon hstrip hpo c hc⟩, ?_, ?_⟩
  · have hpw : (cls.map (·.polygon)).Pairwise fun a b => ∀ p q, a = some p → b = some q → g.inter p q = false := by
      rw [List.pairwise_map, List.pairwise_iff_getElem]
      intro i j hi hj hij p q hp hq
      have := hfin.sep i j hij hj
      simpa only [interIdx, List.getElem?_eq_getElem hi, List.getElem?_eq_getElem hj, hp, hq] using this
    rw [← strip_polygons hstrip, List.pairwise_map] at hpw
    exact hpw
  · intro hid
    rw [flatMap_congr_obs (strip_obstacles hstrip)]
    exact hfin.perm hid

/-- With `max_iterations=2` the call returns COMPLETE although the returned cluster has no cluster
obstacle. -/
theorem C53_max_iterations_false :
    ∃ r, clusterAndStarify demoGeo ⟨some 2, false, false⟩ none 3 [0, 1, 2] = some (.ok r) ∧
      r.flag = .complete ∧ ∃ c ∈ r.clusters, c.star.isSome = false := by
  have h : isOk ([([0, 1, 2], false)], Flag.complete, 2, 4)
      (viewOf (clusterAndStarify demoGeo ⟨some 2, false, false⟩ none 3 [0, 1, 2])) = true := by decide +kernel
  cases hr : clusterAndStarify demoGeo ⟨some 2, false, false⟩ none 3 [0, 1, 2] with
  | none => rw [hr] at h; simp [viewOf, isOk] at h
  | some e =>
    cases e with
    | error e => rw [hr] at h; simp [viewOf, isOk, Except.map] at h
    | ok r =>
      rw [hr] at h
      simp only [viewOf, isOk, Option.map_some, Except.map, Res.view, decide_eq_true_eq, Prod.mk.injEq] at h
      refine ⟨r, rfl, h.2.1, ?_⟩
      cases hc : r.clusters with
      | nil => rw [hc] at h; simp at h
      | cons c l =>
        rw [hc] at h
        refine ⟨c, by simp, ?_⟩
        have := h.1
        simp only [List.map_cons, List.cons.injEq, Prod.mk.injEq] at this
        exact this.1.2

/-- The same call with `make_convex=True` raises. -/
theorem C53_max_iterations_convex_false :
    isErr (clusterAndStarify demoGeo ⟨some 2, true, false⟩ none 3 [0, 1, 2]) = true := by decide +kernel

/-! ## C54 -/

/-- An INCOMPLETE result consists of the singletons of the input obstacles, in order. -/
theorem C54_singletons (g : Geo Ob Star KP P) (par : Params) (prev : Option (List (Cl Ob Star KP P))) (fuel : Nat)
    (obstacles : List Ob) (r : Res Ob Star KP P)
    (h : clusterAndStarify g par prev fuel obstacles = some (.ok r)) (hf : r.flag = .incomplete) :
    r.clusters.map (·.obstacles) = obstacles.map (fun o => [o]) ∧
    r.clusters.map (·.star) = obstacles.map (fun o => some (g.prim o)) ∧
    r.clusters.map (·.name) = obstacles.map (fun o => clusterName [g.id o]) := by
  have key : ∀ n it, r = defaultResult g par obstacles n it →
      r.clusters.map (·.obstacles) = obstacles.map (fun o => [o]) ∧
      r.clusters.map (·.star) = obstacles.map (fun o => some (g.prim o)) ∧
      r.clusters.map (·.name) = obstacles.map (fun o => clusterName [g.id o]) := by
    rintro n it rfl
    simp [defaultResult, newCluster]
  unfold clusterAndStarify at h
  split at h
  · simp at h
  · simp only [Option.some.injEq, Except.ok.injEq] at h
    exact key _ _ h.symm
  · split at h
    · simp at h
    · simp only at h
      split at h
      · simp at h
      · split at h
        · simp at h
        · simp at h
        · simp only [Option.some.injEq, Except.ok.injEq] at h
          exact key _ _ h.symm
        · split at h
          · split at h
            · simp at h
            · simp only [Option.some.injEq, Except.ok.injEq] at h
              rw [← h] at hf; simp at hf
            · simp only [Option.some.injEq, Except.ok.injEq] at h
              rw [← h] at hf; simp at hf
          · simp only [Option.some.injEq, Except.ok.injEq] at h
            rw [← h] at hf; simp at hf

/-- The result is INCOMPLETE (unless a geometry routine raises) when the robot or the goal is not a free
exterior point of some obstacle. -/
theorem C54_not_free (g : Geo Ob Star KP P) (ht : g.Total) (par : Params)
    (prev : Option (List (Cl Ob Star KP P))) (fuel : Nat) (obstacles : List Ob)
    (h : ∃ o ∈ obstacles, g.robotFree o = .ok false ∨ g.goalFree o = .ok false) :
    ∃ r, clusterAndStarify g par prev fuel obstacles = some (.ok r) ∧ r.flag = .incomplete ∧ r.nIter = 0 := by
  have hl : ∀ (l : List Ob) (i : Nat), (∃ o ∈ l, g.robotFree o = .ok false ∨ g.goalFree o = .ok false) →
      initLoop g i l = .ok false := by
    intro l
    induction l with
    | nil => rintro i ⟨o, ho, _⟩; simp at ho
    | cons a l ih =>
      rintro i ⟨o, ho, hfree⟩
      obtain ⟨b, hb⟩ := ht.robot a
      obtain ⟨c, hc⟩ := ht.goal a
      simp only [initLoop]
      split
      · rfl
      · simp only [hb, hc, ht.exclude a, bind, Except.bind]
        split
        · rfl
        · rename_i hbc
          rcases List.mem_cons.1 ho with rfl | ho
          · exfalso
            apply hbc
            rcases hfree with hfree | hfree
            · rw [hb] at hfree; injection hfree with hfree; simp [hfree]
            · rw [hc] at hfree; injection hfree with hfree; simp [hfree]
          · exact ih (i + 1) ⟨o, ho, hfree⟩
  refine ⟨defaultResult g par obstacles 0 [], ?_, rfl, rfl⟩
  simp only [clusterAndStarify, hl obstacles 0 h]

/-- The goal is inside obstacle 2. -/
example : isOk ([([0], true), ([1], true), ([2], true)], Flag.incomplete, 0, 4)
    (viewOf (clusterAndStarify { demoGeo with goalFree := fun o => .ok (o != 2) } demoPar none 3 [0, 1, 2])) = true := by
  decide +kernel

/-! ## C55 -/

/-- Feeding the clusters of a call without iteration limit that did not return INCOMPLETE back into another
call without iteration limit, in which no geometry routine raises, gives a result and no exception.
Missing: INCOMPLETE results. -/
theorem C55_feedback_partial (g g' : Geo Ob Star KP P) (hs : IsSetList g.setList) (hs' : IsSetList g'.setList)
    (ht : g'.Total) (par par' : Params) (hmax : par.maxIterations = none) (hmax' : par'.maxIterations = none)
    (prev : Option (List (Cl Ob Star KP P))) (fuel fuel' : Nat) (obstacles obstacles' : List Ob)
    (hfuel : obstacles'.length ≤ fuel') (r : Res Ob Star KP P)
    (h : clusterAndStarify g par prev fuel obstacles = some (.ok r)) (hf : r.flag ≠ .incomplete) :
    ∃ r', clusterAndStarify g' par' (some r.clusters) fuel' obstacles' = some (.ok r') := by
  obtain ⟨cls, hfin, hstrip, _, _⟩ := clusterAndStarify_final hs hmax h hf
  have hpv : PrevOk (some r.clusters) := by
    intro l hl c hc
    injection hl with hl; subst hl
    refine ⟨strip_star hstrip (fun d hd => (hfin.good d hd).1.star) c hc, ?_⟩
    have hm : c.kernelPoints ∈ cls.map (·.kernelPoints) := by
      rw [← strip_kernelPoints hstrip]; exact List.mem_map_of_mem hc
    obtain ⟨d, hd, he⟩ := List.mem_map.1 hm
    rw [← he]; exact (hfin.good d hd).1.kernel
  obtain ⟨e, he, _⟩ := C52_terminates g' hs' par' (some r.clusters) obstacles' fuel' hfuel
  obtain ⟨b, hb⟩ := initLoop_ok ht 0 obstacles'
  obtain ⟨cls0, h0⟩ := mapM_ok (firstCluster g' (some r.clusters)) obstacles'
    (fun o _ => firstCluster_ok ht hpv o)
  obtain ⟨m1, m2, m3⟩ := mapM_first (g := g') obstacles' (fun o ho => ho) h0
  obtain ⟨⟨cls1, ex⟩, h1⟩ := gic_ok m1
  cases b with
  | false => exact ⟨_, by simp only [clusterAndStarify, hb]; rfl⟩
  | true =>
    simp only [clusterAndStarify, hb, h0, h1] at he ⊢
    have hfresh : ex = true → ∀ c ∈ cls1, Fresh g' obstacles' c := fun hex => gic_fresh hs' m1 (hex ▸ h1)
    have hnoerr := clusterLoop_ok hs' ht (par := par') hpv fuel' cls1 ex (firstHistory cls0) 1
      (if par'.returnHistory then [cls0] else []) (histOk_first cls0 m1) hfresh
    cases hl : clusterLoop g' par' (some r.clusters) fuel' cls1 ex (firstHistory cls0) 1
        (if par'.returnHistory then [cls0] else []) with
    | none => rw [hl] at he; simp at he
    | some v =>
      cases v with
      | error e => exact absurd hl (hnoerr e)
      | ok v =>
        cases v with
        | incomplete n it => exact ⟨_, rfl⟩
        | done out n it =>
          have hfin' : Final g' obstacles' out := by
            refine clusterLoop_final hs' hmax' fuel' cls1 ex _ 1 _ (histOk_first cls0 m1) ?_ ?_ hl
            · rintro rfl
              exact ⟨hfresh rfl, fun _ => (gic_perm hs' h1).trans (by rw [m2])⟩
            · rintro rfl
              exact gic_final hs' m1 (fun _ => by rw [m2]) h1
          simp only
          split
          · have hst : ∀ c ∈ out, c.star.isSome := fun c hc => (hfin'.good c hc).1.star
            have hpo : ∀ c ∈ out, c.polygon.isSome := fun c hc => by
              rw [(hfin'.good c hc).2, Option.isSome_map]; exact hst c hc
            obtain ⟨q, hq⟩ := makeConvexLoop_ok ht out.length 0 out hst hpo
            rw [hq]
            cases q with
            | inl x => exact ⟨_, rfl⟩
            | inr x => exact ⟨_, rfl⟩
          · exact ⟨_, rfl⟩

/-- Feeding back a COMPLETE result works. -/
example : isOk ([([0, 1, 2], true), ([3], true)], Flag.complete, 3, 4)
    (viewOf (match clusterAndStarify demoGeo demoPar none 4 [0, 1, 2, 3] with
      | some (.ok r) => clusterAndStarify demoGeo demoPar (some r.clusters) 4 [0, 1, 2, 3]
      | _ => none)) = true := by decide +kernel

/-- An INCOMPLETE result fed back makes the next call raise, although the geometry is fine again. -/
theorem C55_incomplete_false :
    ∃ r, clusterAndStarify { demoGeo with timeoutInit := fun _ => true } demoPar none 4 [0, 1] = some (.ok r) ∧
      isErr (clusterAndStarify demoGeo demoPar (some r.clusters) 4 [0, 1]) = true := by
  exact ⟨_, rfl, by decide +kernel⟩

/-! ## C56 -/

/-- The tuple has five entries exactly with `return_history`, unless the `make_convex` stage runs out of
time.  Missing: that exit. -/
theorem C56_shape_partial (g : Geo Ob Star KP P) (par : Params) (prev : Option (List (Cl Ob Star KP P)))
    (fuel : Nat) (obstacles : List Ob) (r : Res Ob Star KP P)
    (h : clusterAndStarify g par prev fuel obstacles = some (.ok r)) (hf : r.flag ≠ .maxComputeTimeConvexHull) :
    r.entries = if par.returnHistory then 5 else 4 := by
  have key : ∀ n it, (defaultResult g par obstacles n it).entries = if par.returnHistory then 5 else 4 := by
    intro n it
    cases hr : par.returnHistory <;> simp [defaultResult, Res.entries, hr]
  by_cases hi : r.flag = .incomplete
  · unfold clusterAndStarify at h
    split at h
    · simp at h
    · simp only [Option.some.injEq, Except.ok.injEq] at h
      rw [← h]; exact key _ _
    · split at h
      · simp at h
      · simp only at h
        split at h
        · simp at h
        · split at h
          · simp at h
          · simp at h
          · simp only [Option.some.injEq, Except.ok.injEq] at h
            rw [← h]; exact key _ _
          · split at h
            · split at h
              · simp at h
              · simp only [Option.some.injEq, Except.ok.injEq] at h
                rw [← h] at hi; simp at hi
              · simp only [Option.some.injEq, Except.ok.injEq] at h
                rw [← h] at hi; simp at hi
            · simp only [Option.some.injEq, Except.ok.injEq] at h
              rw [← h] at hi; simp at hi
  · obtain ⟨_, _, _, _, _, _, _, _, _, _, hr⟩ := clusterAndStarify_done h hi
    have : r.history.isSome = par.returnHistory := by
      rcases hr with ⟨_, _, _, hr⟩ | ⟨_, _, _, hr⟩ | ⟨_, _, hr, _⟩
      · rw [hr]; cases par.returnHistory <;> rfl
      · rw [hr]; cases par.returnHistory <;> rfl
      · exact absurd hr hf
    simp only [Res.entries, this]

/-- The time-out in the `make_convex` stage returns four entries although the history was asked for. -/
theorem C56_timeout_false :
    isOk ([([0, 1], true)], Flag.maxComputeTimeConvexHull, 2, 4)
      (viewOf (clusterAndStarify { demoGeo with timeoutConvex := fun _ => true } ⟨none, true, true⟩ none 4 [0, 1])) =
    true := by decide +kernel

example : isOk ([([0, 1], true)], Flag.complete, 2, 5)
    (viewOf (clusterAndStarify demoGeo ⟨none, true, true⟩ none 4 [0, 1])) = true := by decide +kernel

/-! ## C57 -/

/-- Obstacles with distinct ids (at most one of them temporary) are all kept.  Missing: several temporary
ids. -/
theorem C57_kept_partial (g : Geo Ob Star KP P) (hs : IsSetList g.setList) (par : Params)
    (hmax : par.maxIterations = none) (prev : Option (List (Cl Ob Star KP P))) (fuel : Nat) (obstacles : List Ob)
    (hid : (obstacles.map g.id).Nodup) (r : Res Ob Star KP P)
    (h : clusterAndStarify g par prev fuel obstacles = some (.ok r)) :
    List.Perm (r.clusters.flatMap (·.obstacles)) obstacles := by
  by_cases hf : r.flag = .incomplete
  · have := (C54_singletons g par prev fuel obstacles r h hf).1
    rw [List.flatMap_def, this]
    refine List.Perm.of_eq ?_
    clear h hf this hid
    induction obstacles with
    | nil => rfl
    | cons a l ih => simp only [List.map_cons, List.flatten_cons, ih, List.cons_append, List.nil_append]
  · exact (C53_complete_partial g hs par hmax prev fuel obstacles r h hf).2.2 hid

/-- The cluster name determines the ids: names never collide by accident. -/
theorem C57_names (l m : List (Option Nat)) (hl : l ≠ []) (hm : m ≠ []) (h : clusterName l = clusterName m) :
    l = m := clusterName_inj hl hm h

/-- Obstacles 2, 3, ... have temporary ids. -/
def demoTemp : Geo Nat (List Nat) Unit (List Nat) :=
  { demoGeo with
    id := fun o => if o < 2 then some o else none
    inter := fun p q => p.contains 0 && q.contains 1 }

/-- Obstacles 2 and 3 have temporary ids, 0 meets 1: obstacle 2 is missing in the result and obstacle 3 is
there twice. -/
theorem C57_temporary_false :
    isOk ([([0, 1], true), ([3], true), ([3], true)], Flag.complete, 2, 4)
      (viewOf (clusterAndStarify demoTemp demoPar none 4 [0, 1, 2, 3])) = true := by
  decide +kernel

/-! ## C62 -/

/-- Without `make_convex` and without an iteration limit, the polygon of every returned cluster is the polygon
of its cluster obstacle.  Missing: `make_convex`. -/
theorem C62_polygon_partial (g : Geo Ob Star KP P) (hs : IsSetList g.setList) (par : Params)
    (hmax : par.maxIterations = none) (hmc : par.makeConvex = false) (prev : Option (List (Cl Ob Star KP P)))
    (fuel : Nat) (obstacles : List Ob) (r : Res Ob Star KP P)
    (h : clusterAndStarify g par prev fuel obstacles = some (.ok r)) :
    ∀ c ∈ r.clusters, ∃ s, c.star = some s ∧ (cachePolygon g c).polygon = some (g.starPoly s) := by
  intro c hc
  by_cases hf : r.flag = .incomplete
  · have key : ∀ n it, r = defaultResult g par obstacles n it →
        ∃ s, c.star = some s ∧ (cachePolygon g c).polygon = some (g.starPoly s) := by
      rintro n it rfl
      simp only [defaultResult, List.mem_map] at hc
      obtain ⟨o, _, rfl⟩ := hc
      exact ⟨g.prim o, rfl, rfl⟩
    unfold clusterAndStarify at h
    split at h
    · simp at h
    · simp only [Option.some.injEq, Except.ok.injEq] at h
      exact key _ _ h.symm
    · split at h
      · simp at h
      · simp only at h
        split at h
        · simp at h
        · split at h
          · simp at h
          · simp at h
          · simp only [Option.some.injEq, Except.ok.injEq] at h
            exact key _ _ h.symm
          · simp only [hmc, Bool.false_eq_true, if_false, Option.some.injEq, Except.ok.injEq] at h
            rw [← h] at hf; simp at hf
  · obtain ⟨cls, hfin, _, _, hcls⟩ := clusterAndStarify_final hs hmax h hf
    rw [hcls hmc] at hc
    obtain ⟨hg, hp⟩ := hfin.good c hc
    obtain ⟨s, hs'⟩ := Option.isSome_iff_exists.1 hg.star
    refine ⟨s, hs', ?_⟩
    rw [cachePolygon_polygon g c (Or.inr hp), hs', Option.map_some]

/-- With `make_convex` the cached polygon is that of the cluster obstacle before it was made convex. -/
theorem C62_convex_false :
    ∃ r, clusterAndStarify { demoGeo with hullOf := fun p => .ok (9 :: p) } ⟨none, true, false⟩ none 4 [0, 3] =
        some (.ok r) ∧ r.flag = .complete ∧
      (r.clusters.map fun c => (cachePolygon demoGeo c).polygon) = [some [0], some [3]] ∧
      (r.clusters.map fun c => c.star) = [some [9, 0], some [9, 3]] := by
  refine ⟨_, rfl, rfl, ?_, ?_⟩ <;> decide +kernel

/-! ## C61 -/

/-- The `make_convex` stage with polygons read as compact connected sets of the plane: the polygons of the
cluster obstacles afterwards are pairwise disjoint, contain the polygons they had before and do not contain
robot or goal unless they were not made convex. -/
theorem C61_disjoint (g : Geo Ob Star KP P) (hs : IsSetList g.setList) (par : Params)
    (hmax : par.maxIterations = none) (prev : Option (List (Cl Ob Star KP P))) (fuel : Nat) (obstacles : List Ob)
    (r : Res Ob Star KP P) (h : clusterAndStarify g par prev fuel obstacles = some (.ok r))
    (hf : r.flag ≠ .incomplete)
    -- the meaning of the geometry routines
    (region : P → Set (ℝ × ℝ)) (hinter : ∀ p q, g.inter p q = true ↔ (region p ∩ region q).Nonempty)
    (hhull : ∀ p q, g.hullOf p = .ok q → region q = convexHull ℝ (region p))
    (hstar : ∀ p s, g.starPoly (g.hullStar p s) = p)
    (x xg : ℝ × ℝ) (hblocked : ∀ p, g.blocked p = true ↔ x ∈ interior (region p) ∨ xg ∈ interior (region p))
    -- the polygons that enter the stage
    (hcomp : ∀ c ∈ r.clusters, ∀ p, c.polygon = some p → IsCompact (region p) ∧ IsPreconnected (region p)) :
    (r.clusters.Pairwise fun c d => ∀ s t, c.star = some s → d.star = some t →
      Disjoint (region (g.starPoly s)) (region (g.starPoly t))) ∧
    (∀ c ∈ r.clusters, ∀ s p, c.star = some s → c.polygon = some p →
      region p ⊆ region (g.starPoly s) ∧
      (region (g.starPoly s) = region p ∨
        (region (g.starPoly s) = convexHull ℝ (region p) ∧
          x ∉ interior (region (g.starPoly s)) ∧ xg ∉ interior (region (g.starPoly s))))) := by
  obtain ⟨cls, hfin, hstrip, hconv, _⟩ := clusterAndStarify_final hs hmax h hf
  -- what the entry with index i looks like
  have entry : ∀ (i : Nat) (c : Cl Ob Star KP P), r.clusters[i]? = some c → ∃ (p : P) (s : Star), c.polygon = some p ∧ c.star = some s ∧
      (∃ c0 : Cl Ob Star KP P, cls[i]? = some c0 ∧ c0.polygon = some p) ∧
      (g.starPoly s = p ∨ (region (g.starPoly s) = convexHull ℝ (region p) ∧ g.blocked (g.starPoly s) = false ∧
        ∀ (m : Nat) (d : Cl Ob Star KP P) (q : P), m ≠ i → cls[m]? = some d → d.polygon = some q → g.inter (g.starPoly s) q = false)) := by
    intro i c hc
    obtain ⟨c0, hc0, hs0⟩ := strip_getElem hstrip.symm i hc
    obtain ⟨hg0, hp0⟩ := hfin.good c0 (List.mem_of_getElem? hc0)
    obtain ⟨s0, hs0'⟩ := Option.isSome_iff_exists.1 hg0.star
    rw [hs0', Option.map_some] at hp0
    have hpc : c.polygon = some (g.starPoly s0) := by
      have := congrArg (fun t => t.2.2.2.1) hs0
      simp only [Cl.strip] at this
      rw [← this, hp0]
    rcases hconv i c hc with hcv | ⟨c1, p, hl, st, h1, h2, h3, h4, h5, h6⟩
    · rw [hc0, Option.map_some, Option.some.injEq, hs0'] at hcv
      exact ⟨_, s0, hpc, hcv.symm, ⟨c0, hc0, hp0⟩, Or.inl rfl⟩
    · rw [hc0] at h1
      injection h1 with h1; subst h1
      rw [hp0] at h2
      injection h2 with h2; subst h2
      refine ⟨_, _, hpc, h6, ⟨c0, hc0, hp0⟩, Or.inr ?_⟩
      rw [hstar]
      exact ⟨hhull _ _ h3, h4, h5⟩
  have disj : ∀ p q, g.inter p q = false → Disjoint (region p) (region q) := by
    intro p q hpq
    rw [Set.disjoint_iff_inter_eq_empty, ← Set.not_nonempty_iff_eq_empty, ← hinter, hpq]
    simp
  constructor
  · rw [List.pairwise_iff_getElem]
    intro i j hi hj hij s t hsi hti
    have hi' := List.getElem?_eq_getElem hi
    have hj' := List.getElem?_eq_getElem hj
    obtain ⟨p, s', hp, hs1, ⟨c0, hc0, hp0⟩, hA⟩ := entry i _ hi'
    obtain ⟨q, t', hq, ht1, ⟨d0, hd0, hq0⟩, hB⟩ := entry j _ hj'
    rw [hsi] at hs1; injection hs1 with hs1; subst hs1
    rw [hti] at ht1; injection ht1 with ht1; subst ht1
    have hpq : Disjoint (region p) (region q) := by
      refine disj p q ?_
      have hjl : j < cls.length := (List.getElem?_eq_some_iff.1 hd0).1
      have := hfin.sep i j hij hjl
      simpa only [interIdx, hc0, hd0, hp0, hq0] using this
    obtain ⟨cp, np⟩ := hcomp _ (List.getElem_mem hi) p hp
    obtain ⟨cq, nq⟩ := hcomp _ (List.getElem_mem hj) q hq
    rcases hA with hA | ⟨hA, _, hA'⟩
    · rcases hB with hB | ⟨hB, _, hB'⟩
      · rw [hA, hB]; exact hpq
      · rw [hA]
        exact (disj _ _ (hB' i c0 p (by omega) hc0 hp0)).symm
    · have h1 := disj _ _ (hA' j d0 q (by omega) hd0 hq0)
      rcases hB with hB | ⟨hB, _, hB'⟩
      · rw [hB]; exact h1
      · have h2 := (disj _ _ (hB' i c0 p (by omega) hc0 hp0)).symm
        rw [hA] at h1 ⊢
        rw [hB] at h2 ⊢
        exact hulls_disjoint cp cq np nq h1 h2
  · intro c hc s p hcs hcp
    obtain ⟨i, hi⟩ := List.getElem?_of_mem hc
    obtain ⟨p', s', hp, hs1, _, hA⟩ := entry i _ hi
    rw [hcs] at hs1; injection hs1 with hs1; subst hs1
    rw [hcp] at hp; injection hp with hp; subst hp
    rcases hA with hA | ⟨hA, hb, _⟩
    · rw [hA]; exact ⟨subset_rfl, Or.inl rfl⟩
    · refine ⟨by rw [hA]; exact subset_convexHull ℝ _, Or.inr ⟨hA, ?_⟩⟩
      rw [← not_or, ← hblocked, hb]; simp

/-- An L made of two segments with corner `(a, 0)`. -/
def ell (a : ℝ) : Set (ℝ × ℝ) := segment ℝ (a, 0) (a + 1, 0) ∪ segment ℝ (a, 0) (a, 1)

theorem ell_compact (a : ℝ) : IsCompact (ell a) := by
  unfold ell
  simp only [segment_eq_image_lineMap]
  refine IsCompact.union ?_ ?_
  · exact isCompact_Icc.image (by exact AffineMap.lineMap_continuous)
  · exact isCompact_Icc.image (by exact AffineMap.lineMap_continuous)

theorem ell_connected (a : ℝ) : IsPreconnected (ell a) :=
  IsPreconnected.union (a, 0) (left_mem_segment ℝ _ _) (left_mem_segment ℝ _ _)
    (convex_segment _ _).isPreconnected (convex_segment _ _).isPreconnected

theorem ell_hull (a : ℝ) : convexHull ℝ (ell a) ⊆ {p | a ≤ p.1 ∧ p.1 ≤ a + 1 ∧ 0 ≤ p.2} := by
  have hc : Convex ℝ {p : ℝ × ℝ | a ≤ p.1 ∧ p.1 ≤ a + 1 ∧ 0 ≤ p.2} := by
    intro p hp q hq s t hs ht hst
    simp only [Set.mem_ofPred_eq, Prod.fst_add, Prod.snd_add, Prod.smul_fst, Prod.smul_snd, smul_eq_mul] at hp hq ⊢
    have : t = 1 - s := by linarith
    subst this
    refine ⟨?_, ?_, ?_⟩
    · nlinarith [mul_nonneg hs (sub_nonneg.2 hp.1), mul_nonneg ht (sub_nonneg.2 hq.1)]
    · nlinarith [mul_nonneg hs (sub_nonneg.2 hp.2.1), mul_nonneg ht (sub_nonneg.2 hq.2.1)]
    · nlinarith [mul_nonneg hs hp.2.2, mul_nonneg ht hq.2.2]
  refine convexHull_min ?_ hc
  have h0 : ((a, 0) : ℝ × ℝ) ∈ {p : ℝ × ℝ | a ≤ p.1 ∧ p.1 ≤ a + 1 ∧ 0 ≤ p.2} := by
    refine ⟨?_, ?_, ?_⟩ <;> simp
  refine Set.union_subset (hc.segment_subset h0 ?_) (hc.segment_subset h0 ?_)
  · refine ⟨?_, ?_, ?_⟩ <;> simp
  · refine ⟨?_, ?_, ?_⟩ <;> simp

/-- Two L-shaped obstacles; a polygon is the obstacle with a note whether it has been made convex. -/
def ellGeo : Geo Nat (Nat × Bool) Unit (Nat × Bool) where
  id := some
  prim o := (o, false)
  starPoly := id
  inter p q := p.1 == q.1
  setList := List.dedup
  timeoutInit _ := false
  timeoutIter _ := false
  timeoutConvex _ := false
  robotFree _ := .ok true
  goalFree _ := .ok true
  exclude _ := .ok ()
  admEmpty _ _ := .ok false
  kernelSel _ _ _ := .ok ()
  firstStar o _ := .ok (o, false)
  loopStar _ _ _ := .ok (0, false)
  isConvex s := s.2
  hullOf p := .ok (p.1, true)
  blocked _ := false
  hullStar p _ := p

noncomputable def ellRegion (p : Nat × Bool) : Set (ℝ × ℝ) :=
  if p.2 then convexHull ℝ (ell (2 * p.1)) else ell (2 * p.1)

theorem ellRegion_sub (p : Nat × Bool) : ellRegion p ⊆ {w | 2 * (p.1 : ℝ) ≤ w.1 ∧ w.1 ≤ 2 * p.1 + 1 ∧ 0 ≤ w.2} := by
  unfold ellRegion
  split
  · exact ell_hull _
  · exact (subset_convexHull ℝ _).trans (ell_hull _)

theorem ellRegion_corner (p : Nat × Bool) : ((2 * (p.1 : ℝ), 0) : ℝ × ℝ) ∈ ellRegion p := by
  have : ((2 * (p.1 : ℝ), 0) : ℝ × ℝ) ∈ ell (2 * p.1) := Or.inl (left_mem_segment ℝ _ _)
  unfold ellRegion
  split
  · exact subset_convexHull ℝ _ this
  · exact this

/-- Every hypothesis of `C61_disjoint` holds for two L-shaped obstacles that are both made convex. -/
example : ∃ r, clusterAndStarify ellGeo ⟨none, true, false⟩ none 2 [0, 1] = some (.ok r) ∧
    r.flag ≠ .incomplete ∧ r.clusters.map (·.star) = [some (0, true), some (1, true)] ∧
    IsSetList ellGeo.setList ∧
    (∀ p q, ellGeo.inter p q = true ↔ (ellRegion p ∩ ellRegion q).Nonempty) ∧
    (∀ c ∈ r.clusters, ∀ p, c.polygon = some p → p.2 = false) ∧
    (∀ n, IsCompact (ellRegion (n, false)) ∧ IsPreconnected (ellRegion (n, false))) ∧
    (∀ p q, ellGeo.hullOf p = .ok q → ellRegion q = convexHull ℝ (ellRegion p)) ∧
    (∀ p, ellGeo.blocked p = true ↔
      ((0, -1) : ℝ × ℝ) ∈ interior (ellRegion p) ∨ ((1, -1) : ℝ × ℝ) ∈ interior (ellRegion p)) := by
  refine ⟨_, rfl, ?_, ?_, isSetList_dedup, ?_, ?_, ?_, ?_, ?_⟩
  · decide +kernel
  · decide +kernel
  · intro p q
    simp only [ellGeo, beq_iff_eq]
    constructor
    · intro h
      refine ⟨_, ellRegion_corner p, ?_⟩
      rw [h]; exact ellRegion_corner q
    · rintro ⟨w, h1, h2⟩
      obtain ⟨a1, a2, _⟩ := ellRegion_sub p h1
      obtain ⟨b1, b2, _⟩ := ellRegion_sub q h2
      rcases Nat.lt_trichotomy p.1 q.1 with h | h | h
      · have : (p.1 : ℝ) + 1 ≤ q.1 := by exact_mod_cast h
        linarith
      · exact h
      · have : (q.1 : ℝ) + 1 ≤ p.1 := by exact_mod_cast h
        linarith
  · decide +kernel
  · intro n
    exact ⟨by simpa [ellRegion] using ell_compact _, by simpa [ellRegion] using ell_connected _⟩
  · rintro ⟨n, b⟩ q hq
    simp only [ellGeo, Except.ok.injEq] at hq
    subst hq
    cases b <;> simp [ellRegion]
  · intro p
    have hx : ∀ w : ℝ × ℝ, w.2 = -1 → w ∉ interior (ellRegion p) := by
      intro w hw h
      have := (ellRegion_sub p (interior_subset h)).2.2
      rw [hw] at this; linarith
    simp only [ellGeo, Bool.false_eq_true, false_iff, not_or]
    exact ⟨hx _ rfl, hx _ rfl⟩

end Starworlds
