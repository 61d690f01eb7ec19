import Verif.Proofs.ConvexOrder
import Verif.Props.StarifyIds

/-! # C118: the order in which the obstacles are given -/

namespace Starworlds

open Spec

variable {Ob Star KP P X : Type} {g : Geo Ob Star KP P} {obstacles : List Ob}

theorem totalOn_mono {obstacles' : List Ob} (ht : g.TotalOn obstacles) (hp : obstacles.Perm obstacles') : g.TotalOn obstacles' := by
  have hm : ∀ {l : List Ob}, (∀ o ∈ l, o ∈ obstacles') → ∀ o ∈ l, o ∈ obstacles := fun h o ho => hp.mem_iff.2 (h o ho)
  exact
    { robot := fun o ho => ht.robot o (hp.mem_iff.2 ho)
      goal := fun o ho => ht.goal o (hp.mem_iff.2 ho)
      exclude := fun o ho => ht.exclude o (hp.mem_iff.2 ho)
      adm := fun n l hl => ht.adm n l (hm hl)
      kernelFirst := fun o ho => ht.kernelFirst o (hp.mem_iff.2 ho)
      kernelLoop := fun n l k hn hl => ht.kernelLoop n l k hn (hm hl)
      first := fun o ho => ht.first o (hp.mem_iff.2 ho)
      loop := fun n l k kp hn hl => ht.loop n l k kp hn (hm hl)
      hull := ht.hull }

theorem initLoop_iff (ht : g.TotalOn obstacles) (l : List Ob) (hl : ∀ o ∈ l, o ∈ obstacles) (i : Nat) :
    initLoop g i l = .ok true ↔ (∀ k < l.length, g.timeoutInit (i + k) = false) ∧
      ∀ o ∈ l, g.robotFree o = .ok true ∧ g.goalFree o = .ok true := by
  induction l generalizing i with
  | nil => simp [initLoop]
  | cons o l ih =>
    have ih := ih (fun x hx => hl x (by simp [hx])) (i + 1)
    obtain ⟨b, hb⟩ := ht.robot o (hl o (by simp))
    obtain ⟨c, hc⟩ := ht.goal o (hl o (by simp))
    simp only [initLoop, hb, hc, ht.exclude o (hl o (by simp)), bind, Except.bind]
    cases htm : g.timeoutInit i with
    | true =>
      simp only [if_true]
      constructor
      · intro h; cases h
      · intro h
        have := h.1 0 (by simp)
        rw [Nat.add_zero, htm] at this
        cases this
    | false =>
      simp only [Bool.false_eq_true, if_false, List.length_cons, List.mem_cons, forall_eq_or_imp, hb, hc, Except.ok.injEq]
      cases b <;> cases c <;> simp only [Bool.not_true, Bool.not_false, Bool.or_self, Bool.or_true, Bool.true_or, if_true, Bool.false_eq_true,
        if_false, and_true, and_false, false_and, true_and, reduceCtorEq, Except.ok.injEq, Bool.or_false]
      rw [ih]
      refine and_congr_left fun _ => ⟨fun h k hk => ?_, fun h k hk => ?_⟩
      · rcases k with _ | k
        · exact htm
        · have := h k (by omega)
          rwa [show i + 1 + k = i + (k + 1) by omega] at this
      · have := h (k + 1) (by omega)
        rwa [show i + (k + 1) = i + 1 + k by omega] at this

/-- The result of `firstCluster` when it does not raise. -/
def fcOf (g : Geo Ob Star KP P) (o : Ob) : Cl Ob Star KP P :=
  match firstCluster g none o with
  | .ok c => c
  | .error _ => newCluster g [o]

theorem mapM_fcOf (ht : g.TotalOn obstacles) (l : List Ob) (hl : ∀ o ∈ l, o ∈ obstacles) :
    l.mapM (firstCluster g none) = .ok (l.map (fcOf g)) := by
  induction l with
  | nil => rfl
  | cons o l ih =>
    obtain ⟨c, hc⟩ := firstCluster_on ht (prev := none) (by intro l h; cases h) o (hl o (by simp))
    rw [List.mapM_cons, hc, ih fun x hx => hl x (by simp [hx])]
    simp only [bind, Except.bind, pure, Except.pure, List.map_cons, fcOf, hc]

theorem firstHistory_inv (cls : List (Cl Ob Star KP P)) (hn : (cls.map (·.name)).Nodup) : HistInv cls (firstHistory cls) := by
  have key : ∀ (cls : List (Cl Ob Star KP P)) (h : History Ob Star KP P), (cls.map (·.name)).Nodup →
      (∀ c ∈ cls, cls.foldl History.insert h c.name = some c) ∧
      (∀ nm, nm ∉ cls.map (·.name) → cls.foldl History.insert h nm = h nm) := by
    intro cls
    induction cls with
    | nil => intro h _; exact ⟨by simp, by simp⟩
    | cons c cls ih =>
      intro h hn
      rw [List.map_cons, List.nodup_cons] at hn
      obtain ⟨i1, i2⟩ := ih (h.insert c) hn.2
      refine ⟨?_, ?_⟩
      · intro d hd
        rw [List.foldl_cons]
        rcases List.mem_cons.1 hd with rfl | hd
        · rw [i2 _ hn.1]
          simp [History.insert]
        · exact i1 d hd
      · intro nm hnm
        rw [List.map_cons, List.mem_cons, not_or] at hnm
        rw [List.foldl_cons, i2 nm hnm.2]
        simp [History.insert, hnm.1]
  obtain ⟨h1, h2⟩ := key cls (fun _ => none) hn
  refine ⟨h1, fun nm c hc => ?_⟩
  by_cases hm : nm ∈ cls.map (·.name)
  · obtain ⟨d, hd, rfl⟩ := List.mem_map.1 hm
    have := h1 d hd
    rw [firstHistory, this, Option.some.injEq] at hc
    exact ⟨d, hd, fun o ho => hc ▸ ho⟩
  · rw [firstHistory, h2 nm hm] at hc
    cases hc

/-- The start of a run. -/
theorem run_start (hid : (obstacles.map g.id).Nodup) (ht : g.TotalOn obstacles) {l : List Ob} (hp : obstacles.Perm l) :
    ∃ cls ex, getIntersectionClusters g (l.map (fcOf g)) = .ok (cls, ex) ∧
      RunInv g obstacles (l.map (fcOf g)) cls ex (firstHistory (l.map (fcOf g))) := by
  have hsub : ∀ o ∈ l, o ∈ obstacles := fun o ho => hp.mem_iff.2 ho
  obtain ⟨m1, m2, _⟩ := mapM_first (obstacles := obstacles) l hsub (mapM_fcOf ht l hsub)
  obtain ⟨⟨cls, ex⟩, hgic⟩ := gic_ok m1
  have hl : (l.map g.id).Nodup := (hp.map g.id).nodup_iff.1 hid
  refine ⟨cls, ex, hgic, m1, ?_, hgic, histOk_first _ m1, firstHistory_inv _ ?_⟩
  · rw [m2]
    exact List.Nodup.of_map _ hl
  · have hob : ∀ o ∈ l, (fcOf g o).obstacles = [o] := by
      intro o ho
      obtain ⟨c, hc⟩ := firstCluster_on ht (prev := none) (by intro l h; cases h) o (hsub o ho)
      rw [fcOf, hc]
      exact (firstCluster_good (hsub o ho) hc).2
    rw [List.map_map]
    refine List.Nodup.map_on (fun o ho o' ho' he => ?_) (List.Nodup.of_map _ hl)
    have g1 := m1 _ (List.mem_map.2 ⟨o, ho, rfl⟩)
    have g2 := m1 _ (List.mem_map.2 ⟨o', ho', rfl⟩)
    have := same_obstacles hid g1.sub g2.sub g1.nonempty g2.nonempty (by rw [← g1.name, ← g2.name]; exact he)
    rw [hob o ho, hob o' ho'] at this
    simpa using this

/-- Two calls up to the `make_convex` stage. -/
theorem call_order {look : Star → X} (hf : OrderFree g look) (hs : IsSetList g.setList) (hid : (obstacles.map g.id).Nodup)
    (ht : g.TotalOn obstacles) (par : Params) {obstacles' : List Ob} (hp : obstacles.Perm obstacles')
    (fuel : Nat) (hfuel : obstacles.length ≤ fuel) :
    SameResult look (clusterAndStarify g par none fuel obstacles) (clusterAndStarify g par none fuel obstacles') ∨
    ∃ m out out' it it', (out.map (view look)).Perm (out'.map (view look)) ∧
      (par.maxIterations = none → Final g obstacles out ∧ Final g obstacles out' ∧ (out.flatMap (·.obstacles)).Nodup ∧
        (out'.flatMap (·.obstacles)).Nodup) ∧
      (∀ r, (if par.makeConvex then match makeConvexLoop g out.length 0 out with
          | .error e => some (.error e)
          | .ok (.inl cls) => some (.ok ⟨cls, .maxComputeTimeConvexHull, m, none⟩)
          | .ok (.inr cls) => some (.ok ⟨cls, .complete, m, if par.returnHistory then some (HistVal.iters it) else none⟩)
        else some (.ok ⟨out, .complete, m, if par.returnHistory then some (HistVal.iters it) else none⟩)) = r →
        clusterAndStarify g par none fuel obstacles = r) ∧
      (∀ r, (if par.makeConvex then match makeConvexLoop g out'.length 0 out' with
          | .error e => some (.error e)
          | .ok (.inl cls) => some (.ok ⟨cls, .maxComputeTimeConvexHull, m, none⟩)
          | .ok (.inr cls) => some (.ok ⟨cls, .complete, m, if par.returnHistory then some (HistVal.iters it') else none⟩)
        else some (.ok ⟨out', .complete, m, if par.returnHistory then some (HistVal.iters it') else none⟩)) = r →
        clusterAndStarify g par none fuel obstacles' = r) := by
  have ht' := totalOn_mono ht hp
  have hdef : ∀ n n' it it', (clusterAndStarify g par none fuel obstacles = some (.ok (defaultResult g par obstacles n it))) →
      (clusterAndStarify g par none fuel obstacles' = some (.ok (defaultResult g par obstacles' n' it'))) → n = n' →
      SameResult look (clusterAndStarify g par none fuel obstacles) (clusterAndStarify g par none fuel obstacles') := by
    intro n n' it it' h h' hn
    refine ⟨_, _, h, h', rfl, hn, ?_⟩
    simp only [defaultResult, List.map_map]
    exact hp.map _
  have hiff : initLoop g 0 obstacles = .ok true ↔ initLoop g 0 obstacles' = .ok true := by
    rw [initLoop_iff ht _ (fun o h => h), initLoop_iff ht' _ (fun o h => h), hp.length_eq]
    exact and_congr_right fun _ => ⟨fun h o ho => h o (hp.mem_iff.2 ho), fun h o ho => h o (hp.mem_iff.1 ho)⟩
  obtain ⟨b, hb⟩ := initLoop_on obstacles ht (fun o h => h) 0
  obtain ⟨b', hb'⟩ := initLoop_on obstacles' ht' (fun o h => h) 0
  rw [hb, hb', Except.ok.injEq, Except.ok.injEq] at hiff
  have hbb : b = b' := by cases b <;> cases b' <;> simp_all
  subst hbb
  cases b with
  | false =>
    refine .inl (hdef 0 0 [] [] ?_ ?_ rfl)
    · simp only [clusterAndStarify, hb]
    · simp only [clusterAndStarify, hb']
  | true =>
    have hm := mapM_fcOf ht obstacles fun o h => h
    have hm' := mapM_fcOf ht obstacles' fun o ho => hp.mem_iff.2 ho
    obtain ⟨cls, ex, hg, hr⟩ := run_start hid ht (List.Perm.refl obstacles)
    obtain ⟨cls', ex', hg', hr'⟩ := run_start hid ht hp
    have hc : ((obstacles.map (fcOf g)).map (core look)).Perm ((obstacles'.map (fcOf g)).map (core look)) := (hp.map _).map _
    have hl := loop_order hf hs hid ht par fuel 1 (if par.returnHistory then [obstacles.map (fcOf g)] else [])
      (if par.returnHistory then [obstacles'.map (fcOf g)] else []) hr hr' hc
    rcases hl with ⟨h1, _⟩ | ⟨m, it, it', h1, h2⟩ | ⟨m, out, out', it, it', h1, h2, hv⟩
    · obtain ⟨_, _, hlen⟩ := mapM_first (g := g) obstacles (fun o ho => ho) hm
      obtain ⟨g1, g2⟩ := gic_length hs hg
      obtain ⟨r, hr, _, _⟩ := clusterLoop_terminates hs par none obstacles.length fuel cls ex
        (firstHistory (obstacles.map (fcOf g))) 1 (if par.returnHistory then [obstacles.map (fcOf g)] else [])
        (fun hex => by have := g1 hex; omega) (by omega) (fun hex => by have := g1 hex; omega)
      rw [h1] at hr
      cases hr
    · refine .inl (hdef m m it it' ?_ ?_ rfl)
      · simp only [clusterAndStarify, hb, hm, hg, h1]
      · simp only [clusterAndStarify, hb', hm', hg', h2]
    · refine .inr ⟨m, out, out', it, it', hv, fun hmax => ?_, fun r hr => ?_, fun r hr => ?_⟩
      · have hfin : ∀ {l : List Ob} {cls ex out it its}, obstacles.Perm l → getIntersectionClusters g (l.map (fcOf g)) = .ok (cls, ex) →
            RunInv g obstacles (l.map (fcOf g)) cls ex (firstHistory (l.map (fcOf g))) →
            clusterLoop g par none fuel cls ex (firstHistory (l.map (fcOf g))) 1 its = some (.ok (.done out m it)) →
            Final g obstacles out := by
          intro l cls ex out it its hp hg hr h
          obtain ⟨m1, m2, _⟩ := mapM_first (g := g) (obstacles := obstacles) l (fun o ho => hp.mem_iff.2 ho)
            (mapM_fcOf ht l fun o ho => hp.mem_iff.2 ho)
          have hp0 : (obstacles.map g.id).Nodup → List.Perm ((l.map (fcOf g)).flatMap (·.obstacles)) obstacles := by
            intro _; rw [m2]; exact hp.symm
          refine clusterLoop_final hs hmax fuel cls ex _ 1 _ hr.hist ?_ ?_ h
          · rintro rfl
            exact ⟨gic_fresh hs m1 hg, fun hid => (gic_perm hs hg).trans (hp0 hid)⟩
          · rintro rfl
            exact gic_final hs m1 hp0 hg
        have f1 := hfin (List.Perm.refl _) hg hr h1
        have f2 := hfin hp hg' hr' h2
        exact ⟨f1, f2, (f1.perm hid).nodup_iff.2 (List.Nodup.of_map _ hid), (f2.perm hid).nodup_iff.2 (List.Nodup.of_map _ hid)⟩
      · simp only [clusterAndStarify, hb, hm, hg, h1]
        exact hr
      · simp only [clusterAndStarify, hb', hm', hg', h2]
        exact hr

/-- **C118, partial.** Obstacles with distinct ids, given in another order, without previous clusters and without `make_convex`: the
same flag, as many iterations, and the same clusters in some order, if the geometry routines do not depend on the order.
Missing: calls with previous clusters (see below), and calls that raise exceptions. -/
theorem C118_partial {look : Star → X} (hf : OrderFree g look) (hs : IsSetList g.setList) (hid : (obstacles.map g.id).Nodup)
    (ht : g.TotalOn obstacles) (par : Params) (hpar : par.makeConvex = false) {obstacles' : List Ob} (hp : obstacles.Perm obstacles')
    (fuel : Nat) (hfuel : obstacles.length ≤ fuel) :
    SameResult look (clusterAndStarify g par none fuel obstacles) (clusterAndStarify g par none fuel obstacles') := by
  rcases call_order hf hs hid ht par hp fuel hfuel with h | ⟨m, out, out', it, it', hv, _, h1, h2⟩
  · exact h
  · have e1 := h1 _ rfl
    have e2 := h2 _ rfl
    simp only [hpar] at e1 e2
    exact ⟨_, _, e1, e2, rfl, rfl, hv⟩

/-- **C118, partial**, with `make_convex`: without iteration limit, and without a time-out in that stage (its clock test names an index). -/
theorem C118_convex_partial {look : Star → X} (hf : OrderFree g look) (hcf : ConvexFree g look) (hs : IsSetList g.setList)
    (hid : (obstacles.map g.id).Nodup) (ht : g.TotalOn obstacles) (htm : ∀ j, g.timeoutConvex j = false) (par : Params)
    (hmax : par.maxIterations = none) {obstacles' : List Ob} (hp : obstacles.Perm obstacles')
    (fuel : Nat) (hfuel : obstacles.length ≤ fuel) :
    SameResult look (clusterAndStarify g par none fuel obstacles) (clusterAndStarify g par none fuel obstacles') := by
  cases hpar : par.makeConvex with
  | false => exact C118_partial hf hs hid ht par hpar hp fuel hfuel
  | true =>
    rcases call_order hf hs hid ht par hp fuel hfuel with h | ⟨m, out, out', it, it', hv, hfin, h1, h2⟩
    · exact h
    · obtain ⟨f1, f2, n1, n2⟩ := hfin hmax
      have hst : ∀ {out : List (Cl Ob Star KP P)}, Final g obstacles out → (out.flatMap (·.obstacles)).Nodup →
          makeConvexLoop g out.length 0 out = .ok (.inr (out.map (convOf g out))) := by
        intro out f n
        refine makeConvex_form out (fun c hc => (f.good c hc).1.star) (fun c hc => ?_) (fun c hc => (f.good c hc).1.nonempty) n htm ht.hull
        rw [(f.good c hc).2, Option.isSome_map]
        exact (f.good c hc).1.star
      have e1 := h1 _ rfl
      have e2 := h2 _ rfl
      rw [hpar, if_pos rfl, hst f1 n1] at e1
      rw [hpar, if_pos rfl, hst f2 n2] at e2
      exact ⟨_, _, e1, e2, rfl, rfl, conv_order hcf hv⟩

/-! ## A concrete geometry -/

/-- Obstacles are numbers, polygons are sets of obstacles: 0 meets 1, and the hull of 0 and 1 meets 2. Hulls add 9. -/
def orderDemo : Geo Nat (Finset Nat) Unit (Finset Nat) where
  id := some
  prim o := {o}
  starPoly := id
  inter p q := decide ((0 ∈ p ∧ 1 ∈ q) ∨ (1 ∈ p ∧ 0 ∈ q) ∨ (0 ∈ p ∧ 1 ∈ p ∧ 2 ∈ q) ∨ (2 ∈ p ∧ 0 ∈ q ∧ 1 ∈ q))
  setList := List.dedup
  timeoutInit _ := false
  timeoutIter _ := false
  timeoutConvex _ := false
  robotFree _ := .ok true
  goalFree _ := .ok true
  exclude _ := .ok ()
  admEmpty _ _ := .ok false
  kernelSel _ _ _ := .ok ()
  firstStar o _ := .ok {o}
  loopStar _ l _ := .ok l.toFinset
  isConvex p := decide (9 ∈ p)
  hullOf p := .ok (insert 9 p)
  blocked _ := false
  hullStar p _ := p

theorem orderDemo_free : OrderFree orderDemo id ∧ ConvexFree orderDemo id ∧ orderDemo.TotalOn [0, 1, 2, 3] := by
  refine ⟨⟨fun p q => ?_, fun s t h => h, fun _ _ _ _ => rfl, fun _ _ _ _ _ => rfl, fun n l l' kp s h hs => ?_⟩, ⟨fun s t h => ?_, fun _ _ _ _ => rfl⟩,
    ⟨fun _ _ => ⟨_, rfl⟩, fun _ _ => ⟨_, rfl⟩, fun _ _ => rfl, fun _ _ _ => ⟨_, rfl⟩, fun _ _ _ => ⟨_, rfl⟩, fun _ _ _ _ _ _ => ⟨_, rfl⟩,
      fun _ _ _ _ _ => ⟨_, rfl⟩, fun _ _ _ _ _ _ _ => ⟨_, rfl⟩, fun _ => ⟨_, rfl⟩⟩⟩
  · simp only [orderDemo, decide_eq_decide]
    tauto
  · refine ⟨s, ?_, rfl⟩
    rw [← hs]
    simp only [orderDemo, List.toFinset_eq_of_perm _ _ h]
  · rw [show s = t from h]

/-- A concrete case of `C118_partial` and `C118_convex_partial`: the obstacles 0, 1, 2 end in one cluster, 3 in another. -/
example : SameResult id (clusterAndStarify orderDemo ⟨none, true, false⟩ none 4 [0, 1, 2, 3]) (clusterAndStarify orderDemo ⟨none, true, false⟩ none 4 [3, 2, 0, 1]) :=
  C118_convex_partial orderDemo_free.1 orderDemo_free.2.1 isSetList_dedup (by decide) orderDemo_free.2.2 (fun _ => rfl) _ rfl (by decide) 4 (by decide)

set_option maxRecDepth 4000 in
example : isOk ([([0, 1, 2], true), ([3], true)], Flag.complete, 3, 4)
      (viewOf (clusterAndStarify orderDemo ⟨none, true, false⟩ none 4 [0, 1, 2, 3])) = true ∧
    isOk ([([3], true), ([2, 1, 0], true)], Flag.complete, 3, 4)
      (viewOf (clusterAndStarify orderDemo ⟨none, true, false⟩ none 4 [3, 2, 1, 0])) = true := by decide +kernel

/-! ## Refutation -/

/-- **C118 is false** with previous clusters: they are found by their names, in which the ids come in the order of the obstacles. The cluster
of 1 and 2 keeps its id 4 if the obstacles are given in the order of the first call; in another order it is not found, and the cluster
obstacle gets a new id. -/
theorem C118_previous_false : isOk ([([1, 2], some (some 4)), ([3], some (some 3))], 4)
      (idView (clusterAndStarifyId (idDemo false) idDemoOwn demoPar true
        (idClusters (clusterAndStarifyId (idDemo false) idDemoOwn demoPar true none 3 [1, 2, 3] 3)) 3 [1, 2, 3] 4)) = true ∧
    isOk ([([2, 1], some (some 5)), ([3], some (some 3))], 5)
      (idView (clusterAndStarifyId { idDemo false with inter := fun p q => (p.contains 1 && q.contains 2) || (p.contains 2 && q.contains 1) }
        idDemoOwn demoPar true
        (idClusters (clusterAndStarifyId (idDemo false) idDemoOwn demoPar true none 3 [1, 2, 3] 3)) 3 [2, 1, 3] 4)) = true := by decide +kernel

end Starworlds
