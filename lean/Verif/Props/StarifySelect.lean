import Verif.Props.Starify
import Verif.Props.KernelPoints
import Mathlib.Analysis.Convex.Topology

/-! # C85: kernel points chosen by `compute_kernel_points` -/

namespace Starworlds

open Real Spec

/-- The points from which some way to `O` leads through `y` are convex. -/
theorem hidden_convex {O : Set (Pt ℝ)} (hO : Convex ℝ O) {y : Pt ℝ} (hy : y ∉ O) : Convex ℝ (freeFrom O y)ᶜ := by
  have key : ∀ k, k ∈ (freeFrom O y)ᶜ ↔ ∃ q ∈ O, ∃ s : ℝ, 0 ≤ s ∧ k = y - s • (q - y) := by
    intro k
    simp only [freeFrom, Set.mem_compl_iff, Set.mem_ofPred_eq, not_forall, not_not]
    constructor
    · rintro ⟨q, hq, r, hr0, hr1, e⟩
      have hr : r ≠ 1 := by
        rintro rfl
        apply hy
        rw [e, one_smul, add_sub_cancel]; exact hq
      have h1 : 0 < 1 - r := by
        rcases hr1.lt_or_eq with h | h
        · linarith
        · exact absurd h hr
      refine ⟨q, hq, r / (1 - r), by positivity, ?_⟩
      have e1 := congrArg Prod.fst e
      have e2 := congrArg Prod.snd e
      simp only [Prod.fst_add, Prod.snd_add, Prod.smul_fst, Prod.smul_snd, Prod.fst_sub, Prod.snd_sub, smul_eq_mul] at e1 e2
      ext
      · simp only [Prod.fst_sub, Prod.smul_fst, smul_eq_mul, e1]; field_simp; ring
      · simp only [Prod.snd_sub, Prod.smul_snd, smul_eq_mul, e2]; field_simp; ring
    · rintro ⟨q, hq, s, hs, rfl⟩
      refine ⟨q, hq, s / (1 + s), by positivity, (div_le_one (by positivity)).2 (by linarith), ?_⟩
      ext
      · simp only [Prod.fst_sub, Prod.fst_add, Prod.smul_fst, smul_eq_mul]; field_simp; ring
      · simp only [Prod.snd_sub, Prod.snd_add, Prod.smul_snd, smul_eq_mul]; field_simp; ring
  intro k1 h1 k2 h2 a b ha hb hab
  rw [key] at *
  obtain ⟨q1, hq1, s1, hs1, rfl⟩ := h1
  obtain ⟨q2, hq2, s2, hs2, rfl⟩ := h2
  have hn : 0 ≤ a * s1 + b * s2 := by positivity
  have hb' : b = 1 - a := by linarith
  rcases hn.eq_or_lt with h0 | h0
  · refine ⟨q1, hq1, 0, le_rfl, ?_⟩
    have i1 : a * s1 = 0 := by nlinarith [mul_nonneg ha hs1, mul_nonneg hb hs2]
    have i2 : b * s2 = 0 := by nlinarith [mul_nonneg ha hs1, mul_nonneg hb hs2]
    subst hb'
    ext
    · simp only [Prod.fst_add, Prod.fst_sub, Prod.smul_fst, smul_eq_mul]
      linear_combination (-(q1.1 - y.1)) * i1 - (q2.1 - y.1) * i2
    · simp only [Prod.snd_add, Prod.snd_sub, Prod.smul_snd, smul_eq_mul]
      linear_combination (-(q1.2 - y.2)) * i1 - (q2.2 - y.2) * i2
  · refine ⟨(a * s1 / (a * s1 + b * s2)) • q1 + (b * s2 / (a * s1 + b * s2)) • q2,
      hO hq1 hq2 (by positivity) (by positivity) (by rw [← add_div, div_self h0.ne']), a * s1 + b * s2, hn, ?_⟩
    have := h0.ne'
    obtain ⟨D, hD⟩ : ∃ D, D = a * s1 + b * s2 := ⟨_, rfl⟩
    rw [← hD] at this ⊢
    ext
    · simp only [Prod.fst_add, Prod.fst_sub, Prod.smul_fst, smul_eq_mul]
      field_simp
      rw [hD, hb']; ring
    · simp only [Prod.snd_add, Prod.snd_sub, Prod.smul_snd, smul_eq_mul]
      field_simp
      rw [hD, hb']; ring

/-- The inner points of the closed region from which `y` is free are such points, for an obstacle with inner points. -/
theorem interior_free {O : Set (Pt ℝ)} (hO : Convex ℝ O) (hi : (interior O).Nonempty) (y : Pt ℝ) :
    interior (closure (freeFrom O y)) ⊆ freeFrom O y := by
  by_cases hy : y ∈ O
  · have : freeFrom O y = ∅ := by
      ext k
      simp only [freeFrom, Set.mem_ofPred_eq, Set.mem_empty_iff_false, iff_false, not_forall, not_not]
      exact ⟨y, hy, 1, by norm_num, le_rfl, by rw [one_smul]; abel⟩
    rw [this]; simp
  · have hc := hidden_convex hO hy
    have hin : (interior (freeFrom O y)ᶜ).Nonempty := by
      obtain ⟨q, hq⟩ := hi
      let f : Pt ℝ → Pt ℝ := fun p => (2 : ℝ) • y - p
      have hf : Continuous f := continuous_const.sub continuous_id
      refine ⟨f q, mem_interior.2 ⟨f ⁻¹' interior O, ?_, isOpen_interior.preimage hf, ?_⟩⟩
      · intro p hp
        simp only [freeFrom, Set.mem_compl_iff, Set.mem_ofPred_eq, not_forall, not_not]
        refine ⟨f p, interior_subset hp, 1 / 2, by norm_num, by norm_num, ?_⟩
        ext
        · simp [f]; ring
        · simp [f]; ring
      · simp only [Set.mem_preimage, f, sub_sub_cancel]; exact hq
    rw [interior_closure_comm hc hin]
    exact fun k hk => by
      by_contra hk'
      exact hk (subset_closure hk')
where
  interior_closure_comm {O : Set (Pt ℝ)} {y : Pt ℝ} (hc : Convex ℝ (freeFrom O y)ᶜ) (hin : (interior (freeFrom O y)ᶜ).Nonempty) :
      interior (closure (freeFrom O y)) = (closure (freeFrom O y)ᶜ)ᶜ := by
    rw [← hc.closure_interior_eq_closure_of_nonempty_interior hin, interior_compl, ← interior_compl, compl_compl]

variable {G : Type}

/-- A triangle with different corners is inside of the selection set. -/
theorem triangle_interior {geo : PolyOps G} {gpts : G → Set (Pt ℝ)} {S : G} (hS : Simple geo gpts S) {c : Pt ℝ} (hc : c ∈ gpts S)
    {eps : ℝ} (he : 0 ≤ eps) {T : Triple} (h : kernelTriangle geo S c eps = .ok T) (hne : T.1 ≠ T.2.1) :
    convexHull ℝ {T.1, T.2.1, T.2.2} ⊆ interior (gpts S) := by
  simp only [kernelTriangle, bind, Except.bind] at h
  cases hb : borderDistance geo S c with
  | error e => rw [hb] at h; simp at h
  | ok d =>
    rw [hb] at h
    simp only [Except.ok.injEq] at h
    obtain ⟨hd, hball⟩ := border_disc hS hc hb
    obtain ⟨_, _, _, _, h5, h6, h7⟩ := C10_centroid_partial c (min eps (0.9 * d)) 0 (Or.inl rfl)
    rw [h] at h5 h6 h7
    set L := min eps (0.9 * d) with hL
    have hL0 : 0 ≤ L := le_min he (by linarith)
    rcases hd.eq_or_lt with hd0 | hd0
    · have hL00 : L = 0 := le_antisymm (by rw [hL, ← hd0]; simp) hL0
      exfalso
      apply hne
      rw [← h, hL00]
      simp [equilateralTriangle]
    · have hs3 : 1 ≤ √3 := by rw [Real.one_le_sqrt]; norm_num
      have hlt : |L| / √3 < d := by
        rw [abs_of_nonneg hL0, div_lt_iff₀ (by linarith)]
        have h1 : L ≤ 0.9 * d := min_le_right _ _
        nlinarith
      have hopen : IsOpen {p : Pt ℝ | √(normSq (p - c)) < d} := by
        refine isOpen_lt ?_ continuous_const
        unfold normSq
        fun_prop
      refine (convexHull_min ?_ (ball_convex c d)).trans (interior_maximal hball hopen)
      rintro p (rfl | rfl | rfl)
      · exact lt_of_eq_of_lt h5 hlt
      · exact lt_of_eq_of_lt h6 hlt
      · exact lt_of_eq_of_lt h7 hlt

/-- C85 (partial), the choice of the kernel points: when the admissible kernel used by `compute_kernel_points` is in the
closed region from which the point `y` is free with respect to an obstacle, at least in an open convex set around the chosen
points, no way from the chosen kernel points to the obstacle leads through `y`. The triangle centre has to be in the selection set (see C63), and the three points have to
differ. -/
theorem C85_select_partial (geo : PolyOps G) (gpts : G → Set (Pt ℝ)) (hg : OpsOk geo gpts) (adm poly ws : G)
    (kernels : Option (List G)) (x xg : Pt ℝ) (eps : ℝ) (he : 0 ≤ eps) (prev : Option (Pt ℝ)) (draws : List (Pt ℝ))
    (clock : Clock) (hS : Simple geo gpts (selectionSet geo adm poly ws kernels)) (T : Triple)
    (h : kernelPoints geo adm poly ws kernels x xg eps prev draws clock = .ok (some T))
    (hc : (1 / 3 : ℝ) • (T.1 + T.2.1 + T.2.2) ∈ gpts (selectionSet geo adm poly ws kernels)) (hne : T.1 ≠ T.2.1)
    (O : Set (Pt ℝ)) (hO : Convex ℝ O) (hi : (interior O).Nonempty) (y : Pt ℝ) (U : Set (Pt ℝ)) (hU : IsOpen U) (hUc : Convex ℝ U)
    (hT : ∀ k ∈ T.points, k ∈ U) (hadm : gpts adm ∩ U ⊆ closure {k | ∀ q ∈ O, ¬ OnSegment k q y}) :
    ∀ k ∈ convexHull ℝ {T.1, T.2.1, T.2.2}, ∀ q ∈ O, ¬ OnSegment k q y := by
  obtain ⟨tc, h1, h2, _⟩ := C63_inside_partial geo gpts hg adm poly ws kernels x xg eps he prev draws clock hS T h
  obtain ⟨tc', h1', h3⟩ := compute_steps h
  rw [h1] at h1'
  simp only [Except.ok.injEq, Option.some.injEq] at h1'
  subst h1'
  rw [h2] at hc
  intro k hk
  have hk' := triangle_interior hS hc he h3 hne hk
  have hkU : k ∈ U := by
    refine convexHull_min ?_ hUc hk
    rintro p (rfl | rfl | rfl)
    · exact hT _ (by simp [Triple.points])
    · exact hT _ (by simp [Triple.points])
    · exact hT _ (by simp [Triple.points])
  have hk2 : k ∈ interior (gpts (selectionSet geo adm poly ws kernels) ∩ U) := by
    rw [interior_inter, hU.interior_eq]; exact ⟨hk', hkU⟩
  exact interior_free hO hi y (interior_mono ((Set.inter_subset_inter_left U (selection_subset hg adm poly ws kernels)).trans hadm) hk2)

/-- What is needed of the inputs and of the shapely answers for a list of obstacles and its kernel points: the
admissible kernel is where the cones of C58 are, at least in an open convex set around the points, the selection set has
no holes and contains the centre. -/
structure SelectInput (cfg : StarCfg) (pts : ConvObs → Set (Pt ℝ)) (geo : PolyOps G) (gpts : G → Set (Pt ℝ)) (U : Set (Pt ℝ))
    (A S : G) (obs : List ConvObs) (T : Triple) : Prop where
  points : ∀ k ∈ T.points, k ∈ U
  robot : ∀ o ∈ obs, gpts A ∩ U ⊆ closure (freeFrom (pts o) cfg.x)
  goal : ∀ o ∈ obs, gpts A ∩ U ⊆ closure (freeFrom (pts o) cfg.xg)
  simple : Simple geo gpts S
  centre : T.mean ∈ gpts S
  tangents : ∀ o ∈ obs, ∀ k ∈ T.points, TangentsOk o.tangentPoints (pts o) k
  position : ∀ o ∈ obs, ∀ tps, T.points.mapM o.tangentPoints = .ok tps →
    GeneralPosition (cfg.unique tps.flatten ++ T.points) ∧ (cfg.unique tps.flatten ++ T.points).length ≤ cfg.hullFuel

theorem gp_append_ne {l : List (Pt ℝ)} {T : Triple} (h : GeneralPosition (l ++ T.points)) : T.1 ≠ T.2.1 := by
  intro he
  have := h l.length (l.length + 1) (l.length + 2) (by simp [Triple.points]) (by simp [Triple.points]) (by simp [Triple.points])
    (by omega) (by omega) (by omega)
  have e1 : (l ++ T.points).getD l.length 0 = T.1 := by simp [Triple.points, List.getD]
  have e2 : (l ++ T.points).getD (l.length + 1) 0 = T.2.1 := by simp [Triple.points, List.getD]
  rw [e1, e2, he] at this
  simp [cross] at this
  norm_num at this

/-- C85 (partial): the same for the kernel points that `compute_kernel_points` chooses. -/
theorem C85_program_partial {cfg : StarCfg} {pts : ConvObs → Set (Pt ℝ)} {par : Params}
    {prev : Option (List (Cl ConvObs ClusterObs Triple (Set (Pt ℝ))))} {fuel : Nat} {obstacles : List ConvObs}
    {r : Res ConvObs ClusterObs Triple (Set (Pt ℝ))} (hs : IsSetList cfg.setList) (hu : IsUnique cfg.unique)
    (hmax : par.maxIterations = none) (hmc : par.makeConvex = false)
    (hO : ∀ o ∈ obstacles, Convex ℝ (pts o) ∧ (interior (pts o)).Nonempty)
    (geo : PolyOps G) (gpts : G → Set (Pt ℝ)) (hg : OpsOk geo gpts) (adm : Nat → List ConvObs → Except PyErr G)
    (poly : List ConvObs → G) (ws : G) (kernelOf : ConvObs → G) (eps : ℝ) (he : 0 ≤ eps)
    (draws : Nat → List ConvObs → List (Pt ℝ)) (clock : Nat → List ConvObs → Clock)
    (hcfg : cfg.select = selectPoints geo adm poly ws kernelOf cfg.x cfg.xg eps draws clock)
    (U : Set (Pt ℝ)) (hU : IsOpen U) (hUc : Convex ℝ U)
    (hin : ∀ c ∈ r.clusters, ∀ n pr A T, (∀ o ∈ c.obstacles, o ∈ obstacles) → adm n c.obstacles = .ok A → c.kernelPoints = some T →
      cfg.select n c.obstacles pr = .ok T →
      SelectInput cfg pts geo gpts U A (selectionSet geo A (poly c.obstacles) ws (some (c.obstacles.map kernelOf))) c.obstacles T)
    (h : clusterAndStarify (starGeo cfg) par prev fuel obstacles = some (.ok r)) (hf : r.flag ≠ .incomplete) :
    (∀ c ∈ r.clusters, ∃ T s, c.kernelPoints = some T ∧ c.star = some s ∧ s.xr = some ((1 / 3 : ℝ) • (T.1 + T.2.1 + T.2.2)) ∧
      (∀ k ∈ convexHull ℝ {T.1, T.2.1, T.2.2}, StarConvex ℝ k (clusterRegion pts s)) ∧
      (1 / 3 : ℝ) • (T.1 + T.2.1 + T.2.2) ∈ clusterRegion pts s ∧
      (∀ o ∈ c.obstacles, pts o ⊆ clusterRegion pts s) ∧ cfg.x ∉ clusterRegion pts s ∧ cfg.xg ∉ clusterRegion pts s) ∧
    ((obstacles.map (·.id)).Nodup → List.Perm (r.clusters.flatMap (·.obstacles)) obstacles) := by
  refine C85_star_partial hs hu hmax hmc (fun o ho => (hO o ho).1) ?_ h hf
  intro c hc n pr T hobs hk hT
  have hin' := fun A => hin c hc n pr A T hobs
  generalize c.obstacles = obs at hobs hT hin' ⊢
  have hT' := hT
  rw [hcfg] at hT'
  simp only [selectPoints, bind, Except.bind] at hT'
  cases hA : adm n obs with
  | error e => rw [hA] at hT'; simp at hT'
  | ok A =>
    rw [hA] at hT'
    simp only at hT'
    have hi := hin' A hA hk hT
    split at hT'
    · simp at hT'
    · rename_i res hres
      split at hT'
      · simp at hT'
      · simp only [Except.ok.injEq] at hT'
        subst hT'
        rename_i T0
        have e : {p | p ∈ (Triple.points T0)} = ({T0.1, T0.2.1, T0.2.2} : Set (Pt ℝ)) := by
          ext p; simp [Triple.points]
        have hfree : ∀ y, (∀ o ∈ obs, gpts A ∩ U ⊆ closure (freeFrom (pts o) y)) → ∀ o ∈ obs, region (Triple.points T0) ⊆ freeFrom (pts o) y := by
          intro y hy o ho k hk
          have hne : T0.1 ≠ T0.2.1 := by
            obtain ⟨tps, htps, _⟩ := tangents_collect (hi.tangents o ho)
            exact gp_append_ne (hi.position o ho tps htps).1
          rw [region, e] at hk
          exact C85_select_partial geo gpts hg A (poly obs) ws _ cfg.x cfg.xg eps he _ _ _ hi.simple T0 hres hi.centre hne (pts o)
            (hO o (hobs o ho)).1 (hO o (hobs o ho)).2 y U hU hUc hi.points (hy o ho) k hk
        exact ⟨hi.tangents, hi.position, hfree _ hi.robot, hfree _ hi.goal⟩

end Starworlds
