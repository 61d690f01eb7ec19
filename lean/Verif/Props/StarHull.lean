import Verif.Props.AdmissibleKernel
import Verif.Props.Hull
import Verif.Props.Combination
import Mathlib.Analysis.Convex.Join

/-! # C59, C60: the starshaped hull -/

namespace Starworlds

open Real Spec

/-! ## The hull of the points -/

theorem wrapNext_lt (pts : List (Pt ℝ)) (p : Nat) (h : 0 < pts.length) : wrapNext pts p < pts.length := by
  unfold wrapNext
  have : ∀ (l : List Nat) (q : Nat), (∀ i ∈ l, i < pts.length) → q < pts.length →
      l.foldl (wrapStep pts p) q < pts.length := by
    intro l
    induction l with
    | nil => intro q _ hq; exact hq
    | cons i l ih =>
      intro q hl hq
      refine ih _ (fun j hj => hl j (List.mem_cons_of_mem _ hj)) ?_
      unfold wrapStep
      split
      · exact hl i List.mem_cons_self
      · exact hq
  exact this _ _ (fun i hi => List.mem_range.1 hi) (Nat.mod_lt _ h)

theorem wrapLoop_lt (pts : List (Pt ℝ)) (l : Nat) (h : 0 < pts.length) : ∀ (fuel p : Nat) (hull : List Nat),
    p < pts.length → wrapLoop pts l fuel p = some hull → ∀ i ∈ hull, i < pts.length
  | 0, _, _, _, e => by simp [wrapLoop] at e
  | fuel + 1, p, hull, hp, e => by
    rw [wrapLoop] at e
    split at e
    · simp only [Option.some.injEq] at e
      subst e
      intro i hi
      rw [List.mem_singleton.1 hi]; exact hp
    · rw [Option.map_eq_some_iff] at e
      obtain ⟨hull', h', rfl⟩ := e
      intro i hi
      rcases List.mem_cons.1 hi with rfl | hi
      · exact hp
      · exact wrapLoop_lt pts l h fuel _ hull' (wrapNext_lt pts p h) h' i hi

/-- The returned vertices are among the given points. -/
theorem hull_subset {pts pol : List (Pt ℝ)} {fuel : Nat} (hn : pts ≠ []) (h : convexHullPts pts fuel = some pol) :
    ∀ p ∈ pol, p ∈ pts := by
  have hn' : 0 < pts.length := List.length_pos_of_ne_nil hn
  simp only [convexHullPts, Option.map_eq_some_iff] at h
  obtain ⟨hull, h, rfl⟩ := h
  intro p hp
  obtain ⟨i, hi, rfl⟩ := List.mem_map.1 hp
  have := wrapLoop_lt pts _ hn' fuel _ hull (leftmost_spec pts hn').1 h i hi
  rw [ptAt, List.getD_eq_getElem _ _ this]
  exact List.getElem_mem _

/-- In general position the polygon of `convex_hull` is the convex hull of the points. -/
theorem hull_region {pts : List (Pt ℝ)} (hn : pts ≠ []) (hg : GeneralPosition pts) {fuel : Nat} (hf : pts.length ≤ fuel) :
    ∃ pol, convexHullPts pts fuel = some pol ∧ region pol = convexHull ℝ {p | p ∈ pts} := by
  obtain ⟨hull, h, _, hlt, _, _, hin⟩ := C12_hull pts hn hg fuel hf
  refine ⟨hull.map (ptAt pts), by rw [convexHullPts, h]; rfl, ?_⟩
  have e : {p | p ∈ hull.map (ptAt pts)} = {p | ∃ j ∈ hull, p = ptAt pts j} := by
    ext p
    simp only [Set.mem_ofPred_eq, List.mem_map]
    constructor
    · rintro ⟨j, hj, rfl⟩; exact ⟨j, hj, rfl⟩
    · rintro ⟨j, hj, rfl⟩; exact ⟨j, hj, rfl⟩
  rw [region, e]
  refine Set.Subset.antisymm (convexHull_mono ?_) (convexHull_min ?_ (convex_convexHull ℝ _))
  · rintro p ⟨j, hj, rfl⟩
    have := hlt j hj
    change ptAt pts j ∈ pts
    rw [ptAt, List.getD_eq_getElem _ _ this]
    exact List.getElem_mem _
  · intro p hp
    obtain ⟨i, hi, rfl⟩ := List.mem_iff_getElem.1 hp
    have := hin i hi
    rwa [ptAt, List.getD_eq_getElem _ _ hi] at this

/-! ## Star-shapedness -/

/-- The points about which a set is star-shaped are convex. -/
theorem kernel_convex (S : Set (Pt ℝ)) : Convex ℝ {k | StarConvex ℝ k S} := by
  intro k1 h1 k2 h2 a b ha hb hab y hy c d hc hd hcd
  simp only [Set.mem_ofPred_eq] at h1 h2
  rcases (add_nonneg (mul_nonneg hc hb) hd).eq_or_lt with h0 | h0
  · have hd0 : d = 0 := by nlinarith [mul_nonneg hc hb]
    have hc1 : c = 1 := by linarith
    have hb0 : b = 0 := by rw [hc1, hd0] at h0; linarith
    have ha1 : a = 1 := by linarith
    subst hd0 hc1 hb0 ha1
    have := h1 hy zero_le_one le_rfl (by ring)
    simpa using this
  · have hne := h0.ne'
    have hz := h2 hy (div_nonneg (mul_nonneg hc hb) h0.le) (div_nonneg hd h0.le) (by rw [← add_div, div_self hne])
    have := h1 hz (mul_nonneg hc ha) h0.le (by
      have : a = 1 - b := by linarith
      rw [this]
      linear_combination hcd)
    have e : c • (a • k1 + b • k2) + d • y =
        (c * a) • k1 + (c * b + d) • ((c * b / (c * b + d)) • k2 + (d / (c * b + d)) • y) := by
      rw [smul_add, smul_add, smul_smul, smul_smul, smul_smul, smul_smul, mul_div_cancel₀ _ hne, mul_div_cancel₀ _ hne,
        add_assoc]
    rw [e]; exact this

/-- A convex obstacle together with a convex set that contains `k` and the points between which the obstacle is seen
from `k` is star-shaped about `k`. -/
theorem star_union {O H : Set (Pt ℝ)} (hO : Convex ℝ O) (hH : Convex ℝ H) {k : Pt ℝ} (hk : k ∈ H)
    (h : k ∈ O ∨ ∃ t ∈ H, ∃ s ∈ H, SeenBetween O k t s) : StarConvex ℝ k (O ∪ H) := by
  have key : ∀ q ∈ O, ∀ r : ℝ, 0 ≤ r → r ≤ 1 → k + r • (q - k) ∈ O ∪ H := by
    intro q hq r hr0 hr1
    rcases h with hkO | ⟨t, htH, s, hsH, hts⟩
    · exact Or.inl (convex_seg hO hkO hq ⟨r, hr0, hr1, rfl⟩)
    by_cases hkO : k ∈ O
    · exact Or.inl (convex_seg hO hkO hq ⟨r, hr0, hr1, rfl⟩)
    -- a point `c` of `O` and of `H` on the way, at `c = k + m (q - k)`
    have split : ∀ m : ℝ, 0 < m → k + m • (q - k) ∈ H → (m < 1 → k + m • (q - k) ∈ O) → k + r • (q - k) ∈ O ∪ H := by
      intro m hm hmH hmO
      rcases le_or_gt r m with hrm | hrm
      · right
        refine convex_seg hH hk hmH ⟨r / m, by positivity, (div_le_one hm).2 hrm, ?_⟩
        rw [add_sub_cancel_left, smul_smul, div_mul_cancel₀ _ hm.ne']
      · left
        have hm1 : m < 1 := lt_of_lt_of_le hrm hr1
        refine convex_seg hO (hmO hm1) hq ⟨(r - m) / (1 - m), div_nonneg (by linarith) (by linarith),
          (div_le_one (by linarith)).2 (by linarith), ?_⟩
        have : (1 : ℝ) - m ≠ 0 := by linarith
        ext
        · simp only [Prod.fst_add, Prod.smul_fst, Prod.fst_sub, smul_eq_mul]; field_simp; ring
        · simp only [Prod.snd_add, Prod.smul_snd, Prod.snd_sub, smul_eq_mul]; field_simp; ring
    have hD0 := hts.right t hts.left_mem
    rcases hD0.eq_or_lt with hD | hD
    · -- the obstacle is on a ray from `k`
      have hs0 : s - k ≠ 0 := by
        intro hz
        rw [sub_eq_zero] at hz
        exact hkO (hz ▸ hts.right_mem)
      obtain ⟨l, hl⟩ := parallel hs0 hD.symm
      have hl0 : 0 < l := by
        by_contra hneg
        exact hkO (opposite_mem hO hts.left_mem hts.right_mem (not_lt.1 hneg) hl)
      have h1 := hts.right q hq
      have h2 := hts.left q hq
      rw [hl, cross_smul, cross_swap] at h2
      have h3 : cross (s - k) (q - k) = 0 := by nlinarith
      obtain ⟨n, hn⟩ := parallel hs0 h3
      have hn0 : 0 < n := by
        by_contra hneg
        exact hkO (opposite_mem hO hq hts.right_mem (not_lt.1 hneg) hn)
      have hs : k + (1 / n) • (q - k) = s := by
        rw [hn, smul_smul, one_div_mul_cancel hn0.ne', one_smul]; abel
      refine split (1 / n) (by positivity) ?_ ?_
      · rw [hs]; exact hsH
      · intro _; rw [hs]; exact hts.right_mem
    · -- the point where the way crosses the segment between the tangent points
      have hv := cramer hD.ne' (q - k)
      set a := cross (q - k) (t - k) / cross (s - k) (t - k) with ha
      set b := cross (s - k) (q - k) / cross (s - k) (t - k) with hb
      have ha0 : 0 ≤ a := div_nonneg (hts.left q hq) hD.le
      have hb0 : 0 ≤ b := div_nonneg (hts.right q hq) hD.le
      have hab : 0 < a + b := by
        rcases (add_nonneg ha0 hb0).eq_or_lt with h0 | h0
        · exfalso
          have e1 : a = 0 := by linarith
          have e2 : b = 0 := by linarith
          rw [e1, e2, zero_smul, zero_smul, add_zero, sub_eq_zero] at hv
          exact hkO (hv ▸ hq)
        · exact h0
      have f1 : q.1 = k.1 + (a * (s.1 - k.1) + b * (t.1 - k.1)) := by
        have := congrArg Prod.fst hv
        simp only [Prod.fst_sub, Prod.fst_add, Prod.smul_fst, smul_eq_mul] at this
        linarith
      have f2 : q.2 = k.2 + (a * (s.2 - k.2) + b * (t.2 - k.2)) := by
        have := congrArg Prod.snd hv
        simp only [Prod.snd_sub, Prod.snd_add, Prod.smul_snd, smul_eq_mul] at this
        linarith
      have hc : k + (1 / (a + b)) • (q - k) = s + (b / (a + b)) • (t - s) := by
        have := hab.ne'
        ext
        · simp only [Prod.fst_sub, Prod.fst_add, Prod.smul_fst, smul_eq_mul, f1]; field_simp; ring
        · simp only [Prod.snd_sub, Prod.snd_add, Prod.smul_snd, smul_eq_mul, f2]; field_simp; ring
      have hseg : OnSegment s t (s + (b / (a + b)) • (t - s)) :=
        ⟨_, div_nonneg hb0 hab.le, (div_le_one hab).2 (by linarith), rfl⟩
      refine split (1 / (a + b)) (by positivity) ?_ ?_
      · rw [hc]; exact convex_seg hH hsH htH hseg
      · intro _; rw [hc]; exact convex_seg hO hts.right_mem hts.left_mem hseg
  rintro q (hq | hq) a b ha hb hab
  · have e : a • k + b • q = k + b • (q - k) := by
      have : a = 1 - b := by linarith
      subst this
      rw [sub_smul, one_smul, smul_sub]; abel
    rw [e]
    exact key q hq b hb (by linarith)
  · exact Or.inr (hH hk hq ha hb hab)

theorem tangents_collect {tp : Pt ℝ → Except PyErr (List (Pt ℝ))} {O : Set (Pt ℝ)} {ks : List (Pt ℝ)}
    (ht : ∀ k ∈ ks, TangentsOk tp O k) : ∃ tps, ks.mapM tp = .ok tps ∧ (∀ p ∈ tps.flatten, p ∈ O) ∧
      ∀ k ∈ ks, k ∉ O → ∃ t ∈ tps.flatten, ∃ s ∈ tps.flatten, SeenBetween O k t s := by
  obtain ⟨tps, h1, h2, _⟩ := mapM_exists tp ks fun k hk => (ht k hk).imp fun L hL => hL.1
  refine ⟨tps, h1, ?_, ?_⟩
  · intro p hp
    obtain ⟨l, hl, hp⟩ := List.mem_flatten.1 hp
    obtain ⟨k, hk, e⟩ := (h2 l).1 hl
    obtain ⟨L, hL, hsub, _⟩ := ht k hk
    rw [hL] at e
    injection e with e
    exact hsub p (e ▸ hp)
  · intro k hk hkO
    obtain ⟨L, hL, _, hex⟩ := ht k hk
    obtain ⟨t, htL, s, hsL, h⟩ := hex hkO
    have hmem := (h2 L).2 ⟨k, hk, hL⟩
    exact ⟨t, List.mem_flatten.2 ⟨L, hmem, htL⟩, s, List.mem_flatten.2 ⟨L, hmem, hsL⟩, h⟩

theorem region_nil : region [] = ∅ := by simp [region]

/-- C59 (partial): for a convex obstacle and kernel points, `convex_kernel_starshaped_hull` returns a polygon whose
union with the obstacle is star-shaped about every convex combination of the kernel points; the polygon contains the
kernel points unless it is empty, in which case the obstacle does. Missing: tangent and kernel points that are not in
general position, for which the hull computation need not finish (`C59_hang_false`). -/
theorem C59_convex_partial (unique : List (Pt ℝ) → List (Pt ℝ)) (hu : IsUnique unique)
    (tp : Pt ℝ → Except PyErr (List (Pt ℝ))) (O : Set (Pt ℝ)) (hO : Convex ℝ O) (ks : List (Pt ℝ))
    (ht : ∀ k ∈ ks, TangentsOk tp O k) (fuel : Nat)
    (hg : ∀ tps, ks.mapM tp = .ok tps →
      GeneralPosition (unique tps.flatten ++ ks) ∧ (unique tps.flatten ++ ks).length ≤ fuel) :
    ∃ pol, convexKernelHull unique tp ks fuel = .ok (some pol) ∧
      (pol ≠ [] → ∀ k ∈ ks, k ∈ region pol) ∧ (pol = [] → ∀ k ∈ ks, k ∈ O) ∧
      ∀ k ∈ region ks, StarConvex ℝ k (O ∪ region pol) := by
  obtain ⟨tps, hm, hsub, hex⟩ := tangents_collect ht
  obtain ⟨hgp, hf⟩ := hg tps hm
  simp only [convexKernelHull, hm, bind, Except.bind]
  cases hfl : tps.flatten with
  | nil =>
    refine ⟨[], rfl, fun h => absurd rfl h, ?_, ?_⟩
    · intro _ k hk
      by_contra hkO
      obtain ⟨t, ht, _⟩ := hex k hk hkO
      rw [hfl] at ht
      simp at ht
    · refine fun k hk => convexHull_min (s := {p | p ∈ ks}) (t := {k | StarConvex ℝ k (O ∪ region [])}) ?_ (kernel_convex _) hk
      intro k hk
      have hkO : k ∈ O := by
        by_contra hkO
        obtain ⟨t, ht, _⟩ := hex k hk hkO
        rw [hfl] at ht
        simp at ht
      rw [Set.mem_ofPred_eq, region_nil, Set.union_empty]
      exact hO.starConvex hkO
  | cons a l =>
    rw [hfl] at hgp hf
    have hne : unique (a :: l) ++ ks ≠ [] := by
      have : a ∈ unique (a :: l) := ((hu _).2 a).2 List.mem_cons_self
      intro h0
      rw [List.append_eq_nil_iff] at h0
      rw [h0.1] at this
      simp at this
    obtain ⟨pol, hpol, hreg⟩ := hull_region hne hgp hf
    have hpts : ∀ p ∈ unique (a :: l) ++ ks, p ∈ region pol := by
      intro p hp
      rw [hreg]
      exact subset_convexHull ℝ _ hp
    have hkr : ∀ k ∈ ks, k ∈ region pol := fun k hk => hpts k (List.mem_append_right _ hk)
    refine ⟨pol, congrArg Except.ok hpol, fun _ => hkr, ?_, ?_⟩
    · rintro rfl
      have : a ∈ region [] := hpts a (List.mem_append_left _ (((hu _).2 a).2 List.mem_cons_self))
      rw [region_nil] at this
      exact absurd this (Set.notMem_empty _)
    · refine fun k hk => convexHull_min (s := {p | p ∈ ks}) (t := {k | StarConvex ℝ k (O ∪ region pol)}) ?_ (kernel_convex _) hk
      intro k hk
      refine star_union hO (convex_convexHull ℝ _) (hkr k hk) ?_
      by_cases hkO : k ∈ O
      · exact Or.inl hkO
      · right
        obtain ⟨t, ht, s, hs, h⟩ := hex k hk hkO
        rw [hfl] at ht hs
        exact ⟨t, hpts t (List.mem_append_left _ (((hu _).2 t).2 ht)), s,
          hpts s (List.mem_append_left _ (((hu _).2 s).2 hs)), h⟩

/-- C59 (partial): for a list of convex obstacles, the union of the obstacles and the hull returned by
`kernel_starshaped_hull` (nothing for None) is star-shaped about every convex combination of the kernel points. -/
theorem C59_list_partial (unique : List (Pt ℝ) → List (Pt ℝ)) (hu : IsUnique unique)
    (obs : List ((Pt ℝ → Except PyErr (List (Pt ℝ))) × Set (Pt ℝ))) (ks : List (Pt ℝ)) (fuel : Nat)
    (hO : ∀ o ∈ obs, Convex ℝ o.2) (ht : ∀ o ∈ obs, ∀ k ∈ ks, TangentsOk o.1 o.2 k)
    (hg : ∀ o ∈ obs, ∀ tps, ks.mapM o.1 = .ok tps →
      GeneralPosition (unique tps.flatten ++ ks) ∧ (unique tps.flatten ++ ks).length ≤ fuel) :
    ∃ r, kernelHull unique (obs.map fun o => .convex o.1) ks fuel = .ok (some r) ∧
      (r = none → ∀ o ∈ obs, ∀ k ∈ ks, k ∈ o.2) ∧
      (∀ pols, r = some pols → ∀ k ∈ ks, k ∈ regions pols) ∧
      ∀ k ∈ region ks, StarConvex ℝ k ({p | ∃ o ∈ obs, p ∈ o.2} ∪ regions (r.getD [])) := by
  have hone : ∀ o ∈ obs, ∃ pol, convexKernelHull unique o.1 ks fuel = .ok (some pol) ∧
      (pol ≠ [] → ∀ k ∈ ks, k ∈ region pol) ∧ (pol = [] → ∀ k ∈ ks, k ∈ o.2) ∧
      ∀ k ∈ region ks, StarConvex ℝ k (o.2 ∪ region pol) := fun o ho =>
    C59_convex_partial unique hu o.1 o.2 (hO o ho) ks (ht o ho) fuel (hg o ho)
  obtain ⟨subs, hs1, hs2, hs3, hs4⟩ := mapM_exists (kernelHullOne unique ks fuel) (obs.map fun o => .convex o.1) (by
    intro a ha
    obtain ⟨o, ho, rfl⟩ := List.mem_map.1 ha
    obtain ⟨pol, hp, _⟩ := hone o ho
    exact ⟨some pol, hp⟩)
  have hmem : ∀ o ∈ obs, ∃ pol, some pol ∈ subs ∧ (pol ≠ [] → ∀ k ∈ ks, k ∈ region pol) ∧ (pol = [] → ∀ k ∈ ks, k ∈ o.2) ∧
      ∀ k ∈ region ks, StarConvex ℝ k (o.2 ∪ region pol) := by
    intro o ho
    obtain ⟨pol, hp, h⟩ := hone o ho
    exact ⟨pol, (hs2 _).2 ⟨.convex o.1, List.mem_map.2 ⟨o, ho, rfl⟩, hp⟩, h⟩
  have hmem' : ∀ s ∈ subs, ∃ o ∈ obs, ∃ pol, s = some pol ∧ (pol ≠ [] → ∀ k ∈ ks, k ∈ region pol) ∧
      (pol = [] → ∀ k ∈ ks, k ∈ o.2) ∧ ∀ k ∈ region ks, StarConvex ℝ k (o.2 ∪ region pol) := by
    intro s hs
    obtain ⟨a, ha, e⟩ := (hs2 s).1 hs
    obtain ⟨o, ho, rfl⟩ := List.mem_map.1 ha
    obtain ⟨pol, hp, h⟩ := hone o ho
    refine ⟨o, ho, pol, ?_, h⟩
    have e' : convexKernelHull unique o.1 ks fuel = .ok s := e
    rw [hp] at e'
    injection e' with e'
    exact e'.symm
  have hnone : subs.any (·.isNone) = false := by
    rw [List.any_eq_false]
    intro s hs
    obtain ⟨o, _, pol, rfl, _⟩ := hmem' s hs
    simp
  simp only [kernelHull, hs1, bind, Except.bind, hnone, Bool.false_eq_true, if_false]
  set pols := subs.filterMap id with hpols
  have hpm : ∀ pol, pol ∈ pols ↔ some pol ∈ subs := by
    intro pol
    simp [hpols, List.mem_filterMap]
  -- star-shapedness for the list of polygons
  have hstar : ∀ k ∈ region ks, StarConvex ℝ k ({p | ∃ o ∈ obs, p ∈ o.2} ∪ regions pols) := by
    intro k hk p hp a b ha hb hab
    have : ∃ o ∈ obs, ∃ pol ∈ pols, p ∈ o.2 ∪ region pol ∧ ∀ k ∈ region ks, StarConvex ℝ k (o.2 ∪ region pol) := by
      rcases hp with ⟨o, ho, hp⟩ | ⟨pol, hpol, hp⟩
      · obtain ⟨pol, hpol, _, _, h⟩ := hmem o ho
        exact ⟨o, ho, pol, (hpm _).2 hpol, Or.inl hp, h⟩
      · obtain ⟨o, ho, pol', e, _, _, h⟩ := hmem' _ ((hpm _).1 hpol)
        injection e with e
        subst e
        exact ⟨o, ho, pol, hpol, Or.inr hp, h⟩
    obtain ⟨o, ho, pol, hpol, hp, h⟩ := this
    rcases h k hk hp ha hb hab with h | h
    · exact Or.inl ⟨o, ho, h⟩
    · exact Or.inr ⟨pol, hpol, h⟩
  split
  · rename_i hall
    refine ⟨none, rfl, ?_, by simp, ?_⟩
    · intro _ o ho
      obtain ⟨pol, hpol, _, h, _⟩ := hmem o ho
      refine h ?_
      have := List.all_eq_true.1 hall pol ((hpm _).2 hpol)
      exact List.isEmpty_iff.1 this
    · have hreg : regions pols = regions [] := by
        ext p
        simp only [regions, Set.mem_ofPred_eq, List.not_mem_nil, false_and, exists_false, iff_false]
        rintro ⟨pol, hpol, hp⟩
        have := List.isEmpty_iff.1 (List.all_eq_true.1 hall pol hpol)
        rw [this, region_nil] at hp
        exact hp
      rw [hreg] at hstar
      exact hstar
  · rename_i hall
    refine ⟨some pols, rfl, by simp, ?_, hstar⟩
    rintro _ ⟨rfl⟩ k hk
    rw [Bool.not_eq_true, List.all_eq_false] at hall
    obtain ⟨pol, hpol, hne⟩ := hall
    obtain ⟨o, ho, pol', e, h, _⟩ := hmem' _ ((hpm _).1 hpol)
    injection e with e
    subst e
    exact ⟨pol, hpol, h (fun h0 => by rw [h0] at hne; simp at hne) k hk⟩

/-- The tangent points of an ellipse are as required, from every point that is inside, on it, or off the band where
the formulas lose precision. -/
theorem C59_ellipse_partial (e : Ell) (h0 : 0 < e.a.1) (h1 : 0 < e.a.2) (p : Pt ℝ) (hb : 1 < ellForm e.a p → OffBand e.a p) :
    Convex ℝ (ellPoints e) ∧ TangentsOk (fun x => e.tangentPoints x .global .global) (ellPoints e) (inFrame e.mm .global p) := by
  refine ⟨ellPoints_convex e, ?_⟩
  rcases le_or_gt (ellForm e.a p) 1 with hp | hp
  · exact ⟨[], C32_empty e h0 h1 .global .global (Or.inl rfl) p hp, by simp, fun h => absurd (mem_ellPoints.2 hp) h⟩
  · obtain ⟨t, s, hts, htp⟩ := C32_points e h0 h1 .global .global (Or.inl rfl) (Or.inl rfl) p hp (hb hp)
    have h := tangentsFrom_seen hts
    rcases htp with htp | htp
    · refine ⟨_, htp, ?_, fun _ => ⟨_, by simp, _, by simp, h⟩⟩
      intro q hq
      simp only [List.mem_cons, List.not_mem_nil, or_false] at hq
      rcases hq with rfl | rfl
      · exact h.left_mem
      · exact h.right_mem
    · refine ⟨_, htp, ?_, fun _ => ⟨inFrame e.mm .global t, by simp, inFrame e.mm .global s, by simp, h⟩⟩
      intro q hq
      simp only [List.mem_cons, List.not_mem_nil, or_false] at hq
      rcases hq with rfl | rfl
      · exact h.right_mem
      · exact h.left_mem

/-- The tangent points of a convex polygon are as required, from every point. -/
theorem C59_polygon (mm : Option Pose) (v : List (Pt ℝ)) (hv : v ≠ []) (k : Pt ℝ) :
    Convex ℝ (polyRegion mm v) ∧ TangentsOk (fun x => polygonTangentPoints mm v x .global .global) (polyRegion mm v) k := by
  refine ⟨polyRegion_convex mm v, ?_⟩
  obtain ⟨x, rfl⟩ := inFrame_surj mm .global (Or.inl rfl) k
  have hmem : ∀ t ∈ v, inFrame mm .global t ∈ polyRegion mm v := fun t ht => mem_polyRegion.2 (subset_convexHull ℝ _ ht)
  by_cases hx : x ∈ convexHull ℝ {p | p ∈ v}
  · have hok : ∃ L, polygonTangentPoints mm v (inFrame mm .global x) .global .global = .ok L := by
      simp only [polygonTangentPoints, transform_to_obstacle mm .global (Or.inl rfl), bind, Except.bind,
        mapM_transform mm .global (Or.inl rfl)]
      exact ⟨_, rfl⟩
    obtain ⟨L, hL⟩ := hok
    refine ⟨L, hL, ?_, fun h => absurd (mem_polyRegion.2 hx) h⟩
    by_cases hLn : L = []
    · simp [hLn]
    · obtain ⟨t, s, rfl, ht, hs, _⟩ := C38_window mm v hv .global .global (Or.inl rfl) (Or.inl rfl) x L hL hLn
      intro q hq
      simp only [List.mem_cons, List.not_mem_nil, or_false] at hq
      rcases hq with rfl | rfl
      · exact hmem t ht
      · exact hmem s hs
  · obtain ⟨t, s, he, ht, hs, h⟩ := polygon_seen mm v hv x hx
    refine ⟨_, he, ?_, fun _ => ⟨_, by simp, _, by simp, h⟩⟩
    intro q hq
    simp only [List.mem_cons, List.not_mem_nil, or_false] at hq
    rcases hq with rfl | rfl
    · exact hmem t ht
    · exact hmem s hs

/-! ### Kernel points on the chord between the tangent points -/

/-- A convex quadrilateral. -/
def kite : Set (Pt ℝ) := convexHull ℝ {p | p ∈ [((-3, 0) : Pt ℝ), (0, -1), (3, 0), (0, 3)]}

/-- Its tangent points from the kernel points below: two of them are inside. -/
noncomputable def kiteTangents (k : Pt ℝ) : Except PyErr (List (Pt ℝ)) := .ok (if k = (0, -3) then [(-3, 0), (3, 0)] else [])

theorem kite_below {q : Pt ℝ} (h : q ∈ kite) : q.1 ≤ q.2 + 3 ∧ -q.1 ≤ q.2 + 3 ∧ -1 ≤ q.2 := by
  have hconv : Convex ℝ {q : Pt ℝ | q.1 ≤ q.2 + 3 ∧ -q.1 ≤ q.2 + 3 ∧ -1 ≤ q.2} := by
    intro a ha b hb r w hr hw hrw
    simp only [Set.mem_ofPred_eq, Prod.fst_add, Prod.smul_fst, Prod.snd_add, Prod.smul_snd, smul_eq_mul] at *
    have : r = 1 - w := by linarith
    subst this
    refine ⟨?_, ?_, ?_⟩ <;> nlinarith
  refine convexHull_min ?_ hconv h
  intro p hp
  simp only [Set.mem_ofPred_eq, List.mem_cons, List.not_mem_nil, or_false] at hp ⊢
  rcases hp with rfl | rfl | rfl | rfl <;> norm_num

theorem kite_axis {r : ℝ} (h1 : -3 ≤ r) (h2 : r ≤ 3) : ((r, 0) : Pt ℝ) ∈ kite := by
  refine convex_seg (convex_convexHull ℝ _) (a := (-3, 0)) (b := (3, 0)) (subset_convexHull ℝ _ (by simp))
    (subset_convexHull ℝ _ (by simp)) ⟨(r + 3) / 6, by linarith, by linarith, ?_⟩
  ext
  · simp only [Prod.fst_add, Prod.smul_fst, Prod.fst_sub, smul_eq_mul]; ring
  · simp

theorem kite_seen : SeenBetween kite (0, -3) (-3, 0) (3, 0) where
  left_mem := kite_axis (by norm_num) (by norm_num)
  right_mem := kite_axis (by norm_num) (by norm_num)
  right q hq := by
    have := kite_below hq
    simp only [cross, Prod.fst_sub, Prod.snd_sub]; linarith
  left q hq := by
    have := kite_below hq
    simp only [cross, Prod.fst_sub, Prod.snd_sub]; linarith

def kiteKernel : List (Pt ℝ) := [(-2, 0), (1, 0), (0, -3)]

theorem kite_ok : ∀ k ∈ kiteKernel, TangentsOk kiteTangents kite k := by
  intro k hk
  simp only [kiteKernel, List.mem_cons, List.not_mem_nil, or_false] at hk
  rcases hk with rfl | rfl | rfl
  · exact ⟨[], by norm_num [kiteTangents], by simp, fun h => absurd (kite_axis (by norm_num) (by norm_num)) h⟩
  · exact ⟨[], by norm_num [kiteTangents], by simp, fun h => absurd (kite_axis (by norm_num) (by norm_num)) h⟩
  · refine ⟨_, by rw [kiteTangents, if_pos rfl], ?_, fun _ => ⟨_, by simp, _, by simp, kite_seen⟩⟩
    intro p hp
    simp only [List.mem_cons, List.not_mem_nil, or_false] at hp
    rcases hp with rfl | rfl
    · exact kite_seen.left_mem
    · exact kite_seen.right_mem

def kitePoints : List (Pt ℝ) := [(-3, 0), (3, 0), (-2, 0), (1, 0), (0, -3)]

theorem kitePoints_next : wrapNext kitePoints 0 = 4 ∧ wrapNext kitePoints 4 = 1 ∧ wrapNext kitePoints 1 = 2 ∧
    wrapNext kitePoints 2 = 4 ∧ leftmost kitePoints = 0 := by
  refine ⟨?_, ?_, ?_, ?_, ?_⟩ <;>
  norm_num [wrapNext, wrapStep, leftmost, leftmostStep, List.range', kitePoints, List.range_succ, ptAt, isCcw, orientationVal, collinearThreshold]

/-- C59 is false when tangent points and kernel points are not in general position: for a convex obstacle with right
tangent points, and three kernel points that are not collinear, two of them in the obstacle on the chord between the
tangent points of the third, the hull computation never finishes. -/
theorem C59_hang_false :
    ∃ (O : Set (Pt ℝ)) (tp : Pt ℝ → Except PyErr (List (Pt ℝ))) (k1 k2 k3 : Pt ℝ), Convex ℝ O ∧
      (∀ k ∈ [k1, k2, k3], TangentsOk tp O k) ∧ cross (k2 - k1) (k3 - k1) ≠ 0 ∧
      ∃ T, (∀ p, p ∈ T ↔ ∃ k ∈ [k1, k2, k3], ∃ L, tp k = .ok L ∧ p ∈ L) ∧
        ∀ unique : List (Pt ℝ) → List (Pt ℝ), unique T = T → ∀ fuel, convexKernelHull unique tp [k1, k2, k3] fuel = .ok none := by
  refine ⟨kite, kiteTangents, (-2, 0), (1, 0), (0, -3), convex_convexHull ℝ _, kite_ok, by norm_num [cross],
    [(-3, 0), (3, 0)], ?_, ?_⟩
  · intro p
    constructor
    · intro hp
      exact ⟨(0, -3), by simp, _, by rw [kiteTangents, if_pos rfl], hp⟩
    · rintro ⟨k, hk, L, hL, hp⟩
      simp only [List.mem_cons, List.not_mem_nil, or_false] at hk
      rcases hk with rfl | rfl | rfl <;> norm_num [kiteTangents] at hL <;> subst hL <;> first | exact hp | simp at hp
  · intro unique hu fuel
    obtain ⟨h0, h4, h1, h2, hl⟩ := kitePoints_next
    have hloop : ∀ fuel p, (p = 4 ∨ p = 1 ∨ p = 2) → wrapLoop kitePoints 0 fuel p = none := by
      intro fuel
      induction fuel with
      | zero => intro p _; rfl
      | succ fuel ih =>
        rintro p (rfl | rfl | rfl)
        · rw [wrapLoop]; simp only [h4]; simp [ih 1 (by simp)]
        · rw [wrapLoop]; simp only [h1]; simp [ih 2 (by simp)]
        · rw [wrapLoop]; simp only [h2]; simp [ih 4 (by simp)]
    have hm : [((-2, 0) : Pt ℝ), (1, 0), (0, -3)].mapM kiteTangents = .ok [[], [], [(-3, 0), (3, 0)]] := by
      have e1 : kiteTangents (-2, 0) = .ok [] := by norm_num [kiteTangents]
      have e2 : kiteTangents (1, 0) = .ok [] := by norm_num [kiteTangents]
      have e3 : kiteTangents (0, -3) = .ok [(-3, 0), (3, 0)] := by rw [kiteTangents, if_pos rfl]
      simp only [List.mapM_cons, List.mapM_nil, e1, e2, e3, bind, Except.bind, pure, Except.pure]
    have hw : convexHullPts kitePoints fuel = none := by
      rw [convexHullPts, convexHullIdx, hl]
      cases fuel with
      | zero => rfl
      | succ fuel => rw [wrapLoop]; simp only [h0]; simp [hloop fuel 4 (by simp)]
    simp only [convexKernelHull, hm, bind, Except.bind]
    exact congrArg Except.ok (by simpa [hu, kitePoints] using hw)

/-! ## C60 -/

/-- The vertices of the returned polygon are points of the obstacle or kernel points. -/
theorem hull_vertices {unique : List (Pt ℝ) → List (Pt ℝ)} (hu : IsUnique unique)
    {tp : Pt ℝ → Except PyErr (List (Pt ℝ))} {O : Set (Pt ℝ)} {ks : List (Pt ℝ)}
    (ht : ∀ k ∈ ks, TangentsOk tp O k) {fuel : Nat} {pol : List (Pt ℝ)}
    (h : convexKernelHull unique tp ks fuel = .ok (some pol)) : ∀ p ∈ pol, p ∈ O ∨ p ∈ ks := by
  obtain ⟨tps, hm, hsub, _⟩ := tangents_collect ht
  simp only [convexKernelHull, hm, bind, Except.bind] at h
  cases hfl : tps.flatten with
  | nil =>
    rw [hfl] at h
    simp only [Except.ok.injEq, Option.some.injEq] at h
    subst h
    simp
  | cons a l =>
    rw [hfl] at h
    simp only [Except.ok.injEq] at h
    have hne : unique (a :: l) ++ ks ≠ [] := by
      have : a ∈ unique (a :: l) := ((hu _).2 a).2 List.mem_cons_self
      intro h0
      rw [List.append_eq_nil_iff] at h0
      rw [h0.1] at this
      simp at this
    intro p hp
    rcases List.mem_append.1 (hull_subset hne h p hp) with hp | hp
    · exact Or.inl (hsub p (by rw [hfl]; exact ((hu _).2 p).1 hp))
    · exact Or.inr hp

/-- C60 (partial): if the convex hull of the kernel points lies in the admissible kernel of `x` (off its border by the
threshold of the orientation test), then `x` is neither in the obstacle nor in the hull polygon, whenever the hull
computation finishes. Missing: kernel points on the border (`C60_border_false`). -/
theorem C60_free_partial (unique : List (Pt ℝ) → List (Pt ℝ)) (hu : IsUnique unique)
    (tp : Pt ℝ → Except PyErr (List (Pt ℝ))) (O : Set (Pt ℝ)) (hO : Convex ℝ O) (ks : List (Pt ℝ))
    (ht : ∀ k ∈ ks, TangentsOk tp O k) (x t s : Pt ℝ) (hx : x ∉ O) (htp : tp x = .ok [t, s]) (hseen : SeenBetween O x t s)
    (hadm : ∀ k ∈ region ks, (∃ c, admissibleKernel tp x = .ok (some c) ∧ c.pointInCone k = true) ∧
      1 / 10 ^ 10 < |cross (x - t) (k - x)| ∧ 1 / 10 ^ 10 < |cross (x - s) (k - x)|)
    (fuel : Nat) (pol : List (Pt ℝ)) (h : convexKernelHull unique tp ks fuel = .ok (some pol)) :
    x ∉ O ∪ region pol := by
  rintro (hxO | hxp)
  · exact hx hxO
  have hsub : {p | p ∈ pol} ⊆ O ∪ region ks := by
    intro p hp
    rcases hull_vertices hu ht h p hp with hp | hp
    · exact Or.inl hp
    · exact Or.inr (subset_convexHull ℝ _ hp)
  have hsee : ∀ k ∈ region ks, ∀ q ∈ O, ¬ OnSegment k q x := by
    intro k hk
    obtain ⟨⟨c, hc, hck⟩, h1, h2⟩ := hadm k hk
    obtain ⟨c', hc', hs⟩ := C58_sound_partial tp O x t s hx htp hseen k h1 h2
    rw [hc] at hc'
    simp only [Except.ok.injEq, Option.some.injEq] at hc'
    exact hs (hc' ▸ hck)
  have hxU := convexHull_mono hsub hxp
  by_cases hkn : (region ks).Nonempty
  · have hcu := Convex.convexHull_union (s := O) (t := region ks) hO (convex_convexHull ℝ _) ⟨t, hseen.left_mem⟩ hkn
    rw [hcu, mem_convexJoin] at hxU
    obtain ⟨o, ho, k, hk, hseg⟩ := hxU
    obtain ⟨a, b, ha, hb, hab, e⟩ := hseg
    refine hsee k hk o ho ⟨a, ha, by linarith, ?_⟩
    rw [← e]
    have : b = 1 - a := by linarith
    rw [this, sub_smul, one_smul, smul_sub]; abel
  · rw [Set.not_nonempty_iff_eq_empty.1 hkn, Set.union_empty, hO.convexHull_eq] at hxU
    exact hx hxU

/-- C60 (partial): the same for a list of obstacles and the union of their hulls. -/
theorem C60_list_partial (unique : List (Pt ℝ) → List (Pt ℝ)) (hu : IsUnique unique)
    (obs : List ((Pt ℝ → Except PyErr (List (Pt ℝ))) × Set (Pt ℝ))) (ks : List (Pt ℝ))
    (hO : ∀ o ∈ obs, Convex ℝ o.2) (ht : ∀ o ∈ obs, ∀ k ∈ ks, TangentsOk o.1 o.2 k) (x : Pt ℝ)
    (hx : ∀ o ∈ obs, x ∉ o.2)
    (hadm : ∀ o ∈ obs, ∃ t s, o.1 x = .ok [t, s] ∧ SeenBetween o.2 x t s ∧
      ∀ k ∈ region ks, (∃ c, admissibleKernel o.1 x = .ok (some c) ∧ c.pointInCone k = true) ∧
        1 / 10 ^ 10 < |cross (x - t) (k - x)| ∧ 1 / 10 ^ 10 < |cross (x - s) (k - x)|)
    (fuel : Nat) (pols : List (List (Pt ℝ)))
    (h : kernelHull unique (obs.map fun o => .convex o.1) ks fuel = .ok (some (some pols))) :
    x ∉ {p | ∃ o ∈ obs, p ∈ o.2} ∪ regions pols := by
  rintro (⟨o, ho, hxo⟩ | ⟨pol, hpol, hxp⟩)
  · exact hx o ho hxo
  simp only [kernelHull, bind, Except.bind] at h
  cases hm : (obs.map fun o => HullObs.convex o.1).mapM (kernelHullOne unique ks fuel) with
  | error e => rw [hm] at h; simp at h
  | ok subs =>
    rw [hm] at h
    simp only at h
    split at h
    · simp at h
    · split at h
      · simp at h
      · simp only [Except.ok.injEq, Option.some.injEq] at h
        subst h
        have hps : some pol ∈ subs := by simpa [List.mem_filterMap] using hpol
        obtain ⟨subs', hs1, hs2, _⟩ := mapM_exists (kernelHullOne unique ks fuel) (obs.map fun o => .convex o.1)
          (mapM_error _ _ ⟨subs, hm⟩)
        rw [hm] at hs1
        simp only [Except.ok.injEq] at hs1
        subst hs1
        obtain ⟨a, ha, e⟩ := (hs2 _).1 hps
        obtain ⟨o, ho, rfl⟩ := List.mem_map.1 ha
        obtain ⟨t, s, htp, hseen, hk⟩ := hadm o ho
        exact C60_free_partial unique hu o.1 o.2 (hO o ho) ks (ht o ho) x t s (hx o ho) htp hseen hk fuel pol e (Or.inr hxp)

/-- The hull points of the box from 1 to 2 and the kernel point (-1, -1). -/
theorem nearBox_corner (unique : List (Pt ℝ) → List (Pt ℝ)) (hu : IsUnique unique) :
    ∃ s, polygonTangentPoints none nearBox (-1, -1) .global .global = .ok [(1, 1), s] ∧
      GeneralPosition (unique [(1, 1), s] ++ [(-1, -1)]) ∧ (unique [(1, 1), s] ++ [(-1, -1)]).length ≤ 10 := by
  have e : ∀ p : Pt ℝ, inFrame none .global p = p := fun p => rfl
  obtain ⟨t, s, h1, ht, hs, h2⟩ := polygon_seen none nearBox (by simp [nearBox]) (-1, -1) (fun h => by
    have := nearBox_right _ h
    norm_num at this)
  simp only [e] at h1 h2
  have m : ∀ p ∈ nearBox, p ∈ polyRegion none nearBox := fun p hp => ⟨p, subset_convexHull ℝ _ hp, rfl⟩
  have r1 := h2.left (1, 1) (m _ (by simp [nearBox]))
  have r2 := h2.right (1, -1) (m _ (by simp [nearBox]))
  have ht' : t = (1, 1) := by
    simp only [nearBox, List.mem_cons, List.not_mem_nil, or_false] at ht
    rcases ht with rfl | rfl | rfl | rfl <;> first | rfl | (exfalso; norm_num [cross] at r1)
  have hs' : s.2 = -1 ∧ 1 ≤ s.1 := by
    simp only [nearBox, List.mem_cons, List.not_mem_nil, or_false] at hs
    rcases hs with rfl | rfl | rfl | rfl <;> first | (constructor <;> norm_num; done) | (exfalso; norm_num [cross] at r2)
  subst ht'
  have hne : s ≠ (1, 1) := by
    rintro rfl
    norm_num at hs'
  have hT : unique [(1, 1), s] = [(1, 1), s] ∨ unique [(1, 1), s] = [s, (1, 1)] := by
    have hp : (unique [(1, 1), s]).Perm [(1, 1), s] :=
      (List.perm_ext_iff_of_nodup (hu _).1 (by simp [hne.symm])).2 (hu _).2
    generalize unique [(1, 1), s] = l at hp
    match l, hp.length_eq, hp with
    | [a, b], _, hp =>
      have ha : a ∈ [(1, 1), s] := hp.subset (by simp)
      have hb : b ∈ [(1, 1), s] := hp.subset (by simp)
      have hab : a ≠ b := by
        have := hp.nodup_iff.2 (by simp [hne.symm])
        simpa using this
      simp only [List.mem_cons, List.not_mem_nil, or_false] at ha hb
      rcases ha with rfl | rfl <;> rcases hb with rfl | rfl <;> simp at hab ⊢
  have hgp : GeneralPosition (unique [(1, 1), s] ++ [(-1, -1)]) := by
    obtain ⟨hs1, hs2⟩ := hs'
    intro i j k hi hj hk hij hjk hik
    have key : (1 : ℝ) / 10 ^ 10 < |2 * (s.1 + 1)| := by
      rw [abs_of_pos (by linarith)]
      norm_num
      linarith
    have hlen : (unique [(1, 1), s] ++ [(-1, -1)]).length = 3 := by rcases hT with h | h <;> rw [h] <;> rfl
    rw [hlen] at hi hj hk
    rcases hT with h | h <;> rw [h] <;> interval_cases i <;> interval_cases j <;> interval_cases k <;>
    first
    | omega
    | (refine lt_of_lt_of_eq key ?_
       simp only [List.cons_append, List.nil_append, List.getD_cons_zero, List.getD_cons_succ, cross, Prod.fst_sub,
         Prod.snd_sub, hs1]
       first
       | (congr 1; ring1)
       | (rw [← abs_neg]; congr 1; ring1))
  exact ⟨s, h1, hgp, by rcases hT with h | h <;> rw [h] <;> simp⟩

/-- C60 is false for kernel points on the border of the admissible kernel: with the box from 1 to 2 seen from the
origin, (-1, -1) is in the admissible kernel, but the origin is in the hull. -/
theorem C60_border_false (unique : List (Pt ℝ) → List (Pt ℝ)) (hu : IsUnique unique) :
    (0 : Pt ℝ) ∉ polyRegion none nearBox ∧
      (∃ c, admissibleKernel (fun x => polygonTangentPoints none nearBox x .global .global) 0 = .ok (some c) ∧
        c.pointInCone (-1, -1) = true) ∧
      ∃ pol, convexKernelHull unique (fun x => polygonTangentPoints none nearBox x .global .global) [(-1, -1)] 10 =
        .ok (some pol) ∧ 0 ∈ region pol := by
  have e : ∀ p : Pt ℝ, inFrame none .global p = p := fun p => rfl
  refine ⟨?_, (C58_boundary_false).imp fun c h => ⟨h.1, h.2.1⟩, ?_⟩
  · rintro ⟨q, hq, h⟩
    have := nearBox_right q hq
    rw [e] at h
    rw [← h] at this
    norm_num at this
  · obtain ⟨s, h1, hgp, hf⟩ := nearBox_corner unique hu
    have hne' : unique [(1, 1), s] ++ [((-1, -1) : Pt ℝ)] ≠ [] := by simp
    obtain ⟨pol, hpol, hreg⟩ := hull_region hne' hgp hf
    refine ⟨pol, ?_, ?_⟩
    · simp only [convexKernelHull, List.mapM_cons, List.mapM_nil, h1, bind, Except.bind, pure, Except.pure]
      exact congrArg Except.ok (by simpa using hpol)
    · rw [hreg]
      refine convex_seg (convex_convexHull ℝ _) (a := (-1, -1)) (b := (1, 1)) (subset_convexHull ℝ _ (by simp))
        (subset_convexHull ℝ _ ?_) ⟨1 / 2, by norm_num, by norm_num, ?_⟩
      · refine List.mem_append_left _ (((hu _).2 _).2 (by simp))
      · ext <;> norm_num

/-! ## Examples -/

/-- The box and the kernel point (-1, -1): the hull contains the kernel point, and sees the whole of the box. -/
example (unique : List (Pt ℝ) → List (Pt ℝ)) (hu : IsUnique unique) :
    ∃ pol, convexKernelHull unique (fun x => polygonTangentPoints none nearBox x .global .global) [(-1, -1)] 10 =
      .ok (some pol) ∧ pol ≠ [] ∧ StarConvex ℝ (-1, -1) (polyRegion none nearBox ∪ region pol) := by
  obtain ⟨s, h1, hgp, hf⟩ := nearBox_corner unique hu
  obtain ⟨pol, h, _, hnil, hstar⟩ := C59_convex_partial unique hu
    (fun x => polygonTangentPoints none nearBox x .global .global) (polyRegion none nearBox) (polyRegion_convex _ _)
    [(-1, -1)] (fun k _ => (C59_polygon none nearBox (by simp [nearBox]) k).2) 10 (by
      intro tps htps
      simp only [List.mapM_cons, List.mapM_nil, h1, bind, Except.bind, pure, Except.pure, Except.ok.injEq] at htps
      subst htps
      exact ⟨hgp, hf⟩)
  refine ⟨pol, h, fun h0 => ?_, hstar _ (subset_convexHull ℝ _ (by simp))⟩
  obtain ⟨q, hq, hq'⟩ := hnil h0 (-1, -1) (by simp)
  have := nearBox_right q hq
  rw [show q = (-1, -1) from hq'.symm] at this
  norm_num at this

/-- The box and the kernel point (0, 5): the hull does not reach the origin. -/
example (unique : List (Pt ℝ) → List (Pt ℝ)) (hu : IsUnique unique) (fuel : Nat) (pol : List (Pt ℝ))
    (h : convexKernelHull unique (fun x => polygonTangentPoints none nearBox x .global .global) [(0, 5)] fuel =
      .ok (some pol)) : 0 ∉ polyRegion none nearBox ∪ region pol := by
  have hx : (0 : Pt ℝ) ∉ convexHull ℝ {p | p ∈ nearBox} := fun h => by
    have := nearBox_right _ h
    norm_num at this
  obtain ⟨t, s, h1, ht, hs, h2⟩ := polygon_seen none nearBox (by simp [nearBox]) 0 hx
  have h3 : polygonTangentPoints none nearBox 0 .global .global =
    .ok [inFrame none .global t, inFrame none .global s] := h1
  rw [nearBox_tangents] at h3
  simp only [Except.ok.injEq, List.cons.injEq, and_true] at h3
  rw [← h3.1, ← h3.2] at h2
  refine C60_free_partial unique hu _ _ (polyRegion_convex _ _) [(0, 5)]
    (fun k _ => (C59_polygon none nearBox (by simp [nearBox]) k).2) 0 (1, 1) (1, -1)
    (fun h => hx (by obtain ⟨q, hq, hq'⟩ := h; rw [show (0 : Pt ℝ) = q from hq']; exact hq)) nearBox_tangents h2 ?_ fuel pol h
  intro k hk
  have hk' : k = (0, 5) := by simpa [region] using hk
  subst hk'
  refine ⟨⟨⟨0, 0 - (1, 1), 0 - (1, -1)⟩, by simp only [admissibleKernel, nearBox_tangents, bind, Except.bind], ?_⟩, ?_, ?_⟩ <;>
  norm_num [Cone.pointInCone, Cone.isConvex, Cone.ray1, Cone.ray2, isCcw, isCw, orientationVal, collinearThreshold, cross]

end Starworlds
