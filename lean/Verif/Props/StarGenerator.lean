import Verif.Props.RandomPolygon
import Verif.Proofs.StarKernel
import Verif.Spec.StarHull

/-! # C107: `generate_star_polygon` makes star-shaped polygons -/

namespace Starworlds

open Real Spec Finset

theorem sum_range_getD (l : List ℝ) : ∑ j ∈ range l.length, l.getD j 0 = l.sum := by
  induction l with
  | nil => simp
  | cons a l ih =>
    rw [List.length_cons, sum_range_succ', List.sum_cons, ← ih, add_comm]
    simp

/-- The centre sees all of a polygon that is star-shaped about it. -/
theorem centre_sees {c : Pt ℝ} {v : List (Pt ℝ)} (h : StarAbout c v) : c ∈ visKernel (filled v) := by
  rw [star_kernel h]
  intro i hi
  have := (star_sectors h).pos i hi
  have e : cross (corner v (i + 1) - corner v i) (c - corner v i) = cross (corner v i - c) (corner v (i + 1) - c) := by
    simp only [cross, Prod.fst_sub, Prod.snd_sub]; ring
  rw [e]; exact this.le

/-- **C107, partial.** If all angle steps are positive and less than a half turn and no radius is clipped to zero, the polygon is
star-shaped about the centre, with the vertices in counter-clockwise order. -/
theorem C107_steps_partial (center : Pt ℝ) (avg irr spik : ℝ) (us normals : List ℝ) (a0 : ℝ) (havg : 0 < avg)
    (hi : 0 ≤ irr ∧ irr ≤ 1) (hsp : 0 ≤ spik ∧ spik ≤ 1) (hlen : normals.length = us.length) (hnorm : ∀ r ∈ normals, 0 < r)
    (steps : List ℝ) (hst : randomAngleSteps us (irr * (2 * π / us.length)) = .ok steps) (hpos : ∀ a ∈ steps, 0 < a ∧ a < π) :
    ∃ ps, generateStarPolygon center avg irr spik us normals a0 = .ok ps ∧ ps.length = us.length ∧ StarAbout center ps ∧
      center ∈ visKernel (filled ps) := by
  have hl : us.length ≠ 0 := by
    intro h
    unfold randomAngleSteps at hst
    rw [if_pos h] at hst; cases hst
  have hsl : steps.length = us.length ∧ steps.sum = 2 * π := by
    unfold randomAngleSteps at hst
    rw [if_neg hl] at hst
    simp only [] at hst
    split at hst
    · cases hst
    · rename_i h0
      injection hst with hst
      rw [← hst]
      refine ⟨by simp, ?_⟩
      have hs : ∀ (l : List ℝ) (k : ℝ), (l.map (· / k)).sum = l.sum / k := by
        intro l k
        induction l with
        | nil => simp
        | cons a l ih => simp [ih, add_div]
      rw [hs]
      have key : ∀ S : ℝ, S / (2 * π) ≠ 0 → S / (S / (2 * π)) = 2 * π := by
        intro S h
        have h1 : S ≠ 0 := by rintro rfl; simp at h
        have := pi_pos.ne'
        field_simp
      exact key _ h0
  obtain ⟨gl, gg⟩ := starPoints_get center avg (normals.zip steps) a0
  have zl : (normals.zip steps).length = us.length := by simp [hlen, hsl.1]
  have pl : (starPoints center avg a0 (normals.zip steps)).length = us.length := by rw [gl, zl]
  have hstar : StarAbout center (starPoints center avg a0 (normals.zip steps)) := by
    refine ⟨fun i => a0 + ∑ j ∈ range i, steps.getD j 0, ?_, ?_, ?_⟩
    · intro i hi'
      rw [pl] at hi'
      have e : corner (starPoints center avg a0 (normals.zip steps)) i =
          center + clip (normals[i]'(by omega)) 0 (2 * avg) • ((cos (a0 + ∑ j ∈ range i, steps.getD j 0), sin (a0 + ∑ j ∈ range i, steps.getD j 0)) : Pt ℝ) := by
        have : ∀ j ∈ range i, ((normals.zip steps).getD j 0).2 = steps.getD j 0 := by
          intro j hj
          rw [mem_range] at hj
          rw [List.getD_eq_getElem _ _ (by omega), List.getD_eq_getElem _ _ (by omega), List.getElem_zip]
        rw [corner, pl, Nat.mod_eq_of_lt hi', List.getD_eq_getElem _ _ (by omega), gg i (by omega) (by omega), sum_congr rfl this]
        ext <;> simp
      have hr : 0 < clip (normals[i]'(by omega)) 0 (2 * avg) :=
        lt_min (lt_max_of_lt_left (hnorm _ (List.getElem_mem _))) (by linarith)
      refine ⟨⟨_, hr.le, e⟩, fun h => ?_⟩
      rw [e] at h
      have h := add_eq_left.1 h
      have c0 := congrArg Prod.fst h
      have s0 := congrArg Prod.snd h
      simp only [Prod.smul_fst, Prod.smul_snd, smul_eq_mul, Prod.fst_zero, Prod.snd_zero, mul_eq_zero, hr.ne', false_or] at c0 s0
      have := sin_sq_add_cos_sq (a0 + ∑ j ∈ range i, steps.getD j 0)
      rw [c0, s0] at this
      norm_num at this
    · intro i hi'
      rw [pl] at hi'
      have := hpos (steps.getD i 0) (by rw [List.getD_eq_getElem _ _ (by omega)]; exact List.getElem_mem _)
      simp only [sum_range_succ]
      constructor <;> linarith
    · simp only [pl, ← hsl.1, sum_range_getD, hsl.2, range_zero, sum_empty, add_zero]
  refine ⟨_, ?_, pl, hstar, centre_sees hstar⟩
  unfold generateStarPolygon
  rw [if_neg (by push Not; exact hi), if_neg (by push Not; exact hsp), if_neg hl, hst]

theorem sum_lower {m : ℝ} : ∀ {l : List ℝ}, (∀ x ∈ l, m ≤ x) → (l.length : ℝ) * m ≤ l.sum
  | [], _ => by simp
  | a :: l, h => by
    have h1 := sum_lower (l := l) fun x hx => h x (by simp [hx])
    have h2 := h a (by simp)
    simp only [List.length_cons, List.sum_cons]
    push_cast
    linarith

theorem sum_lower_mem {m : ℝ} : ∀ {l : List ℝ}, (∀ x ∈ l, m ≤ x) → ∀ a ∈ l, a + ((l.length : ℝ) - 1) * m ≤ l.sum
  | [], _, a, ha => by simp at ha
  | b :: l, h, a, ha => by
    simp only [List.length_cons, List.sum_cons]
    push_cast
    rcases List.mem_cons.1 ha with rfl | ha
    · have := sum_lower (l := l) fun x hx => h x (by simp [hx])
      linarith
    · have h1 := sum_lower_mem (l := l) (fun x hx => h x (by simp [hx])) a ha
      have h2 := h b (by simp)
      linarith

/-- With little irregularity all steps are less than a half turn, for all draws. -/
theorem steps_small (us : List ℝ) (irr : ℝ) (h0 : 0 ≤ irr) (h1 : irr < 1) (hn : 1 + irr < (us.length - 1) * (1 - irr))
    (hu : ∀ u ∈ us, 0 ≤ u ∧ u ≤ 1) :
    ∃ steps, randomAngleSteps us (irr * (2 * π / us.length)) = .ok steps ∧ ∀ a ∈ steps, 0 < a ∧ a < π := by
  have hne : us ≠ [] := by
    rintro rfl
    simp only [List.length_nil] at hn
    push_cast at hn
    nlinarith
  have hl : us.length ≠ 0 := by simpa using hne
  have hlp : (0 : ℝ) < us.length := by exact_mod_cast Nat.pos_of_ne_zero hl
  set L : ℝ := 2 * π / us.length with hL
  have hLp : 0 < L := by positivity
  obtain ⟨steps, e, _, _, hp⟩ := C19_positive us (irr * L) hne (by positivity) (by rw [← hL]; nlinarith) hu
  refine ⟨steps, e, fun a ha => ⟨hp a ha, ?_⟩⟩
  unfold randomAngleSteps at e
  rw [if_neg hl] at e
  set f := fun u : ℝ => L - irr * L + 2 * (irr * L) * u with hf
  have e' : (us.map fun u => 2 * π / us.length - irr * L + (2 * π / us.length + irr * L - (2 * π / us.length - irr * L)) * u)
      = us.map f := by
    apply List.map_congr_left; intro u _; simp only [hf, hL]; ring
  simp only [e'] at e
  split at e
  · cases e
  injection e with e
  rw [← e, List.map_map, List.mem_map] at ha
  obtain ⟨u, hu', rfl⟩ := ha
  have hlow : ∀ x ∈ us.map f, L * (1 - irr) ≤ x := by
    intro x hx
    obtain ⟨w, hw, rfl⟩ := List.mem_map.1 hx
    have := (hu w hw).1
    have : 0 ≤ 2 * (irr * L) * w := by positivity
    simp only [hf]; linarith
  have hs := sum_lower_mem hlow (f u) (List.mem_map_of_mem hu')
  rw [List.length_map] at hs
  have hfu : f u ≤ L * (1 + irr) := by
    have := (hu u hu').2
    have : 2 * (irr * L) * u ≤ 2 * (irr * L) * 1 := mul_le_mul_of_nonneg_left this (by positivity)
    simp only [hf]; linarith
  have hfp : 0 < f u := lt_of_lt_of_le (mul_pos hLp (by linarith)) (hlow _ (List.mem_map_of_mem hu'))
  have key : 2 * f u < (us.map f).sum := by
    have : L * (1 + irr) < ((us.length : ℝ) - 1) * (L * (1 - irr)) := by nlinarith
    linarith
  have hsp : 0 < (us.map f).sum := by linarith
  simp only [Function.comp]
  rw [div_div_eq_mul_div, div_lt_iff₀ hsp]
  nlinarith [pi_pos]

/-- **C107, partial.** If `1 + irregularity < (num_vertices - 1) * (1 - irregularity)`, the polygon is star-shaped about the centre for all
draws in which no radius is clipped to zero. -/
theorem C107_partial (center : Pt ℝ) (avg irr spik : ℝ) (us normals : List ℝ) (a0 : ℝ) (havg : 0 < avg) (hi : 0 ≤ irr ∧ irr < 1)
    (hsp : 0 ≤ spik ∧ spik ≤ 1) (hn : 1 + irr < (us.length - 1) * (1 - irr)) (hu : ∀ u ∈ us, 0 ≤ u ∧ u ≤ 1)
    (hlen : normals.length = us.length) (hnorm : ∀ r ∈ normals, 0 < r) :
    ∃ ps, generateStarPolygon center avg irr spik us normals a0 = .ok ps ∧ ps.length = us.length ∧ StarAbout center ps ∧
      center ∈ visKernel (filled ps) := by
  obtain ⟨steps, h1, h2⟩ := steps_small us irr hi.1 hi.2 hn hu
  exact C107_steps_partial center avg irr spik us normals a0 havg ⟨hi.1, hi.2.le⟩ hsp hlen hnorm steps h1 h2

/-- A concrete case of `C107_partial`, with the parameters of tests/test_obstacles.py:45: ten vertices and irregularity 0.3. -/
example (us normals : List ℝ) (hl : us.length = 10) (hl' : normals.length = 10) (hu : ∀ u ∈ us, 0 ≤ u ∧ u ≤ 1) (hnorm : ∀ r ∈ normals, 0 < r) :
    ∃ ps, generateStarPolygon (0, 0) 1 (3 / 10) (1 / 2) us normals 0 = .ok ps ∧ ps.length = 10 ∧ StarAbout (0, 0) ps := by
  obtain ⟨ps, h1, h2, h3, -⟩ := C107_partial (0, 0) 1 (3 / 10) (1 / 2) us normals 0 one_pos (by norm_num) (by norm_num) (by rw [hl]; norm_num) hu
    (by rw [hl, hl']) hnorm
  exact ⟨ps, h1, by rw [h2, hl], h3⟩

/-- **C107 is false** for irregularity 1: the vertices of this triangle are at the angles 0, 3π/2 and 7π/4, and the centre is not even in the
convex hull of the vertices. -/
theorem C107_false : ∃ ps, generateStarPolygon (0, 0) 1 1 0 [1, 1 / 6, 1 / 6] [1, 1, 1] 0 = .ok ps ∧ ps.length = 3 ∧ (0, 0) ∉ region ps := by
  have hp := pi_pos.ne'
  have hst : randomAngleSteps [1, 1 / 6, 1 / 6] (1 * (2 * π / ([1, 1 / 6, 1 / 6] : List ℝ).length)) = .ok [3 * π / 2, π / 4, π / 4] := by
    unfold randomAngleSteps
    have e : (([1, 1 / 6, 1 / 6] : List ℝ).length : ℝ) = 3 := by simp
    have hne : ([1, 1 / 6, 1 / 6] : List ℝ).length ≠ 0 := by simp
    simp only [if_neg hne, e, List.map_cons, List.map_nil, List.sum_cons, List.sum_nil]
    rw [if_neg (by
      have : (2 * π / 3 - 1 * (2 * π / 3) + (2 * π / 3 + 1 * (2 * π / 3) - (2 * π / 3 - 1 * (2 * π / 3))) * 1 +
        (2 * π / 3 - 1 * (2 * π / 3) + (2 * π / 3 + 1 * (2 * π / 3) - (2 * π / 3 - 1 * (2 * π / 3))) * (1 / 6) +
        (2 * π / 3 - 1 * (2 * π / 3) + (2 * π / 3 + 1 * (2 * π / 3) - (2 * π / 3 - 1 * (2 * π / 3))) * (1 / 6) + 0))) / (2 * π) = 8 / 9 := by
        field_simp; ring
      rw [this]; norm_num)]
    congr 1
    simp only [List.cons.injEq, and_true]
    refine ⟨?_, ?_, ?_⟩ <;> field_simp <;> ring
  have hcl : clip 1 0 (2 * 1) = 1 := by norm_num [clip]
  refine ⟨starPoints (0, 0) 1 0 (([1, 1, 1] : List ℝ).zip [3 * π / 2, π / 4, π / 4]), ?_, by simp [starPoints], ?_⟩
  · unfold generateStarPolygon
    rw [if_neg (by norm_num), if_neg (by norm_num), if_neg (by simp), hst]
  · have c1 : cos (3 * π / 2) = 0 := by
      rw [show 3 * π / 2 = π / 2 + π by ring, cos_add_pi, cos_pi_div_two, neg_zero]
    have s1 : sin (3 * π / 2) = -1 := by
      rw [show 3 * π / 2 = π / 2 + π by ring, sin_add_pi, sin_pi_div_two]
    have c2 : cos (3 * π / 2 + π / 4) = √2 / 2 := by
      rw [cos_add, c1, s1, sin_pi_div_four]; ring
    have s2 : sin (3 * π / 2 + π / 4) = -(√2 / 2) := by
      rw [sin_add, c1, s1, cos_pi_div_four]; ring
    have hr : (1 : ℝ) ≤ √2 := by rw [show (1 : ℝ) = √1 by simp]; exact sqrt_le_sqrt (by norm_num)
    intro h
    have hsub : region (starPoints (0, 0) 1 0 (([1, 1, 1] : List ℝ).zip [3 * π / 2, π / 4, π / 4])) ⊆ {p : Pt ℝ | 1 ≤ p.1 - p.2} := by
      refine convexHull_min ?_ ?_
      · intro p hp
        simp only [Set.mem_ofPred_eq, List.zip_cons_cons, List.zip_nil_right, starPoints, hcl, zero_add, List.mem_cons, List.not_mem_nil, or_false, one_mul, c1, s1, c2, s2, cos_zero, sin_zero] at hp
        rcases hp with rfl | rfl | rfl
        · simp
        · simp
        · simp only [Set.mem_ofPred_eq]; linarith
      · exact convex_halfSpace_ge (f := fun p : Pt ℝ => p.1 - p.2) ⟨fun p q => by simp; ring, fun a p => by simp; ring⟩ 1
    have := hsub h
    norm_num at this

/-- If the first step is more than a half turn, the centre is not in the convex hull of the vertices. -/
theorem wide_step (center : Pt ℝ) (avg : ℝ) (havg : 0 < avg) (normals : List ℝ) (hnorm : ∀ r ∈ normals, 0 < r) (a0 s0 : ℝ) (steps : List ℝ)
    (hlen : normals.length = steps.length + 1) (h0 : π < s0) (hpos : ∀ a ∈ steps, 0 ≤ a) (hsum : s0 + steps.sum = 2 * π) :
    center ∉ region (starPoints center avg a0 (normals.zip (s0 :: steps))) := by
  have hpi := pi_pos
  set ps := starPoints center avg a0 (normals.zip (s0 :: steps)) with hps
  set m := a0 + (s0 + 2 * π) / 2 with hm
  obtain ⟨gl, gg⟩ := starPoints_get center avg (normals.zip (s0 :: steps)) a0
  have zl : (normals.zip (s0 :: steps)).length = steps.length + 1 := by simp [hlen]
  have hsn : 0 ≤ steps.sum := List.sum_nonneg hpos
  -- the other vertices
  have hang : ∀ i, i < steps.length + 1 → 0 < cos (a0 + ∑ j ∈ range i, (s0 :: steps).getD j 0 - m) := by
    intro i hi
    cases i with
    | zero =>
      rw [show a0 + ∑ j ∈ range 0, (s0 :: steps).getD j 0 - m = (π - s0 / 2) - 2 * π by simp [hm]; ring, cos_sub_two_pi]
      exact cos_pos_of_mem_Ioo ⟨by linarith, by linarith⟩
    | succ i =>
      have e : ∑ j ∈ range (i + 1), (s0 :: steps).getD j 0 = s0 + ∑ j ∈ range i, steps.getD j 0 := by
        rw [sum_range_succ']; simp [add_comm]
      have nn : ∀ j, 0 ≤ steps.getD j 0 := by
        intro j
        by_cases hj : j < steps.length
        · rw [List.getD_eq_getElem _ _ hj]; exact hpos _ (List.getElem_mem _)
        · rw [List.getD_eq_default _ _ (by omega)]
      have h1 : 0 ≤ ∑ j ∈ range i, steps.getD j 0 := sum_nonneg fun j _ => nn j
      have h2 : ∑ j ∈ range i, steps.getD j 0 ≤ steps.sum := by
        rw [← sum_range_getD]
        exact sum_le_sum_of_subset_of_nonneg (by intro j hj; rw [mem_range] at hj ⊢; omega) fun j _ _ => nn j
      refine cos_pos_of_mem_Ioo ⟨?_, ?_⟩ <;> rw [e, hm] <;> linarith
  have hvert : ∀ p ∈ ps, 0 < (p.1 - center.1) * cos m + (p.2 - center.2) * sin m := by
    intro p hp
    obtain ⟨i, hi, rfl⟩ := List.getElem_of_mem hp
    have hi' : i < steps.length + 1 := by rw [← zl, ← gl]; exact hi
    have hz : ∀ j ∈ range i, ((normals.zip (s0 :: steps)).getD j 0).2 = (s0 :: steps).getD j 0 := by
      intro j hj
      rw [mem_range] at hj
      rw [List.getD_eq_getElem _ _ (by omega), List.getD_eq_getElem _ _ (by simp; omega), List.getElem_zip]
    have e := gg i (by omega) hi
    rw [sum_congr rfl hz, List.getElem_zip] at e
    have hr : 0 < clip (normals[i]'(by omega)) 0 (2 * avg) :=
      lt_min (lt_max_of_lt_left (hnorm _ (List.getElem_mem _))) (by linarith)
    rw [e]
    have := mul_pos hr (hang i hi')
    rw [cos_sub] at this
    simp only [] at this ⊢
    linarith
  intro h
  have hne : ps ≠ [] := by
    intro h'
    have := gl
    rw [← hps, h', zl] at this
    simp at this
  have hsub : region ps ⊆ {p : Pt ℝ | center.1 * cos m + center.2 * sin m < p.1 * cos m + p.2 * sin m} := by
    refine convexHull_min (fun p hp => ?_) ?_
    · have := hvert p hp
      simp only [Set.mem_ofPred_eq]; linarith
    · exact convex_halfSpace_gt (f := fun p : Pt ℝ => p.1 * cos m + p.2 * sin m) ⟨fun p q => by simp; ring, fun a p => by simp; ring⟩ _
  have := hsub h
  rw [Set.mem_ofPred_eq] at this
  exact lt_irrefl _ this

/-- **C107 is false** whenever the condition of `C107_partial` is violated: there are draws for which the centre is not even in the convex
hull of the vertices. -/
theorem C107_sharp_false (center : Pt ℝ) (avg irr spik : ℝ) (n : ℕ) (normals : List ℝ) (a0 : ℝ) (havg : 0 < avg) (hi : 0 ≤ irr ∧ irr ≤ 1)
    (hsp : 0 ≤ spik ∧ spik ≤ 1) (hn : (n - 1) * (1 - irr) < 1 + irr) (h0 : 0 < n) (hlen : normals.length = n) (hnorm : ∀ r ∈ normals, 0 < r) :
    ∃ us : List ℝ, us.length = n ∧ (∀ u ∈ us, 0 ≤ u ∧ u ≤ 1) ∧
      ∃ ps, generateStarPolygon center avg irr spik us normals a0 = .ok ps ∧ ps.length = n ∧ center ∉ region ps := by
  obtain ⟨k, rfl⟩ : ∃ k, n = k + 1 := ⟨n - 1, by omega⟩
  have hpi := pi_pos
  set D : ℝ := (1 + irr) + k * (1 - irr) with hD
  have hk : (0 : ℝ) ≤ k := Nat.cast_nonneg k
  have hDp : 0 < D := by
    have : 0 ≤ k * (1 - irr) := mul_nonneg hk (by linarith [hi.2])
    linarith [hi.1]
  have hlt : k * (1 - irr) < 1 + irr := by push_cast at hn; simpa using hn
  set s0 := 2 * π * (1 + irr) / D with hs0
  set t := 2 * π * (1 - irr) / D with ht
  have hst : randomAngleSteps (1 :: List.replicate k 0) (irr * (2 * π / ((1 :: List.replicate k 0 : List ℝ)).length)) = .ok (s0 :: List.replicate k t) := by
    unfold randomAngleSteps
    have hl : ((1 :: List.replicate k 0 : List ℝ)).length = k + 1 := by simp
    rw [if_neg (by simp)]
    simp only [hl, List.map_cons, List.map_replicate, List.sum_cons, List.sum_replicate, nsmul_eq_mul]
    push_cast
    have hk1 : (0 : ℝ) < k + 1 := by linarith
    have e : (2 * π / ((k : ℝ) + 1) - irr * (2 * π / (k + 1)) + (2 * π / (k + 1) + irr * (2 * π / (k + 1)) - (2 * π / (k + 1) - irr * (2 * π / (k + 1)))) * 1 +
        k * (2 * π / (k + 1) - irr * (2 * π / (k + 1)) + (2 * π / (k + 1) + irr * (2 * π / (k + 1)) - (2 * π / (k + 1) - irr * (2 * π / (k + 1)))) * 0)) / (2 * π) =
        D / (k + 1) := by
      rw [hD]; field_simp; ring
    rw [e, if_neg (div_pos hDp hk1).ne']
    congr 2
    · rw [hs0]; field_simp; ring
    · congr 1; rw [ht]; field_simp; ring
  have hsum : s0 + (List.replicate k t).sum = 2 * π := by
    rw [List.sum_replicate, nsmul_eq_mul, hs0, ht]
    field_simp
    rw [hD]
  have hgt : π < s0 := by
    rw [hs0, lt_div_iff₀ hDp]
    nlinarith
  have htn : 0 ≤ t := div_nonneg (mul_nonneg (by positivity) (by linarith [hi.2])) hDp.le
  refine ⟨1 :: List.replicate k 0, by simp, ?_, starPoints center avg a0 (normals.zip (s0 :: List.replicate k t)), ?_, ?_, ?_⟩
  · intro u hu
    rcases List.mem_cons.1 hu with rfl | hu
    · norm_num
    · rw [List.eq_of_mem_replicate hu]; norm_num
  · unfold generateStarPolygon
    rw [if_neg (by push Not; exact hi), if_neg (by push Not; exact hsp), if_neg (by simp), hst]
  · rw [(starPoints_get _ _ _ _).1]; simp [hlen]
  · exact wide_step center avg havg normals hnorm a0 s0 _ (by simp [hlen]) hgt (fun a ha => by rw [List.eq_of_mem_replicate ha]; exact htn) hsum

/-- A concrete case of `C107_sharp_false`: four vertices and irregularity 0.6. -/
example : ∃ us : List ℝ, us.length = 4 ∧ (∀ u ∈ us, 0 ≤ u ∧ u ≤ 1) ∧
    ∃ ps, generateStarPolygon (1, 2) 1 (6 / 10) 0 us [1, 1, 1, 1] 0 = .ok ps ∧ ps.length = 4 ∧ (1, 2) ∉ region ps :=
  C107_sharp_false (1, 2) 1 (6 / 10) 0 4 [1, 1, 1, 1] 0 one_pos (by norm_num) (by norm_num) (by norm_num) (by norm_num) rfl (by simp)

/-- **C107 is false** if radii are clipped: with two draws below zero two vertices are the centre. -/
theorem C107_radius_false : ∃ ps, generateStarPolygon (0, 0) 1 0 1 [0, 0, 0, 0] [1, -1, 1, -1] 0 = .ok ps ∧ ps.length = 4 ∧
    ps.getD 1 0 = (0, 0) ∧ ps.getD 3 0 = (0, 0) ∧ ¬ StarAbout (0, 0) ps := by
  obtain ⟨steps, hs, hl, -⟩ := C19_steps_partial [0, 0, 0, 0] 0 (by simp) (by simp; positivity)
  obtain ⟨a, b, c, d, rfl⟩ : ∃ a b c d, steps = [a, b, c, d] := by
    match steps, hl with
    | [a, b, c, d], _ => exact ⟨a, b, c, d, rfl⟩
  have hcl : clip (-1) 0 (2 * 1) = 0 := by norm_num [clip]
  have e1 : (starPoints (0, 0) 1 0 (([1, -1, 1, -1] : List ℝ).zip [a, b, c, d])).getD 1 0 = (0, 0) := by simp [starPoints, clip]
  refine ⟨starPoints (0, 0) 1 0 (([1, -1, 1, -1] : List ℝ).zip [a, b, c, d]), ?_, by simp [starPoints], e1, by simp [starPoints, clip], ?_⟩
  · unfold generateStarPolygon
    rw [if_neg (by norm_num), if_neg (by norm_num), if_neg (by simp), zero_mul, hs]
  · rintro ⟨φ, h, -⟩
    refine (h 1 (by simp [starPoints])).2 ?_
    rw [corner]
    exact e1

end Starworlds
