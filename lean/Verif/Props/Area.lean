import Verif.Proofs.AreaCut
import Verif.Proofs.KernelCertificate
import Verif.Proofs.WindingSimple
import Verif.Proofs.SimpleRational
import Verif.Proofs.SimpleRing

/-! # C130: `area()` is the area of the obstacle -/

namespace Starworlds

open Spec MeasureTheory

/-- The measure of a polygon that does not cross itself, or that can be cut into pieces, at any pose. -/
theorem volume_ringAt {w : List (Pt ℝ)} (h : SimpleRing w ∨ CutEitherWay w) (mm : Option Pose) (f : Frame) :
    volume (ringAt mm f w) = ENNReal.ofReal (shapelyArea (orientRing w)) := by
  unfold ringAt
  rw [volume_inFrame, shapelyArea_orient]
  rcases h with h | ⟨v, hs, hr⟩
  · exact volume_simple h
  · obtain ⟨-, h2, h1⟩ := volume_cuttable hs
    rw [filled_ring hr, h1, shapelyArea_ring hr, shapelyArea, abs_of_nonneg h2]

theorem shapelyArea_nonneg (v : List (Pt ℝ)) : 0 ≤ shapelyArea v := div_nonneg (abs_nonneg _) (by norm_num)

theorem area_ringAt {w : List (Pt ℝ)} (h : SimpleRing w ∨ CutEitherWay w) (mm : Option Pose) (f : Frame) :
    obstacleArea (.polygon w) = .ok (areaOf (ringAt mm f w)) := by
  rw [obstacleArea, areaOf, volume_ringAt h, ENNReal.toReal_ofReal (shapelyArea_nonneg _)]

/-- C130, for all polygons whose ring does not touch or cross itself, with the vertices in either direction: at every pose and in
every frame, `area()` is the area of the region of the obstacle. -/
theorem C130_partial {w : List (Pt ℝ)} (h : SimpleRing w) (mm : Option Pose) (f : Frame) :
    obstacleArea (.polygon w) = .ok (areaOf (ringAt mm f w)) := area_ringAt (.inl h) mm f

/-- C130, for polygons that can be cut along diagonals into pieces that run around a point, with the vertices in either direction
and from any vertex on. The ring may touch itself. -/
theorem C130_cut_partial {w : List (Pt ℝ)} (h : CutEitherWay w) (mm : Option Pose) (f : Frame) :
    obstacleArea (.polygon w) = .ok (areaOf (ringAt mm f w)) := area_ringAt (.inr h) mm f

/-- C130, star-shaped polygons. -/
theorem C130_star_partial {c : Pt ℝ} {v : List (Pt ℝ)} (h : StarAbout c v) (mm : Option Pose) (f : Frame) :
    obstacleArea (.polygon v) = .ok (areaOf (ringAt mm f v)) ∧
      obstacleArea (.polygon v.reverse) = .ok (areaOf (ringAt mm f v.reverse)) :=
  ⟨C130_partial (star_simple h) mm f, C130_cut_partial ⟨v, .star h, .inr (by rw [List.reverse_reverse])⟩ mm f⟩

theorem totalArea_polygons (ws : List (List (Pt ℝ))) :
    totalArea (ws.map .polygon) = .ok (ws.map fun w => shapelyArea (orientRing w)).sum := by
  have : (ws.map Measured.polygon).mapM obstacleArea = .ok (ws.map fun w => shapelyArea (orientRing w)) := by
    induction ws with
    | nil => rfl
    | cons w ws ih => simp [List.mapM_cons, ih, obstacleArea, bind, Except.bind, pure, Except.pure]
  rw [totalArea, this]; rfl

/-- C130, sums: the obstacles of a scene with polygons only, each at its pose, together cover at most the sum of the areas. -/
theorem C130_sum_partial (os : List (Option Pose × List (Pt ℝ))) (h : ∀ o ∈ os, SimpleRing o.2 ∨ CutEitherWay o.2) :
    ∃ s, totalArea (os.map fun o => .polygon o.2) = .ok s ∧ areaOf {p | ∃ o ∈ os, p ∈ ringAt o.1 .global o.2} ≤ s := by
  have e : os.map (fun o => (Measured.polygon o.2)) = (os.map Prod.snd).map .polygon := by simp
  rw [e, totalArea_polygons]
  refine ⟨_, rfl, ?_⟩
  have hnn : 0 ≤ ((os.map Prod.snd).map fun w => shapelyArea (orientRing w)).sum :=
    List.sum_nonneg (by simp only [List.mem_map]; rintro _ ⟨w, _, rfl⟩; exact shapelyArea_nonneg _)
  refine ENNReal.toReal_le_of_le_ofReal hnn ?_
  clear e hnn
  induction os with
  | nil => simp
  | cons o os ih =>
    have hs : {p | ∃ o' ∈ o :: os, p ∈ ringAt o'.1 .global o'.2} =
        ringAt o.1 .global o.2 ∪ {p | ∃ o' ∈ os, p ∈ ringAt o'.1 .global o'.2} := by
      ext p; simp
    rw [hs]
    refine (measure_union_le _ _).trans ?_
    rw [List.map_cons, List.map_cons, List.sum_cons, ENNReal.ofReal_add (shapelyArea_nonneg _)]
    · rw [volume_ringAt (h o (by simp))]
      gcongr
      exact ih fun o' ho' => h o' (List.mem_cons_of_mem _ ho')
    · exact List.sum_nonneg (by simp only [List.mem_map]; rintro _ ⟨w, _, rfl⟩; exact shapelyArea_nonneg _)

/-! ## Where it fails -/

/-- C130 is false for ellipses and combinations: they have no method `area`. -/
theorem C130_ellipse_false (a : Pt ℝ) : obstacleArea (.ellipse a) = .error .attributeError ∧
    obstacleArea (.combination : Measured ℝ) = .error .attributeError := ⟨rfl, rfl⟩

/-- C130 is false for the sum: with an ellipse at the head of the list, as in tests/test_cluster_and_starify.py:35-39 (twenty
ellipses, then twenty polygons), AttributeError is raised. -/
theorem C130_sum_false (a : Pt ℝ) (os : List (Measured ℝ)) : totalArea (.ellipse a :: os) = .error .attributeError := by
  simp [totalArea, List.mapM_cons, obstacleArea, bind, Except.bind]

/-- A ring that crosses itself. -/
def bowTie : List (Pt ℝ) := [(0, 0), (2, 2), (2, 0), (0, 2)]

theorem bowTie_box : filled bowTie ⊆ Set.Icc 0 2 ×ˢ Set.Icc 0 2 := by
  have hring : ∀ p, OnRing bowTie p → p ∈ (Set.Icc 0 2 ×ˢ Set.Icc 0 2 : Set (Pt ℝ)) := by
    rintro p ⟨i, hi, t, h0, h1, rfl⟩
    simp only [bowTie, List.length_cons, List.length_nil] at hi
    interval_cases i <;> simp [bowTie, corner] <;> (repeat' constructor) <;> linarith
  rintro p (h | h)
  · have := contains_in_box ((polyContains_iff _ _).2 h)
    norm_num [boundsOf] at this
    exact ⟨⟨this.1.le, this.2.1.le⟩, this.2.2.1.le, this.2.2.2.le⟩
  · exact hring p h

theorem bowTie_part : Set.Ioo (3 / 2) 2 ×ˢ Set.Ioo (3 / 4) (5 / 4) ⊆ filled bowTie := by
  rintro p ⟨⟨h1, h2⟩, h3, h4⟩
  left
  rw [← polyContains_iff]
  have hr : ringContains bowTie p = false := by
    rw [Bool.eq_false_iff]
    intro h
    obtain ⟨i, hi, t, t0, t1, rfl⟩ := (ringContains_iff _ _).1 h
    simp only [bowTie, List.length_cons, List.length_nil] at hi
    interval_cases i <;> simp [bowTie, corner] at h1 h2 h3 h4 <;> linarith
  have hc : (edgesOf (ringOf bowTie)).countP (rayCrosses p) = 1 := by
    have c1 : rayCrosses p ((0, 0), (2, 2)) = false := by
      rw [Bool.eq_false_iff]; intro h
      rw [rayCrosses_iff, rayCrosses_signs] at h
      simp [cross] at h; rcases h with h | h <;> linarith [h.2.2]
    have c2 : rayCrosses p ((2, 2), (2, 0)) = true := by
      rw [rayCrosses_iff, rayCrosses_signs]
      right; simp [cross]; exact ⟨by linarith, by linarith, by linarith⟩
    have c3 : rayCrosses p ((2, 0), (0, 2)) = false := by
      rw [Bool.eq_false_iff]; intro h
      rw [rayCrosses_iff, rayCrosses_signs] at h
      simp [cross] at h; rcases h with h | h <;> linarith [h.2.2]
    have c4 : rayCrosses p ((0, 2), (0, 0)) = false := by
      rw [Bool.eq_false_iff]; intro h
      rw [rayCrosses_iff, rayCrosses_signs] at h
      simp [cross] at h; rcases h with h | h <;> linarith [h.2.2]
    simp [bowTie, ringOf, edgesOf, c1, c2, c3, c4]
  simp [polyContains, hr, hc]

/-- C130 is false for a ring that crosses itself: the area is reported as 0. -/
theorem C130_crossing_false : obstacleArea (.polygon bowTie) = .ok 0 ∧ 0 < areaOf (ringAt none .global bowTie) := by
  constructor
  · rw [obstacleArea, shapelyArea_orient]
    norm_num [shapelyArea, signedArea2, bowTie, ringOf, edgesOf]
  · have e : volume (ringAt none .global bowTie) = volume (filled bowTie) := volume_inFrame _ _ _
    rw [areaOf, e]
    refine ENNReal.toReal_pos ?_ ?_
    · intro h0
      have := measure_mono_null bowTie_part h0
      rw [Measure.volume_eq_prod, Measure.prod_prod] at this
      norm_num [Real.volume_Ioo] at this
    · refine ne_top_of_le_ne_top ?_ (measure_mono bowTie_box)
      rw [Measure.volume_eq_prod, Measure.prod_prod]
      norm_num [Real.volume_Icc]

/-! ## Example: a U -/

/-- A U that is not star-shaped; the second vertex is in the middle of an edge. -/
def uShape : List (Pt ℝ) := [(1, 0), (3, 0), (3, 2), (2, 2), (2, 1), (1, 1), (1, 2), (0, 2), (0, 0)]

theorem uShape_cut : Cuttable uShape := by
  have hP : Cuttable [(1, 0), (3, 0), (3, 2), (2, 2), (2, 1), (1, 1)] := by
    have := starAbout_rat (c := (5 / 2, 1 / 2)) (v := [(1, 0), (3, 0), (3, 2), (2, 2), (2, 1), (1, 1)]) (by decide +kernel)
    simpa [toReal] using Cuttable.star this
  have hQ : Cuttable [(1, 1), (1, 2), (0, 2), (0, 0), (1, 0)] := by
    have := starAbout_rat (c := (1 / 2, 1)) (v := [(1, 1), (1, 2), (0, 2), (0, 0), (1, 0)]) (by decide +kernel)
    simpa [toReal] using Cuttable.star this
  refine Cuttable.cut (a := (1, 0)) (b := (1, 1)) (l := [(3, 0), (3, 2), (2, 2), (2, 1)]) (m := [(1, 2), (0, 2), (0, 0)]) hP hQ ?_
  rintro p ⟨h1, h2⟩
  have b1 := contains_in_box ((polyContains_iff _ _).2 h1)
  have b2 := contains_in_box ((polyContains_iff _ _).2 h2)
  norm_num [boundsOf] at b1 b2
  linarith [b1.1, b2.2.1]

/-- The U has area 5, turned by 1 rad and moved, and with the vertices clockwise too. -/
example : obstacleArea (.polygon uShape) = .ok 5 ∧ areaOf (ringAt (some ⟨(7, -3), 1⟩) .global uShape) = 5 ∧
    obstacleArea (.polygon uShape.reverse) = .ok 5 := by
  have h5 : obstacleArea (.polygon uShape) = .ok 5 := by
    rw [obstacleArea, shapelyArea_orient]
    norm_num [shapelyArea, signedArea2, uShape, ringOf, edgesOf]
  refine ⟨h5, ?_, ?_⟩
  · have := C130_cut_partial ⟨_, uShape_cut, .inl (.refl _)⟩ (some ⟨(7, -3), 1⟩) .global
    rw [h5] at this
    exact (Except.ok.inj this).symm
  · rw [obstacleArea, shapelyArea_orient]
    norm_num [shapelyArea, signedArea2, uShape, ringOf, edgesOf]

/-! ## Example: a spiral -/

/-- A spiral, given clockwise. -/
def spiralQ : List (Pt ℚ) := [(0, 0), (0, 6), (6, 6), (6, 1), (2, 1), (2, 4), (4, 4), (4, 3), (3, 3), (3, 2), (5, 2), (5, 5), (1, 5), (1, 0)]

/-- The spiral does not cross itself, and its area is 21 at every pose. -/
example (mm : Option Pose) (f : Frame) : areaOf (ringAt mm f (spiralQ.map toReal)) = 21 := by
  have hs : SimpleRing (spiralQ.map toReal) := simple_rat (by decide +kernel)
  have h := C130_partial hs mm f
  have h5 : obstacleArea (.polygon (spiralQ.map toReal)) = .ok 21 := by
    rw [obstacleArea, shapelyArea_orient]
    norm_num [shapelyArea, signedArea2, spiralQ, ringOf, edgesOf, toReal]
  rw [h5] at h
  exact (Except.ok.inj h).symm

end Starworlds
