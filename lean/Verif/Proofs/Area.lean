import Verif.Proofs.HullExists
import Verif.Props.KernelRigid
import Mathlib.MeasureTheory.Group.Prod
import Mathlib.MeasureTheory.Measure.Lebesgue.EqHaar
import Mathlib.MeasureTheory.Measure.Lebesgue.Integral
import Mathlib.Analysis.SpecialFunctions.Integrals.Basic
import Mathlib.MeasureTheory.Measure.Haar.Basic
import Mathlib.LinearAlgebra.Matrix.Determinant.Basic

/-! # The area of a star-shaped polygon is given by the sum over its edges -/

namespace Starworlds

open Spec MeasureTheory

/-- `(a, b)` to `a • u + b • w`. -/
noncomputable def spanMap (u w : Pt ℝ) : Pt ℝ →ₗ[ℝ] Pt ℝ :=
  (LinearMap.fst ℝ ℝ ℝ).smulRight u + (LinearMap.snd ℝ ℝ ℝ).smulRight w

theorem spanMap_apply (u w p : Pt ℝ) : spanMap u w p = p.1 • u + p.2 • w := rfl

theorem spanMap_det (u w : Pt ℝ) : LinearMap.det (spanMap u w) = cross u w := by
  rw [← LinearMap.det_toMatrix (Module.Basis.finTwoProd ℝ), Matrix.det_fin_two]
  simp [LinearMap.toMatrix_apply, spanMap_apply, cross]
  ring

/-- The open triangle with the corners (0, 0), (1, 0), (0, 1). -/
def unitTri : Set (Pt ℝ) := {p | 0 < p.1 ∧ 0 < p.2 ∧ p.1 + p.2 < 1}

theorem volume_unitTri : volume unitTri = ENNReal.ofReal (1 / 2) := by
  have e : unitTri = regionBetween (fun _ : ℝ => (0 : ℝ)) (fun x => 1 - x) (Set.Ioo 0 1) := by
    ext p
    simp only [unitTri, regionBetween, Set.mem_Ioo, Set.mem_ofPred_eq]
    constructor
    · rintro ⟨h1, h2, h3⟩; exact ⟨⟨h1, by linarith⟩, h2, by linarith⟩
    · rintro ⟨⟨h1, _⟩, h2, h3⟩; exact ⟨h1, h2, by linarith⟩
  have i0 : IntegrableOn (fun _ : ℝ => (0 : ℝ)) (Set.Ioo 0 1) volume :=
    (continuous_const.integrableOn_Icc (a := (0 : ℝ)) (b := 1)).mono_set Set.Ioo_subset_Icc_self
  have c1 : Continuous fun x : ℝ => 1 - x := by fun_prop
  have i1 : IntegrableOn (fun x : ℝ => 1 - x) (Set.Ioo 0 1) volume :=
    (c1.integrableOn_Icc (a := (0 : ℝ)) (b := 1)).mono_set Set.Ioo_subset_Icc_self
  rw [e, Measure.volume_eq_prod, volume_regionBetween_eq_integral i0 i1 measurableSet_Ioo
    (fun x hx => by simp only [Set.mem_Ioo] at hx; linarith)]
  · congr 1
    simp only [Pi.sub_apply, sub_zero]
    rw [← integral_Ioc_eq_integral_Ioo, ← intervalIntegral.integral_of_le zero_le_one,
      intervalIntegral.integral_sub intervalIntegrable_const intervalIntegral.intervalIntegrable_id, integral_id]
    norm_num

instance : (volume : Measure (Pt ℝ)).IsAddHaarMeasure := by
  rw [Measure.volume_eq_prod]; infer_instance

/-- The open triangle with the corners `c`, `a`, `b`. -/
def openTri (c a b : Pt ℝ) : Set (Pt ℝ) := (fun p => c + p) '' (spanMap (a - c) (b - c) '' unitTri)

theorem volume_openTri {c a b : Pt ℝ} (h : 0 ≤ cross (a - c) (b - c)) :
    volume (openTri c a b) = ENNReal.ofReal (cross (a - c) (b - c) / 2) := by
  rw [openTri, Set.image_add_left, measure_preimage_add, Measure.addHaar_image_linearMap, spanMap_det, volume_unitTri, abs_of_nonneg h, ← ENNReal.ofReal_mul h]
  congr 1
  ring

theorem mem_openTri {c a b : Pt ℝ} (h : 0 < cross (a - c) (b - c)) (p : Pt ℝ) : p ∈ openTri c a b ↔
    0 < cross (a - c) (p - c) ∧ 0 < cross (p - c) (b - c) ∧ 0 < cross (b - a) (p - a) := by
  constructor
  · rintro ⟨_, ⟨q, ⟨h1, h2, h3⟩, rfl⟩, rfl⟩
    have e1 : cross (a - c) (c + spanMap (a - c) (b - c) q - c) = q.2 * cross (a - c) (b - c) := by
      simp [spanMap_apply, cross]; ring
    have e2 : cross (c + spanMap (a - c) (b - c) q - c) (b - c) = q.1 * cross (a - c) (b - c) := by
      simp [spanMap_apply, cross]; ring
    have e3 : cross (b - a) (c + spanMap (a - c) (b - c) q - a) = (1 - q.1 - q.2) * cross (a - c) (b - c) := by
      simp [spanMap_apply, cross]; ring
    simp only [e1, e2, e3]
    exact ⟨mul_pos h2 h, mul_pos h1 h, mul_pos (by linarith) h⟩
  · rintro ⟨h1, h2, h3⟩
    set D := cross (a - c) (b - c) with hD
    refine ⟨p - c, ⟨(cross (p - c) (b - c) / D, cross (a - c) (p - c) / D), ⟨div_pos h2 h, div_pos h1 h, ?_⟩, ?_⟩, by
      simp⟩
    · simp only
      rw [← add_div, div_lt_one h]
      have : cross (p - c) (b - c) + cross (a - c) (p - c) + cross (b - a) (p - a) = D := by
        simp only [hD, cross, Prod.fst_sub, Prod.snd_sub]; ring
      linarith
    · rw [spanMap_apply]
      ext
      · simp only [Prod.fst_add, Prod.smul_fst, smul_eq_mul, Prod.fst_sub]
        field_simp
        simp only [hD, cross, Prod.fst_sub, Prod.snd_sub]; ring
      · simp only [Prod.snd_add, Prod.smul_snd, smul_eq_mul, Prod.snd_sub]
        field_simp
        simp only [hD, cross, Prod.fst_sub, Prod.snd_sub]; ring

theorem continuous_crossWith (u w : Pt ℝ) : Continuous fun p : Pt ℝ => cross u (p - w) := by
  unfold cross; fun_prop

theorem continuous_withCross (u w : Pt ℝ) : Continuous fun p : Pt ℝ => cross (p - w) u := by
  unfold cross; fun_prop

theorem isOpen_openTri {c a b : Pt ℝ} (h : 0 < cross (a - c) (b - c)) : IsOpen (openTri c a b) := by
  have : openTri c a b = {p | 0 < cross (a - c) (p - c)} ∩ ({p | 0 < cross (p - c) (b - c)} ∩ {p | 0 < cross (b - a) (p - a)}) := by
    ext p; exact mem_openTri h p
  rw [this]
  exact (isOpen_lt continuous_const (continuous_crossWith _ _)).inter
    ((isOpen_lt continuous_const (continuous_withCross _ _)).inter (isOpen_lt continuous_const (continuous_crossWith _ _)))

/-- Lines have no area. -/
theorem line_null {u : Pt ℝ} (hu : u ≠ 0) (w : Pt ℝ) : volume {p : Pt ℝ | cross u (p - w) = 0} = 0 := by
  have hn : u.1 ^ 2 + u.2 ^ 2 ≠ 0 := by
    intro h0
    have h1 : u.1 = 0 := by nlinarith [sq_nonneg u.1, sq_nonneg u.2]
    have h2 : u.2 = 0 := by nlinarith [sq_nonneg u.1, sq_nonneg u.2]
    exact hu (Prod.ext h1 h2)
  have e : {p : Pt ℝ | cross u (p - w) = 0} = (fun p => p + -w) ⁻¹' (Submodule.span ℝ {u} : Set (Pt ℝ)) := by
    ext p
    simp only [Set.mem_ofPred_eq, Set.mem_preimage, SetLike.mem_coe, Submodule.mem_span_singleton, ← sub_eq_add_neg]
    generalize p - w = q
    constructor
    · intro h
      refine ⟨(u.1 * q.1 + u.2 * q.2) / (u.1 ^ 2 + u.2 ^ 2), ?_⟩
      simp only [cross] at h
      ext
      · simp only [Prod.smul_fst, smul_eq_mul]
        field_simp
        linear_combination u.2 * h
      · simp only [Prod.smul_snd, smul_eq_mul]
        field_simp
        linear_combination (-u.1) * h
    · rintro ⟨k, rfl⟩
      simp [cross]; ring
  rw [e, measure_preimage_add_right]
  refine Measure.addHaar_submodule _ _ fun htop => ?_
  have hm : (-u.2, u.1) ∈ Submodule.span ℝ {u} := by rw [htop]; trivial
  rw [Submodule.mem_span_singleton] at hm
  obtain ⟨k, hk⟩ := hm
  have h1 := congrArg Prod.fst hk
  have h2 := congrArg Prod.snd hk
  simp only [Prod.smul_fst, Prod.smul_snd, smul_eq_mul] at h1 h2
  exact hn (by linear_combination (-u.1) * h2 + u.2 * h1)

theorem line_null' {u : Pt ℝ} (hu : u ≠ 0) (w : Pt ℝ) : volume {p : Pt ℝ | cross (p - w) u = 0} = 0 := by
  rw [← line_null hu w]
  congr 1
  ext p
  simp only [Set.mem_ofPred_eq, cross]
  constructor <;> intro h <;> linarith

/-! ## The triangles of a star-shaped polygon -/

theorem tri_signs {c a b p : Pt ℝ} (h : 0 < cross (a - c) (b - c)) (hp : p ∈ convexHull ℝ {c, a, b}) :
    0 ≤ cross (a - c) (p - c) ∧ 0 ≤ cross (p - c) (b - c) ∧ 0 ≤ cross (b - a) (p - a) := by
  rw [convexHull_insert (by simp), convexHull_pair, mem_convexJoin] at hp
  obtain ⟨c', rfl, q, hq, hp⟩ := hp
  rw [← segment_set] at hq hp
  obtain ⟨s, s0, s1, rfl⟩ := hq
  obtain ⟨t, t0, t1, rfl⟩ := hp
  have e1 : cross (a - c') (c' + t • (a + s • (b - a) - c') - c') = t * s * cross (a - c') (b - c') := by
    simp [cross]; ring
  have e2 : cross (c' + t • (a + s • (b - a) - c') - c') (b - c') = t * (1 - s) * cross (a - c') (b - c') := by
    simp [cross]; ring
  have e3 : cross (b - a) (c' + t • (a + s • (b - a) - c') - a) = (1 - t) * cross (a - c') (b - c') := by
    simp [cross]; ring
  rw [e1, e2, e3]
  have := sub_nonneg.2 s1
  have := sub_nonneg.2 t1
  exact ⟨by positivity, by positivity, by positivity⟩

theorem openTri_hull {c a b p : Pt ℝ} (hp : p ∈ openTri c a b) : p ∈ convexHull ℝ {c, a, b} := by
  obtain ⟨_, ⟨q, ⟨h1, h2, h3⟩, rfl⟩, rfl⟩ := hp
  have hc := convex_convexHull ℝ {c, a, b}
  have e : c + spanMap (a - c) (b - c) q = (1 - q.1 - q.2) • c + q.1 • a + q.2 • b := by
    rw [spanMap_apply]; module
  simp only [e]
  have := hc.sum_mem (t := (Finset.univ : Finset (Fin 3))) (w := ![1 - q.1 - q.2, q.1, q.2]) (z := ![c, a, b])
    (fun i _ => by fin_cases i <;> simp <;> linarith) (by simp only [Fin.sum_univ_three, Matrix.cons_val]; ring)
    (fun i _ => subset_convexHull ℝ _ (by fin_cases i <;> simp))
  simpa [Fin.sum_univ_three] using this

/-- The area of a star-shaped polygon is half of the sum over its edges. -/
theorem volume_star {c : Pt ℝ} {v : List (Pt ℝ)} (h : StarAbout c v) :
    volume (filled v) = ENNReal.ofReal (signedArea2 v / 2) ∧ 0 ≤ signedArea2 v := by
  have hs := star_sectors h
  set T : ℕ → Set (Pt ℝ) := fun i => openTri c (corner v i) (corner v (i + 1)) with hT
  have hsum : ∑ i ∈ Finset.range v.length, cross (corner v i - c) (corner v (i + 1) - c) = signedArea2 v := by
    have e1 : ∀ i, cross (corner v i - c) (corner v (i + 1) - c) =
        ((corner v i).1 * (corner v (i + 1)).2 - (corner v (i + 1)).1 * (corner v i).2) +
          (cross (corner v (i + 1)) c - cross (corner v i) c) := by
      intro i; simp only [cross, Prod.fst_sub, Prod.snd_sub]; ring
    simp only [e1]
    rw [Finset.sum_add_distrib, Finset.sum_range_sub (fun i => cross (corner v i) c)]
    have : corner v v.length = corner v 0 := by simp [corner]
    rw [this, sub_self, add_zero, signedArea2, edges_ring, List.map_map]
    exact Multiset.sum_coe _
  have hpos : 0 ≤ signedArea2 v := by
    rw [← hsum]
    exact Finset.sum_nonneg fun i hi => (hs.pos i (Finset.mem_range.1 hi)).le
  refine ⟨?_, hpos⟩
  have hU : volume (⋃ i ∈ Finset.range v.length, T i) = ENNReal.ofReal (signedArea2 v / 2) := by
    rw [measure_biUnion_finset]
    · rw [← hsum, Finset.sum_div, ENNReal.ofReal_sum_of_nonneg]
      · refine Finset.sum_congr rfl fun i hi => ?_
        exact volume_openTri (hs.pos i (Finset.mem_range.1 hi)).le
      · intro i hi
        exact div_nonneg (hs.pos i (Finset.mem_range.1 hi)).le (by norm_num)
    · intro i hi j hj hij
      rw [Function.onFun, Set.disjoint_left]
      intro p hp hq
      have hi' := Finset.mem_range.1 (Finset.mem_coe.1 hi)
      have hj' := Finset.mem_range.1 (Finset.mem_coe.1 hj)
      obtain ⟨a1, a2, _⟩ := (mem_openTri (hs.pos i hi') p).1 hp
      obtain ⟨b1, b2, _⟩ := (mem_openTri (hs.pos j hj') p).1 hq
      exact hij (hs.unique p i hi' j hj' a1 a2 b1 b2)
    · intro i hi
      exact (isOpen_openTri (hs.pos i (Finset.mem_range.1 hi))).measurableSet
  set L : ℕ → Set (Pt ℝ) := fun i => {p | cross (corner v i - c) (p - c) = 0} ∪
    ({p | cross (p - c) (corner v (i + 1) - c) = 0} ∪ {p | cross (corner v (i + 1) - corner v i) (p - corner v i) = 0}) with hL
  have hN : volume (⋃ i ∈ Finset.range v.length, L i) = 0 := by
    refine (measure_biUnion_null_iff (Finset.range v.length).countable_toSet).2 fun i hi => ?_
    have hp := hs.pos i (Finset.mem_range.1 hi)
    refine measure_union_null (line_null ?_ _) (measure_union_null (line_null' ?_ _) (line_null ?_ _))
    · intro h0; rw [h0] at hp; simp [cross] at hp
    · intro h0; rw [h0] at hp; simp [cross] at hp
    · intro h0
      rw [sub_eq_zero.1 h0] at hp
      simp only [cross] at hp
      linarith
  refine le_antisymm ?_ ?_
  · rw [← hU]
    have hsub : filled v ⊆ (⋃ i ∈ Finset.range v.length, T i) ∪ ⋃ i ∈ Finset.range v.length, L i := by
      intro p hp
      obtain ⟨i, hi, hp⟩ := (star_triangles h p).1 hp
      obtain ⟨h1, h2, h3⟩ := tri_signs (hs.pos i hi) hp
      by_cases hl : p ∈ L i
      · exact Or.inr (Set.mem_biUnion (Finset.mem_coe.2 (Finset.mem_range.2 hi)) hl)
      · refine Or.inl (Set.mem_biUnion (Finset.mem_coe.2 (Finset.mem_range.2 hi)) ?_)
        simp only [hL, Set.mem_union, Set.mem_ofPred_eq, not_or] at hl
        exact (mem_openTri (hs.pos i hi) p).2 ⟨lt_of_le_of_ne h1 (Ne.symm hl.1), lt_of_le_of_ne h2 (Ne.symm hl.2.1),
          lt_of_le_of_ne h3 (Ne.symm hl.2.2)⟩
    refine (measure_mono hsub).trans ((measure_union_le _ _).trans ?_)
    rw [hN, add_zero]
  · rw [← hU]
    refine measure_mono fun p hp => ?_
    simp only [Set.mem_iUnion, Finset.mem_range] at hp
    obtain ⟨i, hi, hp⟩ := hp
    exact (star_triangles h p).2 ⟨i, hi, openTri_hull hp⟩

/-! ## Poses -/

/-- Areas do not depend on where a region is in the world. -/
theorem volume_inFrame (mm : Option Pose) (f : Frame) (S : Set (Pt ℝ)) :
    volume {q | ∃ p ∈ S, q = inFrame mm f p} = volume S := by
  have hid : {q | ∃ p ∈ S, q = p} = S := by ext q; simp
  have hw : volume {q | ∃ p ∈ S, q = worldOf mm p} = volume S := by
    cases mm with
    | none => exact congrArg volume hid
    | some m =>
      have e : {q | ∃ p ∈ S, q = worldOf (some m) p} =
          (fun p => m.pos + p) '' (spanMap (Real.cos m.rot, Real.sin m.rot) (-Real.sin m.rot, Real.cos m.rot) '' S) := by
        ext q
        simp only [Set.mem_ofPred_eq, Set.mem_image, exists_exists_and_eq_and]
        refine exists_congr fun p => and_congr_right fun _ => ?_
        rw [eq_comm]
        refine Eq.congr_left ?_
        rw [spanMap_apply]
        ext <;> simp [worldOf] <;> ring
      rw [e, Set.image_add_left, measure_preimage_add, Measure.addHaar_image_linearMap, spanMap_det]
      have : cross (Real.cos m.rot, Real.sin m.rot) (-Real.sin m.rot, Real.cos m.rot) = 1 := by
        simp only [cross]; nlinarith [Real.sin_sq_add_cos_sq m.rot]
      rw [this]; simp
  cases f
  all_goals first | exact congrArg volume hid | exact hw

end Starworlds
