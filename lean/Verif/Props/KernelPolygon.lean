import Verif.Proofs.KernelCorner
import Verif.Props.Polygon

/-! # C75: the kernel computed for a star-shaped polygon -/

namespace Starworlds

open Spec

/-- C75 for convex polygons: the kernel is the polygon, and all of it is visible from each of its points. -/
theorem C75_convex (v : List (Pt ℝ)) (h3 : 3 ≤ v.length)
    (h : (∀ j < v.length, 1 / 10 ^ 10 < turn v j) ∨ ∀ j < v.length, turn v j < -(1 / 10 ^ 10)) :
    constructKernel realOps v = .ok v ∧ visKernel (region v) = region v := by
  have hb : 1 / 10 ^ 10 < |turn v 0| := by
    rcases h with h | h
    · exact lt_abs.mpr (Or.inl (h 0 (by omega)))
    · exact lt_abs.mpr (Or.inr (lt_neg.mp (h 0 (by omega))))
  obtain ⟨b, e, hi⟩ := C36_convex_partial v 0 (by omega) (by simp) hb.le (Or.inl hb)
  have : b = true := by
    rw [hi]
    rintro ⟨⟨j, hj, h1⟩, k, hk, h2⟩
    rcases h with h | h
    · have := h k hk; norm_num at this h2; linarith
    · have := h j hj; norm_num at this h1; linarith
  constructor
  · simp only [constructKernel, polygonKernel, e, ok_then, this, if_true]
  · ext p
    refine ⟨fun hp => hp.1, fun hp => ⟨hp, ?_⟩⟩
    rintro q hq r ⟨t, t0, t1, rfl⟩
    rw [show p + t • (q - p) = (1 - t) • p + t • q by module]
    exact convex_convexHull ℝ {p | p ∈ v} hp hq (sub_nonneg.mpr t1) t0 (by ring)

example : constructKernel realOps [(0, 0), (4, 0), (5, 3), (1, 2)] = .ok [(0, 0), (4, 0), (5, 3), (1, 2)] := by
  refine (C75_convex _ (by simp) (Or.inl ?_)).1
  intro j hj
  simp only [List.length_cons, List.length_nil] at hj
  interval_cases j <;> norm_num [turn, corner, cross]

/-- C75 (partial): for an L-shape with sides of at most 299 whose edges are at least 1/1000 long the result is the
kernel: the convex region with the returned corners consists of the points from which the whole L-shape is visible. By C76
this holds wherever the L-shape is placed and however it is turned. Missing: the other polygons; see `C75_large_false`,
`C75_small_false` and `C75_hook_false`. -/
theorem C75_corner_partial (a b c d : ℝ) (hc : 1 / 1000 ≤ c) (hd : 1 / 1000 ≤ d) (hca : c + 1 / 1000 ≤ a)
    (hdb : d + 1 / 1000 ≤ b) (ha : a ≤ 299) (hb : b ≤ 299) :
    ∃ k, constructKernel realOps [(0, 0), (a, 0), (a, d), (c, d), (c, b), (0, b)] = .ok k ∧
      region k = visKernel (filled [(0, 0), (a, 0), (a, d), (c, d), (c, b), (0, b)]) :=
  ⟨_, corner_kernel ⟨hc, hd, hca, hdb, ha, hb⟩, by
    rw [rectangle_region (by linarith) (by linarith)]
    exact (corner_visible (by linarith) (by linarith) (by linarith) (by linarith)).symm⟩

example : visKernel (filled [(0, 0), (2, 0), (2, 1), (1, 1), (1, 2), (0, 2)]) = {p | 0 ≤ p.1 ∧ p.1 ≤ 1 ∧ 0 ≤ p.2 ∧ p.2 ≤ 1} :=
  corner_visible (by norm_num) (by norm_num) (by norm_num) (by norm_num)

/-- C75 is false for large polygons: for an L-shape of side 400 the constructor succeeds with a kernel that has a corner outside of
the polygon, and lacks points from which the whole polygon is visible. -/
theorem C75_large_false : ∃ v k, constructKernel realOps v = .ok k ∧ (200, -100) ∈ k ∧ (200, -100) ∉ filled v ∧
    (0, 0) ∈ visKernel (filled v) ∧ (0, 0) ∉ region k := by
  have hv : cornerShape 400 400 200 200 =
      ([(0, 0), (400, 0), (400, 200), (200, 200), (200, 400), (0, 400)] : List (Pt ℚ)).map toReal := by
    simp [cornerShape, toReal]
  refine ⟨cornerShape 400 400 200 200, ([(200, -100), (200, 200), (0, 200), (0, 100)] : List (Pt ℚ)).map toReal, ?_, ?_, ?_, ?_, ?_⟩
  · rw [hv, constructKernel_rat (r := .ok [(200, -100), (200, 200), (0, 200), (0, 100)]) (by decide +kernel) (by decide)]
    rfl
  · simp [toReal]
  · rw [corner_filled (by norm_num) (by norm_num) (by norm_num) (by norm_num)]
    rintro ⟨-, h, -⟩
    norm_num at h
  · rw [corner_visible (by norm_num) (by norm_num) (by norm_num) (by norm_num)]
    norm_num
  · intro h
    have hc : Convex ℝ {p : Pt ℝ | 100 ≤ p.1 + p.2} := by
      intro x hx y hy s t hs ht hst
      simp only [Set.mem_ofPred_eq, Prod.fst_add, Prod.snd_add, Prod.smul_fst, Prod.smul_snd, smul_eq_mul] at hx hy ⊢
      nlinarith
    have := convexHull_min (s := {p | p ∈ ([(200, -100), (200, 200), (0, 200), (0, 100)] : List (Pt ℚ)).map toReal}) ?_ hc h
    · norm_num at this
    · intro p hp
      simp [toReal] at hp
      rcases hp with rfl | rfl | rfl | rfl <;> norm_num

/-- C75 is false for larger polygons also in that the constructor raises AttributeError. -/
theorem C75_larger_false : ∃ v, (visKernel (filled v)).Nonempty ∧ constructKernel realOps v = .error .attributeError := by
  have hv : cornerShape 600 600 300 300 =
      ([(0, 0), (600, 0), (600, 300), (300, 300), (300, 600), (0, 600)] : List (Pt ℚ)).map toReal := by
    simp [cornerShape, toReal]
  refine ⟨cornerShape 600 600 300 300, ⟨(0, 0), ?_⟩, ?_⟩
  · rw [corner_visible (by norm_num) (by norm_num) (by norm_num) (by norm_num)]
    norm_num
  · rw [hv, constructKernel_rat (r := .error .attributeError) (by decide +kernel) (by decide)]
    rfl

/-- C75 is false for tiny polygons: for an L-shape of side 2e-5 the kernel is the polygon itself, which is not
convex, and so has corners from which it is not all visible. -/
theorem C75_small_false : ∃ v, constructKernel realOps v = .ok v ∧ ∃ p ∈ v, p ∉ visKernel (filled v) := by
  have hv : cornerShape (2 / 100000) (2 / 100000) (1 / 100000) (1 / 100000) = ([(0, 0), (2 / 100000, 0),
      (2 / 100000, 1 / 100000), (1 / 100000, 1 / 100000), (1 / 100000, 2 / 100000), (0, 2 / 100000)] : List (Pt ℚ)).map toReal := by
    simp [cornerShape, toReal]
  refine ⟨cornerShape (2 / 100000) (2 / 100000) (1 / 100000) (1 / 100000), ?_, (2 / 100000, 0), by simp [cornerShape], ?_⟩
  · rw [hv, constructKernel_rat (r := .ok [(0, 0), (2 / 100000, 0), (2 / 100000, 1 / 100000), (1 / 100000, 1 / 100000),
      (1 / 100000, 2 / 100000), (0, 2 / 100000)]) (by decide +kernel) (by decide)]
    rfl
  · rw [corner_visible (by norm_num) (by norm_num) (by norm_num) (by norm_num)]
    rintro ⟨-, h, -⟩
    norm_num at h

/-- C75 is false for polygons of ordinary size: all of this one is visible from (0, 1/2), but the constructor raises
AttributeError because no kernel is found. -/
theorem C75_hook_false : ∃ v : List (Pt ℝ), v = [(0, 0), (3, -4), (7, -4), (3, -1), (3, 2), (-1, 2), (-1, 0)] ∧
    (0, 1 / 2) ∈ visKernel (filled v) ∧ constructKernel realOps v = .error .attributeError := by
  have hv : hookShape = ([(0, 0), (3, -4), (7, -4), (3, -1), (3, 2), (-1, 2), (-1, 0)] : List (Pt ℚ)).map toReal := by
    simp [hookShape, toReal]
  refine ⟨hookShape, rfl, hook_star, ?_⟩
  rw [hv, constructKernel_rat (r := .error .attributeError) (by decide +kernel) (by decide)]
  rfl

end Starworlds
