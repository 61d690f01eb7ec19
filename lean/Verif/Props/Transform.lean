import Verif.Proofs.CgLemmas
import Verif.Model.CgReal
import Mathlib.Analysis.SpecialFunctions.Trigonometric.Bounds

/-! # C01, C08, C10: rigid motions, line crossing, equilateral triangle -/

namespace Starworlds

open Real Spec

/-- C01: the inverse transform undoes the transform. -/
theorem C01_left_inverse (x : Pt ℝ) (r : ℝ) (t : Pt ℝ) :
    affineTransform (affineTransform x r t false) r t true = x := by
  by_cases h : r = 0
  · simp [affineTransform, h]
  · have e := sin_sq_add_cos_sq r
    simp only [affineTransform, h, ne_eq, not_false_eq_true, if_true, if_false, Bool.false_eq_true]
    ext
    · simp only; linear_combination x.1 * e
    · simp only; linear_combination x.2 * e

/-- C01: the transform undoes the inverse transform. -/
theorem C01_right_inverse (x : Pt ℝ) (r : ℝ) (t : Pt ℝ) :
    affineTransform (affineTransform x r t true) r t false = x := by
  by_cases h : r = 0
  · simp [affineTransform, h]
  · have e := sin_sq_add_cos_sq r
    simp only [affineTransform, h, ne_eq, not_false_eq_true, if_true, if_false, Bool.false_eq_true]
    ext
    · simp only; linear_combination (x.1 - t.1) * e
    · simp only; linear_combination (x.2 - t.2) * e

/-- C01: the `rotation == 0` shortcut agrees with the general formula: for every rotation
(including 0) the result is `R x + t`, respectively `Rᵀ (x - t)`. -/
theorem C01_formula (x : Pt ℝ) (r : ℝ) (t : Pt ℝ) :
    affineTransform x r t false = (cos r * x.1 - sin r * x.2 + t.1, sin r * x.1 + cos r * x.2 + t.2) ∧
    affineTransform x r t true =
      (cos r * (x.1 - t.1) + sin r * (x.2 - t.2), -sin r * (x.1 - t.1) + cos r * (x.2 - t.2)) := by
  by_cases h : r = 0
  · simp [affineTransform, h]
  · simp [affineTransform, h]

/-- C01: distances are preserved (squared Euclidean distance, hence the distance). -/
theorem C01_isometry (x y : Pt ℝ) (r : ℝ) (t : Pt ℝ) (inv : Bool) :
    normSq (affineTransform x r t inv - affineTransform y r t inv) = normSq (x - y) := by
  have e := sin_sq_add_cos_sq r
  cases inv
  · rw [(C01_formula x r t).1, (C01_formula y r t).1]
    simp only [normSq, Prod.fst_sub, Prod.snd_sub]
    linear_combination ((x.1 - y.1) ^ 2 + (x.2 - y.2) ^ 2) * e
  · rw [(C01_formula x r t).2, (C01_formula y r t).2]
    simp only [normSq, Prod.fst_sub, Prod.snd_sub]
    linear_combination ((x.1 - y.1) ^ 2 + (x.2 - y.2) ^ 2) * e

/-- C01: the orientation value of three points is preserved, so all orientation predicates are. -/
theorem C01_orientation (x y z : Pt ℝ) (r : ℝ) (t : Pt ℝ) (inv : Bool) :
    orientationVal (affineTransform x r t inv) (affineTransform y r t inv) (affineTransform z r t inv) =
      orientationVal x y z := by
  have e := sin_sq_add_cos_sq r
  cases inv
  · rw [(C01_formula x r t).1, (C01_formula y r t).1, (C01_formula z r t).1]
    simp only [orientationVal]
    linear_combination ((y.2 - x.2) * (z.1 - y.1) - (y.1 - x.1) * (z.2 - y.2)) * e
  · rw [(C01_formula x r t).2, (C01_formula y r t).2, (C01_formula z r t).2]
    simp only [orientationVal]
    linear_combination ((y.2 - x.2) * (z.1 - y.1) - (y.1 - x.1) * (z.2 - y.2)) * e

/-- A quarter turn followed by a shift. -/
example : affineTransform (1, 0) (π / 2) (2, 3) false = (2, 4) := by
  rw [(C01_formula _ _ _).1]; simp; norm_num

/-! ## C08 -/

theorem ccw_diff {a b c d : Pt ℝ} (h : isCcw a c d ≠ isCcw b c d) :
    orientationVal a c d ≠ orientationVal b c d := by
  intro e; apply h; simp only [isCcw, e]

/-- The denominator is the difference of two orientation values. -/
theorem denom_eq (a1 a2 b1 b2 : Pt ℝ) :
    -(a2 - a1).2 * (b2 - b1).1 + (a2 - a1).1 * (b2 - b1).2 =
      orientationVal a2 b1 b2 - orientationVal a1 b1 b2 := by
  simp only [orientationVal, Prod.fst_sub, Prod.snd_sub]; ring

theorem denom_eq' (a1 a2 b1 b2 : Pt ℝ) :
    -(a2 - a1).2 * (b2 - b1).1 + (a2 - a1).1 * (b2 - b1).2 =
      orientationVal a1 a2 b1 - orientationVal a1 a2 b2 := by
  simp only [orientationVal, Prod.fst_sub, Prod.snd_sub]; ring

theorem getIntersection_crossing {a1 a2 b1 b2 : Pt ℝ} (h : intersect a1 a2 b1 b2 = true) :
    orientationVal a1 b1 b2 - orientationVal a2 b1 b2 ≠ 0 ∧
    ∃ p, getIntersection a1 a2 b1 b2 = .ok (some p) ∧
      p = b1 + (orientationVal a1 a2 b1 / (orientationVal a1 a2 b1 - orientationVal a1 a2 b2)) • (b2 - b1) ∧
      p = a1 + (orientationVal a1 b1 b2 / (orientationVal a1 b1 b2 - orientationVal a2 b1 b2)) • (a2 - a1) := by
  have hh := h
  simp only [intersect, Bool.and_eq_true, bne_iff_ne] at hh
  have hd : orientationVal a1 b1 b2 - orientationVal a2 b1 b2 ≠ 0 := sub_ne_zero.mpr (ccw_diff hh.1)
  refine ⟨hd, ?_⟩
  have hD := denom_eq a1 a2 b1 b2
  have hD' := denom_eq' a1 a2 b1 b2
  have hd' : orientationVal a1 a2 b1 - orientationVal a1 a2 b2 ≠ 0 := by
    rw [← hD', hD, ← neg_sub]; exact neg_ne_zero.mpr hd
  refine ⟨_, ?_, rfl, ?_⟩
  · unfold getIntersection
    simp only [h, Bool.not_true, Bool.false_eq_true, if_false]
    rw [hD', if_neg hd']
    have en : -(a2 - a1).2 * (a1 - b1).1 + (a2 - a1).1 * (a1 - b1).2 = orientationVal a1 a2 b1 := by
      simp only [orientationVal, Prod.fst_sub, Prod.snd_sub]; ring
    rw [en, add_comm]
  · have e2 : orientationVal a1 a2 b1 - orientationVal a1 a2 b2 =
        -(orientationVal a1 b1 b2 - orientationVal a2 b1 b2) := by
      rw [← hD', hD]; ring
    rw [e2]
    have key : ∀ u v : ℝ, ∀ p q : ℝ, (p - q) * (orientationVal a1 b1 b2 - orientationVal a2 b1 b2) -
        orientationVal a1 a2 b1 * u - orientationVal a1 b1 b2 * v = 0 →
        p + orientationVal a1 a2 b1 / -(orientationVal a1 b1 b2 - orientationVal a2 b1 b2) * u =
        q + orientationVal a1 b1 b2 / (orientationVal a1 b1 b2 - orientationVal a2 b1 b2) * v := by
      intro u v p q hz
      generalize orientationVal a1 b1 b2 - orientationVal a2 b1 b2 = D at hd hz
      have : p - q = (orientationVal a1 a2 b1 * u + orientationVal a1 b1 b2 * v) / D := by
        rw [eq_div_iff hd]; linarith
      rw [sub_eq_iff_eq_add.mp this, div_neg]; ring
    ext
    · simp only [Prod.fst_add, Prod.smul_fst, smul_eq_mul]
      apply key
      simp only [orientationVal, Prod.fst_sub]; ring
    · simp only [Prod.snd_add, Prod.smul_snd, smul_eq_mul]
      apply key
      simp only [orientationVal, Prod.snd_sub]; ring

/-- C08: when `intersect` holds, `get_intersection` returns a point (no division by zero) on both
infinite lines. -/
theorem C08_on_lines (a1 a2 b1 b2 : Pt ℝ) (h : intersect a1 a2 b1 b2 = true) :
    ∃ p, getIntersection a1 a2 b1 b2 = .ok (some p) ∧ OnLine a1 a2 p ∧ OnLine b1 b2 p := by
  obtain ⟨_, p, h1, h2, h3⟩ := getIntersection_crossing h
  exact ⟨p, h1, ⟨_, h3⟩, ⟨_, h2⟩⟩

theorem ratio_mem {u v : ℝ} (h : (u < 0 ∧ 0 < v) ∨ (0 < u ∧ v < 0)) :
    0 ≤ u / (u - v) ∧ u / (u - v) ≤ 1 := by
  rcases h with ⟨hu, hv⟩ | ⟨hu, hv⟩
  · have : u - v < 0 := by linarith
    exact ⟨div_nonneg_of_nonpos hu.le this.le, by rw [div_le_one_of_neg this]; linarith⟩
  · have : 0 < u - v := by linarith
    exact ⟨div_nonneg hu.le this.le, by rw [div_le_one this]; linarith⟩

theorem opposite {a b : ℝ} (ha : 1 / 10 ^ 10 < |a|) (hb : 1 / 10 ^ 10 < |b|)
    (h : decide (a < -collinearThreshold) ≠ decide (b < -collinearThreshold)) :
    (a < 0 ∧ 0 < b) ∨ (0 < a ∧ b < 0) := by
  have h0 := thr_pos (K := ℝ)
  have hthr : (collinearThreshold : ℝ) = 1 / 10 ^ 10 := rfl
  have key : ∀ x : ℝ, 1 / 10 ^ 10 < |x| → (x < -collinearThreshold ∧ x < 0) ∨ (¬ x < -collinearThreshold ∧ 0 < x) := by
    intro x hx
    rcases lt_abs.mp hx with h | h
    · right; constructor <;> [rw [hthr]; skip] <;> linarith
    · left; constructor <;> [rw [hthr]; skip] <;> linarith
  rcases key a ha with ⟨h1, h2⟩ | ⟨h1, h2⟩ <;> rcases key b hb with ⟨h3, h4⟩ | ⟨h3, h4⟩
  · simp [h1, h3] at h
  · exact Or.inl ⟨h2, h4⟩
  · exact Or.inr ⟨h2, h4⟩
  · simp [h1, h3] at h

/-- C08: if moreover the four orientation values are beyond the threshold, the returned point
lies on both closed segments. -/
theorem C08_on_segments (a1 a2 b1 b2 : Pt ℝ) (h : intersect a1 a2 b1 b2 = true)
    (h1 : 1 / 10 ^ 10 < |orientationVal a1 b1 b2|) (h2 : 1 / 10 ^ 10 < |orientationVal a2 b1 b2|)
    (h3 : 1 / 10 ^ 10 < |orientationVal a1 a2 b1|) (h4 : 1 / 10 ^ 10 < |orientationVal a1 a2 b2|) :
    ∃ p, getIntersection a1 a2 b1 b2 = .ok (some p) ∧ OnSegment a1 a2 p ∧ OnSegment b1 b2 p := by
  obtain ⟨_, p, e1, e2, e3⟩ := getIntersection_crossing h
  simp only [intersect, Bool.and_eq_true, bne_iff_ne, isCcw] at h
  obtain ⟨ha0, ha1⟩ := ratio_mem (opposite h1 h2 h.1)
  obtain ⟨hb0, hb1⟩ := ratio_mem (opposite h3 h4 h.2)
  exact ⟨p, e1, ⟨_, ha0, ha1, e3⟩, ⟨_, hb0, hb1, e2⟩⟩

/-- The detour over `b` on the way from `a` to `c` is at most `1e-8` plus `1e-7` times the distance. -/
def Spec.NearlyBetween (a b c : Pt ℝ) : Prop :=
  √(normSq (a - b)) + √(normSq (c - b)) ≤ √(normSq (a - c)) + (1 / 10 ^ 8 + 1 / 10 ^ 7 * √(normSq (a - c)))

theorem isBetween_iff (a b c : Pt ℝ) : isBetween a b c = true ↔ Spec.NearlyBetween a b c := by
  have tri : √(normSq (a - c)) ≤ √(normSq (a - b)) + √(normSq (c - b)) := by
    have key : ∀ v : Pt ℝ, √(normSq v) = ‖(⟨v.1, v.2⟩ : ℂ)‖ := by
      intro v
      rw [Complex.norm_def, Complex.normSq_mk]
      simp only [normSq]; ring_nf
    rw [key, key, key]
    calc _ = ‖(⟨(a - b).1, (a - b).2⟩ : ℂ) - ⟨(c - b).1, (c - b).2⟩‖ := by
            congr 1
            apply Complex.ext <;> simp
      _ ≤ _ := norm_sub_le _ _
  have hn : ∀ v : Pt ℝ, norm2 v = √(normSq v) := fun _ => rfl
  simp only [isBetween, isClose, decide_eq_true_eq, Spec.NearlyBetween, hn]
  rw [abs_of_nonneg (by linarith), abs_of_nonneg (Real.sqrt_nonneg _)]
  constructor <;> intro h <;> linarith

/-- C08: when `intersect` fails the result is the first of the four end points that is nearly
between the end points of the other segment, and `None` if there is none. -/
theorem C08_otherwise (a1 a2 b1 b2 : Pt ℝ) (h : intersect a1 a2 b1 b2 = false) :
    ∃ r, getIntersection a1 a2 b1 b2 = .ok r ∧
      ((r = some a1 ∧ Spec.NearlyBetween b1 a1 b2) ∨
       (r = some a2 ∧ ¬ Spec.NearlyBetween b1 a1 b2 ∧ Spec.NearlyBetween b1 a2 b2) ∨
       (r = some b1 ∧ ¬ Spec.NearlyBetween b1 a1 b2 ∧ ¬ Spec.NearlyBetween b1 a2 b2 ∧
         Spec.NearlyBetween a1 b1 a2) ∨
       (r = some b2 ∧ ¬ Spec.NearlyBetween b1 a1 b2 ∧ ¬ Spec.NearlyBetween b1 a2 b2 ∧
         ¬ Spec.NearlyBetween a1 b1 a2 ∧ Spec.NearlyBetween a1 b2 a2) ∨
       (r = none ∧ ¬ Spec.NearlyBetween b1 a1 b2 ∧ ¬ Spec.NearlyBetween b1 a2 b2 ∧
         ¬ Spec.NearlyBetween a1 b1 a2 ∧ ¬ Spec.NearlyBetween a1 b2 a2)) := by
  simp only [← isBetween_iff]
  unfold getIntersection
  simp only [h, Bool.not_false, if_true]
  split
  · exact ⟨_, rfl, by simp_all⟩
  · split
    · exact ⟨_, rfl, by simp_all⟩
    · split
      · exact ⟨_, rfl, by simp_all⟩
      · split
        · exact ⟨_, rfl, by simp_all⟩
        · exact ⟨_, rfl, by simp_all⟩

/-- The middle of a segment is nearly between its end points; a point well off the segment is not. -/
example : Spec.NearlyBetween ((0, 0) : Pt ℝ) (1, 0) (2, 0) ∧ ¬ Spec.NearlyBetween ((0, 0) : Pt ℝ) (3, 0) (2, 0) := by
  have e : √(4 : ℝ) = 2 := by rw [show (4 : ℝ) = 2 ^ 2 by norm_num]; exact Real.sqrt_sq (by norm_num)
  have e9 : √(9 : ℝ) = 3 := by rw [show (9 : ℝ) = 3 ^ 2 by norm_num]; exact Real.sqrt_sq (by norm_num)
  constructor <;> simp only [Spec.NearlyBetween, normSq] <;> norm_num [e, e9]

/-- The hypotheses of `C08_on_segments` hold for two crossing diagonals. -/
example : intersect ((0, 0) : Pt ℚ) (2, 2) (0, 2) (2, 0) = true ∧
    1 / 10 ^ 10 < |orientationVal ((0, 0) : Pt ℚ) (0, 2) (2, 0)| ∧
    1 / 10 ^ 10 < |orientationVal ((2, 2) : Pt ℚ) (0, 2) (2, 0)| ∧
    1 / 10 ^ 10 < |orientationVal ((0, 0) : Pt ℚ) (2, 2) (0, 2)| ∧
    1 / 10 ^ 10 < |orientationVal ((0, 0) : Pt ℚ) (2, 2) (2, 0)| := by decide +kernel

/-! ## C10 -/

/-- C10, the rotation-free shape: mean, side lengths and circumradius, for every rotation, but with
the mean rotated about the origin. -/
theorem C10_shape (c : Pt ℝ) (L rot : ℝ) :
    let T := equilateralTriangle c L rot
    let m : Pt ℝ := (cos rot * c.1 - sin rot * c.2, sin rot * c.1 + cos rot * c.2)
    T.1 + T.2.1 + T.2.2 = (3 : ℝ) • m ∧
    normSq (T.1 - T.2.1) = L ^ 2 ∧ normSq (T.2.1 - T.2.2) = L ^ 2 ∧ normSq (T.2.2 - T.1) = L ^ 2 ∧
    normSq (T.1 - m) = L ^ 2 / 3 ∧ normSq (T.2.1 - m) = L ^ 2 / 3 ∧ normSq (T.2.2 - m) = L ^ 2 / 3 := by
  have h3 : √3 ^ 2 = (3 : ℝ) := Real.sq_sqrt (by norm_num)
  have h3p : (√3 : ℝ) ≠ 0 := by positivity
  have e := sin_sq_add_cos_sq rot
  obtain ⟨k, hk⟩ : ∃ k : ℝ, k = 1 / √3 := ⟨_, rfl⟩
  have hk2 : k ^ 2 = 1 / 3 := by rw [hk, div_pow, h3]; norm_num
  have hk' : -1 / (2 * √3) = -(k / 2) := by rw [hk]; field_simp
  have hT : equilateralTriangle c L rot =
      let t0 : Pt ℝ := (c.1, c.2 + k * L)
      let t1 : Pt ℝ := (c.1 + 1 / 2 * L, c.2 + -(k / 2) * L)
      let t2 : Pt ℝ := (c.1 + -1 / 2 * L, c.2 + -(k / 2) * L)
      ((cos rot * t0.1 - sin rot * t0.2, sin rot * t0.1 + cos rot * t0.2),
       (cos rot * t1.1 - sin rot * t1.2, sin rot * t1.1 + cos rot * t1.2),
       (cos rot * t2.1 - sin rot * t2.2, sin rot * t2.1 + cos rot * t2.2)) := by
    by_cases h : rot = 0
    · simp [equilateralTriangle, h, ← hk, hk']
    · simp [equilateralTriangle, h, ← hk, hk']
  simp only [hT, normSq, Prod.fst_sub, Prod.snd_sub]
  refine ⟨?_, ?_, ?_, ?_, ?_, ?_, ?_⟩
  · ext
    · simp only [Prod.fst_add, Prod.smul_fst, smul_eq_mul]; ring
    · simp only [Prod.snd_add, Prod.smul_snd, smul_eq_mul]; ring
  · linear_combination (1 / 4 * L ^ 2 + 9 / 4 * k ^ 2 * L ^ 2) * e + (9 / 4 * L ^ 2) * hk2
  · linear_combination L ^ 2 * e
  · linear_combination (1 / 4 * L ^ 2 + 9 / 4 * k ^ 2 * L ^ 2) * e + (9 / 4 * L ^ 2) * hk2
  · linear_combination (k ^ 2 * L ^ 2) * e + L ^ 2 * hk2
  · linear_combination (1 / 4 * L ^ 2 + 1 / 4 * k ^ 2 * L ^ 2) * e + (1 / 4 * L ^ 2) * hk2
  · linear_combination (1 / 4 * L ^ 2 + 1 / 4 * k ^ 2 * L ^ 2) * e + (1 / 4 * L ^ 2) * hk2

/-- C10, the true part: with `rot = 0`, or for a centroid at the origin, the three points have mean
`c`, pairwise distances `|L|` and distance `|L|/√3` from `c`. -/
theorem C10_centroid_partial (c : Pt ℝ) (L rot : ℝ) (h : rot = 0 ∨ c = 0) :
    let T := equilateralTriangle c L rot
    (1 / 3 : ℝ) • (T.1 + T.2.1 + T.2.2) = c ∧
    norm2 (T.1 - T.2.1) = |L| ∧ norm2 (T.2.1 - T.2.2) = |L| ∧ norm2 (T.2.2 - T.1) = |L| ∧
    norm2 (T.1 - c) = |L| / √3 ∧ norm2 (T.2.1 - c) = |L| / √3 ∧ norm2 (T.2.2 - c) = |L| / √3 := by
  obtain ⟨h1, h2, h3, h4, h5, h6, h7⟩ := C10_shape c L rot
  have hm : ((cos rot * c.1 - sin rot * c.2, sin rot * c.1 + cos rot * c.2) : Pt ℝ) = c := by
    rcases h with h | h
    · simp [h]
    · simp [h]
  have hs : √(L ^ 2 / 3) = |L| / √3 := by rw [Real.sqrt_div (sq_nonneg _), Real.sqrt_sq_eq_abs]
  have hn : ∀ v : Pt ℝ, norm2 v = √(normSq v) := fun _ => rfl
  simp only [hm] at h1 h5 h6 h7
  simp only [hn, h1, h2, h3, h4, h5, h6, h7, Real.sqrt_sq_eq_abs, hs, and_self, and_true]
  rw [smul_smul]; norm_num

/-- C10 is false of the code: a rotated triangle is rotated about the origin, not about its
centroid, so its mean is not the requested centroid. -/
theorem C10_centroid_false : ∃ (c : Pt ℝ) (L rot : ℝ),
    let T := equilateralTriangle c L rot
    (1 / 3 : ℝ) • (T.1 + T.2.1 + T.2.2) ≠ c := by
  refine ⟨(1, 0), 1, π, ?_⟩
  obtain ⟨h1, _⟩ := C10_shape (1, 0) 1 π
  simp only [h1, smul_smul]
  simp only [cos_pi, sin_pi]
  intro h
  have := congrArg Prod.fst h
  simp at this
  norm_num at this

end Starworlds
