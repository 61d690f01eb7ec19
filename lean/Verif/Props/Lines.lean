import Verif.Proofs.Lines

/-! # C04 - C07, C09: lines, segments, rays, random triangle points -/

namespace Starworlds

open Spec

variable {K : Type*} [Field K] [LinearOrder K] [IsStrictOrderedRing K]

set_option linter.unusedSectionVars false

/-- C04: `None` exactly when the direction cross product is below `1e-10`. -/
theorem C04_none_iff (l m : Line K) :
    l.lineIntersection m = none ↔ |dirCross l m| < 1 / 10 ^ 10 := by
  unfold Line.lineIntersection
  simp only [dirCross_eq]
  split <;> simp_all

/-- C04: a returned point lies on both lines, and is the only such point. -/
theorem C04_sound (l m : Line K) (p : Pt K) (h : l.lineIntersection m = some p) :
    OnLine l.p1 l.p2 p ∧ OnLine m.p1 m.p2 p ∧
    ∀ q, OnLine l.p1 l.p2 q → OnLine m.p1 m.p2 q → q = p := by
  unfold Line.lineIntersection at h
  simp only at h
  split at h
  · simp at h
  · rename_i hd
    have hd' := ne_zero_of_thr hd
    have hd2 : dirCross l m ≠ 0 := by rw [dirCross_eq]; exact hd'
    simp only [Option.some.injEq] at h
    have h1 : OnLine l.p1 l.p2 p := by
      refine ⟨((l.p1.1 - m.p1.1) * (m.p1.2 - m.p2.2) - (l.p1.2 - m.p1.2) * (m.p1.1 - m.p2.1)) /
        ((l.p1.1 - l.p2.1) * (m.p1.2 - m.p2.2) - (l.p1.2 - l.p2.2) * (m.p1.1 - m.p2.1)), ?_⟩
      rw [← h]
      ext
      · simp only [Prod.fst_add, Prod.smul_fst, smul_eq_mul, Prod.fst_sub]
        exact div_help hd' (by ring)
      · simp only [Prod.snd_add, Prod.smul_snd, smul_eq_mul, Prod.snd_sub]
        exact div_help hd' (by ring)
    have h2 : OnLine m.p1 m.p2 p := by
      refine ⟨((l.p1.1 - m.p1.1) * (l.p1.2 - l.p2.2) - (l.p1.2 - m.p1.2) * (l.p1.1 - l.p2.1)) /
        ((l.p1.1 - l.p2.1) * (m.p1.2 - m.p2.2) - (l.p1.2 - l.p2.2) * (m.p1.1 - m.p2.1)), ?_⟩
      rw [← h]
      ext
      · simp only [Prod.fst_add, Prod.smul_fst, smul_eq_mul, Prod.fst_sub]
        exact div_help hd' (by ring)
      · simp only [Prod.snd_add, Prod.smul_snd, smul_eq_mul, Prod.snd_sub]
        exact div_help hd' (by ring)
    exact ⟨h1, h2, fun q hq1 hq2 => common_unique hd2 hq1 hq2 h1 h2⟩

/-- C04: swapping the two lines gives the same answer. -/
theorem C04_symm (l m : Line K) : m.lineIntersection l = l.lineIntersection m := by
  have e : dirCross m l = - dirCross l m := by
    simp only [dirCross, cross, Prod.fst_sub, Prod.snd_sub]; ring
  cases h : l.lineIntersection m with
  | none =>
    rw [C04_none_iff] at h
    rw [C04_none_iff, e, abs_neg]; exact h
  | some p =>
    cases h' : m.lineIntersection l with
    | none =>
      rw [C04_none_iff, e, abs_neg, ← C04_none_iff, h] at h'
      exact h'.symm
    | some q =>
      obtain ⟨a1, a2, a3⟩ := C04_sound l m p h
      obtain ⟨b1, b2, _⟩ := C04_sound m l q h'
      rw [a3 q b2 b1]

example : (⟨(0, 0), (2, 2)⟩ : Line ℚ).lineIntersection ⟨(0, 2), (2, 0)⟩ = some (1, 1) := by
  decide +kernel

/-- C05: for segments that are not near-parallel, a point `p` is returned exactly when `p` is
common to both closed segments. -/
theorem C05_some_iff (l m : Line K) (hd : 1 / 10 ^ 10 ≤ |dirCross l m|) (p : Pt K) :
    l.lineSegmentIntersection m = some p ↔ OnSegment l.p1 l.p2 p ∧ OnSegment m.p1 m.p2 p := by
  have hne : dirCross l m ≠ 0 := ne_zero_of_thr (not_lt.mpr hd)
  obtain ⟨e1, e2⟩ := params_point hne
  rw [dirCross_eq] at hd
  unfold Line.lineSegmentIntersection
  simp only [not_lt.mpr hd, if_false]
  split
  · rename_i hr
    simp only [reduceCtorEq, false_iff]
    rintro ⟨⟨t, ht0, ht1, rfl⟩, ⟨u, hu0, hu1, e⟩⟩
    obtain ⟨et, eu⟩ := params hne e
    rw [← et, ← eu] at hr
    rcases hr with h | h | h | h
    · exact absurd ht0 (not_le.mpr h)
    · exact absurd ht1 (not_le.mpr h)
    · exact absurd hu0 (not_le.mpr h)
    · exact absurd hu1 (not_le.mpr h)
  · rename_i hr
    push Not at hr
    obtain ⟨h1, h2, h3, h4⟩ := hr
    simp only [Option.some.injEq]
    constructor
    · rintro rfl
      exact ⟨⟨_, h1, h2, e1⟩, ⟨_, h3, h4, e2⟩⟩
    · rintro ⟨⟨t, ht0, ht1, rfl⟩, ⟨u, hu0, hu1, e⟩⟩
      obtain ⟨et, eu⟩ := params hne e
      rw [e1, ← et]

/-- C05: near-parallel segments give `None`. -/
theorem C05_parallel (l m : Line K) (hd : |dirCross l m| < 1 / 10 ^ 10) :
    l.lineSegmentIntersection m = none := by
  rw [dirCross_eq] at hd
  unfold Line.lineSegmentIntersection
  simp only [hd, if_true]

/-- C05: `None` for a non-parallel pair means that the segments are disjoint. -/
theorem C05_none (l m : Line K) (hd : 1 / 10 ^ 10 ≤ |dirCross l m|) :
    l.lineSegmentIntersection m = none ↔ ¬ ∃ p, OnSegment l.p1 l.p2 p ∧ OnSegment m.p1 m.p2 p := by
  constructor
  · rintro h ⟨p, hp⟩
    rw [(C05_some_iff l m hd p).mpr hp] at h
    simp at h
  · intro h
    cases h' : l.lineSegmentIntersection m with
    | none => rfl
    | some p => exact absurd ⟨p, (C05_some_iff l m hd p).mp h'⟩ h

example : (⟨(0, 0), (2, 2)⟩ : Line ℚ).lineSegmentIntersection ⟨(0, 2), (1, 1)⟩ = some (1, 1) ∧
    (⟨(0, 0), (2, 2)⟩ : Line ℚ).lineSegmentIntersection ⟨(0, 2), (1/2, 1)⟩ = none := by
  decide +kernel

/-- C06: for rays that are not near-parallel, a point is returned exactly when it is common to
both rays. -/
theorem C06_some_iff (l m : Line K) (hd : 1 / 10 ^ 10 ≤ |dirCross l m|) (p : Pt K) :
    l.rayIntersection m = some p ↔ OnRay l.p1 l.p2 p ∧ OnRay m.p1 m.p2 p := by
  have hne : dirCross l m ≠ 0 := ne_zero_of_thr (not_lt.mpr hd)
  obtain ⟨e1, e2⟩ := params_point hne
  rw [dirCross_eq] at hd
  unfold Line.rayIntersection
  simp only [not_lt.mpr hd, if_false]
  split
  · rename_i hr
    simp only [reduceCtorEq, false_iff]
    rintro ⟨⟨t, ht0, rfl⟩, ⟨u, hu0, e⟩⟩
    obtain ⟨et, eu⟩ := params hne e
    rw [← et, ← eu] at hr
    rcases hr with h | h
    · exact absurd ht0 (not_le.mpr h)
    · exact absurd hu0 (not_le.mpr h)
  · rename_i hr
    push Not at hr
    obtain ⟨h1, h2⟩ := hr
    simp only [Option.some.injEq]
    constructor
    · rintro rfl
      exact ⟨⟨_, h1, e1⟩, ⟨_, h2, e2⟩⟩
    · rintro ⟨⟨t, ht0, rfl⟩, ⟨u, hu0, e⟩⟩
      obtain ⟨et, eu⟩ := params hne e
      rw [e1, ← et]

/-- C06: near-parallel rays give `None`. -/
theorem C06_parallel (l m : Line K) (hd : |dirCross l m| < 1 / 10 ^ 10) :
    l.rayIntersection m = none := by
  rw [dirCross_eq] at hd
  unfold Line.rayIntersection
  simp only [hd, if_true]

example : (⟨(0, 0), (1, 1)⟩ : Line ℚ).rayIntersection ⟨(0, 8), (1, 7)⟩ = some (4, 4) := by
  decide +kernel

/-- C07 is false of the code: `Line.intersects` answers `False` on every pair of lines. -/
theorem C07_intersects_never (l m : Line K) : l.intersects m = false := by
  have h : ∀ a b : Pt K, isCcw a b b = false := by
    intro a b
    have h0 := thr_pos (K := K)
    simp only [isCcw, orientationVal, decide_eq_false_iff_not, not_lt, sub_self, mul_zero]
    linarith
  simp [Line.intersects, h]

/-- C07 is false of the code: two segments that properly cross are reported as not
intersecting. -/
theorem C07_intersects_false :
    ∃ l m : Line K, (∃ s t : K, 0 < s ∧ s < 1 ∧ 0 < t ∧ t < 1 ∧
        l.p1 + s • (l.p2 - l.p1) = m.p1 + t • (m.p2 - m.p1)) ∧
      1 ≤ |dirCross l m| ∧ l.intersects m = false := by
  refine ⟨⟨(0, 0), (2, 2)⟩, ⟨(0, 2), (2, 0)⟩, ⟨1 / 2, 1 / 2, ?_, ?_, ?_, ?_, ?_⟩, ?_, C07_intersects_never _ _⟩
  · norm_num
  · norm_num
  · norm_num
  · norm_num
  · ext <;> simp; norm_num
  · rw [dirCross_eq]; norm_num

/-- C07, the true part: a positive answer is never wrong (there is none), so `intersects`
implies that the segments share a point. -/
theorem C07_intersects_partial (l m : Line K) (h : l.intersects m = true) :
    ∃ p, OnSegment l.p1 l.p2 p ∧ OnSegment m.p1 m.p2 p := by
  rw [C07_intersects_never] at h; simp at h

/-- C09: whatever the random draws `x, y ∈ [0,1]`, the point is in the triangle. -/
theorem C09_in_triangle (a b c : Pt K) (x y : K) (hx : 0 ≤ x) (hx1 : x ≤ 1) (hy : 0 ≤ y)
    (hy1 : y ≤ 1) : InTriangle a b c (pointInTriangle a b c x y) := by
  refine ⟨|x - y|, (1 / 2) * (x + y - |x - y|), 1 - (1 / 2) * (|x - y| + x + y), abs_nonneg _, ?_,
    ?_, by ring, ?_⟩
  · rcases abs_cases (x - y) with ⟨h, _⟩ | ⟨h, _⟩ <;> rw [h] <;> linarith
  · rcases abs_cases (x - y) with ⟨h, _⟩ | ⟨h, _⟩ <;> rw [h] <;> linarith
  · ext <;> simp [pointInTriangle]

/-- C09: every point of the triangle is produced by some pair of draws in `[0,1]`. -/
theorem C09_onto (a b c p : Pt K) (h : InTriangle a b c p) :
    ∃ x y : K, 0 ≤ x ∧ x ≤ 1 ∧ 0 ≤ y ∧ y ≤ 1 ∧ pointInTriangle a b c x y = p := by
  obtain ⟨s, t, u, hs, ht, hu, hsum, rfl⟩ := h
  refine ⟨s + t, t, by linarith, by linarith, ht, by linarith, ?_⟩
  have e : |s + t - t| = s := by rw [add_sub_cancel_right, abs_of_nonneg hs]
  have hu' : u = 1 - s - t := by linarith
  ext
  · simp only [pointInTriangle, e, Prod.fst_add, Prod.smul_fst, smul_eq_mul, hu']; ring
  · simp only [pointInTriangle, e, Prod.snd_add, Prod.smul_snd, smul_eq_mul, hu']; ring

example : pointInTriangle ((0, 0) : Pt ℚ) (1, 0) (0, 1) (1/4) (1/2) = (1/4, 1/2) := by decide +kernel

end Starworlds
