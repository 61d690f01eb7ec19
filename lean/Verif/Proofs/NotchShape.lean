import Verif.Proofs.KernelVisible

/-! # A box with a rectangular notch in its upper side: no point sees all of it -/

namespace Starworlds

open Spec

/-- The box `[0, L] × [0, H]` without the notch `(s, s + w) × (H - d, H]`, counter-clockwise. -/
def notchShape (L H s w d : ℝ) : List (Pt ℝ) :=
  [(0, 0), (L, 0), (L, H), (s + w, H), (s + w, H - d), (s, H - d), (s, H), (0, H)]

section
variable {L H s w d : ℝ}

theorem notch_out (hs : 0 < s) (hL : s + w < L) (hd : 0 < d) (hH : d < H) {p : Pt ℝ} (h1 : s < p.1)
    (h2 : p.1 < s + w) (h3 : H - d < p.2) : p ∉ filled (notchShape L H s w d) := by
  rintro (⟨-, h⟩ | ⟨i, hi, h⟩)
  · have e0 : ¬ RayCrosses (corner (notchShape L H s w d) 0) (corner (notchShape L H s w d) 1) p := rayCrosses_horizontal
    have e1 : RayCrosses (corner (notchShape L H s w d) 1) (corner (notchShape L H s w d) 2) p ↔ _ :=
      rayCrosses_vertical (show (0 : ℝ) < H by linarith)
    have e2 : ¬ RayCrosses (corner (notchShape L H s w d) 2) (corner (notchShape L H s w d) 3) p := rayCrosses_horizontal
    have e3 : RayCrosses (corner (notchShape L H s w d) 3) (corner (notchShape L H s w d) 4) p ↔ _ :=
      rayCrosses_swap.trans (rayCrosses_vertical (show H - d < H by linarith))
    have e4 : ¬ RayCrosses (corner (notchShape L H s w d) 4) (corner (notchShape L H s w d) 5) p := rayCrosses_horizontal
    have e5 : RayCrosses (corner (notchShape L H s w d) 5) (corner (notchShape L H s w d) 6) p ↔ _ :=
      rayCrosses_vertical (show H - d < H by linarith)
    have e6 : ¬ RayCrosses (corner (notchShape L H s w d) 6) (corner (notchShape L H s w d) 7) p := rayCrosses_horizontal
    have e8 : corner (notchShape L H s w d) 8 = (0, 0) := by simp [corner, notchShape]
    have e7 : RayCrosses (corner (notchShape L H s w d) 7) (corner (notchShape L H s w d) 8) p ↔ 0 ≤ p.2 ∧ p.2 < H ∧ p.1 < 0 := by
      rw [e8]; exact rayCrosses_swap.trans (rayCrosses_vertical (show (0 : ℝ) < H by linarith))
    have r : List.range (notchShape L H s w d).length = [0, 1, 2, 3, 4, 5, 6, 7] := rfl
    rw [r] at h
    simp only [List.filter_cons, List.filter_nil, zero_add, Nat.reduceAdd, e0, e1, e2, e3, e4, e5, e6, e7, decide_false,
      decide_eq_true_eq, Bool.false_eq_true, if_false] at h
    by_cases hp : p.2 < H
    · rw [if_pos ⟨by linarith, hp, by linarith⟩, if_pos ⟨h3.le, hp, h2⟩, if_neg (by rintro ⟨-, -, h⟩; linarith),
        if_neg (by rintro ⟨-, -, h⟩; linarith)] at h
      simp at h
    · rw [if_neg (by rintro ⟨-, h, -⟩; exact hp h), if_neg (by rintro ⟨-, h, -⟩; exact hp h),
        if_neg (by rintro ⟨-, h, -⟩; exact hp h), if_neg (by rintro ⟨-, h, -⟩; exact hp h)] at h
      simp at h
  · simp only [notchShape, List.length_cons, List.length_nil] at hi
    interval_cases i
    · have := (onSegment_horizontal (show (0 : ℝ) ≤ L by linarith)).1 h; linarith [this.1]
    · have := (onSegment_vertical (show (0 : ℝ) ≤ H by linarith)).1 h; linarith [this.1]
    · have := (onSegment_horizontal (show s + w ≤ L by linarith)).1 (onSegment_swap.1 h); linarith [this.2.1]
    · have := (onSegment_vertical (show H - d ≤ H by linarith)).1 (onSegment_swap.1 h); linarith [this.1]
    · have := (onSegment_horizontal (show s ≤ s + w by linarith)).1 (onSegment_swap.1 h); linarith [this.1]
    · have := (onSegment_vertical (show H - d ≤ H by linarith)).1 h; linarith [this.1]
    · have := (onSegment_horizontal (show 0 ≤ s by linarith)).1 (onSegment_swap.1 h); linarith [this.2.2]
    · have e8 : corner (notchShape L H s w d) 8 = (0, 0) := by simp [corner, notchShape]
      rw [show 7 + 1 = 8 from rfl, e8] at h
      have := (onSegment_vertical (show (0 : ℝ) ≤ H by linarith)).1 (onSegment_swap.1 h); linarith [this.1]

theorem notch_ring (hd : 0 ≤ d) (hH : d ≤ H) {p : Pt ℝ} (h : p ∈ filled (notchShape L H s w d)) : p.2 ≤ H := by
  by_contra hp
  push Not at hp
  rcases h with ⟨-, h⟩ | ⟨i, hi, t, t0, t1, h⟩
  · have hno : ∀ i < 8, ¬ RayCrosses (corner (notchShape L H s w d) i) (corner (notchShape L H s w d) (i + 1)) p := by
      intro i hi
      rintro ⟨h1, -⟩
      interval_cases i <;> simp [corner, notchShape] at h1 <;> grind
    have r : List.range (notchShape L H s w d).length = [0, 1, 2, 3, 4, 5, 6, 7] := rfl
    rw [r, List.filter_eq_nil_iff.2] at h
    · simp at h
    · intro i hi
      simp only [decide_eq_true_eq]
      exact hno i (by simp at hi; omega)
  · have hb : ∀ i < 9, (corner (notchShape L H s w d) i).2 ≤ H := by
      intro i hi
      interval_cases i <;> simp [corner, notchShape] <;> linarith
    have b1 := hb i (by simp [notchShape] at hi; omega)
    have b2 := hb (i + 1) (by simp [notchShape] at hi; omega)
    have e := congrArg Prod.snd h
    simp only [Prod.snd_add, Prod.smul_snd, Prod.snd_sub, smul_eq_mul] at e
    nlinarith

/-- No point sees both upper corners of the notch. -/
theorem notch_visible (hs : 0 < s) (hw : 0 < w) (hL : s + w < L) (hd : 0 < d) (hH : d < H) :
    visKernel (filled (notchShape L H s w d)) = ∅ := by
  rw [Set.eq_empty_iff_forall_notMem]
  rintro p ⟨hp, h⟩
  have hpH := notch_ring hd.le hH.le hp
  have m1 : ((s, H) : Pt ℝ) ∈ filled (notchShape L H s w d) :=
    Or.inr ⟨6, by simp [notchShape], 0, le_rfl, zero_le_one, by simp [corner, notchShape]⟩
  have m2 : ((s + w, H) : Pt ℝ) ∈ filled (notchShape L H s w d) :=
    Or.inr ⟨3, by simp [notchShape], 0, le_rfl, zero_le_one, by simp [corner, notchShape]⟩
  -- a point near the corner, on the way to `p`
  have near : ∀ u : ℝ, 0 ≤ u → ∃ e : ℝ, 0 < e ∧ e ≤ 1 ∧ e * u < w ∧ e * (H - p.2) < d := by
    intro u hu
    have hden : 0 < 1 + u / w + (H - p.2) / d := by
      have := div_nonneg hu hw.le
      have := div_nonneg (show 0 ≤ H - p.2 by linarith) hd.le
      linarith
    have q1 := div_nonneg hu hw.le
    have q2 := div_nonneg (show 0 ≤ H - p.2 by linarith) hd.le
    refine ⟨1 / (1 + u / w + (H - p.2) / d), by positivity, ?_, ?_, ?_⟩
    · rw [div_le_one hden]; linarith
    · rw [one_div, inv_mul_lt_iff₀ hden]
      have : u = u / w * w := by field_simp
      nlinarith
    · rw [one_div, inv_mul_lt_iff₀ hden]
      have : H - p.2 = (H - p.2) / d * d := by field_simp
      nlinarith
  by_cases hx : p.1 ≤ s
  · obtain ⟨e, e0, e1, e2, e3⟩ := near (s + w - p.1) (by linarith)
    refine notch_out hs hL hd hH (p := p + (1 - e) • ((s + w, H) - p)) ?_ ?_ ?_ (h _ m2 _ ⟨1 - e, by linarith, by linarith, rfl⟩)
    all_goals simp only [Prod.fst_add, Prod.snd_add, Prod.smul_fst, Prod.smul_snd, Prod.fst_sub, Prod.snd_sub, smul_eq_mul]
    · nlinarith
    · nlinarith
    · nlinarith
  · push Not at hx
    obtain ⟨e, e0, e1, e2, e3⟩ := near (p.1 - s) (by linarith)
    refine notch_out hs hL hd hH (p := p + (1 - e) • ((s, H) - p)) ?_ ?_ ?_ (h _ m1 _ ⟨1 - e, by linarith, by linarith, rfl⟩)
    all_goals simp only [Prod.fst_add, Prod.snd_add, Prod.smul_fst, Prod.smul_snd, Prod.fst_sub, Prod.snd_sub, smul_eq_mul]
    · nlinarith
    · nlinarith
    · nlinarith

end

end Starworlds
