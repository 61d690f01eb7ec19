import Verif.Spec.ConeRegion
import Verif.Proofs.StarInside
import Mathlib.Analysis.SpecialFunctions.Complex.Arg

/-! # Angles of vectors and the region swept between two directions -/

namespace Starworlds

open Real Spec

theorem atAngle_add_int (r t : ℝ) (k : ℤ) : atAngle r (t + k * (2 * π)) = atAngle r t := by
  simp [atAngle, cos_add_int_mul_two_pi, sin_add_int_mul_two_pi]

theorem cross_atAngle (r s t u : ℝ) : cross (atAngle r t) (atAngle s u) = r * s * sin (u - t) := by
  simp only [cross, atAngle, sin_sub]; ring

theorem dot_atAngle (r s t u : ℝ) : dot (atAngle r t) (atAngle s u) = r * s * cos (u - t) := by
  simp only [dot, atAngle, cos_sub]; ring

/-- A vector on the side of direction `ν` has an angle within a quarter turn of `ν`. -/
theorem exists_angle_near (ν : ℝ) {d : Pt ℝ} (h : 0 < d.1 * cos ν + d.2 * sin ν) :
    ∃ r φ : ℝ, 0 < r ∧ |φ - ν| < π / 2 ∧ d = atAngle r φ := by
  set z : ℂ := ⟨d.1 * cos ν + d.2 * sin ν, d.2 * cos ν - d.1 * sin ν⟩ with hz
  have hz0 : z ≠ 0 := by
    intro h0
    have := congrArg Complex.re h0
    simp only [hz, Complex.zero_re] at this
    linarith
  refine ⟨‖z‖, ν + z.arg, norm_pos_iff.2 hz0, ?_, ?_⟩
  · rw [add_sub_cancel_left, Complex.abs_arg_lt_pi_div_two_iff]
    exact Or.inl h
  · have hc : d.1 * cos ν + d.2 * sin ν = ‖z‖ * cos z.arg := (Complex.norm_mul_cos_arg z).symm
    have hs : d.2 * cos ν - d.1 * sin ν = ‖z‖ * sin z.arg := (Complex.norm_mul_sin_arg z).symm
    have hq := sin_sq_add_cos_sq ν
    ext
    · simp only [atAngle, cos_add]
      have : ‖z‖ * (cos ν * cos z.arg - sin ν * sin z.arg) = cos ν * (‖z‖ * cos z.arg) - sin ν * (‖z‖ * sin z.arg) := by ring
      rw [this, ← hc, ← hs]
      linear_combination (-d.1) * hq
    · simp only [atAngle, sin_add]
      have : ‖z‖ * (sin ν * cos z.arg + cos ν * sin z.arg) = sin ν * (‖z‖ * cos z.arg) + cos ν * (‖z‖ * sin z.arg) := by ring
      rw [this, ← hc, ← hs]
      linear_combination (-d.2) * hq

/-- Every vector but zero has an angle in a given full turn. -/
theorem exists_angle (β : ℝ) {d : Pt ℝ} (h : d ≠ 0) : ∃ r φ : ℝ, 0 < r ∧ β ≤ φ ∧ φ < β + 2 * π ∧ d = atAngle r φ := by
  set z : ℂ := ⟨d.1, d.2⟩ with hz
  have hz0 : z ≠ 0 := by
    intro h0
    apply h
    ext
    · simpa [hz] using congrArg Complex.re h0
    · simpa [hz] using congrArg Complex.im h0
  have hpi := pi_pos
  set k := ⌊(z.arg - β) / (2 * π)⌋ with hk
  have hk1 : (k : ℝ) * (2 * π) ≤ z.arg - β := by
    have := Int.floor_le ((z.arg - β) / (2 * π))
    rwa [le_div_iff₀ (by linarith)] at this
  have hk2 : z.arg - β < (k + 1) * (2 * π) := by
    have := Int.lt_floor_add_one ((z.arg - β) / (2 * π))
    rwa [div_lt_iff₀ (by linarith)] at this
  refine ⟨‖z‖, z.arg + (-k : ℤ) * (2 * π), norm_pos_iff.2 hz0, ?_, ?_, ?_⟩
  · push_cast; linarith
  · push_cast; linarith
  · rw [atAngle_add_int]
    ext
    · exact (Complex.norm_mul_cos_arg z).symm
    · exact (Complex.norm_mul_sin_arg z).symm

/-- Equal directions have equal angles up to full turns. -/
theorem angle_unique {r s t u : ℝ} (hr : 0 < r) (hs : 0 < s) (h : atAngle r t = atAngle s u) (hd : |u - t| < 2 * π) : t = u := by
  have h1 : sin (u - t) = 0 := by
    have := cross_atAngle r s t u
    rw [h, cross_atAngle, sub_self, sin_zero, mul_zero] at this
    have hm := mul_pos hr hs
    rcases mul_eq_zero.1 this.symm with h0 | h0
    · linarith
    · exact h0
  have h2 : 0 < cos (u - t) := by
    have := dot_atAngle r s t u
    rw [h, dot_atAngle, sub_self, cos_zero, mul_one] at this
    have hm := mul_pos hr hs
    by_contra hc
    nlinarith [mul_pos hs hs]
  have h3 : cos (u - t) = 1 := by
    have := sin_sq_add_cos_sq (u - t)
    rw [h1] at this
    nlinarith
  rw [cos_eq_one_iff_of_lt_of_lt (abs_lt.1 hd).1 (abs_lt.1 hd).2] at h3
  linarith

theorem angle_le_of_cross {r s t u : ℝ} (hr : 0 < r) (hs : 0 < s) (hd : |u - t| < π)
    (h : 0 ≤ cross (atAngle r t) (atAngle s u)) : t ≤ u := by
  rw [cross_atAngle] at h
  by_contra hc
  have := sin_neg_of_neg_of_neg_pi_lt (x := u - t) (by linarith) (abs_lt.1 hd).1
  nlinarith [mul_pos hr hs]

theorem angle_lt_of_cross {r s t u : ℝ} (hr : 0 < r) (hs : 0 < s) (hd : |u - t| < π)
    (h : 0 < cross (atAngle r t) (atAngle s u)) : t < u := by
  refine lt_of_le_of_ne (angle_le_of_cross hr hs hd h.le) fun e => ?_
  rw [cross_atAngle, e, sub_self, sin_zero, mul_zero] at h
  exact lt_irrefl _ h

/-- Equal directions: the angles differ by full turns. -/
theorem angle_mod {r s t u : ℝ} (hr : 0 < r) (hs : 0 < s) (h : atAngle r t = atAngle s u) : ∃ k : ℤ, u = t + k * (2 * π) := by
  have hm := mul_pos hr hs
  have h1 : sin (u - t) = 0 := by
    have := cross_atAngle r s t u
    rw [h, cross_atAngle, sub_self, sin_zero, mul_zero] at this
    rcases mul_eq_zero.1 this.symm with h0 | h0
    · linarith
    · exact h0
  have h2 : 0 < cos (u - t) := by
    have := dot_atAngle r s t u
    rw [h, dot_atAngle, sub_self, cos_zero, mul_one] at this
    by_contra hc
    nlinarith [mul_pos hs hs]
  have h3 : cos (u - t) = 1 := by
    have := sin_sq_add_cos_sq (u - t)
    rw [h1] at this
    nlinarith
  obtain ⟨k, hk⟩ := (cos_eq_one_iff _).1 h3
  exact ⟨k, by linarith⟩

/-- The points swept, by angles within one turn: those between the two angles, or those not in the gap. -/
theorem sweep_angles {β r s t φ ψ θ : ℝ} (hr : 0 < r) (hs : 0 < s) (ht : 0 < t) (h1 : β ≤ φ) (h1' : φ ≤ β + 2 * π)
    (h2 : β ≤ ψ) (h2' : ψ ≤ β + 2 * π) (h3 : β < θ) (h3' : θ < β + 2 * π) (hne : ∀ k : ℤ, ψ ≠ φ + k * (2 * π)) :
    atAngle t θ ∈ sweep (atAngle r φ) (atAngle s ψ) ↔ if φ < ψ then φ ≤ θ ∧ θ ≤ ψ else ¬ (ψ < θ ∧ θ < φ) := by
  have hpi := pi_pos
  have n0 : ψ ≠ φ := by have := hne 0; simpa using this
  have n1 : ψ ≠ φ + 2 * π := by have := hne 1; simpa using this
  have n2 : ψ ≠ φ - 2 * π := by have := hne (-1); simpa [sub_eq_add_neg] using this
  constructor
  · rintro ⟨r', s', t', φ', β', α, hr', hs', ht', hb, hba, ha, ha2, e1, e2, e3⟩
    have ht0 : 0 < t' := by
      refine lt_of_le_of_ne ht' fun h0 => ?_
      rw [← h0] at e3
      have : dot (atAngle t θ) (atAngle t θ) = 0 := by rw [e3]; simp [dot, atAngle]
      rw [dot_atAngle, sub_self, cos_zero, mul_one] at this
      nlinarith
    obtain ⟨k1, q1⟩ := angle_mod hr hr' e1
    obtain ⟨k2, q2⟩ := angle_mod hs hs' e2
    obtain ⟨k3, q3⟩ := angle_mod ht ht0 e3
    have ea : α = ψ - φ + ((k2 - k1 : ℤ) : ℝ) * (2 * π) := by push_cast; linarith
    have eb : β' = θ - φ + ((k3 - k1 : ℤ) : ℝ) * (2 * π) := by push_cast; linarith
    generalize k2 - k1 = k at ea
    generalize k3 - k1 = j at eb
    have ha3 : α < 2 * π := by
      refine lt_of_le_of_ne ha2 fun h0 => hne (1 - k) ?_
      push_cast; linarith
    have bnd : ∀ (k : ℤ) (x : ℝ), (k : ℝ) * (2 * π) < x * (2 * π) → (k : ℝ) < x := fun k x h => lt_of_mul_lt_mul_right h (by linarith)
    have bnd' : ∀ (k : ℤ) (x : ℝ), x * (2 * π) < (k : ℝ) * (2 * π) → x < (k : ℝ) := fun k x h => lt_of_mul_lt_mul_right h (by linarith)
    have hj1 : j < 2 := by have := bnd j 2 (by linarith); exact_mod_cast this
    have hj2 : -1 < j := by have := bnd' j (-1) (by linarith); exact_mod_cast this
    split
    · rename_i hlt
      have hk1 : k < 1 := by have := bnd k 1 (by linarith); exact_mod_cast this
      have hk2 : -1 < k := by
        have := bnd' k (-1) (by linarith [lt_of_le_of_ne (show ψ ≤ φ + 2 * π by linarith) n1]); exact_mod_cast this
      have hk : k = 0 := by omega
      subst hk
      have : j = 0 ∨ j = 1 := by omega
      rcases this with rfl | rfl
      · push_cast at *; exact ⟨by linarith, by linarith⟩
      · push_cast at *; linarith
    · rename_i hge
      have hlt : ψ < φ := lt_of_le_of_ne (not_lt.1 hge) n0
      have hk1 : k < 2 := by
        have := bnd k 2 (by linarith [lt_of_le_of_ne (show φ - 2 * π ≤ ψ by linarith) n2.symm]); exact_mod_cast this
      have hk2 : 0 < k := by have := bnd' k 0 (by linarith); exact_mod_cast this
      have hk : k = 1 := by omega
      subst hk
      have : j = 0 ∨ j = 1 := by omega
      rintro ⟨g1, g2⟩
      rcases this with rfl | rfl <;> push_cast at * <;> linarith
  · intro h
    split at h
    · rename_i hlt
      refine ⟨r, s, t, φ, θ - φ, ψ - φ, hr, hs, ht.le, by linarith, by linarith, by linarith, by linarith, rfl, ?_, ?_⟩ <;>
        simp
    · rename_i hge
      have hlt : ψ < φ := lt_of_le_of_ne (not_lt.1 hge) n0
      have hα : 0 < ψ - φ + 2 * π := by linarith [lt_of_le_of_ne (show φ - 2 * π ≤ ψ by linarith) n2.symm]
      have e : atAngle s (φ + (ψ - φ + 2 * π)) = atAngle s ψ := by
        rw [← atAngle_add_int s ψ 1]; congr 1; push_cast; ring
      rcases le_or_gt φ θ with g | g
      · exact ⟨r, s, t, φ, θ - φ, ψ - φ + 2 * π, hr, hs, ht.le, by linarith, by linarith, hα, by linarith, rfl, e.symm, by simp⟩
      · have g' : θ ≤ ψ := by by_contra hc; exact h ⟨not_le.1 hc, g⟩
        refine ⟨r, s, t, φ, θ - φ + 2 * π, ψ - φ + 2 * π, hr, hs, ht.le, by linarith, by linarith, hα, by linarith, rfl, e.symm, ?_⟩
        rw [← atAngle_add_int t θ 1]; congr 1; push_cast; ring

theorem sin_mul_pos_iff {r x : ℝ} (hr : 0 < r) : 0 < r * sin x ↔ 0 < sin x := by
  constructor
  · intro h; by_contra hc; nlinarith
  · intro h; positivity

theorem sin_mul_nonneg_iff {r x : ℝ} (hr : 0 < r) : 0 ≤ r * sin x ↔ 0 ≤ sin x := by
  constructor
  · intro h; by_contra hc; nlinarith
  · intro h; positivity

/-- The region swept, with angles measured from the first direction. -/
theorem sweep_from {d1 d2 v : Pt ℝ} (h1 : d1 ≠ 0) (h2 : d2 ≠ 0) (hv : v ≠ 0) (hne : cross d1 d2 = 0 → dot d1 d2 < 0) :
    ∃ r s t φ ψ θ : ℝ, 0 < r ∧ 0 < s ∧ 0 < t ∧ d1 = atAngle r φ ∧ d2 = atAngle s ψ ∧ v = atAngle t θ ∧
      φ < ψ ∧ ψ < φ + 2 * π ∧ φ ≤ θ ∧ θ < φ + 2 * π ∧ (v ∈ sweep d1 d2 ↔ θ ≤ ψ) := by
  obtain ⟨r, φ, hr, -, -, e1⟩ := exists_angle 0 h1
  obtain ⟨s, ψ, hs, g1, g2, e2⟩ := exists_angle φ h2
  obtain ⟨t, θ, ht, g3, g4, e3⟩ := exists_angle φ hv
  have hpi := pi_pos
  have hn : ∀ k : ℤ, ψ ≠ φ + k * (2 * π) := by
    intro k hk
    have hz : cross d1 d2 = 0 := by
      rw [e1, e2, cross_atAngle, hk, show φ + k * (2 * π) - φ = 0 + k * (2 * π) by ring, sin_add_int_mul_two_pi, sin_zero, mul_zero]
    have hp : dot d1 d2 = r * s := by
      rw [e1, e2, dot_atAngle, hk, show φ + k * (2 * π) - φ = 0 + k * (2 * π) by ring, cos_add_int_mul_two_pi, cos_zero, mul_one]
    have := hne hz
    nlinarith [mul_pos hr hs]
  have hlt : φ < ψ := lt_of_le_of_ne g1 fun h => hn 0 (by simp [h])
  refine ⟨r, s, t, φ, ψ, θ, hr, hs, ht, e1, e2, e3, hlt, g2, g3, g4, ?_⟩
  rcases g3.eq_or_lt with h | h
  · rw [← h]
    refine ⟨fun _ => hlt.le, fun _ => ?_⟩
    refine ⟨r, s, t, φ, 0, ψ - φ, hr, hs, ht.le, le_rfl, by linarith, by linarith, by linarith, e1, by rw [e2]; simp, by rw [e3, h]; simp⟩
  · rw [e1, e2, e3, sweep_angles (β := φ) hr hs ht le_rfl (by linarith) g1 g2.le h g4 hn, if_pos hlt]
    exact ⟨fun h => h.2, fun h' => ⟨h.le, h'⟩⟩

theorem sweep_zero {d1 d2 : Pt ℝ} (h1 : d1 ≠ 0) (h2 : d2 ≠ 0) (hne : cross d1 d2 = 0 → dot d1 d2 < 0) : (0 : Pt ℝ) ∈ sweep d1 d2 := by
  obtain ⟨r, s, t, φ, ψ, θ, hr, hs, ht, e1, e2, e3, q1, q2, q3, q4, -⟩ := sweep_from h1 h2 h1 hne
  exact ⟨r, s, 0, φ, 0, ψ - φ, hr, hs, le_rfl, le_rfl, by linarith, by linarith, by linarith, e1, by rw [e2]; simp, by ext <;> simp [atAngle]⟩

/-- Less than half a turn: the convex sector. -/
theorem sweep_convex {d1 d2 v : Pt ℝ} (hc : 0 < cross d1 d2) : v ∈ sweep d1 d2 ↔ 0 ≤ cross d1 v ∧ 0 ≤ cross v d2 := by
  have h1 : d1 ≠ 0 := by rintro rfl; simp [cross] at hc
  have h2 : d2 ≠ 0 := by rintro rfl; simp [cross] at hc
  by_cases hv : v = 0
  · subst hv
    simp only [sweep_zero h1 h2 (fun h => absurd h hc.ne'), true_iff]
    simp [cross]
  obtain ⟨r, s, t, φ, ψ, θ, hr, hs, ht, e1, e2, e3, q1, q2, q3, q4, hm⟩ := sweep_from h1 h2 hv (fun h => absurd h hc.ne')
  have hpi := pi_pos
  rw [hm, e1, e2, e3, cross_atAngle, cross_atAngle, sin_mul_nonneg_iff (mul_pos hr ht), sin_mul_nonneg_iff (mul_pos ht hs)]
  rw [e1, e2, cross_atAngle, sin_mul_pos_iff (mul_pos hr hs)] at hc
  have hψ : ψ - φ < π := by
    by_contra hh
    have := sin_nonpos_of_nonpos_of_neg_pi_le (x := ψ - φ - 2 * π) (by linarith) (by linarith)
    rw [sin_sub_two_pi] at this
    linarith
  constructor
  · intro h
    exact ⟨sin_nonneg_of_nonneg_of_le_pi (by linarith) (by linarith), sin_nonneg_of_nonneg_of_le_pi (by linarith) (by linarith)⟩
  · rintro ⟨a1, a2⟩
    by_contra hh
    push Not at hh
    have hθ : θ - φ ≤ π := by
      by_contra hh'
      have := sin_neg_of_neg_of_neg_pi_lt (x := θ - φ - 2 * π) (by linarith) (by linarith)
      rw [sin_sub_two_pi] at this
      linarith
    have := sin_neg_of_neg_of_neg_pi_lt (x := ψ - θ) (by linarith) (by linarith)
    linarith

/-- More than half a turn: everything but the open sector on the other side. -/
theorem sweep_reflex {d1 d2 v : Pt ℝ} (hc : cross d1 d2 < 0) : v ∈ sweep d1 d2 ↔ ¬ (0 < cross d2 v ∧ 0 < cross v d1) := by
  have h1 : d1 ≠ 0 := by rintro rfl; simp [cross] at hc
  have h2 : d2 ≠ 0 := by rintro rfl; simp [cross] at hc
  by_cases hv : v = 0
  · subst hv
    simp only [sweep_zero h1 h2 (fun h => absurd h hc.ne), true_iff]
    simp [cross]
  obtain ⟨r, s, t, φ, ψ, θ, hr, hs, ht, e1, e2, e3, q1, q2, q3, q4, hm⟩ := sweep_from h1 h2 hv (fun h => absurd h hc.ne)
  have hpi := pi_pos
  rw [hm, e1, e2, e3, cross_atAngle, cross_atAngle, sin_mul_pos_iff (mul_pos hs ht), sin_mul_pos_iff (mul_pos ht hr)]
  rw [e1, e2, cross_atAngle] at hc
  have hψ : π < ψ - φ := by
    by_contra hh
    have := sin_nonneg_of_nonneg_of_le_pi (x := ψ - φ) (by linarith) (by linarith)
    nlinarith [mul_pos hr hs]
  constructor
  · rintro h ⟨a1, a2⟩
    have hθ : π < θ - φ := by
      by_contra hh
      have := sin_nonpos_of_nonpos_of_neg_pi_le (x := φ - θ) (by linarith) (by linarith)
      linarith
    have := sin_nonpos_of_nonpos_of_neg_pi_le (x := θ - ψ) (by linarith) (by linarith)
    linarith
  · intro h
    by_contra hh
    push Not at hh
    refine h ⟨sin_pos_of_pos_of_lt_pi (by linarith) (by linarith), ?_⟩
    rw [← sin_add_two_pi]
    exact sin_pos_of_pos_of_lt_pi (by linarith) (by linarith)

/-- Half a turn: the half plane on the left. -/
theorem sweep_half {d1 d2 v : Pt ℝ} (hc : cross d1 d2 = 0) (hd : dot d1 d2 < 0) : v ∈ sweep d1 d2 ↔ 0 ≤ cross d1 v := by
  have h1 : d1 ≠ 0 := by rintro rfl; simp [dot] at hd
  have h2 : d2 ≠ 0 := by rintro rfl; simp [dot] at hd
  by_cases hv : v = 0
  · subst hv
    simp only [sweep_zero h1 h2 (fun _ => hd), true_iff]
    simp [cross]
  obtain ⟨r, s, t, φ, ψ, θ, hr, hs, ht, e1, e2, e3, q1, q2, q3, q4, hm⟩ := sweep_from h1 h2 hv (fun _ => hd)
  have hpi := pi_pos
  rw [hm, e1, e3, cross_atAngle, sin_mul_nonneg_iff (mul_pos hr ht)]
  rw [e1, e2, cross_atAngle] at hc
  have hψ : ψ - φ = π := by
    have h0 : sin (ψ - φ) = 0 := by
      rcases mul_eq_zero.1 hc with h | h
      · exact absurd h (mul_pos hr hs).ne'
      · exact h
    rcases lt_trichotomy (ψ - φ) π with h | h | h
    · have := sin_pos_of_pos_of_lt_pi (x := ψ - φ) (by linarith) h
      linarith
    · exact h
    · have := sin_neg_of_neg_of_neg_pi_lt (x := ψ - φ - 2 * π) (by linarith) (by linarith)
      rw [sin_sub_two_pi] at this
      linarith
  constructor
  · intro h
    exact sin_nonneg_of_nonneg_of_le_pi (by linarith) (by linarith)
  · intro h
    by_contra hh
    have := sin_neg_of_neg_of_neg_pi_lt (x := θ - φ - 2 * π) (by linarith) (by linarith)
    rw [sin_sub_two_pi] at this
    linarith

end Starworlds
