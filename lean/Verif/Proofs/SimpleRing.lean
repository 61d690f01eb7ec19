import Verif.Proofs.Winding
import Verif.Spec.Intersects
import Verif.Spec.StarPolygon

/-! # Simple polygons: star-shaped ones, images -/

namespace Starworlds

open Real Spec

/-- A star-shaped ring is simple. -/
theorem star_simple {c : Pt ℝ} {v : List (Pt ℝ)} (h : StarAbout c v) : SimpleRing v := by
  obtain ⟨φ, ρ, h1, h2, h3, hpos⟩ := starAbout_polar h
  have hpi := pi_pos
  have hmono := mono_angles h2
  have hlen : 3 ≤ v.length := by
    by_contra hlt
    have hcase : v.length = 1 ∨ v.length = 2 := by omega
    rcases hcase with e | e
    · have := (h2 0 (by omega)).2
      rw [e] at h3
      rw [zero_add] at this
      linarith
    · have a := (h2 0 (by omega)).2
      have b := (h2 1 (by omega)).2
      rw [e] at h3
      rw [zero_add] at a
      norm_num at b
      linarith
  refine ⟨hlen, ?_⟩
  intro i j hij hj p hi' hj'
  have hi : i < v.length := by omega
  rw [(h1 i hi.le).2, (h1 (i + 1) hi).2] at hi'
  rw [(h1 j hj.le).2, (h1 (j + 1) hj).2] at hj'
  have angle : ∀ k, k < v.length → OnSegment (polar c (ρ k) (φ k)) (polar c (ρ (k + 1)) (φ (k + 1))) p →
      ∃ t r, φ k ≤ t ∧ t ≤ φ (k + 1) ∧ 0 < r ∧ p = polar c r t := by
    intro k hk hs
    have hpc : p ≠ c := by
      rintro rfl
      exact centre_not_on_edge (h1 k hk.le).1 (h1 (k + 1) hk).1 (h2 k hk).1 (h2 k hk).2 hs
    obtain ⟨t, a, b, d⟩ := seenAt_segment (x := c) (α := φ k) (β := φ (k + 1)) ⟨_, (h1 k hk.le).1.le, rfl⟩
      ⟨_, (h1 (k + 1) hk).1.le, rfl⟩ (by rw [abs_le]; constructor <;> linarith [(h2 k hk).1, (h2 k hk).2]) hs
    rw [min_eq_left (h2 k hk).1.le] at a
    rw [max_eq_right (h2 k hk).1.le] at b
    obtain ⟨r, hr, e⟩ := seenAt_pos d hpc
    exact ⟨t, r, a, b, hr, e⟩
  obtain ⟨t, r, t1, t2, hr, e⟩ := angle i hi hi'
  obtain ⟨s, r', s1, s2, hr', e'⟩ := angle j hj hj'
  obtain ⟨_, k, hk⟩ := polar_inj hr hr' (e.symm.trans e')
  have lo : φ 0 ≤ φ i := by
    rcases Nat.eq_zero_or_pos i with rfl | h0
    · exact le_rfl
    · exact (hmono i hi.le 0 h0).le
  have mid : φ (i + 1) ≤ φ j := by
    rcases (Nat.succ_le_of_lt hij).eq_or_lt with h0 | h0
    · rw [show i + 1 = j from h0]
    · exact (hmono j hj.le (i + 1) h0).le
  have hi2 : φ (j + 1) ≤ φ 0 + 2 * π := by
    rw [← h3]
    rcases (Nat.succ_le_of_lt hj).eq_or_lt with h0 | h0
    · rw [show j + 1 = v.length from h0]
    · exact (hmono v.length le_rfl (j + 1) h0).le
  -- a point of an edge in the direction of an end is that end
  have first : ∀ k, k < v.length → OnSegment (polar c (ρ k) (φ k)) (polar c (ρ (k + 1)) (φ (k + 1))) p → ∀ q, p = polar c q (φ k) →
      p = corner v k := by
    intro k hk hs q hq
    rw [(h1 k hk.le).2, hq]
    rw [hq] at hs
    have hq' : q = ρ k := ray_edge_unique (h1 k hk.le).1 (h1 (k + 1) hk).1 (h2 k hk).1 (h2 k hk).2 hs
      ⟨0, le_rfl, zero_le_one, by simp⟩
    rw [hq']
  have htk : t ≤ s := t2.trans (mid.trans s1)
  have hts : s ≤ t + 2 * π := by linarith
  have hk0 : k = 0 ∨ k = -1 ∨ k = 1 := by
    have hb : (-2 : ℝ) < k ∧ (k : ℝ) < 2 := by
      constructor <;> by_contra hn <;> push Not at hn <;> nlinarith
    have b1 : (-2 : ℤ) < k := by exact_mod_cast hb.1
    have b2 : k < 2 := by exact_mod_cast hb.2
    omega
  have hcase : t = s ∨ s = t + 2 * π := by
    rcases hk0 with rfl | rfl | rfl <;> push_cast at hk
    · left; linarith
    · first | (right; linarith) | (left; linarith)
    · first | (right; linarith) | (left; linarith)
  rcases hcase with hst | hst
  · left
    have ej : φ (i + 1) = φ j := by linarith
    have hje : j = i + 1 := by
      by_contra hne
      have := hmono j hj.le (i + 1) (by omega)
      linarith
    refine ⟨hje, first j hj hj' r' ?_⟩
    rw [e', show s = φ j by linarith]
  · right
    have et : t = φ 0 := by linarith
    have es : s = φ 0 + 2 * π := by linarith
    have hi0 : i = 0 := by
      by_contra hne
      have := hmono i hi.le 0 (by omega)
      linarith
    have hjn : j + 1 = v.length := by
      by_contra hne
      have := hmono v.length le_rfl (j + 1) (by omega)
      linarith
    subst hi0
    exact ⟨rfl, hjn, first 0 hi hi' r (by rw [e, et])⟩

/-- Injective maps that keep segments keep simple rings. -/
theorem simple_map {g : Pt ℝ → Pt ℝ} (hg : Function.Injective g) (hl : ∀ a b (t : ℝ), g (a + t • (b - a)) = g a + t • (g b - g a))
    {v : List (Pt ℝ)} (h : SimpleRing v) : SimpleRing (v.map g) := by
  obtain ⟨hlen, h⟩ := h
  have hv : v ≠ [] := by rintro rfl; simp at hlen
  refine ⟨by rwa [List.length_map], ?_⟩
  intro i j hij hj p hp hq
  rw [List.length_map] at hj ⊢
  simp only [corner_map _ hv] at *
  obtain ⟨t, t0, t1, e⟩ := hp
  obtain ⟨s, s0, s1, e'⟩ := hq
  rw [← hl] at e e'
  have e2 := hg (e.symm.trans e')
  rw [e]
  rcases h i j hij hj _ ⟨t, t0, t1, rfl⟩ ⟨s, s0, s1, e2⟩ with ⟨a, b⟩ | ⟨a, b, d⟩
  · exact Or.inl ⟨a, by rw [b]⟩
  · exact Or.inr ⟨a, b, by rw [d]⟩

theorem simple_world (mm : Option Pose) {v : List (Pt ℝ)} (h : SimpleRing v) : SimpleRing (v.map (worldOf mm)) :=
  simple_map (worldOf_injective mm) (worldOf_line mm) h

end Starworlds
