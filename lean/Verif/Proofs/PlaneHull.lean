import Verif.Spec.StarHull
import Mathlib.Analysis.Convex.Star
import Mathlib.Analysis.Convex.Hull
import Mathlib.Analysis.Convex.Segment
import Mathlib.Analysis.Convex.Combination
import Mathlib.Algebra.BigOperators.Fin
import Mathlib.Tactic.FinCases
import Mathlib.Data.Real.Basic
import Mathlib.Tactic.Linarith
import Mathlib.Tactic.FieldSimp
import Mathlib.Tactic.LinearCombination

/-! # Convex hulls of star-shaped sets in the plane -/

namespace Starworlds

open Spec

/-- Three vectors of the plane are dependent; the sum of the coefficients can be chosen nonnegative. -/
theorem plane_dependent (u1 u2 u3 : Pt ℝ) : ∃ c1 c2 c3 : ℝ, c1 • u1 + c2 • u2 + c3 • u3 = 0 ∧ 0 ≤ c1 + c2 + c3 ∧
    (0 < c1 ∨ 0 < c2 ∨ 0 < c3) := by
  have key : ∃ c1 c2 c3 : ℝ, c1 • u1 + c2 • u2 + c3 • u3 = 0 ∧ ¬ (c1 = 0 ∧ c2 = 0 ∧ c3 = 0) := by
    by_cases h : cross u2 u3 = 0 ∧ cross u3 u1 = 0 ∧ cross u1 u2 = 0
    · obtain ⟨h1, h2, h3⟩ := h
      simp only [cross] at h1 h2 h3
      by_cases z1 : u1 = 0
      · exact ⟨1, 0, 0, by rw [z1]; simp, by simp⟩
      · by_cases z : u1.1 = 0
        · have hz : u1.2 ≠ 0 := fun hz => z1 (Prod.ext z hz)
          refine ⟨-u2.2, u1.2, 0, ?_, fun h => hz h.2.1⟩
          ext
          · simp; linarith
          · simp; ring
        · refine ⟨-u2.1, u1.1, 0, ?_, fun h => z h.2.1⟩
          ext
          · simp; ring
          · simp; linarith
    · refine ⟨cross u2 u3, cross u3 u1, cross u1 u2, ?_, h⟩
      ext <;> simp [cross] <;> ring
  obtain ⟨c1, c2, c3, h, hne⟩ := key
  rcases le_total 0 (c1 + c2 + c3) with hs | hs
  · refine ⟨c1, c2, c3, h, hs, ?_⟩
    by_contra hc
    push Not at hc
    exact hne ⟨by linarith, by linarith, by linarith⟩
  · refine ⟨-c1, -c2, -c3, ?_, by linarith, ?_⟩
    · have : -c1 • u1 + -c2 • u2 + -c3 • u3 = -(c1 • u1 + c2 • u2 + c3 • u3) := by simp only [neg_smul]; abel
      rw [this, h, neg_zero]
    · by_contra hc
      push Not at hc
      exact hne ⟨by linarith, by linarith, by linarith⟩

/-- A nonnegative combination of three vectors of the plane is one of two of them, with no greater weights. -/
theorem plane_reduce {S : Set (Pt ℝ)} {u1 u2 u3 : Pt ℝ} (h1 : u1 ∈ S) (h2 : u2 ∈ S) (h3 : u3 ∈ S) {a b c : ℝ} (ha : 0 ≤ a)
    (hb : 0 ≤ b) (hc : 0 ≤ c) : ∃ w1 ∈ S, ∃ w2 ∈ S, ∃ m n : ℝ, 0 ≤ m ∧ 0 ≤ n ∧ m + n ≤ a + b + c ∧
      m • w1 + n • w2 = a • u1 + b • u2 + c • u3 := by
  -- the one that vanishes first
  have main : ∀ (v1 v2 v3 : Pt ℝ) (x y z k1 k2 k3 : ℝ), v1 ∈ S → v2 ∈ S → v3 ∈ S → 0 ≤ x → 0 ≤ y → 0 ≤ z →
      k1 • v1 + k2 • v2 + k3 • v3 = 0 → 0 ≤ k1 + k2 + k3 → 0 < k1 → (0 < k2 → x / k1 ≤ y / k2) → (0 < k3 → x / k1 ≤ z / k3) →
      ∃ w1 ∈ S, ∃ w2 ∈ S, ∃ m n : ℝ, 0 ≤ m ∧ 0 ≤ n ∧ m + n ≤ x + y + z ∧ m • w1 + n • w2 = x • v1 + y • v2 + z • v3 := by
    intro v1 v2 v3 x y z k1 k2 k3 s1 s2 s3 hx hy hz hk hsum hk1 hk2 hk3
    have ht : 0 ≤ x / k1 := div_nonneg hx hk1.le
    obtain ⟨t, htd⟩ : ∃ t, t = x / k1 := ⟨_, rfl⟩
    rw [← htd] at ht hk2 hk3
    have hxt : x = t * k1 := by rw [htd]; field_simp
    refine ⟨v2, s2, v3, s3, y - t * k2, z - t * k3, ?_, ?_, by nlinarith, ?_⟩
    · rcases lt_or_ge 0 k2 with hp | hp
      · have := hk2 hp
        rw [le_div_iff₀ hp] at this
        linarith
      · nlinarith
    · rcases lt_or_ge 0 k3 with hp | hp
      · have := hk3 hp
        rw [le_div_iff₀ hp] at this
        linarith
      · nlinarith
    · have e1 := congrArg Prod.fst hk
      have e2 := congrArg Prod.snd hk
      simp at e1 e2
      rw [hxt]
      ext
      · simp; linear_combination (-t) * e1
      · simp; linear_combination (-t) * e2
  obtain ⟨k1, k2, k3, hk, hsum, hpos⟩ := plane_dependent u1 u2 u3
  -- rotate the arguments so that the smallest quotient comes first
  have r2 : ∀ (m n : ℝ) (w1 w2 : Pt ℝ), m + n ≤ b + c + a ∧ m • w1 + n • w2 = b • u2 + c • u3 + a • u1 →
      m + n ≤ a + b + c ∧ m • w1 + n • w2 = a • u1 + b • u2 + c • u3 := fun m n w1 w2 h => ⟨by linarith [h.1], by rw [h.2]; abel⟩
  have r3 : ∀ (m n : ℝ) (w1 w2 : Pt ℝ), m + n ≤ c + a + b ∧ m • w1 + n • w2 = c • u3 + a • u1 + b • u2 →
      m + n ≤ a + b + c ∧ m • w1 + n • w2 = a • u1 + b • u2 + c • u3 := fun m n w1 w2 h => ⟨by linarith [h.1], by rw [h.2]; abel⟩
  have t1 : 0 < k1 → (0 < k2 → a / k1 ≤ b / k2) → (0 < k3 → a / k1 ≤ c / k3) → _ := fun p1 p2 p3 =>
    main u1 u2 u3 a b c k1 k2 k3 h1 h2 h3 ha hb hc hk hsum p1 p2 p3
  have t2 : 0 < k2 → (0 < k3 → b / k2 ≤ c / k3) → (0 < k1 → b / k2 ≤ a / k1) → ∃ w1 ∈ S, ∃ w2 ∈ S, ∃ m n : ℝ,
      0 ≤ m ∧ 0 ≤ n ∧ m + n ≤ a + b + c ∧ m • w1 + n • w2 = a • u1 + b • u2 + c • u3 := fun p1 p2 p3 => by
    obtain ⟨w1, s1, w2, s2, m, n, q1, q2, q3⟩ := main u2 u3 u1 b c a k2 k3 k1 h2 h3 h1 hb hc ha
      (by rw [← hk]; abel) (by linarith) p1 p2 p3
    exact ⟨w1, s1, w2, s2, m, n, q1, q2, r2 m n w1 w2 q3⟩
  have t3 : 0 < k3 → (0 < k1 → c / k3 ≤ a / k1) → (0 < k2 → c / k3 ≤ b / k2) → ∃ w1 ∈ S, ∃ w2 ∈ S, ∃ m n : ℝ,
      0 ≤ m ∧ 0 ≤ n ∧ m + n ≤ a + b + c ∧ m • w1 + n • w2 = a • u1 + b • u2 + c • u3 := fun p1 p2 p3 => by
    obtain ⟨w1, s1, w2, s2, m, n, q1, q2, q3⟩ := main u3 u1 u2 c a b k3 k1 k2 h3 h1 h2 hc ha hb
      (by rw [← hk]; abel) (by linarith) p1 p2 p3
    exact ⟨w1, s1, w2, s2, m, n, q1, q2, r3 m n w1 w2 q3⟩
  by_cases p1 : 0 < k1 <;> by_cases p2 : 0 < k2 <;> by_cases p3 : 0 < k3
  · rcases le_total (a / k1) (b / k2) with q | q
    · rcases le_total (a / k1) (c / k3) with q' | q'
      · exact t1 p1 (fun _ => q) fun _ => q'
      · exact t3 p3 (fun _ => q') fun _ => q'.trans q
    · rcases le_total (b / k2) (c / k3) with q' | q'
      · exact t2 p2 (fun _ => q') fun _ => q
      · exact t3 p3 (fun _ => q'.trans q) fun _ => q'
  · rcases le_total (a / k1) (b / k2) with q | q
    · exact t1 p1 (fun _ => q) fun h => absurd h p3
    · exact t2 p2 (fun h => absurd h p3) fun _ => q
  · rcases le_total (a / k1) (c / k3) with q | q
    · exact t1 p1 (fun h => absurd h p2) fun _ => q
    · exact t3 p3 (fun _ => q) fun h => absurd h p2
  · exact t1 p1 (fun h => absurd h p2) fun h => absurd h p3
  · rcases le_total (b / k2) (c / k3) with q | q
    · exact t2 p2 (fun _ => q) fun h => absurd h p1
    · exact t3 p3 (fun h => absurd h p1) fun _ => q
  · exact t2 p2 (fun h => absurd h p3) fun h => absurd h p1
  · exact t3 p3 (fun h => absurd h p1) fun h => absurd h p2
  · rcases hpos with h | h | h
    · exact absurd h p1
    · exact absurd h p2
    · exact absurd h p3

/-- In the plane, every point of the convex hull of a star-shaped set is between two points of the set. -/
theorem star_hull_segment {A : Set (Pt ℝ)} {c p : Pt ℝ} (hA : StarConvex ℝ c A) (hp : p ∈ convexHull ℝ A) :
    ∃ a ∈ A, ∃ b ∈ A, p ∈ segment ℝ a b := by
  have hne : A.Nonempty := by
    rw [← convexHull_nonempty_iff (𝕜 := ℝ)]; exact ⟨p, hp⟩
  have hc : c ∈ A := hA.mem hne
  obtain ⟨S, hS⟩ : ∃ S : Set (Pt ℝ), S = {u | c + u ∈ A} := ⟨_, rfl⟩
  obtain ⟨M, hM⟩ : ∃ M : Set (Pt ℝ), M = {q | ∃ u ∈ S, ∃ w ∈ S, ∃ m n : ℝ, 0 ≤ m ∧ 0 ≤ n ∧ m + n ≤ 1 ∧ c + (m • u + n • w) = q} := ⟨_, rfl⟩
  have hsub : A ⊆ M := by
    intro a ha
    have : a - c ∈ S := by rw [hS]; simpa using ha
    rw [hM]
    exact ⟨a - c, this, a - c, this, 1, 0, by norm_num, le_rfl, by norm_num, by simp⟩
  have hconv : Convex ℝ M := by
    rw [hM]
    rintro _ ⟨u1, h1, u2, h2, a, b, ha, hb, hab, rfl⟩ _ ⟨u3, h3, u4, h4, d, e, hd, he, hde, rfl⟩ s t hs ht hst
    obtain ⟨w1, s1, w2, s2, m, n, q1, q2, q3, q4⟩ := plane_reduce (S := S) h1 h2 h3 (mul_nonneg hs ha) (mul_nonneg hs hb) (mul_nonneg ht hd)
    obtain ⟨w3, s3, w4, s4, m', n', q1', q2', q3', q4'⟩ := plane_reduce (S := S) s1 s2 h4 q1 q2 (mul_nonneg ht he)
    refine ⟨w3, s3, w4, s4, m', n', q1', q2', ?_, ?_⟩
    · have : m' + n' ≤ s * (a + b) + t * (d + e) := by linarith
      nlinarith
    · rw [q4', q4]
      have : s = 1 - t := by linarith
      subst this
      ext <;> simp <;> ring
  obtain ⟨u, hu, w, hw, m, n, hm, hn, hmn, rfl⟩ : p ∈ {q | ∃ u ∈ S, ∃ w ∈ S, ∃ m n : ℝ, 0 ≤ m ∧ 0 ≤ n ∧ m + n ≤ 1 ∧ c + (m • u + n • w) = q} := by
    rw [← hM]; exact convexHull_min hsub hconv hp
  rw [hS] at hu hw
  rcases (add_nonneg hm hn).lt_or_eq with hs | hs
  · have key : ∀ v : Pt ℝ, c + v ∈ A → c + (m + n) • v ∈ A := by
      intro v hv
      have := hA hv (by linarith : (0 : ℝ) ≤ 1 - (m + n)) hs.le (by ring)
      convert this using 1
      ext <;> simp <;> ring
    refine ⟨_, key u hu, _, key w hw, m / (m + n), n / (m + n), div_nonneg hm hs.le, div_nonneg hn hs.le, by field_simp, ?_⟩
    have e1 : m / (m + n) * (m + n) = m := by field_simp
    have e2 : n / (m + n) * (m + n) = n := by field_simp
    have e3 : n / (m + n) = 1 - m / (m + n) := by field_simp; ring
    ext
    · simp only [Prod.fst_add, Prod.smul_fst, smul_eq_mul]
      linear_combination u.1 * e1 + w.1 * e2 + c.1 * e3
    · simp only [Prod.snd_add, Prod.smul_snd, smul_eq_mul]
      linear_combination u.2 * e1 + w.2 * e2 + c.2 * e3
  · have z1 : m = 0 := by linarith
    have z2 : n = 0 := by linarith
    refine ⟨c, hc, c, hc, ?_⟩
    rw [z1, z2]
    simp

/-- A segment that starts on the side of a triangle opposite to its tip and ends outside of the triangle on the side of the
tip leaves the triangle through one of the other sides. -/
theorem leaves_triangle {A : Set (Pt ℝ)} {c u w : Pt ℝ} (hA : StarConvex ℝ c A) (hu : c + u ∈ A) (hw : c + w ∈ A)
    {a1 a2 b1 b2 : ℝ} (ha1 : 0 ≤ a1) (ha2 : 0 ≤ a2) (ha : a1 + a2 = 1) (hb : b1 + b2 ≤ 1) (hout : b1 < 0 ∨ b2 < 0) :
    ∃ q ∈ A, q ∈ segment ℝ (c + (a1 • u + a2 • w)) (c + (b1 • u + b2 • w)) := by
  have key : ∀ v : Pt ℝ, c + v ∈ A → ∀ y : ℝ, 0 ≤ y → y ≤ 1 → c + y • v ∈ A := by
    intro v hv y h0 h1
    have := hA hv (by linarith : (0 : ℝ) ≤ 1 - y) h0 (by ring)
    convert this using 1
    ext <;> simp <;> ring
  have main : ∀ (t : ℝ), 0 ≤ t → t ≤ 1 → ((1 - t) * a1 + t * b1 = 0 ∧ 0 ≤ (1 - t) * a2 + t * b2 ∨
      (1 - t) * a2 + t * b2 = 0 ∧ 0 ≤ (1 - t) * a1 + t * b1) →
      ∃ q ∈ A, q ∈ segment ℝ (c + (a1 • u + a2 • w)) (c + (b1 • u + b2 • w)) := by
    intro t h0 h1 h
    have hmem : c + (((1 - t) * a1 + t * b1) • u + ((1 - t) * a2 + t * b2) • w) ∈
        segment ℝ (c + (a1 • u + a2 • w)) (c + (b1 • u + b2 • w)) := by
      refine ⟨1 - t, t, by linarith, h0, by ring, ?_⟩
      ext <;> simp <;> ring
    refine ⟨_, ?_, hmem⟩
    rcases h with ⟨h, h'⟩ | ⟨h, h'⟩
    · rw [h, zero_smul, zero_add]
      exact key w hw _ h' (by nlinarith)
    · rw [h, zero_smul, add_zero]
      exact key u hu _ h' (by nlinarith)
  have div1 : ∀ a b : ℝ, 0 ≤ a → b < 0 → 0 ≤ a / (a - b) ∧ a / (a - b) ≤ 1 ∧ (1 - a / (a - b)) * a + a / (a - b) * b = 0 := by
    intro a b h0 hb
    have hp : 0 < a - b := by linarith
    refine ⟨div_nonneg h0 hp.le, by rw [div_le_one hp]; linarith, by field_simp; ring⟩
  by_cases n1 : b1 < 0
  · obtain ⟨x1, x2, x3⟩ := div1 a1 b1 ha1 n1
    by_cases n2 : b2 < 0
    · obtain ⟨y1, y2, y3⟩ := div1 a2 b2 ha2 n2
      rcases le_total (a1 / (a1 - b1)) (a2 / (a2 - b2)) with h | h
      · exact main _ x1 x2 (Or.inl ⟨x3, by nlinarith⟩)
      · exact main _ y1 y2 (Or.inr ⟨y3, by nlinarith⟩)
    · push Not at n2
      exact main _ x1 x2 (Or.inl ⟨x3, by nlinarith [mul_nonneg x1 n2, mul_nonneg (sub_nonneg.2 x2) ha2]⟩)
  · have n2 : b2 < 0 := by
      rcases hout with h | h
      · exact absurd h n1
      · exact h
    push Not at n1
    obtain ⟨y1, y2, y3⟩ := div1 a2 b2 ha2 n2
    exact main _ y1 y2 (Or.inr ⟨y3, by nlinarith [mul_nonneg y1 n1, mul_nonneg (sub_nonneg.2 y2) ha1]⟩)

/-- Two star-shaped sets of the plane, each outside of the convex hull of the other: their convex hulls do not meet. -/
theorem star_hulls_disjoint {A B : Set (Pt ℝ)} {c d : Pt ℝ} (hA : StarConvex ℝ c A) (hB : StarConvex ℝ d B)
    (h1 : ∀ p ∈ convexHull ℝ A, p ∉ B) (h2 : ∀ p ∈ convexHull ℝ B, p ∉ A) :
    ∀ p ∈ convexHull ℝ A, p ∉ convexHull ℝ B := by
  intro p hpA hpB
  obtain ⟨a1, ha1, a2, ha2, α, α', hα, hα', hαs, rfl⟩ := star_hull_segment hA hpA
  obtain ⟨b1, hb1, b2, hb2, β, β', hβ, hβ', hβs, e⟩ := star_hull_segment hB hpB
  have hcA : c ∈ A := hA.mem ⟨a1, ha1⟩
  have hAc : ∀ q ∈ A, q ∈ convexHull ℝ A := fun q hq => subset_convexHull ℝ _ hq
  have hBc : ∀ q ∈ B, q ∈ convexHull ℝ B := fun q hq => subset_convexHull ℝ _ hq
  obtain ⟨u, hu⟩ : ∃ u, u = a1 - c := ⟨_, rfl⟩
  obtain ⟨w, hw⟩ : ∃ w, w = a2 - c := ⟨_, rfl⟩
  have eu : a1 = c + u := by rw [hu]; abel
  have ew : a2 = c + w := by rw [hw]; abel
  subst eu ew
  have hα1 : α' = 1 - α := by linarith
  have hβ1 : β' = 1 - β := by linarith
  have ep : α • (c + u) + α' • (c + w) = c + (α • u + α' • w) := by
    rw [hα1]; ext <;> simp <;> ring
  rw [ep] at hpA hpB e
  by_cases hD : cross u w = 0
  · -- the tip is on the line through the other two corners: the point is on one of the two sides
    have key : ∀ v : Pt ℝ, c + v ∈ A → ∀ y : ℝ, 0 ≤ y → y ≤ 1 → c + y • v ∈ A := by
      intro v hv y h0 h1
      have := hA hv (by linarith : (0 : ℝ) ≤ 1 - y) h0 (by ring)
      convert this using 1
      ext <;> simp <;> ring
    apply h2 _ hpB
    obtain ⟨m, hm⟩ : ∃ m, m = α • u + α' • w := ⟨_, rfl⟩
    rw [← hm]
    have hcol : ∃ z : Pt ℝ, ∃ x y : ℝ, u = x • z ∧ w = y • z := by
      by_cases hz : u = 0
      · exact ⟨w, 0, 1, by rw [hz]; simp, by simp⟩
      · simp only [cross] at hD
        by_cases h0 : u.1 = 0
        · have hn : u.2 ≠ 0 := fun h => hz (Prod.ext h0 h)
          have hw0 : w.1 = 0 := by
            rw [h0] at hD
            have : u.2 * w.1 = 0 := by linarith
            rcases mul_eq_zero.1 this with h | h
            · exact absurd h hn
            · exact h
          refine ⟨u, 1, w.2 / u.2, by simp, ?_⟩
          ext
          · simp [h0, hw0]
          · simp; field_simp
        · refine ⟨u, 1, w.1 / u.1, by simp, ?_⟩
          ext
          · simp; field_simp
          · simp; field_simp; linarith
    obtain ⟨z, x, y, hx, hy⟩ := hcol
    have hmz : m = (α * x + α' * y) • z := by rw [hm, hx, hy, smul_smul, smul_smul, add_smul]
    -- move along the longer of the two vectors in the right direction
    have fin : ∀ (k r : ℝ), c + k • z ∈ A → (0 ≤ r ∧ r ≤ k ∨ k ≤ r ∧ r ≤ 0) → c + r • z ∈ A := by
      intro k r hk h
      by_cases hk0 : k = 0
      · have : r = 0 := by rcases h with h | h <;> linarith [h.1, h.2]
        rw [this, zero_smul, add_zero]; exact hcA
      · have := key _ hk (r / k) (by
            rcases h with h | h
            · exact div_nonneg h.1 (h.1.trans h.2)
            · exact div_nonneg_of_nonpos h.2 (h.1.trans h.2)) (by
            rcases h with h | h
            · exact div_le_one_of_le₀ h.2 (h.1.trans h.2)
            · exact div_le_one_of_ge h.1 (h.1.trans h.2))
        rw [smul_smul, div_mul_cancel₀ _ hk0] at this
        exact this
    have hux : c + x • z ∈ A := by rw [← hx]; exact ha1
    have hwy : c + y • z ∈ A := by rw [← hy]; exact ha2
    rw [hmz]
    rw [hα1]
    have hα1' : α ≤ 1 := by linarith
    rcases le_total x y with hxy | hxy
    · have l1 : x ≤ α * x + (1 - α) * y := by nlinarith
      have l2 : α * x + (1 - α) * y ≤ y := by nlinarith
      rcases le_total 0 (α * x + (1 - α) * y) with h | h
      · exact fin y _ hwy (Or.inl ⟨h, l2⟩)
      · exact fin x _ hux (Or.inr ⟨l1, h⟩)
    · have l1 : y ≤ α * x + (1 - α) * y := by nlinarith
      have l2 : α * x + (1 - α) * y ≤ x := by nlinarith
      rcases le_total 0 (α * x + (1 - α) * y) with h | h
      · exact fin x _ hux (Or.inl ⟨h, l2⟩)
      · exact fin y _ hwy (Or.inr ⟨l1, h⟩)
  · -- coordinates with respect to the two sides
    have coord : ∀ b : Pt ℝ, b = c + ((cross (b - c) w / cross u w) • u + (cross u (b - c) / cross u w) • w) := by
      intro b
      obtain ⟨D, hDd⟩ : ∃ D, D = cross u w := ⟨_, rfl⟩
      rw [← hDd] at hD ⊢
      ext
      · simp; field_simp; simp [hDd, cross]; ring
      · simp; field_simp; simp [hDd, cross]; ring
    have fin : ∀ b ∈ B, cross (b - c) w / cross u w + cross u (b - c) / cross u w ≤ 1 → False := by
      intro b hb hle
      have hout : cross (b - c) w / cross u w < 0 ∨ cross u (b - c) / cross u w < 0 := by
        by_contra hn
        push Not at hn
        refine h1 b ?_ hb
        rw [coord b]
        obtain ⟨x, hx⟩ : ∃ x, x = cross (b - c) w / cross u w := ⟨_, rfl⟩
        obtain ⟨y, hy⟩ : ∃ y, y = cross u (b - c) / cross u w := ⟨_, rfl⟩
        rw [← hx, ← hy] at hn hle ⊢
        have hcc := convex_convexHull ℝ A
        have := hcc.sum_mem (t := (Finset.univ : Finset (Fin 3))) (w := ![1 - x - y, x, y])
          (z := ![c, c + u, c + w]) (by
            intro i _
            fin_cases i
            · simp; linarith
            · simpa using hn.1
            · simpa using hn.2) (by simp [Fin.sum_univ_three]; ring) (by
            intro i _
            fin_cases i
            · exact hAc _ hcA
            · exact hAc _ ha1
            · exact hAc _ ha2)
        convert this using 1
        simp only [Fin.sum_univ_three]
        ext <;> simp <;> ring
      obtain ⟨q, hq, hqs⟩ := leaves_triangle hA ha1 ha2 hα hα' hαs hle hout
      rw [← coord b] at hqs
      exact h2 q ((convex_convexHull ℝ B).segment_subset hpB (hBc b hb) hqs) hq
    -- one of the end points is on the side of the tip
    have lin : β * (cross (b1 - c) w / cross u w + cross u (b1 - c) / cross u w) +
        β' * (cross (b2 - c) w / cross u w + cross u (b2 - c) / cross u w) = 1 := by
      obtain ⟨D, hDd⟩ : ∃ D, D = cross u w := ⟨_, rfl⟩
      rw [← hDd] at hD ⊢
      field_simp
      have e1 := congrArg Prod.fst e
      have e2 := congrArg Prod.snd e
      simp at e1 e2
      rw [hDd]
      simp only [cross, Prod.fst_sub, Prod.snd_sub]
      rw [hβ1] at e1 e2 ⊢
      rw [hα1] at e1 e2
      linear_combination (w.2 - u.2) * e1 + (u.1 - w.1) * e2
    rcases le_or_gt (cross (b1 - c) w / cross u w + cross u (b1 - c) / cross u w) 1 with h | h
    · exact fin b1 hb1 h
    · rcases le_or_gt (cross (b2 - c) w / cross u w + cross u (b2 - c) / cross u w) 1 with h' | h'
      · exact fin b2 hb2 h'
      · have l2 := mul_le_mul_of_nonneg_left h'.le hβ'
        rcases hβ.lt_or_eq with hp | hp
        · have l1 := mul_lt_mul_of_pos_left h hp
          linarith
        · rw [← hp, zero_mul, zero_add] at lin
          have : β' = 1 := by linarith
          rw [this, one_mul] at lin
          linarith

end Starworlds
