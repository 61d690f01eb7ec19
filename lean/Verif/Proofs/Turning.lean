import Verif.Spec.Turning
import Verif.Proofs.StarConvex

/-!
# Polygons that turn once around, always to the left

Such a polygon is star-shaped about its centre of corners, and convex.
-/

namespace Starworlds

open Real Spec

/-- The turns of all corners, with the corner after the first edge first. -/
theorem turn_cyclic {v : List (Pt ℝ)} (hv : 0 < v.length) (j : ℕ) :
    turn v ((j + 1) % v.length) = cross (corner v (j + 1) - corner v j) (corner v (j + 2) - corner v (j + 1)) := by
  unfold turn
  have e1 : corner v ((j + 1) % v.length) = corner v (j + 1) := by simp [corner]
  have e2 : corner v ((j + 1) % v.length + 1) = corner v (j + 2) := by
    simp only [corner]; rw [Nat.mod_add_mod]
  have e3 : corner v ((j + 1) % v.length + v.length - 1) = corner v j := by
    have : ((j + 1) % v.length + v.length - 1) % v.length = j % v.length := by
      have h1 : (j + 1) % v.length + v.length - 1 = (j + 1) % v.length + (v.length - 1) := by omega
      rw [h1, Nat.mod_add_mod, show j + 1 + (v.length - 1) = j + v.length by omega, Nat.add_mod_right]
    simp only [corner]
    rw [this]
  rw [e1, e2, e3]

theorem onceAround_pos {v : List (Pt ℝ)} (h : OnceAround v) : 0 < v.length := by
  obtain ⟨ψ, -, -, h3⟩ := h
  rcases Nat.eq_zero_or_pos v.length with h0 | h0
  · rw [h0] at h3; linarith [pi_pos]
  · exact h0

/-- The directions of the edges for all cyclic indices. -/
theorem onceAround_cyclic {v : List (Pt ℝ)} (h : OnceAround v) :
    ∃ ψ L : ℕ → ℝ, (∀ j, 0 < L j ∧ corner v (j + 1) - corner v j = polar 0 (L j) (ψ j)) ∧
      (∀ j, |ψ (j + 1) - ψ j| < π) ∧ ∀ j, ψ (j + v.length) = ψ j + 2 * π := by
  have hn := onceAround_pos h
  obtain ⟨ψ, h1, h2, h3⟩ := h
  set n := v.length with hnn
  have hr : ∀ j, ∃ r : ℝ, 0 < r ∧ corner v (j + 1) - corner v j = r • ((cos (ψ (j % n)), sin (ψ (j % n))) : Pt ℝ) := by
    intro j
    obtain ⟨r, hr, e⟩ := h1 (j % n) (Nat.mod_lt _ hn)
    refine ⟨r, hr, ?_⟩
    rw [← e]
    have e1 : corner v (j % n) = corner v j := by simp [corner, hnn]
    have e2 : corner v (j % n + 1) = corner v (j + 1) := by simp only [corner, hnn]; rw [Nat.mod_add_mod]
    rw [e1, e2]
  choose L hL hE using hr
  refine ⟨fun j => ψ (j % n) + (j / n : ℕ) * (2 * π), L, fun j => ⟨hL j, ?_⟩, fun j => ?_, fun j => ?_⟩
  · rw [hE j]
    simp only [polar, cos_add_nat_mul_two_pi, sin_add_nat_mul_two_pi]
    simp
  · have := h2 (j % n) (Nat.mod_lt _ hn)
    by_cases hj : j % n + 1 < n
    · have e1 : (j + 1) % n = j % n + 1 := by
        rw [Nat.add_mod, Nat.mod_eq_of_lt (show 1 < n by omega), Nat.mod_eq_of_lt hj]
      have e2 : (j + 1) / n = j / n := by
        have a := Nat.div_add_mod (j + 1) n
        have b := Nat.div_add_mod j n
        rw [e1] at a
        have : n * ((j + 1) / n) = n * (j / n) := by omega
        exact Nat.eq_of_mul_eq_mul_left hn this
      simp only [e1, e2]
      rw [show ψ (j % n + 1) + ((j / n : ℕ) : ℝ) * (2 * π) - (ψ (j % n) + ((j / n : ℕ) : ℝ) * (2 * π)) = ψ (j % n + 1) - ψ (j % n) by ring]
      exact this
    · have hlt := Nat.mod_lt j hn
      have hj' : j % n + 1 = n := by omega
      have b := Nat.div_add_mod j n
      have e3 : j + 1 = n * (j / n + 1) := by rw [mul_add]; omega
      have e1 : (j + 1) % n = 0 := by rw [e3]; simp
      have e2 : (j + 1) / n = j / n + 1 := by rw [e3, Nat.mul_div_cancel_left _ hn]
      rw [hj', h3] at this
      simp only [e1, e2, Nat.cast_add, Nat.cast_one]
      rw [show ψ 0 + (((j / n : ℕ) : ℝ) + 1) * (2 * π) - (ψ (j % n) + ((j / n : ℕ) : ℝ) * (2 * π)) = ψ 0 + 2 * π - ψ (j % n) by ring]
      exact this
  · simp only [Nat.add_mod_right, Nat.add_div_right _ hn, Nat.cast_add, Nat.cast_one]
    ring

/-- The cross product of two successive edges. -/
theorem edges_cross {v : List (Pt ℝ)} {ψ L : ℕ → ℝ} (hE : ∀ j, 0 < L j ∧ corner v (j + 1) - corner v j = polar 0 (L j) (ψ j))
    (i j : ℕ) : cross (corner v (i + 1) - corner v i) (corner v (j + 1) - corner v j) = L i * L j * sin (ψ j - ψ i) := by
  have e := cross_polar_about 0 (L i) (L j) (ψ i) (ψ j)
  rw [sub_zero, sub_zero, ← (hE i).2, ← (hE j).2] at e
  exact e

/-- If the polygon never turns right then the directions never decrease. -/
theorem directions_mono {v : List (Pt ℝ)} {ψ L : ℕ → ℝ} (hv : 0 < v.length)
    (hE : ∀ j, 0 < L j ∧ corner v (j + 1) - corner v j = polar 0 (L j) (ψ j))
    (hd : ∀ j, |ψ (j + 1) - ψ j| < π) (ht : ∀ j < v.length, 0 ≤ turn v j) : Monotone ψ := by
  refine monotone_nat_of_le_succ fun j => ?_
  have h := ht ((j + 1) % v.length) (Nat.mod_lt _ hv)
  rw [turn_cyclic hv, show j + 2 = (j + 1) + 1 from rfl, edges_cross hE] at h
  have hs : 0 ≤ sin (ψ (j + 1) - ψ j) := nonneg_of_mul_nonneg_right h (mul_pos (hE _).1 (hE _).1)
  by_contra hlt
  push Not at hlt
  have := sin_neg_of_neg_of_neg_pi_lt (x := ψ (j + 1) - ψ j) (by linarith) (by linarith [(abs_lt.1 (hd j)).1])
  linarith

/-- The direction of a point seen from another is unique up to full turns. -/
theorem seenAt_unique {c p : Pt ℝ} (hne : p ≠ c) {s t : ℝ} (hs : SeenAt c p s) (ht : SeenAt c p t) (h : |s - t| < 2 * π) : s = t := by
  obtain ⟨a, a0, e⟩ := hs
  obtain ⟨b, b0, e'⟩ := ht
  have a1 : 0 < a := a0.lt_of_ne (by rintro rfl; simp at e; exact hne e)
  have b1 : 0 < b := b0.lt_of_ne (by rintro rfl; simp at e'; exact hne e')
  have h0 : a • ((cos s, sin s) : Pt ℝ) = b • ((cos t, sin t) : Pt ℝ) := add_left_cancel (e.symm.trans e')
  have x := congrArg Prod.fst h0
  have y := congrArg Prod.snd h0
  simp only [Prod.smul_fst, Prod.smul_snd, smul_eq_mul] at x y
  have hab : a = b := by
    have h1 : a ^ 2 = b ^ 2 := by
      have p1 := sin_sq_add_cos_sq s
      have p2 := sin_sq_add_cos_sq t
      calc a ^ 2 = (a * cos s) ^ 2 + (a * sin s) ^ 2 := by linear_combination -a ^ 2 * p1
        _ = (b * cos t) ^ 2 + (b * sin t) ^ 2 := by rw [x, y]
        _ = b ^ 2 := by linear_combination b ^ 2 * p2
    exact (pow_left_inj₀ a0 b0 two_ne_zero).1 h1
  rw [hab] at x y
  have hcs : cos s = cos t := mul_left_cancel₀ b1.ne' x
  have hsn : sin s = sin t := mul_left_cancel₀ b1.ne' y
  have h1 : cos (s - t) = 1 := by rw [cos_sub, hcs, hsn]; nlinarith [sin_sq_add_cos_sq t]
  obtain ⟨k, hk⟩ := (cos_eq_one_iff _).1 h1
  rw [← hk, abs_mul, abs_of_pos (show 0 < 2 * π by linarith [pi_pos])] at h
  have h2 : |(k : ℝ)| < 1 := by
    by_contra hle
    push Not at hle
    nlinarith [pi_pos]
  have h3 : k = 0 := by
    rw [← Int.cast_abs] at h2
    exact Int.abs_lt_one_iff.1 (by exact_mod_cast h2)
  rw [h3] at hk
  simp at hk
  linarith

section
variable {v : List (Pt ℝ)} {ψ L : ℕ → ℝ}
  (hE : ∀ j, 0 < L j ∧ corner v (j + 1) - corner v j = polar 0 (L j) (ψ j))
  (hm : Monotone ψ) (hper : ∀ j, ψ (j + v.length) = ψ j + 2 * π)
include hE hm hper

/-- No corner is to the right of an edge. -/
theorem mono_left (i k : ℕ) (hk : k ≤ v.length) : 0 ≤ cross (corner v (i + 1) - corner v i) (corner v (i + k) - corner v i) := by
  set n := v.length with hn
  let f : ℕ → ℝ := fun k => cross (corner v (i + 1) - corner v i) (corner v (i + k) - corner v i)
  have hinc : ∀ k, f (k + 1) = f k + L i * L (i + k) * sin (ψ (i + k) - ψ i) := by
    intro k
    rw [← edges_cross hE]
    simp only [f, cross, Prod.fst_sub, Prod.snd_sub, ← add_assoc]
    ring
  have f0 : f 0 = 0 := by simp only [f, cross, add_zero]; simp
  have fn : f n = 0 := by simp only [f, hn]; rw [corner_add_length]; simp [cross]
  by_cases hd : ψ (i + k) - ψ i ≤ π
  · have up : ∀ m ≤ k, 0 ≤ f m := by
      intro m
      induction m with
      | zero => intro _; exact f0.ge
      | succ m ih =>
        intro hmk
        rw [hinc]
        have h1 : 0 ≤ sin (ψ (i + m) - ψ i) := by
          refine sin_nonneg_of_nonneg_of_le_pi ?_ ?_
          · linarith [hm (show i ≤ i + m by omega)]
          · linarith [hm (show i + m ≤ i + k by omega)]
        have h2 := mul_nonneg (mul_pos (hE i).1 (hE (i + m)).1).le h1
        linarith [ih (by omega)]
    exact up k le_rfl
  · have down : ∀ m, k + m ≤ n → f (k + m) ≤ f k := by
      intro m
      induction m with
      | zero => intro _; exact le_rfl
      | succ m ih =>
        intro hmk
        rw [← add_assoc, hinc]
        have h1 : sin (ψ (i + (k + m)) - ψ i) ≤ 0 := by
          have a := hm (show i + k ≤ i + (k + m) by omega)
          have b := hm (show i + (k + m) ≤ i + n by omega)
          rw [hper] at b
          have := sin_nonneg_of_nonneg_of_le_pi (x := ψ (i + (k + m)) - ψ i - π) (by linarith) (by linarith)
          rw [sin_sub_pi] at this
          linarith
        have h2 := mul_nonneg (mul_pos (hE i).1 (hE (i + (k + m))).1).le (neg_nonneg.mpr h1)
        linarith [ih (by omega)]
    have := down (n - k) (by omega)
    rw [show k + (n - k) = n by omega, fn] at this
    exact this

/-- Some corner is to the left of the edge. -/
theorem mono_strict (hd : ∀ j, |ψ (j + 1) - ψ j| < π) (i : ℕ) :
    ∃ k ≤ v.length, 0 < cross (corner v (i + 1) - corner v i) (corner v (i + k) - corner v i) := by
  set n := v.length with hn
  have hpi := pi_pos
  have hex : ∃ k, ψ i < ψ (i + k) := ⟨n, by rw [hper]; linarith⟩
  classical
  set m := Nat.find hex with hmdef
  have hm1 : ψ i < ψ (i + m) := Nat.find_spec hex
  have hmin : ∀ j < m, ψ (i + j) = ψ i := fun j hj =>
    le_antisymm (not_lt.1 (Nat.find_min hex hj)) (hm (by omega))
  have hm0 : m ≠ 0 := by intro h0; rw [h0] at hm1; simp at hm1
  have hmn : m ≤ n := Nat.find_min' hex (by rw [hper]; linarith)
  have hlt : m < n := by
    rcases hmn.lt_or_eq with h | h
    · exact h
    · exfalso
      have h1 := hmin (m - 1) (by omega)
      have h2 := hd (i + (m - 1))
      rw [show i + (m - 1) + 1 = i + n by omega, hper, h1, abs_lt] at h2
      linarith [h2.2]
  have hstep := hd (i + (m - 1))
  rw [show i + (m - 1) + 1 = i + m by omega, hmin (m - 1) (by omega)] at hstep
  refine ⟨m + 1, hlt, ?_⟩
  have h0 := mono_left hE hm hper i m hmn
  have h1 : 0 < sin (ψ (i + m) - ψ i) := sin_pos_of_pos_of_lt_pi (by linarith) (by linarith [(abs_lt.1 hstep).2])
  have h2 := mul_pos (mul_pos (hE i).1 (hE (i + m)).1) h1
  rw [← edges_cross hE] at h2
  have : cross (corner v (i + 1) - corner v i) (corner v (i + (m + 1)) - corner v i) =
      cross (corner v (i + 1) - corner v i) (corner v (i + m) - corner v i) +
        cross (corner v (i + 1) - corner v i) (corner v (i + m + 1) - corner v (i + m)) := by
    simp only [cross, Prod.fst_sub, Prod.snd_sub, ← add_assoc]
    ring
  rw [this]
  linarith

/-- A point to the left of all edges sees the corners in order. -/
theorem mono_star (hd : ∀ j, |ψ (j + 1) - ψ j| < π) {c : Pt ℝ}
    (hc : ∀ i, 0 < cross (corner v (i + 1) - corner v i) (c - corner v i)) : StarAbout c v := by
  have hpi := pi_pos
  -- the angle of corner `i` seen from `c`, within a half turn before the direction of the edge
  have key : ∀ i, ∀ p : Pt ℝ, 0 < cross (corner v (i + 1) - corner v i) (c - p) →
      ∃ φ, ψ i - π < φ ∧ φ < ψ i ∧ SeenAt c p φ ∧ p ≠ c := by
    intro i p hp
    have hne : p ≠ c := by rintro rfl; simp [cross] at hp
    set z : ℂ := ⟨(p - c).1, (p - c).2⟩ with hz
    have hz0 : z ≠ 0 := by
      intro h0
      have a := congrArg Complex.re h0
      have b := congrArg Complex.im h0
      simp only [hz, Prod.fst_sub, Prod.snd_sub, Complex.zero_re, Complex.zero_im] at a b
      exact hne (Prod.ext (by linarith) (by linarith))
    -- rotate so that the edge points along the negative real axis
    obtain ⟨k, hk1, hk2⟩ : ∃ k : ℤ, ψ i - 2 * π ≤ z.arg + k * (2 * π) ∧ z.arg + k * (2 * π) < ψ i := by
      obtain ⟨k, hk, -⟩ := existsUnique_add_zsmul_mem_Ico (show (0 : ℝ) < 2 * π by linarith) z.arg (ψ i - 2 * π)
      refine ⟨k, ?_, ?_⟩
      · have := hk.1; rwa [zsmul_eq_mul] at this
      · have := hk.2; rw [zsmul_eq_mul] at this; linarith
    set φ := z.arg + k * (2 * π) with hφ
    have hseen : p = c + ‖z‖ • ((cos φ, sin φ) : Pt ℝ) := by
      have a : cos φ = cos z.arg := by rw [hφ, cos_add_int_mul_two_pi]
      have b : sin φ = sin z.arg := by rw [hφ, sin_add_int_mul_two_pi]
      rw [a, b]
      have e1 : ‖z‖ * cos z.arg = z.re := Complex.norm_mul_cos_arg z
      have e2 : ‖z‖ * sin z.arg = z.im := Complex.norm_mul_sin_arg z
      apply Prod.ext
      · simp only [Prod.fst_add, Prod.smul_fst, smul_eq_mul]; rw [e1]; simp [hz]
      · simp only [Prod.snd_add, Prod.smul_snd, smul_eq_mul]; rw [e2]; simp [hz]
    have hn : 0 < ‖z‖ := norm_pos_iff.mpr hz0
    have hcross : cross (corner v (i + 1) - corner v i) (c - p) = L i * ‖z‖ * sin (ψ i - φ) := by
      rw [(hE i).2, sin_sub]
      have e : c - p = -(‖z‖ • ((cos φ, sin φ) : Pt ℝ)) := by
        rw [sub_eq_iff_eq_add]; nth_rw 1 [hseen]; abel
      rw [e]
      simp only [cross, polar, Prod.fst_neg, Prod.snd_neg, Prod.smul_fst, Prod.smul_snd, smul_eq_mul, Prod.fst_add, Prod.snd_add]
      simp
      ring
    rw [hcross] at hp
    have hs : 0 < sin (ψ i - φ) := pos_of_mul_pos_right hp (mul_pos (hE i).1 hn).le
    refine ⟨φ, ?_, hk2, ⟨‖z‖, hn.le, hseen⟩, hne⟩
    by_contra hle
    push Not at hle
    have := sin_nonneg_of_nonneg_of_le_pi (x := ψ i - φ - π) (by linarith) (by linarith)
    rw [sin_sub_pi] at this
    linarith
  have hself : ∀ i, ∃ φ, ψ i - π < φ ∧ φ < ψ i ∧ SeenAt c (corner v i) φ ∧ corner v i ≠ c := fun i => key i _ (hc i)
  choose φ h1 h2 h3 h4 using hself
  have hnext : ∀ i, ψ i - π < φ (i + 1) ∧ φ (i + 1) < ψ i := by
    intro i
    obtain ⟨φ', k1, k2, k3, k4⟩ := key i (corner v (i + 1)) (by
      have := hc i
      simp only [cross, Prod.fst_sub, Prod.snd_sub] at this ⊢
      linarith)
    have hst := abs_lt.1 (hd i)
    have hle := hm (Nat.le_succ i)
    rw [Nat.succ_eq_add_one] at hle
    have : φ (i + 1) = φ' := seenAt_unique k4 (h3 (i + 1)) k3 (by
      rw [abs_lt]; constructor <;> linarith [h1 (i + 1), h2 (i + 1), hst.2])
    rw [this]; exact ⟨k1, k2⟩
  refine ⟨φ, fun i _ => ⟨h3 i, h4 i⟩, fun i _ => ?_, ?_⟩
  · obtain ⟨r, r0, e1⟩ := h3 i
    obtain ⟨s, s0, e2⟩ := h3 (i + 1)
    have e := cross_polar_about c r s (φ i) (φ (i + 1))
    have hp : 0 < cross (polar c r (φ i) - c) (polar c s (φ (i + 1)) - c) := by
      have := hc i
      rw [show polar c r (φ i) = corner v i from e1.symm, show polar c s (φ (i + 1)) = corner v (i + 1) from e2.symm]
      simp only [cross, Prod.fst_sub, Prod.snd_sub] at this ⊢
      linarith
    rw [e] at hp
    have hs : 0 < sin (φ (i + 1) - φ i) := pos_of_mul_pos_right hp (mul_nonneg r0 s0)
    have k := hnext i
    constructor
    · by_contra hle
      push Not at hle
      have := sin_nonneg_of_nonneg_of_le_pi (x := φ i - φ (i + 1)) (by linarith) (by linarith [h1 i, h2 i])
      rw [← neg_sub, sin_neg] at this
      linarith
    · linarith [h1 i, h2 i]
  · have e0 := hper 0
    rw [zero_add] at e0
    have hcn : corner v v.length = corner v 0 := by simp [corner]
    have h5 : SeenAt c (corner v 0) (φ v.length) := by rw [← hcn]; exact h3 _
    have h6 : SeenAt c (corner v 0) (φ 0 + 2 * π) := by
      obtain ⟨r, r0, e⟩ := h3 0
      exact ⟨r, r0, by rw [cos_add_two_pi, sin_add_two_pi]; exact e⟩
    exact seenAt_unique (h4 0) h5 h6 (by
      rw [abs_lt]; constructor <;> linarith [h1 v.length, h2 v.length, h1 0, h2 0])

end

/-- A polygon that turns once around and never to the right is star-shaped about some point, and it is the convex hull
of its corners. -/
theorem onceAround_convex {v : List (Pt ℝ)} (h : OnceAround v) (ht : ∀ j < v.length, 0 ≤ turn v j) :
    (∃ c, StarAbout c v) ∧ filled v = region v ∧ visKernel (filled v) = filled v := by
  have hn := onceAround_pos h
  obtain ⟨ψ, L, hE, hd, hper⟩ := onceAround_cyclic h
  have hm := directions_mono hn hE hd ht
  have hleft : ∀ i j, 0 ≤ cross (corner v (i + 1) - corner v i) (corner v j - corner v i) := by
    intro i j
    set k := (j + v.length * i - i) % v.length with hk
    have hle : i ≤ j + v.length * i := by nlinarith
    have := mono_left hE hm hper i k (Nat.mod_lt _ hn).le
    have e : corner v (i + k) = corner v j := by
      have : (i + k) % v.length = j % v.length := by
        rw [hk, Nat.add_mod_mod, show i + (j + v.length * i - i) = j + v.length * i by omega, Nat.add_mul_mod_self_left]
      simp only [corner]
      rw [this]
    rw [e] at this
    exact this
  set s : Pt ℝ := ∑ j ∈ Finset.range v.length, corner v j with hs
  set c : Pt ℝ := (1 / (v.length : ℝ)) • s with hc
  have hpos : (0 : ℝ) < v.length := by exact_mod_cast hn
  have hlin : ∀ i, (v.length : ℝ) * cross (corner v (i + 1) - corner v i) (c - corner v i) =
      ∑ j ∈ Finset.range v.length, cross (corner v (i + 1) - corner v i) (corner v j - corner v i) := by
    intro i
    have e1 : ∀ (d a : Pt ℝ), ∑ j ∈ Finset.range v.length, cross d (corner v j - a) = cross d s - v.length * cross d a := by
      intro d a
      have : ∀ m, ∑ j ∈ Finset.range m, cross d (corner v j - a) = cross d (∑ j ∈ Finset.range m, corner v j) - m * cross d a := by
        intro m
        induction m with
        | zero => simp [cross]
        | succ m ih =>
          rw [Finset.sum_range_succ, ih, Finset.sum_range_succ]
          simp only [cross, Prod.fst_sub, Prod.snd_sub, Prod.fst_add, Prod.snd_add, Nat.cast_add, Nat.cast_one]
          ring
      exact this _
    rw [e1, hc]
    simp only [cross, Prod.fst_sub, Prod.snd_sub, Prod.smul_fst, Prod.smul_snd, smul_eq_mul]
    field_simp
    ring
  have hin : ∀ i, 0 < cross (corner v (i + 1) - corner v i) (c - corner v i) := by
    intro i
    obtain ⟨k, -, hk⟩ := mono_strict hE hm hper hd i
    have : 0 < ∑ j ∈ Finset.range v.length, cross (corner v (i + 1) - corner v i) (corner v j - corner v i) := by
      refine Finset.sum_pos' (fun j _ => hleft i j) ⟨(i + k) % v.length, Finset.mem_range.2 (Nat.mod_lt _ hn), ?_⟩
      have e : corner v ((i + k) % v.length) = corner v (i + k) := by simp [corner]
      rw [e]; exact hk
    rw [← hlin] at this
    exact pos_of_mul_pos_right this hpos.le
  have hstar := mono_star hE hm hper hd hin
  have a : region v ⊆ leftKernel v := by
    refine convexHull_min ?_ (leftKernel_convex v)
    intro p hp i hi
    obtain ⟨j, hj, rfl⟩ := List.getElem_of_mem hp
    have hcj : v[j] = corner v j := by
      simp only [corner]
      rw [Nat.mod_eq_of_lt hj, List.getD_eq_getElem _ _ hj]
    rw [hcj]
    exact hleft i j
  have b : leftKernel v ⊆ filled v := by
    rw [← star_kernel hstar]; exact fun p hp => hp.1
  have d := filled_subset_region hstar
  have e := Set.Subset.antisymm d (a.trans b)
  refine ⟨⟨c, hstar⟩, e, ?_⟩
  rw [star_kernel hstar]
  exact Set.Subset.antisymm b (d.trans a)

/-- A star-shaped polygon whose region is convex never turns right. -/
theorem convex_turns {c : Pt ℝ} {v : List (Pt ℝ)} (h : StarAbout c v) (hc : Convex ℝ (filled v)) :
    ∀ j < v.length, 0 ≤ turn v j := by
  intro j hj
  have hv : v ≠ [] := by rintro rfl; simp at hj
  have hn : 0 < v.length := by omega
  have hmem : ∀ i, corner v i ∈ filled v := by
    intro i
    refine Or.inr ⟨i % v.length, Nat.mod_lt _ hn, 0, le_rfl, zero_le_one, ?_⟩
    simp [corner]
  have hk : ∀ i, corner v i ∈ leftKernel v := by
    intro i
    rw [← star_kernel h]
    refine ⟨hmem i, fun q hq r hr => ?_⟩
    obtain ⟨t, t0, t1, rfl⟩ := hr
    exact hc.add_smul_sub_mem (hmem i) hq ⟨t0, t1⟩
  obtain ⟨m, hm⟩ : ∃ m, j = (m + 1) % v.length := ⟨j + v.length - 1, by
    rw [show j + v.length - 1 + 1 = j + v.length by omega, Nat.add_mod_right, Nat.mod_eq_of_lt hj]⟩
  rw [hm, turn_cyclic hn]
  have := hk (m + 2) (m % v.length) (Nat.mod_lt _ hn)
  have e1 : corner v (m % v.length) = corner v m := by simp [corner]
  have e2 : corner v (m % v.length + 1) = corner v (m + 1) := by simp only [corner]; rw [Nat.mod_add_mod]
  rw [e1, e2] at this
  simp only [cross, Prod.fst_sub, Prod.snd_sub] at this ⊢
  linarith

end Starworlds
