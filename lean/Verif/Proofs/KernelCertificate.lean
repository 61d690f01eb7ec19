import Verif.Proofs.StarCriterion
import Verif.Proofs.KernelRational
import Verif.Spec.StarHull

/-!
# Checking a kernel by computation

For a polygon with rational vertices a few decidable conditions imply that the convex region with given corners consists of
the points from which the whole polygon is visible.
-/

namespace Starworlds

open Spec

/-- `v` goes once around `c`, counter-clockwise: the first `m` vertices are in the half plane to the left of the direction from `c`
to the first vertex. -/
def goesAround (c : Pt ℚ) (v : List (Pt ℚ)) : Bool :=
  let u := corner v 0 - c
  (List.range v.length).all (fun i => decide (0 < cross (corner v i - c) (corner v (i + 1) - c))) &&
  (List.range v.length).any fun m => decide (0 < m) &&
    (List.range v.length).all fun i =>
      let w := corner v i - c
      if i < m then decide (0 < cross u w ∨ (cross u w = 0 ∧ 0 < dot u w))
      else decide (cross u w < 0 ∨ (cross u w = 0 ∧ dot u w < 0))

theorem corner_toReal (v : List (Pt ℚ)) (i : ℕ) : corner (v.map toReal) i = toReal (corner v i) := by
  unfold corner
  rw [List.length_map]
  rcases v with _ | ⟨a, l⟩
  · simp [toReal]; rfl
  · have : i % (a :: l).length < (a :: l).length := Nat.mod_lt _ (by simp)
    rw [List.getD_eq_getElem _ _ (by simpa using this), List.getD_eq_getElem _ _ this, List.getElem_map]

theorem cross_toReal (p q : Pt ℚ) : cross (toReal p) (toReal q) = ((cross p q : ℚ) : ℝ) := by
  simp [toReal, cross]

theorem dot_toReal (p q : Pt ℚ) : dot (toReal p) (toReal q) = ((dot p q : ℚ) : ℝ) := by
  simp [toReal, dot]

theorem starAbout_rat {c : Pt ℚ} {v : List (Pt ℚ)} (h : goesAround c v = true) : StarAbout (toReal c) (v.map toReal) := by
  unfold goesAround at h
  simp only [Bool.and_eq_true, List.all_eq_true, List.any_eq_true, List.mem_range, decide_eq_true_eq] at h
  obtain ⟨hpos, m, hm, hm0, hh⟩ := h
  refine starAbout_of_halves (toReal (corner v 0 - c)) ?_ m hm0 (by simpa using hm) ?_ ?_ ?_
  · intro h0
    have := hpos 0 (by omega)
    rw [← Rat.cast_pos (K := ℝ), ← cross_toReal, h0] at this
    simp [cross] at this
  · intro i hi
    have := hh i (by omega)
    rw [if_pos hi, decide_eq_true_eq] at this
    rw [corner_toReal, ← toReal_sub]
    unfold UpperHalf
    rw [cross_toReal, dot_toReal]
    exact_mod_cast this
  · intro i hi hmi
    have := hh i (by simpa using hi)
    rw [if_neg (by omega), decide_eq_true_eq] at this
    rw [corner_toReal, ← toReal_sub]
    unfold LowerHalf
    rw [cross_toReal, dot_toReal]
    exact_mod_cast this
  · intro i hi
    rw [corner_toReal, corner_toReal, ← toReal_sub, ← toReal_sub, cross_toReal]
    exact_mod_cast hpos i (by simpa using hi)

/-- The mean of the first three vertices. -/
def middle (v : List (Pt ℚ)) : Pt ℚ := (1 / 3 : ℚ) • (corner v 0 + corner v 1 + corner v 2)

/-- No corner of `k` is to the right of an edge of `v`, and each edge of `k` is within the line of an edge of `v` in the same
direction. -/
def kernelCheck (c : Pt ℚ) (v k : List (Pt ℚ)) : Bool :=
  goesAround c v && goesAround (middle k) k &&
  (List.range v.length).all (fun i => k.all fun p => decide (0 ≤ cross (corner v (i + 1) - corner v i) (p - corner v i))) &&
  (List.range k.length).all fun j => (List.range v.length).any fun i =>
    decide (cross (corner v (i + 1) - corner v i) (corner k j - corner v i) = 0) &&
    decide (cross (corner v (i + 1) - corner v i) (corner k (j + 1) - corner v i) = 0) &&
    decide (0 < dot (corner v (i + 1) - corner v i) (corner k (j + 1) - corner k j))

theorem leftKernel_convex (v : List (Pt ℝ)) : Convex ℝ (leftKernel v) := by
  intro x hx y hy s t hs ht hst i hi
  have h1 := mul_nonneg hs (hx i hi)
  have h2 := mul_nonneg ht (hy i hi)
  have : cross (corner v (i + 1) - corner v i) (s • x + t • y - corner v i) =
      s * cross (corner v (i + 1) - corner v i) (x - corner v i) + t * cross (corner v (i + 1) - corner v i) (y - corner v i) := by
    have : s = 1 - t := by linarith
    subst this
    simp [cross]; ring
  rw [this]; linarith

/-- A line given by two points of another line in the same direction. -/
theorem same_side {a d p q x : Pt ℝ} (h1 : cross d (p - a) = 0) (h2 : cross d (q - a) = 0) (h3 : 0 < dot d (q - p))
    (h : 0 ≤ cross d (x - a)) : 0 ≤ cross (q - p) (x - p) := by
  have hd : 0 < dot d d := by
    have : d ≠ 0 := by rintro rfl; simp [dot] at h3
    have h4 : 0 ≤ dot d d := by simp only [dot]; nlinarith
    refine h4.lt_of_ne fun h0 => this ?_
    simp only [dot] at h0
    ext
    · have : d.1 ^ 2 = 0 := by nlinarith [sq_nonneg d.1, sq_nonneg d.2]
      simpa using this
    · have : d.2 ^ 2 = 0 := by nlinarith [sq_nonneg d.1, sq_nonneg d.2]
      simpa using this
  have e : dot d d * cross (q - p) (x - p) = dot d (q - p) * cross d (x - a) := by
    simp only [cross, dot, Prod.fst_sub, Prod.snd_sub] at h1 h2 ⊢
    linear_combination (-((d.1*(q.1-p.1)+d.2*(q.2-p.2))) - (d.1 * (x.1-p.1) + d.2 * (x.2-p.2)) * (-1)) * h1 + (-(d.1 * (x.1-p.1) + d.2 * (x.2-p.2))) * h2
  have := mul_nonneg h3.le h
  rw [← e] at this
  exact nonneg_of_mul_nonneg_right this hd

/-- All of a star-shaped polygon is in the convex hull of its vertices if its centre is. -/
theorem filled_sub_region {c : Pt ℝ} {v : List (Pt ℝ)} (h : StarAbout c v) (hc : c ∈ region v) : filled v ⊆ region v := by
  intro p hp
  obtain ⟨q, ⟨i, hi, s, s0, s1, rfl⟩, t, t0, t1, rfl⟩ := (star_filled h p).mp hp
  have hv : v ≠ [] := by rintro rfl; simp at hi
  have hr := convex_convexHull ℝ {p | p ∈ v}
  have ha : corner v i ∈ region v := subset_convexHull ℝ _ (corner_mem hv i)
  have hb : corner v (i + 1) ∈ region v := subset_convexHull ℝ _ (corner_mem hv (i + 1))
  refine hr.add_smul_sub_mem hc ?_ ⟨t0, t1⟩
  exact hr.add_smul_sub_mem ha hb ⟨s0, s1⟩

theorem kernel_checked {c : Pt ℚ} {v k : List (Pt ℚ)} (h : kernelCheck c v k = true) :
    region (k.map toReal) = visKernel (filled (v.map toReal)) := by
  unfold kernelCheck at h
  simp only [Bool.and_eq_true, List.all_eq_true, List.any_eq_true, List.mem_range, decide_eq_true_eq] at h
  obtain ⟨⟨⟨hv, hk⟩, hin⟩, hon⟩ := h
  have hk' := starAbout_rat hk
  rw [star_kernel (starAbout_rat hv)]
  apply Set.Subset.antisymm
  · refine convexHull_min ?_ (leftKernel_convex _)
    intro p hp i hi
    obtain ⟨q, hq, rfl⟩ := List.mem_map.mp (show p ∈ k.map toReal from hp)
    rw [corner_toReal, corner_toReal, ← toReal_sub, ← toReal_sub, cross_toReal]
    exact_mod_cast hin i (by simpa using hi) q hq
  · have hmid : toReal (middle k) ∈ region (k.map toReal) := by
      have hne : k.map toReal ≠ [] := by
        rintro h0
        obtain ⟨φ, h1, h2, h3⟩ := hk'
        rw [h0] at h3
        have := Real.pi_pos
        simp at h3
      have hr := convex_convexHull ℝ {p | p ∈ k.map toReal}
      have hs : ∀ i, toReal (corner k i) ∈ region (k.map toReal) := fun i => by
        rw [← corner_toReal]; exact subset_convexHull ℝ _ (corner_mem hne i)
      have h1 := hr (hs 0) (hs 1) (show (0 : ℝ) ≤ 1 / 2 by norm_num) (show (0 : ℝ) ≤ 1 / 2 by norm_num) (by norm_num)
      have h2 := hr h1 (hs 2) (show (0 : ℝ) ≤ 2 / 3 by norm_num) (show (0 : ℝ) ≤ 1 / 3 by norm_num) (by norm_num)
      rw [show toReal (middle k) = (2 / 3 : ℝ) • ((1 / 2 : ℝ) • toReal (corner k 0) + (1 / 2 : ℝ) • toReal (corner k 1)) +
        (1 / 3 : ℝ) • toReal (corner k 2) by
          apply Prod.ext <;> simp [middle, toReal] <;> ring]
      exact h2
    refine Set.Subset.trans ?_ (filled_sub_region hk' hmid)
    have : leftKernel (k.map toReal) ⊆ filled (k.map toReal) := by
      rw [← star_kernel hk']; exact fun p hp => hp.1
    refine Set.Subset.trans ?_ this
    intro p hp j hj
    obtain ⟨i, hi, ⟨h1, h2⟩, h3⟩ := hon j (by simpa using hj)
    have h4 := hp i (by simpa using hi)
    rw [corner_toReal, corner_toReal] at h4 ⊢
    refine same_side (d := toReal (corner v (i + 1)) - toReal (corner v i)) (a := toReal (corner v i)) ?_ ?_ ?_ h4
    · rw [← toReal_sub, ← toReal_sub, cross_toReal]; exact_mod_cast h1
    · rw [← toReal_sub, ← toReal_sub, cross_toReal]; exact_mod_cast h2
    · rw [← toReal_sub, ← toReal_sub, dot_toReal]; exact_mod_cast h3

theorem kernel_of_check {v k : List (Pt ℚ)} (c : Pt ℚ) (h : constructKernel ratOps v = .ok k) (hc : kernelCheck c v k = true)
    {w : List (Pt ℝ)} (hw : w = v.map toReal) :
    ∃ k' c c', constructKernel realOps w = .ok k' ∧ StarAbout c w ∧ StarAbout c' k' ∧ region k' = visKernel (filled w) := by
  subst hw
  refine ⟨k.map toReal, toReal c, toReal (middle k), ?_, ?_, ?_, kernel_checked hc⟩
  · rw [constructKernel_rat h (by simp)]
    rfl
  · unfold kernelCheck at hc
    simp only [Bool.and_eq_true] at hc
    exact starAbout_rat hc.1.1.1
  · unfold kernelCheck at hc
    simp only [Bool.and_eq_true] at hc
    exact starAbout_rat hc.1.1.2

end Starworlds
