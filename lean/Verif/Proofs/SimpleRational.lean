import Verif.Proofs.KernelCertificate
import Verif.Spec.Intersects

/-! # Deciding that a ring with rational vertices does not cross itself -/

namespace Starworlds

open Spec

/-- A line in direction normal to `n` separates the segments `a b` and `c d`. -/
def apartB (n a b c d : Pt ℚ) : Bool := max (dot n a) (dot n b) < min (dot n c) (dot n d)

def sepB (a b c d : Pt ℚ) : Bool :=
  [(-(b.2 - a.2), b.1 - a.1), (b.2 - a.2, -(b.1 - a.1)), (-(d.2 - c.2), d.1 - c.1), (d.2 - c.2, -(d.1 - c.1)), (1, 0), (-1, 0), (0, 1), (0, -1)].any
    fun n => apartB n a b c d

/-- The edges `a b` and `b c` have no other common point. -/
def turnB (a b c : Pt ℚ) : Bool := decide (cross (b - a) (c - b) ≠ 0) || decide (0 < dot (b - a) (c - b))

def simpleB (v : List (Pt ℚ)) : Bool :=
  decide (3 ≤ v.length) && (List.range v.length).all fun i => (List.range v.length).all fun j =>
    if i < j then
      if j = i + 1 then turnB (corner v i) (corner v j) (corner v (j + 1))
      else if i = 0 ∧ j + 1 = v.length then turnB (corner v j) (corner v 0) (corner v 1)
      else sepB (corner v i) (corner v (i + 1)) (corner v j) (corner v (j + 1))
    else true

theorem dot_seg (n a b : Pt ℝ) (t : ℝ) : dot n (a + t • (b - a)) = (1 - t) * dot n a + t * dot n b := by
  simp only [dot, Prod.fst_add, Prod.snd_add, Prod.smul_fst, Prod.smul_snd, smul_eq_mul, Prod.fst_sub, Prod.snd_sub]; ring

theorem sep_rat {a b c d : Pt ℚ} (h : sepB a b c d = true) {p : Pt ℝ} (h1 : OnSegment (toReal a) (toReal b) p)
    (h2 : OnSegment (toReal c) (toReal d) p) : False := by
  obtain ⟨n, -, hn⟩ := List.any_eq_true.1 h
  simp only [apartB, decide_eq_true_eq] at hn
  have hn' : max (dot (toReal n) (toReal a)) (dot (toReal n) (toReal b)) < min (dot (toReal n) (toReal c)) (dot (toReal n) (toReal d)) := by
    simp only [dot_toReal]; exact_mod_cast hn
  obtain ⟨t, t0, t1, rfl⟩ := h1
  obtain ⟨u, u0, u1, he⟩ := h2
  have e := congrArg (dot (toReal n)) he
  rw [dot_seg, dot_seg] at e
  set M := max (dot (toReal n) (toReal a)) (dot (toReal n) (toReal b))
  set m := min (dot (toReal n) (toReal c)) (dot (toReal n) (toReal d))
  have i1 : (1 - t) * dot (toReal n) (toReal a) + t * dot (toReal n) (toReal b) ≤ M := by
    have a1 : (1 - t) * dot (toReal n) (toReal a) ≤ (1 - t) * M := mul_le_mul_of_nonneg_left (le_max_left _ _) (by linarith)
    have a2 : t * dot (toReal n) (toReal b) ≤ t * M := mul_le_mul_of_nonneg_left (le_max_right _ _) t0
    linarith
  have i2 : m ≤ (1 - u) * dot (toReal n) (toReal c) + u * dot (toReal n) (toReal d) := by
    have a1 : (1 - u) * m ≤ (1 - u) * dot (toReal n) (toReal c) := mul_le_mul_of_nonneg_left (min_le_left _ _) (by linarith)
    have a2 : u * m ≤ u * dot (toReal n) (toReal d) := mul_le_mul_of_nonneg_left (min_le_right _ _) u0
    linarith
  linarith

theorem turn_rat {a b c : Pt ℚ} (h : turnB a b c = true) {p : Pt ℝ} (h1 : OnSegment (toReal a) (toReal b) p)
    (h2 : OnSegment (toReal b) (toReal c) p) : p = toReal b := by
  obtain ⟨t, t0, t1, rfl⟩ := h1
  obtain ⟨u, u0, u1, he⟩ := h2
  set A := toReal a
  set B := toReal b
  set C := toReal c
  have x1 := congrArg Prod.fst he
  have x2 := congrArg Prod.snd he
  simp only [Prod.fst_add, Prod.snd_add, Prod.smul_fst, Prod.smul_snd, smul_eq_mul, Prod.fst_sub, Prod.snd_sub] at x1 x2
  simp only [turnB, Bool.or_eq_true, decide_eq_true_eq] at h
  rcases h with h | h
  · have hc : cross (B - A) (C - B) ≠ 0 := by
      rw [← toReal_sub, ← toReal_sub, cross_toReal]; exact_mod_cast h
    have hu : u * cross (B - A) (C - B) = 0 := by
      simp only [cross, Prod.fst_sub, Prod.snd_sub]
      linear_combination (-(B.1 - A.1)) * x2 + (B.2 - A.2) * x1
    have : u = 0 := (mul_eq_zero.1 hu).resolve_right hc
    rw [he, this, zero_smul, add_zero]
  · have hc : 0 < dot (B - A) (C - B) := by
      rw [← toReal_sub, ← toReal_sub, dot_toReal]; exact_mod_cast h
    have hu : u * dot (B - A) (C - B) = -(1 - t) * ((B.1 - A.1) ^ 2 + (B.2 - A.2) ^ 2) := by
      simp only [dot, Prod.fst_sub, Prod.snd_sub]
      linear_combination (-(B.1 - A.1)) * x1 - (B.2 - A.2) * x2
    have h0 : u * dot (B - A) (C - B) ≤ 0 := by
      rw [hu]
      exact mul_nonpos_of_nonpos_of_nonneg (by linarith) (by positivity)
    have : u = 0 := le_antisymm (by by_contra hne; push Not at hne; nlinarith [mul_pos hne hc]) u0
    rw [he, this, zero_smul, add_zero]

theorem simple_rat {v : List (Pt ℚ)} (h : simpleB v = true) : SimpleRing (v.map toReal) := by
  simp only [simpleB, Bool.and_eq_true, decide_eq_true_eq, List.all_eq_true, List.mem_range] at h
  obtain ⟨h3, h⟩ := h
  refine ⟨by simpa using h3, fun i j hij hj p h1 h2 => ?_⟩
  rw [List.length_map] at hj ⊢
  simp only [corner_toReal] at h1 h2 ⊢
  have := h i (by omega) j hj
  rw [if_pos hij] at this
  by_cases c1 : j = i + 1
  · rw [if_pos c1] at this
    subst c1
    exact Or.inl ⟨rfl, turn_rat this h1 h2⟩
  · rw [if_neg c1] at this
    by_cases c2 : i = 0 ∧ j + 1 = v.length
    · rw [if_pos c2] at this
      obtain ⟨rfl, c2⟩ := c2
      have hw : corner v (j + 1) = corner v 0 := by unfold corner; rw [c2]; simp
      rw [hw] at h2
      exact Or.inr ⟨rfl, c2, turn_rat this h2 h1⟩
    · rw [if_neg c2] at this
      exact (sep_rat this h1 h2).elim

end Starworlds
