import Mathlib.Analysis.Normed.Module.Connected
import Mathlib.Analysis.Convex.Hull
import Mathlib.LinearAlgebra.Dimension.Constructions
import Mathlib.Topology.Order.IntermediateValue
import Mathlib.Analysis.Convex.Topology
import Mathlib.Tactic.Linarith
import Mathlib.Tactic.Ring
import Mathlib.Tactic.Module

/-! # Two connected sets whose hulls avoid the other set have disjoint hulls -/

namespace Starworlds

/-- A preconnected set with a point `z` in its convex hull meets every line through `z`. -/
theorem meets_line {A : Set (ℝ × ℝ)} (hA : IsPreconnected A) {z : ℝ × ℝ} (hz : z ∈ convexHull ℝ A)
    (u : ℝ × ℝ) : ∃ p ∈ A, (p.1 - z.1) * u.2 - (p.2 - z.2) * u.1 = 0 := by
  have hcont : ContinuousOn (fun p : ℝ × ℝ => (p.1 - z.1) * u.2 - (p.2 - z.2) * u.1) A := by fun_prop
  by_contra hno
  push Not at hno
  have hpos : (∀ p ∈ A, 0 < (p.1 - z.1) * u.2 - (p.2 - z.2) * u.1) ∨
      ∀ p ∈ A, (p.1 - z.1) * u.2 - (p.2 - z.2) * u.1 < 0 := by
    by_contra hc
    push Not at hc
    obtain ⟨⟨p, hp, hp'⟩, q, hq, hq'⟩ := hc
    have := hA.intermediate_value hp hq hcont
    obtain ⟨w, hw, hw0⟩ := this ⟨hp', hq'⟩
    exact hno w hw hw0
  rcases hpos with h | h
  · have hconv : Convex ℝ {p : ℝ × ℝ | 0 < (p.1 - z.1) * u.2 - (p.2 - z.2) * u.1} := by
      intro p hp q hq a b ha hb hab
      simp only [Set.mem_ofPred_eq] at hp hq ⊢
      simp only [Prod.fst_add, Prod.snd_add, Prod.smul_fst, Prod.smul_snd, smul_eq_mul]
      have e : (a * p.1 + b * q.1 - z.1) * u.2 - (a * p.2 + b * q.2 - z.2) * u.1 =
          a * ((p.1 - z.1) * u.2 - (p.2 - z.2) * u.1) + b * ((q.1 - z.1) * u.2 - (q.2 - z.2) * u.1) := by
        have : b = 1 - a := by linarith
        subst this; ring
      rw [e]
      rcases eq_or_lt_of_le ha with ha0 | ha0
      · have : b = 1 := by linarith
        rw [← ha0, this]; linarith
      · have := mul_pos ha0 hp
        have := mul_nonneg hb hq.le
        linarith
    have h3 : 0 < (z.1 - z.1) * u.2 - (z.2 - z.2) * u.1 := convexHull_min (fun p hp => h p hp) hconv hz
    simp at h3
  · have hconv : Convex ℝ {p : ℝ × ℝ | (p.1 - z.1) * u.2 - (p.2 - z.2) * u.1 < 0} := by
      intro p hp q hq a b ha hb hab
      simp only [Set.mem_ofPred_eq] at hp hq ⊢
      simp only [Prod.fst_add, Prod.snd_add, Prod.smul_fst, Prod.smul_snd, smul_eq_mul]
      have e : (a * p.1 + b * q.1 - z.1) * u.2 - (a * p.2 + b * q.2 - z.2) * u.1 =
          a * ((p.1 - z.1) * u.2 - (p.2 - z.2) * u.1) + b * ((q.1 - z.1) * u.2 - (q.2 - z.2) * u.1) := by
        have : b = 1 - a := by linarith
        subst this; ring
      rw [e]
      rcases eq_or_lt_of_le ha with ha0 | ha0
      · have : b = 1 := by linarith
        rw [← ha0, this]; linarith
      · have := mul_pos ha0 (neg_pos.2 hp)
        have := mul_nonneg hb (neg_pos.2 hq).le
        linarith
    have h3 : (z.1 - z.1) * u.2 - (z.2 - z.2) * u.1 < 0 := convexHull_min (fun p hp => h p hp) hconv hz
    simp at h3

/-- The directions in which `A` is seen from `z`. -/
def dirs (z : ℝ × ℝ) (A : Set (ℝ × ℝ)) : Set (ℝ × ℝ) := (fun p => (‖p - z‖)⁻¹ • (p - z)) '' A

theorem dirs_compact {z : ℝ × ℝ} {A : Set (ℝ × ℝ)} (hA : IsCompact A) (hz : z ∉ A) : IsCompact (dirs z A) := by
  refine hA.image_of_continuousOn ?_
  have : ∀ p ∈ A, ‖p - z‖ ≠ 0 := by
    intro p hp h
    rw [norm_eq_zero, sub_eq_zero] at h
    exact hz (h ▸ hp)
  refine ContinuousOn.smul (ContinuousOn.inv₀ (by fun_prop) this) (by fun_prop)

theorem mem_dirs {z u : ℝ × ℝ} {A : Set (ℝ × ℝ)} (hu : ‖u‖ = 1) {t : ℝ} (ht : 0 < t) (h : z + t • u ∈ A) :
    u ∈ dirs z A := by
  refine ⟨z + t • u, h, ?_⟩
  have : ‖z + t • u - z‖ = t := by
    rw [add_sub_cancel_left, norm_smul, hu, Real.norm_of_nonneg ht.le, mul_one]
  simp only [this]
  rw [add_sub_cancel_left, smul_smul, inv_mul_cancel₀ ht.ne', one_smul]

theorem of_mem_dirs {z u : ℝ × ℝ} {A : Set (ℝ × ℝ)} (hz : z ∉ A) (h : u ∈ dirs z A) :
    ‖u‖ = 1 ∧ ∃ t : ℝ, 0 < t ∧ z + t • u ∈ A := by
  obtain ⟨p, hp, rfl⟩ := h
  have hne : p - z ≠ 0 := fun h => hz (sub_eq_zero.1 h ▸ hp)
  have hn : 0 < ‖p - z‖ := norm_pos_iff.2 hne
  refine ⟨?_, ‖p - z‖, hn, ?_⟩
  · rw [norm_smul, norm_inv, norm_norm, inv_mul_cancel₀ hn.ne']
  · rw [smul_smul, mul_inv_cancel₀ hn.ne', one_smul]
    simpa using hp

/-- A point of the line through `z` with direction `u` is `z + t u`. -/
theorem on_line {z u p : ℝ × ℝ} (hu : u ≠ 0) (h : (p.1 - z.1) * u.2 - (p.2 - z.2) * u.1 = 0) :
    ∃ t : ℝ, p = z + t • u := by
  by_cases h1 : u.1 = 0
  · have h2 : u.2 ≠ 0 := fun h2 => hu (Prod.ext h1 h2)
    refine ⟨(p.2 - z.2) / u.2, ?_⟩
    have h3 : p.1 - z.1 = 0 := by
      rw [h1, mul_zero, sub_zero] at h
      exact (mul_eq_zero.1 h).resolve_right h2
    ext
    · simp only [Prod.fst_add, Prod.smul_fst, h1, smul_zero, add_zero]; linarith
    · simp only [Prod.snd_add, Prod.smul_snd, smul_eq_mul, div_mul_cancel₀ _ h2]; ring
  · refine ⟨(p.1 - z.1) / u.1, ?_⟩
    ext
    · simp only [Prod.fst_add, Prod.smul_fst, smul_eq_mul, div_mul_cancel₀ _ h1]; ring
    · simp only [Prod.snd_add, Prod.smul_snd, smul_eq_mul]
      rw [div_mul_eq_mul_div, eq_comm, ← sub_eq_zero]
      have : z.2 + (p.1 - z.1) * u.2 / u.1 - p.2 = ((p.1 - z.1) * u.2 - (p.2 - z.2) * u.1) / u.1 := by
        field_simp; ring
      rw [this, h, zero_div]

/-- If the hull of each of two compact connected sets of the plane avoids the other set, the hulls are
disjoint. -/
theorem hulls_disjoint {A B : Set (ℝ × ℝ)} (hA : IsCompact A) (hB : IsCompact B)
    (cA : IsPreconnected A) (cB : IsPreconnected B)
    (h1 : Disjoint (convexHull ℝ A) B) (h2 : Disjoint A (convexHull ℝ B)) :
    Disjoint (convexHull ℝ A) (convexHull ℝ B) := by
  rw [Set.disjoint_left] at h1 h2 ⊢
  intro z zA zB
  have nA : z ∉ A := fun h => h2 h zB
  have nB : z ∉ B := fun h => h1 zA h
  -- no ray from z meets both sets
  have noboth : ∀ u, u ∈ dirs z A → u ∈ dirs z B → False := by
    intro u uA uB
    obtain ⟨_, s, hs, pA⟩ := of_mem_dirs nA uA
    obtain ⟨_, t, ht, pB⟩ := of_mem_dirs nB uB
    have seg : ∀ {C : Set (ℝ × ℝ)} {s t : ℝ}, z ∈ convexHull ℝ C → z + t • u ∈ C → 0 < s → s ≤ t →
        z + s • u ∈ convexHull ℝ C := by
      intro C s t hz hp hs hst
      have ht : 0 < t := by linarith
      have := (convex_convexHull ℝ C) hz (subset_convexHull ℝ C hp) (a := 1 - s / t) (b := s / t)
        (by rw [sub_nonneg, div_le_one ht]; exact hst) (by positivity) (by ring)
      convert this using 1
      rw [smul_add, smul_smul, div_mul_cancel₀ _ ht.ne']
      module
    rcases le_total s t with hst | hst
    · exact h2 pA (seg zB pB hs hst)
    · exact h1 (seg zA pA ht hst) pB
  have hsph : IsConnected (Metric.sphere (0 : ℝ × ℝ) 1) := by
    refine isConnected_sphere ?_ 0 zero_le_one
    rw [rank_prod', Module.rank_self, one_add_one_eq_two]
    exact_mod_cast Nat.one_lt_two
  have hline : ∀ {C : Set (ℝ × ℝ)}, IsPreconnected C → z ∈ convexHull ℝ C → z ∉ C → ∀ u, ‖u‖ = 1 →
      u ∈ dirs z C ∨ -u ∈ dirs z C := by
    intro C cC zC nC u hu
    have hu0 : u ≠ 0 := fun h => by rw [h, norm_zero] at hu; norm_num at hu
    obtain ⟨p, hp, hpl⟩ := meets_line cC zC u
    obtain ⟨t, rfl⟩ := on_line hu0 hpl
    rcases lt_trichotomy t 0 with ht | ht | ht
    · right
      refine mem_dirs (t := -t) (by rw [norm_neg, hu]) (by linarith) ?_
      rwa [smul_neg, neg_smul, neg_neg]
    · rw [ht, zero_smul, add_zero] at hp; exact absurd hp nC
    · exact Or.inl (mem_dirs hu ht hp)
  have hcov : ∀ u, ‖u‖ = 1 → u ∈ dirs z A ∨ u ∈ dirs z B := by
    intro u hu
    rcases hline cA zA nA u hu with h | h
    · exact Or.inl h
    · rcases hline cB zB nB u hu with h' | h'
      · exact Or.inr h'
      · exact (noboth _ h h').elim
  have neg_dir : ∀ {C : Set (ℝ × ℝ)}, IsPreconnected C → z ∈ convexHull ℝ C → z ∉ C →
      ∃ u, ‖u‖ = 1 ∧ u ∈ dirs z C := by
    intro C cC zC nC
    have h10 : ‖((1, 0) : ℝ × ℝ)‖ = 1 := by simp [Prod.norm_def]
    rcases hline cC zC nC (1, 0) h10 with h | h
    · exact ⟨_, h10, h⟩
    · exact ⟨_, by rw [norm_neg, h10], h⟩
  have hpre := isPreconnected_closed_iff.1 hsph.isPreconnected (dirs z A) (dirs z B)
    (dirs_compact hA nA).isClosed (dirs_compact hB nB).isClosed
    (fun u hu => hcov u (by simpa using hu))
    (by obtain ⟨u, hu, h⟩ := neg_dir cA zA nA; exact ⟨u, by simpa using hu, h⟩)
    (by obtain ⟨u, hu, h⟩ := neg_dir cB zB nB; exact ⟨u, by simpa using hu, h⟩)
  obtain ⟨u, _, uA, uB⟩ := hpre
  exact noboth u uA uB

end Starworlds
