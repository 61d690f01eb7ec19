import Verif.Props.AdmissibleKernel
import Verif.Proofs.ConeList
import Verif.Spec.Starify

/-! # Helper lemmas: the closed region from which an obstacle is seen without passing a point, as a cone -/

namespace Starworlds

open Real Spec Filter Topology

/-- A point outside of a convex obstacle with inner points sees it under a proper angle. -/
theorem seen_pos {O : Set (Pt ℝ)} (hO : Convex ℝ O) (hi : (interior O).Nonempty) {y t s : Pt ℝ} (hy : y ∉ O)
    (h : SeenBetween O y t s) : 0 < cross (s - y) (t - y) := by
  refine lt_of_le_of_ne (h.right t h.left_mem) fun h0 => ?_
  have hs : s - y ≠ 0 := fun hz => hy (by rw [← sub_eq_zero.1 hz]; exact h.right_mem)
  obtain ⟨l, hl⟩ := parallel hs h0.symm
  have hl0 : 0 < l := by
    by_contra hh
    exact hy (opposite_mem hO h.left_mem h.right_mem (not_lt.1 hh) hl)
  have hline : ∀ q ∈ O, cross (s - y) (q - y) = 0 := by
    intro q hq
    have h1 := h.right q hq
    have h2 := h.left q hq
    have e : cross (q - y) (t - y) = -(l * cross (s - y) (q - y)) := by rw [hl]; simp [cross]; ring
    rw [e] at h2
    nlinarith
  obtain ⟨q, hq⟩ := hi
  have hev : ∀ᶠ ε in 𝓝[>] (0 : ℝ), q + ε • ((-(s - y).2, (s - y).1) : Pt ℝ) ∈ O := by
    have hc : Continuous fun ε : ℝ => q + ε • ((-(s - y).2, (s - y).1) : Pt ℝ) := by fun_prop
    have : ∀ᶠ ε in 𝓝 (0 : ℝ), q + ε • ((-(s - y).2, (s - y).1) : Pt ℝ) ∈ interior O :=
      hc.continuousAt.eventually_mem (by simpa using isOpen_interior.mem_nhds hq)
    exact (this.filter_mono nhdsWithin_le_nhds).mono fun _ h => interior_subset h
  obtain ⟨ε, h1, h2⟩ := (hev.and self_mem_nhdsWithin).exists
  have h2 : 0 < ε := h2
  have e1 := hline _ h1
  have e2 := hline q (interior_subset hq)
  have e3 : cross (s - y) (q + ε • ((-(s - y).2, (s - y).1) : Pt ℝ) - y) = cross (s - y) (q - y) + ε * ((s - y).1 ^ 2 + (s - y).2 ^ 2) := by
    simp [cross]; ring
  rw [e1, e2, zero_add] at e3
  have : (s - y).1 ^ 2 + (s - y).2 ^ 2 = 0 := by
    rcases mul_eq_zero.1 e3.symm with h | h
    · exact absurd h h2.ne'
    · exact h
  apply hs
  ext
  · show (s - y).1 = 0
    nlinarith [sq_nonneg (s - y).1, sq_nonneg (s - y).2]
  · show (s - y).2 = 0
    nlinarith [sq_nonneg (s - y).1, sq_nonneg (s - y).2]

/-- Strictly outside of the hidden cone, nothing is hidden. -/
theorem free_of_outside {O : Set (Pt ℝ)} {y t s k : Pt ℝ} (hy : y ∉ O) (h : SeenBetween O y t s)
    (hk : cross (y - s) (k - y) < 0 ∨ cross (k - y) (y - t) < 0) : k ∈ freeFrom O y := by
  rintro q hq ⟨τ, h0, hle, e⟩
  have hτ : τ < 1 := by
    rcases hle.eq_or_lt with rfl | h
    · rw [one_smul, add_sub_cancel] at e
      exact absurd (e ▸ hq) hy
    · exact h
  set μ := τ / (1 - τ) with hμ
  have hμ0 : 0 ≤ μ := div_nonneg h0 (by linarith)
  have hv : k - y = (-μ) • (q - y) := by
    have h1τ : (1 : ℝ) - τ ≠ 0 := by linarith
    have e1 : y.1 = k.1 + τ * (q.1 - k.1) := by simpa using congrArg Prod.fst e
    have e2 : y.2 = k.2 + τ * (q.2 - k.2) := by simpa using congrArg Prod.snd e
    ext
    · simp only [Prod.fst_sub, Prod.smul_fst, smul_eq_mul, hμ]; field_simp; rw [e1]; ring
    · simp only [Prod.snd_sub, Prod.smul_snd, smul_eq_mul, hμ]; field_simp; rw [e2]; ring
  have c1 : cross (y - s) (k - y) = μ * cross (s - y) (q - y) := by
    rw [hv]; simp only [cross, Prod.fst_sub, Prod.snd_sub, Prod.smul_fst, Prod.smul_snd, smul_eq_mul]; ring
  have c2 : cross (k - y) (y - t) = μ * cross (q - y) (t - y) := by
    rw [hv]; simp only [cross, Prod.fst_sub, Prod.snd_sub, Prod.smul_fst, Prod.smul_snd, smul_eq_mul]; ring
  have := mul_nonneg hμ0 (h.right q hq)
  have := mul_nonneg hμ0 (h.left q hq)
  rcases hk with hk | hk <;> linarith

/-- Scaling about `y` does not change whether `y` is in the way. -/
theorem free_scale {O : Set (Pt ℝ)} (hO : Convex ℝ O) {y k : Pt ℝ} (hk : k ∈ freeFrom O y) {l : ℝ} (hl : 0 < l) :
    y + l • (k - y) ∈ freeFrom O y := by
  rintro q hq ⟨τ, h0, hle, e⟩
  have e1 : y.1 = y.1 + l * (k.1 - y.1) + τ * (q.1 - (y.1 + l * (k.1 - y.1))) := by simpa using congrArg Prod.fst e
  have e2 : y.2 = y.2 + l * (k.2 - y.2) + τ * (q.2 - (y.2 + l * (k.2 - y.2))) := by simpa using congrArg Prod.snd e
  have hden : 0 < (1 - τ) * l + τ := by
    rcases h0.eq_or_lt with h | h
    · rw [← h]; linarith
    · have := mul_nonneg (by linarith : (0 : ℝ) ≤ 1 - τ) hl.le
      linarith
  refine hk q hq ⟨τ / ((1 - τ) * l + τ), div_nonneg h0 hden.le, (div_le_one hden).2 ?_, ?_⟩
  · have := mul_nonneg (by linarith : (0 : ℝ) ≤ 1 - τ) hl.le
    linarith
  · ext
    · simp only [Prod.fst_add, Prod.smul_fst, Prod.fst_sub, smul_eq_mul]; field_simp; linarith
    · simp only [Prod.snd_add, Prod.smul_snd, Prod.snd_sub, smul_eq_mul]; field_simp; linarith

/-- The closed region from which `y` is not in the way of a convex obstacle is the cone of the admissible kernel. -/
theorem free_sweep {O : Set (Pt ℝ)} (hO : Convex ℝ O) (hi : (interior O).Nonempty) {y t s : Pt ℝ} (hy : y ∉ O)
    (h : SeenBetween O y t s) (k : Pt ℝ) : k ∈ closure (freeFrom O y) ↔ k - y ∈ sweep (y - t) (y - s) := by
  have hD := seen_pos hO hi hy h
  have hc : cross (y - t) (y - s) < 0 := by
    have : cross (y - t) (y - s) = -cross (s - y) (t - y) := by simp only [cross, Prod.fst_sub, Prod.snd_sub]; ring
    linarith
  have hset : {k : Pt ℝ | k - y ∈ sweep (y - t) (y - s)} = {k | cross (y - s) (k - y) ≤ 0} ∪ {k | cross (k - y) (y - t) ≤ 0} := by
    ext k
    simp only [Set.mem_ofPred_eq, Set.mem_union]
    rw [sweep_reflex hc, not_and_or, not_lt, not_lt]
  have hclosed : IsClosed {k : Pt ℝ | k - y ∈ sweep (y - t) (y - s)} := by
    rw [hset]
    refine IsClosed.union (isClosed_le ?_ continuous_const) (isClosed_le ?_ continuous_const)
    · simp only [cross]; fun_prop
    · simp only [cross]; fun_prop
  constructor
  · intro hk
    refine closure_minimal (t := {k : Pt ℝ | k - y ∈ sweep (y - t) (y - s)}) ?_ hclosed hk
    intro k hk
    change k - y ∈ sweep (y - t) (y - s)
    rw [sweep_reflex hc]
    rintro ⟨h1, h2⟩
    set l := 1 / cross (y - s) (k - y) + 1 / cross (k - y) (y - t) with hl
    have p1 : 0 < 1 / cross (y - s) (k - y) := by positivity
    have p2 : 0 < 1 / cross (k - y) (y - t) := by positivity
    have hl0 : 0 < l := by positivity
    obtain ⟨c, e, hm⟩ := C58_complete (fun _ => .ok [t, s]) O hO y t s hy rfl h _ (free_scale hO hk hl0)
    simp only [admissibleKernel, Bind.bind, Except.bind, Except.ok.injEq, Option.some.injEq] at e
    rw [← e, kernel_mem h] at hm
    apply hm
    have e1 : cross (y - s) (y + l • (k - y) - y) = l * cross (y - s) (k - y) := by simp [cross]; ring
    have e2 : cross (y + l • (k - y) - y) (y - t) = l * cross (k - y) (y - t) := by simp [cross]; ring
    rw [e1, e2]
    have q1 : 1 / cross (y - s) (k - y) * cross (y - s) (k - y) = 1 := by field_simp
    have q2 : 1 / cross (k - y) (y - t) * cross (k - y) (y - t) = 1 := by field_simp
    have r1 := mul_pos p2 h1
    have r2 := mul_pos p1 h2
    constructor
    · have : (1 : ℝ) < l * cross (y - s) (k - y) := by rw [hl, add_mul, q1]; linarith
      exact lt_trans (by norm_num) this
    · have : (1 : ℝ) < l * cross (k - y) (y - t) := by rw [hl, add_mul, q2]; linarith
      exact lt_trans (by norm_num) this
  · intro hk
    rw [sweep_reflex hc, not_and_or, not_lt, not_lt] at hk
    have lim : ∀ e : Pt ℝ, Tendsto (fun ε : ℝ => k + ε • e) (𝓝[>] 0) (𝓝 k) := by
      intro e
      have hc : Continuous fun ε : ℝ => k + ε • e := by fun_prop
      have := hc.tendsto 0
      rw [zero_smul, add_zero] at this
      exact this.mono_left nhdsWithin_le_nhds
    rcases hk with hk | hk
    · refine mem_closure_of_tendsto (lim (-(y - t))) ?_
      filter_upwards [self_mem_nhdsWithin] with ε hε
      have hε : 0 < ε := hε
      refine free_of_outside hy h (Or.inl ?_)
      have : cross (y - s) (k + ε • (-(y - t)) - y) = cross (y - s) (k - y) - ε * cross (s - y) (t - y) := by simp [cross]; ring
      rw [this]
      have := mul_pos hε hD
      linarith
    · refine mem_closure_of_tendsto (lim (-(y - s))) ?_
      filter_upwards [self_mem_nhdsWithin] with ε hε
      have hε : 0 < ε := hε
      refine free_of_outside hy h (Or.inr ?_)
      have : cross (k + ε • (-(y - s)) - y) (y - t) = cross (k - y) (y - t) - ε * cross (s - y) (t - y) := by simp [cross]; ring
      rw [this]
      have := mul_pos hε hD
      linarith

end Starworlds
