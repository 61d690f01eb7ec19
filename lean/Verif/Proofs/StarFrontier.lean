import Verif.Proofs.HullExists

/-! # The boundary of a star-shaped polygon is its ring -/

namespace Starworlds

open Spec

theorem sector_on_edge {a b c p : Pt ℝ} (hD : 0 < cross (a - c) (b - c)) (h1 : 0 ≤ cross (a - c) (p - c)) (h2 : 0 ≤ cross (p - c) (b - c))
    (h3 : cross (b - a) (p - a) = 0) : OnSegment a b p := by
  have hs : cross (a - c) (p - c) + cross (p - c) (b - c) = cross (a - c) (b - c) := by
    simp only [cross, Prod.fst_sub, Prod.snd_sub] at h3 ⊢; linarith
  refine ⟨cross (a - c) (p - c) / cross (a - c) (b - c), by positivity, by rw [div_le_one hD]; linarith, ?_⟩
  have hD0 := hD.ne'
  have hx : ∀ e f : ℝ, cross (a - c) (b - c) * e = cross (a - c) (p - c) * f → e = cross (a - c) (p - c) / cross (a - c) (b - c) * f := by
    intro e f h
    rw [div_mul_eq_mul_div, eq_div_iff hD0]; linarith
  have e1 : p.1 - a.1 = cross (a - c) (p - c) / cross (a - c) (b - c) * (b.1 - a.1) := by
    apply hx
    simp only [cross, Prod.fst_sub, Prod.snd_sub] at h3 ⊢
    linear_combination (c.1 - a.1) * h3
  have e2 : p.2 - a.2 = cross (a - c) (p - c) / cross (a - c) (b - c) * (b.2 - a.2) := by
    apply hx
    simp only [cross, Prod.fst_sub, Prod.snd_sub] at h3 ⊢
    linear_combination (c.2 - a.2) * h3
  ext
  · simp only [Prod.fst_add, Prod.smul_fst, Prod.fst_sub, smul_eq_mul]; linarith
  · simp only [Prod.snd_add, Prod.smul_snd, Prod.snd_sub, smul_eq_mul]; linarith

/-- A point of the polygon that is not on the ring is an inner point. -/
theorem star_interior {c : Pt ℝ} {v : List (Pt ℝ)} (h : StarAbout c v) {p : Pt ℝ} (hp : p ∈ filled v) (hr : ¬ OnRing v p) :
    p ∈ interior (filled v) := by
  have hS := star_sectors h
  obtain ⟨C, hC⟩ : ∃ C : Set (Pt ℝ), C = ⋃ j ∈ Finset.range v.length, {p : Pt ℝ | 0 ≤ cross (corner v j - c) (p - c) ∧
      0 ≤ cross (p - c) (corner v (j + 1) - c) ∧ cross (corner v (j + 1) - corner v j) (p - corner v j) ≤ 0} := ⟨_, rfl⟩
  have hclosed : IsClosed C := by
    rw [hC]
    refine isClosed_biUnion_finset fun j _ => ?_
    have hc1 : Continuous fun p : Pt ℝ => cross (corner v j - c) (p - c) := by unfold cross; fun_prop
    have hc2 : Continuous fun p : Pt ℝ => cross (p - c) (corner v (j + 1) - c) := by unfold cross; fun_prop
    have hc3 : Continuous fun p : Pt ℝ => cross (corner v (j + 1) - corner v j) (p - corner v j) := by unfold cross; fun_prop
    exact (isClosed_le continuous_const hc1).inter ((isClosed_le continuous_const hc2).inter (isClosed_le hc3 continuous_const))
  have hsub : (filled v)ᶜ ⊆ C := by
    intro q hq
    obtain ⟨j, hj, h1, h2⟩ := hS.cover q
    have := mt (star_filled_sector h hj h1 h2).2 hq
    rw [hC]
    simp only [Set.mem_iUnion, Finset.mem_range, exists_prop, Set.mem_ofPred_eq]
    exact ⟨j, hj, h1, h2, (not_le.1 this).le⟩
  by_contra hn
  have : p ∈ closure (filled v)ᶜ := by
    rw [closure_compl]; exact hn
  have hpC := closure_minimal hsub hclosed this
  rw [hC] at hpC
  simp only [Set.mem_iUnion, Finset.mem_range, exists_prop, Set.mem_ofPred_eq] at hpC
  obtain ⟨j, hj, h1, h2, h3⟩ := hpC
  have h4 := (star_filled_sector h hj h1 h2).1 hp
  exact hr ⟨j, hj, sector_on_edge (hS.pos j hj) h1 h2 (le_antisymm h3 h4)⟩

theorem star_compact {c : Pt ℝ} {v : List (Pt ℝ)} (h : StarAbout c v) : IsCompact (filled v) := by
  have e : filled v = ⋃ j ∈ Finset.range v.length, convexHull ℝ {c, corner v j, corner v (j + 1)} := by
    ext p
    rw [star_triangles h]
    simp only [Set.mem_iUnion, Finset.mem_range, exists_prop]
  rw [e]
  exact (Finset.range v.length).isCompact_biUnion fun j _ => (Set.toFinite _).isCompact_convexHull ℝ

/-- A ray from any point through a point of the polygon leaves the polygon at a point of the ring. -/
theorem star_exit {c : Pt ℝ} {v : List (Pt ℝ)} (h : StarAbout c v) (k : Pt ℝ) {x : Pt ℝ} (hx : x ∈ filled v) :
    x = k ∨ ∃ y, OnRing v y ∧ OnSegment k y x := by
  by_cases hxk : x = k
  · exact Or.inl hxk
  right
  obtain ⟨f, hf⟩ : ∃ f : ℝ → Pt ℝ, f = fun t => k + t • (x - k) := ⟨_, rfl⟩
  have hcont : Continuous f := by rw [hf]; fun_prop
  have hc := star_compact h
  obtain ⟨T, hT⟩ : ∃ T : Set ℝ, T = f ⁻¹' filled v := ⟨_, rfl⟩
  have hne : (1 : ℝ) ∈ T := by rw [hT, hf]; simpa using hx
  have hTclosed : IsClosed T := by rw [hT]; exact hc.isClosed.preimage hcont
  have hTb : BddAbove T := by
    obtain ⟨R, hR⟩ := hc.isBounded.exists_norm_le
    have hpos : 0 < ‖x - k‖ := norm_pos_iff.2 (sub_ne_zero.2 hxk)
    refine ⟨(R + ‖k‖) / ‖x - k‖, fun t ht => ?_⟩
    rw [hT] at ht
    have h1 := hR _ (show f t ∈ filled v from ht)
    rw [hf] at h1
    simp only at h1
    have h2 : ‖t • (x - k)‖ ≤ R + ‖k‖ := by
      have : t • (x - k) = (k + t • (x - k)) - k := by abel
      rw [this]
      exact (norm_sub_le _ _).trans (by linarith)
    rw [norm_smul] at h2
    rw [le_div_iff₀ hpos]
    exact (mul_le_mul_of_nonneg_right (le_abs_self t) hpos.le).trans h2
  have hmem : sSup T ∈ T := hTclosed.csSup_mem ⟨1, hne⟩ hTb
  have hTm : ∀ {t : ℝ}, t ∈ T → f t ∈ filled v := by intro t ht; rw [hT] at ht; exact ht
  have hTm' : ∀ {t : ℝ}, f t ∈ filled v → t ∈ T := by intro t ht; rw [hT]; exact ht
  have h1 : 1 ≤ sSup T := le_csSup hTb hne
  refine ⟨f (sSup T), ?_, 1 / sSup T, by positivity, by rw [div_le_one (by linarith)]; exact h1, ?_⟩
  · by_contra hr
    have hint := star_interior h (show f (sSup T) ∈ filled v from hTm hmem) hr
    have hopen : IsOpen (f ⁻¹' interior (filled v)) := isOpen_interior.preimage hcont
    obtain ⟨ε, hε, hb⟩ := Metric.isOpen_iff.1 hopen (sSup T) hint
    have hm : sSup T + ε / 2 ∈ T := by
      refine hTm' (interior_subset (s := filled v) (hb ?_))
      rw [Metric.mem_ball, Real.dist_eq]
      rw [add_sub_cancel_left, abs_of_pos (by linarith)]; linarith
    have := le_csSup hTb hm
    linarith
  · rw [hf]
    simp only [add_sub_cancel_left, smul_smul]
    rw [one_div, inv_mul_cancel₀ (by linarith), one_smul]
    abel

end Starworlds
