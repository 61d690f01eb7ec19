import Verif.Proofs.WindingTriangle

/-! # Winding numbers of rings: locally constant off the ring, and the integral -/

namespace Starworlds

open Spec MeasureTheory Topology

/-- The winding number of a list of edges. -/
noncomputable def windOf (E : List (Pt ℝ × Pt ℝ)) (p : Pt ℝ) : ℤ := (E.map fun e => crossing e.1 e.2 p).sum

/-- Every point is as often the start as the end of an edge. -/
def ClosedEdges (E : List (Pt ℝ × Pt ℝ)) : Prop := (E.map Prod.fst).Perm (E.map Prod.snd)

theorem wind_fan {E : List (Pt ℝ × Pt ℝ)} (h : ClosedEdges E) (o p : Pt ℝ) :
    windOf E p = (E.map fun e => triWind o e.1 e.2 p).sum := by
  have e1 : ∀ E : List (Pt ℝ × Pt ℝ), (E.map fun e => triWind o e.1 e.2 p).sum =
      windOf E p + (((E.map Prod.fst).map fun x => crossing o x p).sum - ((E.map Prod.snd).map fun x => crossing o x p).sum) := by
    intro E
    induction E with
    | nil => simp [windOf]
    | cons e E ih =>
      simp only [windOf, List.map_cons, List.sum_cons] at ih ⊢
      rw [ih, triWind, crossing_swap o e.2]; ring
  rw [e1, (h.map fun x => crossing o x p).sum_eq]; ring

theorem on_edge {a b c p : Pt ℝ} (hD : 0 < cross (b - a) (c - a)) (h0 : cross (b - a) (p - a) = 0) (h1 : 0 ≤ cross (c - b) (p - b))
    (h2 : 0 ≤ cross (a - c) (p - c)) : OnSegment a b p := by
  obtain ⟨e1, e2, e3⟩ := tri_weights a b c p
  rw [h0] at e1 e2 e3
  refine ⟨cross (a - c) (p - c) / cross (b - a) (c - a), div_nonneg h2 hD.le, (div_le_one hD).2 (by linarith), ?_⟩
  have hne := hD.ne'
  rw [← e1] at hne ⊢
  ext
  · simp only [Prod.fst_add, Prod.smul_fst, smul_eq_mul, Prod.fst_sub]
    field_simp
    linear_combination -e3
  · simp only [Prod.snd_add, Prod.smul_snd, smul_eq_mul, Prod.snd_sub]
    field_simp
    linear_combination -e2

/-- Off its edges, the winding number of a triangle is locally constant. -/
theorem triWind_locally {a b c p : Pt ℝ} (h1 : ¬ OnSegment a b p) (h2 : ¬ OnSegment b c p) (h3 : ¬ OnSegment c a p) :
    ∀ᶠ q in 𝓝 p, triWind a b c q = triWind a b c p := by
  have key : ∀ {a b c : Pt ℝ}, ¬ OnSegment a b p → ¬ OnSegment b c p → ¬ OnSegment c a p → 0 < cross (b - a) (c - a) →
      ∀ᶠ q in 𝓝 p, triWind a b c q = triWind a b c p := by
    intro a b c h1 h2 h3 hD
    have pos : ∀ u w : Pt ℝ, 0 < cross u (p - w) → ∀ᶠ q in 𝓝 p, 0 < cross u (q - w) := fun u w h =>
      (isOpen_lt continuous_const (continuous_crossWith u w)).mem_nhds h
    have neg : ∀ u w : Pt ℝ, cross u (p - w) < 0 → ∀ᶠ q in 𝓝 p, cross u (q - w) < 0 := fun u w h =>
      (isOpen_lt (continuous_crossWith u w) continuous_const).mem_nhds h
    by_cases hn : cross (b - a) (p - a) < 0 ∨ cross (c - b) (p - b) < 0 ∨ cross (a - c) (p - c) < 0
    · rw [(tri_good hD p).2.2 hn]
      rcases hn with hn | hn | hn
      · filter_upwards [neg _ _ hn] with q hq using (tri_good hD q).2.2 (Or.inl hq)
      · filter_upwards [neg _ _ hn] with q hq using (tri_good hD q).2.2 (Or.inr (Or.inl hq))
      · filter_upwards [neg _ _ hn] with q hq using (tri_good hD q).2.2 (Or.inr (Or.inr hq))
    · push Not at hn
      obtain ⟨n1, n2, n3⟩ := hn
      have hD1 : 0 < cross (c - b) (a - b) := by rw [tri_turned]; exact hD
      have hD2 : 0 < cross (a - c) (b - c) := by rw [tri_turned]; exact hD1
      have p1 : 0 < cross (b - a) (p - a) := n1.lt_of_ne fun h => h1 (on_edge hD h.symm n2 n3)
      have p2 : 0 < cross (c - b) (p - b) := n2.lt_of_ne fun h => h2 (on_edge hD1 h.symm n3 n1)
      have p3 : 0 < cross (a - c) (p - c) := n3.lt_of_ne fun h => h3 (on_edge hD2 h.symm n1 n2)
      rw [(tri_good hD p).2.1 p1 p2 p3]
      filter_upwards [pos _ _ p1, pos _ _ p2, pos _ _ p3] with q q1 q2 q3 using (tri_good hD q).2.1 q1 q2 q3
  rcases lt_trichotomy (cross (b - a) (c - a)) 0 with hD | hD | hD
  · have hD' : 0 < cross (c - a) (b - a) := by
      have : cross (c - a) (b - a) = - cross (b - a) (c - a) := by simp only [cross]; ring
      linarith
    have := key (a := a) (b := c) (c := b) (fun h => h3 (onSegment_swap.1 h)) (fun h => h2 (onSegment_swap.1 h))
      (fun h => h1 (onSegment_swap.1 h)) hD'
    filter_upwards [this] with q hq
    rw [triWind_swap a b c q, triWind_swap a b c p] at hq
    omega
  · exact Filter.Eventually.of_forall fun q => by rw [triWind_flat hD, triWind_flat hD]
  · exact key h1 h2 h3 hD

/-- Some point is not on any of the lines through `p` and one of the given points. -/
theorem generic_point {p : Pt ℝ} {P : List (Pt ℝ)} (hP : ∀ x ∈ P, x ≠ p) : ∃ o : Pt ℝ, ∀ x ∈ P, cross (x - p) (o - p) ≠ 0 := by
  have h : ∀ᵐ o : Pt ℝ, ∀ x ∈ P, cross (x - p) (o - p) ≠ 0 := by
    induction P with
    | nil => simp
    | cons x P ih =>
      have h1 : ∀ᵐ o : Pt ℝ, cross (x - p) (o - p) ≠ 0 := by
        rw [ae_iff]
        simpa using line_null (sub_ne_zero.2 (hP x (by simp))) p
      filter_upwards [h1, ih fun x hx => hP x (List.mem_cons_of_mem _ hx)] with o ho1 ho2
      exact List.forall_mem_cons.2 ⟨ho1, ho2⟩
  exact h.exists

theorem line_of_segment {o x p : Pt ℝ} (h : OnSegment o x p) : cross (x - p) (o - p) = 0 := by
  obtain ⟨t, _, _, rfl⟩ := h
  simp only [cross, Prod.fst_sub, Prod.snd_sub, Prod.fst_add, Prod.snd_add, Prod.smul_fst, Prod.smul_snd, smul_eq_mul]; ring

/-- Off the edges, the winding number is locally constant. -/
theorem wind_locally {E : List (Pt ℝ × Pt ℝ)} (h : ClosedEdges E) {p : Pt ℝ} (hp : ∀ e ∈ E, ¬ OnSegment e.1 e.2 p) :
    ∀ᶠ q in 𝓝 p, windOf E q = windOf E p := by
  obtain ⟨o, ho⟩ := generic_point (p := p) (P := E.map Prod.fst ++ E.map Prod.snd) (by
    intro x hx
    rcases List.mem_append.1 hx with hx | hx
    · obtain ⟨e, he, rfl⟩ := List.mem_map.1 hx
      intro heq
      exact hp e he ⟨0, le_rfl, zero_le_one, by rw [zero_smul, add_zero, heq]⟩
    · obtain ⟨e, he, rfl⟩ := List.mem_map.1 hx
      intro heq
      exact hp e he ⟨1, zero_le_one, le_rfl, by rw [one_smul, ← heq]; abel⟩)
  have hall : ∀ᶠ q in 𝓝 p, ∀ e ∈ E, triWind o e.1 e.2 q = triWind o e.1 e.2 p := by
    have : ∀ e ∈ E, ∀ᶠ q in 𝓝 p, triWind o e.1 e.2 q = triWind o e.1 e.2 p := by
      intro e he
      refine triWind_locally (fun h' => ho e.1 ?_ (line_of_segment h')) (hp e he)
        (fun h' => ho e.2 ?_ (line_of_segment (onSegment_swap.1 h')))
      · exact List.mem_append_left _ (List.mem_map_of_mem he)
      · exact List.mem_append_right _ (List.mem_map_of_mem he)
    clear ho hp h
    induction E with
    | nil => simp
    | cons e E ih =>
      filter_upwards [this e (by simp), ih fun e he => this e (List.mem_cons_of_mem _ he)] with q h1 h2
      exact List.forall_mem_cons.2 ⟨h1, h2⟩
  filter_upwards [hall] with q hq
  rw [wind_fan h o, wind_fan h o]
  exact congrArg List.sum (List.map_congr_left hq)

/-- The integral of the winding number of a triangle is its signed area. -/
theorem integral_triWind (c a b : Pt ℝ) : Integrable (fun p => (triWind c a b p : ℝ)) ∧
    ∫ p, (triWind c a b p : ℝ) = cross (a - c) (b - c) / 2 := by
  have key : ∀ {a b : Pt ℝ}, 0 < cross (a - c) (b - c) → Integrable (fun p => (triWind c a b p : ℝ)) ∧
      ∫ p, (triWind c a b p : ℝ) = cross (a - c) (b - c) / 2 := by
    intro a b hD
    have ne : ∀ {u w : Pt ℝ}, u - w = 0 → cross (a - c) (b - c) = 0 → False := fun _ h => hD.ne' h
    have n1 : a - c ≠ 0 := fun h => by rw [h] at hD; simp [cross] at hD
    have n2 : b - a ≠ 0 := fun h => by
      rw [show b = a by rwa [sub_eq_zero] at h] at hD
      simp [cross] at hD; linarith
    have n3 : c - b ≠ 0 := fun h => by
      rw [show c = b by rwa [sub_eq_zero] at h] at hD
      simp [cross] at hD
    have l1 : ∀ᵐ p : Pt ℝ, cross (a - c) (p - c) ≠ 0 := by rw [ae_iff]; simpa using line_null n1 c
    have l2 : ∀ᵐ p : Pt ℝ, cross (b - a) (p - a) ≠ 0 := by rw [ae_iff]; simpa using line_null n2 a
    have l3 : ∀ᵐ p : Pt ℝ, cross (c - b) (p - b) ≠ 0 := by rw [ae_iff]; simpa using line_null n3 b
    have hae : (fun p => (triWind c a b p : ℝ)) =ᵐ[volume] (openTri c a b).indicator 1 := by
      filter_upwards [l1, l2, l3] with p h1 h2 h3
      have e3 : cross (p - c) (b - c) = cross (c - b) (p - b) := by simp only [cross, Prod.fst_sub, Prod.snd_sub]; ring
      by_cases hm : p ∈ openTri c a b
      · rw [Set.indicator_of_mem hm]
        have := (mem_openTri hD p).1 hm
        rw [(tri_good hD p).2.1 this.1 this.2.2 (e3 ▸ this.2.1)]
        simp
      · rw [Set.indicator_of_notMem hm]
        have : cross (a - c) (p - c) < 0 ∨ cross (b - a) (p - a) < 0 ∨ cross (c - b) (p - b) < 0 := by
          by_contra hcon
          push Not at hcon
          exact hm ((mem_openTri hD p).2 ⟨hcon.1.lt_of_ne h1.symm, e3 ▸ hcon.2.2.lt_of_ne h3.symm, hcon.2.1.lt_of_ne h2.symm⟩)
        rw [(tri_good hD p).2.2 this]
        simp
    have hms : MeasurableSet (openTri c a b) := (isOpen_openTri hD).measurableSet
    have hv := volume_openTri hD.le
    refine ⟨Integrable.congr ?_ hae.symm, ?_⟩
    · refine (integrable_indicator_iff hms).2 (integrableOn_const (C := (1 : ℝ)) ?_)
      rw [hv]; exact ENNReal.ofReal_ne_top
    · rw [integral_congr_ae hae, integral_indicator_one hms, Measure.real, hv, ENNReal.toReal_ofReal (by positivity)]
  rcases lt_trichotomy (cross (a - c) (b - c)) 0 with hD | hD | hD
  · have e : cross (b - c) (a - c) = - cross (a - c) (b - c) := by simp only [cross]; ring
    have hD' : 0 < cross (b - c) (a - c) := by linarith
    obtain ⟨i, h⟩ := key hD'
    have hf : (fun p => (triWind c a b p : ℝ)) = fun p => -(triWind c b a p : ℝ) := by
      funext p; rw [triWind_swap c a b p]; push_cast; ring
    rw [hf]
    refine ⟨i.neg, ?_⟩
    rw [integral_neg, h, e]; ring
  · have hf : (fun p => (triWind c a b p : ℝ)) = fun _ => 0 := by
      funext p; rw [triWind_flat hD]; simp
    rw [hf, hD]
    simp
  · exact key hD

/-- The integral of the winding number is half of the sum over the edges. -/
theorem integral_wind {E : List (Pt ℝ × Pt ℝ)} (h : ClosedEdges E) : Integrable (fun p => (windOf E p : ℝ)) ∧
    ∫ p, (windOf E p : ℝ) = (E.map fun e => e.1.1 * e.2.2 - e.2.1 * e.1.2).sum / 2 := by
  have e0 : (fun p => (windOf E p : ℝ)) = fun p => ((E.map fun e => triWind 0 e.1 e.2 p).sum : ℝ) := by
    funext p; rw [wind_fan h 0]
  rw [e0]
  clear e0 h
  induction E with
  | nil => simp
  | cons e E ih =>
    simp only [List.map_cons, List.sum_cons]
    simp only [Int.cast_add]
    obtain ⟨i1, h1⟩ := integral_triWind 0 e.1 e.2
    obtain ⟨i2, h2⟩ := ih
    refine ⟨i1.add i2, ?_⟩
    rw [integral_add i1 i2, h1, h2]
    simp only [cross, sub_zero]; ring

end Starworlds
