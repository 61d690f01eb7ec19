import Mathlib.Analysis.Convex.Topology
import Mathlib.Topology.Order.IntermediateValue
import Verif.Spec.Kernel

/-! # Closed connected sets that are convex near each of their points -/

namespace Starworlds

open Spec Topology

/-- Near each of its points the set is convex. -/
def LocallyConvex (S : Set (Pt ℝ)) : Prop := ∀ p ∈ S, ∃ U ∈ 𝓝 p, Convex ℝ (S ∩ U)

/-- The segment from an inner point to a visible point runs through inner points. -/
theorem local_interior {S : Set (Pt ℝ)} (hl : LocallyConvex S) {c p : Pt ℝ} (hc : c ∈ interior S)
    (hv : ∀ t : ℝ, 0 ≤ t → t ≤ 1 → c + t • (p - c) ∈ S) : ∀ t ∈ Set.Ico (0 : ℝ) 1, c + t • (p - c) ∈ interior S := by
  let g : ℝ → Pt ℝ := fun t => c + t • (p - c)
  have hg : Continuous g := by fun_prop
  have hsub : Set.Ico (0 : ℝ) 1 ⊆ g ⁻¹' interior S := by
    refine isPreconnected_Ico.subset_of_closure_inter_subset (isOpen_interior.preimage hg) ⟨0, ⟨le_rfl, one_pos⟩, by simpa [g] using hc⟩ ?_
    rintro t ⟨ht, ht0, ht1⟩
    rcases ht0.eq_or_lt with rfl | ht0
    · simpa [g] using hc
    obtain ⟨U, hU, hconv⟩ := hl (g t) (hv t ht0.le ht1.le)
    have hUt : g ⁻¹' interior U ∈ 𝓝 t := (isOpen_interior.preimage hg).mem_nhds (mem_interior_iff_mem_nhds.2 hU)
    obtain ⟨r, hr, hrs⟩ := mem_closure_iff_nhds.1 ht _ hUt
    have hri : g r ∈ interior (S ∩ U) := by rw [interior_inter]; exact ⟨hrs, hr⟩
    have hmem : ∀ q, 0 ≤ q → q ≤ 1 → g q ∈ interior U → g q ∈ S ∩ U := fun q h0 h1 hq => ⟨hv q h0 h1, interior_subset hq⟩
    have hseg : ∀ q, g q ∈ S ∩ U → (r < t ∧ t < q ∨ q < t ∧ t < r) → g t ∈ interior S := by
      intro q hq hrq
      have hne : q - r ≠ 0 := by rcases hrq with h | h <;> intro h0 <;> linarith [h.1, h.2]
      have hop : g t ∈ openSegment ℝ (g r) (g q) := by
        refine ⟨(q - t) / (q - r), (t - r) / (q - r), ?_, ?_, by field_simp; ring, ?_⟩
        · rcases hrq with h | h
          · exact div_pos (by linarith) (by linarith)
          · exact div_pos_of_neg_of_neg (by linarith) (by linarith)
        · rcases hrq with h | h
          · exact div_pos (by linarith) (by linarith)
          · exact div_pos_of_neg_of_neg (by linarith) (by linarith)
        · ext
          · simp only [g, Prod.fst_add, Prod.smul_fst, smul_eq_mul, Prod.fst_sub]; field_simp; ring
          · simp only [g, Prod.snd_add, Prod.smul_snd, smul_eq_mul, Prod.snd_sub]; field_simp; ring
      exact interior_mono Set.inter_subset_left (hconv.openSegment_interior_self_subset_interior hri hq hop)
    rcases lt_trichotomy r t with h | h | h
    · obtain ⟨q, h1, h2⟩ := ((nhdsWithin_le_nhds hUt : g ⁻¹' interior U ∈ 𝓝[>] t) |> fun h' =>
        (Filter.inter_mem h' (Ioo_mem_nhdsGT ht1))) |> fun h' => (Filter.nonempty_of_mem h')
      exact hseg q (hmem q (by linarith [h2.1]) h2.2.le h1) (Or.inl ⟨h, h2.1⟩)
    · subst h; exact hrs
    · obtain ⟨q, h1, h2⟩ := ((nhdsWithin_le_nhds hUt : g ⁻¹' interior U ∈ 𝓝[<] t) |> fun h' =>
        (Filter.inter_mem h' (Ioo_mem_nhdsLT ht0))) |> fun h' => (Filter.nonempty_of_mem h')
      exact hseg q (hmem q h2.1.le (by linarith [h2.2]) h1) (Or.inr ⟨h2.2, h⟩)
  exact hsub

/-- A closed connected set that is convex near each of its points is visible from each of its inner points. -/
theorem local_visible {S : Set (Pt ℝ)} (hcl : IsClosed S) (hcn : IsPreconnected S) (hl : LocallyConvex S) {c : Pt ℝ}
    (hc : c ∈ interior S) : ∀ p ∈ S, ∀ t : ℝ, 0 ≤ t → t ≤ 1 → c + t • (p - c) ∈ S := by
  let V : Set (Pt ℝ) := {p | ∀ t ∈ Set.Icc (0 : ℝ) 1, c + t • (p - c) ∈ S}
  have hVc : IsClosed V := by
    have : V = ⋂ t ∈ Set.Icc (0 : ℝ) 1, (fun p => c + t • (p - c)) ⁻¹' S := by ext p; simp [V]
    rw [this]
    exact isClosed_biInter fun t _ => hcl.preimage (by fun_prop)
  have hVo : ∀ p ∈ V, {p' | p' ∈ S → p' ∈ V} ∈ 𝓝 p := by
    intro p hp
    have hpS : p ∈ S := by have := hp 1 ⟨zero_le_one, le_rfl⟩; simpa using this
    have hint := local_interior hl hc fun t h0 h1 => hp t ⟨h0, h1⟩
    obtain ⟨U, hU, hconv⟩ := hl p hpS
    have hg : Continuous fun t : ℝ => c + t • (p - c) := by fun_prop
    have hU1 : (fun t : ℝ => c + t • (p - c)) ⁻¹' interior U ∈ 𝓝 1 :=
      (isOpen_interior.preimage hg).mem_nhds (by simpa using mem_interior_iff_mem_nhds.2 hU)
    obtain ⟨r, hr, hr01⟩ := Filter.nonempty_of_mem (Filter.inter_mem (nhdsWithin_le_nhds hU1 : _ ∈ 𝓝[<] (1 : ℝ)) (Ico_mem_nhdsLT zero_lt_one))
    have hcont : Continuous fun q : Pt ℝ × ℝ => c + q.2 • (q.1 - c) := by fun_prop
    have h1 : ∀ᶠ p' in 𝓝 p, ∀ t ∈ Set.Icc (0 : ℝ) r, c + t • (p' - c) ∈ interior S := by
      refine isCompact_Icc.eventually_forall_of_forall_eventually fun t ht => ?_
      exact hcont.continuousAt.eventually (isOpen_interior.mem_nhds (hint t ⟨ht.1, lt_of_le_of_lt ht.2 hr01.2⟩))
    have h2 : ∀ᶠ p' in 𝓝 p, c + r • (p' - c) ∈ interior U := by
      have : Continuous fun p' : Pt ℝ => c + r • (p' - c) := by fun_prop
      exact this.continuousAt.eventually (isOpen_interior.mem_nhds hr)
    filter_upwards [h1, h2, hU] with p' k1 k2 k3 hpS' t ht
    rcases le_total t r with htr | htr
    · exact interior_subset (k1 t ⟨ht.1, htr⟩)
    · have m1 : c + r • (p' - c) ∈ S ∩ U := ⟨interior_subset (k1 r ⟨hr01.1, le_rfl⟩), interior_subset k2⟩
      have m2 : p' ∈ S ∩ U := ⟨hpS', k3⟩
      have hr1 : 0 < 1 - r := by linarith [hr01.2]
      have := hconv m1 m2 (a := (1 - t) / (1 - r)) (b := (t - r) / (1 - r)) (div_nonneg (by linarith [ht.2]) hr1.le)
        (div_nonneg (by linarith) hr1.le) (by field_simp; ring)
      have e : ((1 - t) / (1 - r)) • (c + r • (p' - c)) + ((t - r) / (1 - r)) • p' = c + t • (p' - c) := by
        ext
        · simp only [Prod.fst_add, Prod.smul_fst, smul_eq_mul, Prod.fst_sub]; field_simp; ring
        · simp only [Prod.snd_add, Prod.smul_snd, smul_eq_mul, Prod.snd_sub]; field_simp; ring
      rw [e] at this
      exact this.1
  have hsub : S ⊆ interior {p | p ∈ S → p ∈ V} ∨ S ⊆ Vᶜ := by
    refine isPreconnected_iff_subset_of_disjoint.1 hcn _ _ isOpen_interior hVc.isOpen_compl ?_ ?_
    · intro p hp
      by_cases hpV : p ∈ V
      · exact Or.inl (mem_interior_iff_mem_nhds.2 (hVo p hpV))
      · exact Or.inr hpV
    · ext p
      simp only [Set.mem_inter_iff, Set.mem_empty_iff_false, iff_false]
      rintro ⟨a, b, d⟩
      exact d (interior_subset b a)
  have hcS := interior_subset hc
  have hcV : c ∈ V := fun t _ => by simpa using hcS
  rcases hsub with h | h
  · intro p hp t h0 h1
    exact interior_subset (h hp) hp t ⟨h0, h1⟩
  · exact absurd hcV (h hcS)

/-- A closed connected set with inner points that is convex near each of its points is convex. -/
theorem local_convex {S : Set (Pt ℝ)} (hcl : IsClosed S) (hcn : IsPreconnected S) (hl : LocallyConvex S)
    (hi : (interior S).Nonempty) : Convex ℝ S := by
  obtain ⟨c, hc⟩ := hi
  intro x hx y hy a b ha hb hab
  have hvis := local_visible hcl hcn hl hc x hx
  have hint := local_interior hl hc hvis
  let g : ℝ → Pt ℝ := fun t => (c + t • (x - c)) + b • (y - (c + t • (x - c)))
  have hg : Continuous g := by fun_prop
  have ht : Filter.Tendsto g (𝓝[<] 1) (𝓝 (g 1)) := (hg.tendsto 1).mono_left nhdsWithin_le_nhds
  have e : a • x + b • y = g 1 := by
    have : a = 1 - b := by linarith
    subst this
    simp only [g]; module
  rw [e]
  refine hcl.mem_of_tendsto ht ?_
  filter_upwards [Ico_mem_nhdsLT (zero_lt_one (α := ℝ))] with t ht
  exact local_visible hcl hcn hl (hint t ht) y hy b hb (by linarith)

end Starworlds
