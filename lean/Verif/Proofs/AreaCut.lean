import Verif.Proofs.Area
import Verif.Proofs.AreaRing
import Verif.Proofs.FilledRing
import Verif.Spec.Area

/-! # The area of a polygon that is cut into pieces -/

namespace Starworlds

open Spec MeasureTheory

theorem segment_null (a b : Pt ℝ) : volume {p | OnSegment a b p} = 0 := by
  by_cases h : b = a
  · have : {p | OnSegment a b p} ⊆ {a} := by
      rintro p ⟨t, _, _, rfl⟩; simp [h]
    exact measure_mono_null this (measure_singleton a)
  · refine measure_mono_null ?_ (line_null (sub_ne_zero.2 h) a)
    rintro p ⟨t, _, _, rfl⟩
    simp [cross]; ring

theorem ring_null (v : List (Pt ℝ)) : volume {p | OnRing v p} = 0 := by
  have : {p | OnRing v p} = ⋃ i ∈ Finset.range v.length, {p | OnSegment (corner v i) (corner v (i + 1)) p} := by
    ext p; simp [OnRing]
  rw [this]
  exact (measure_biUnion_null_iff (Finset.range v.length).countable_toSet).2 fun i _ => segment_null _ _

theorem edgesOf_join : ∀ (l : List (Pt ℝ)) (b : Pt ℝ) (m : List (Pt ℝ)),
    edgesOf (l ++ b :: m) = edgesOf (l ++ [b]) ++ edgesOf (b :: m)
  | [], b, m => by simp [edgesOf]
  | [a], b, m => by simp [edgesOf]
  | a :: c :: l, b, m => by
    have := edgesOf_join (c :: l) b m
    simp only [List.cons_append] at this ⊢
    rw [edgesOf, this, edgesOf]; rfl

theorem edges_whole (a b : Pt ℝ) (l m : List (Pt ℝ)) :
    edgesOf (ringOf (a :: l ++ b :: m)) = edgesOf (a :: l ++ [b]) ++ edgesOf (b :: m ++ [a]) := by
  have := edgesOf_join (a :: l) b (m ++ [a])
  simpa [ringOf] using this

theorem edges_piece (a b : Pt ℝ) (l : List (Pt ℝ)) :
    edgesOf (ringOf (a :: l ++ [b])) = edgesOf (a :: l ++ [b]) ++ [(b, a)] := by
  have := edgesOf_join (a :: l) b [a]
  simpa [ringOf, edgesOf] using this

theorem signedArea2_cut (a b : Pt ℝ) (l m : List (Pt ℝ)) :
    signedArea2 (a :: l ++ b :: m) = signedArea2 (a :: l ++ [b]) + signedArea2 (b :: m ++ [a]) := by
  unfold signedArea2
  rw [edges_whole, edges_piece, edges_piece]
  simp only [List.map_append, List.sum_append, List.map_cons, List.map_nil, List.sum_cons, List.sum_nil]
  ring

theorem rayCrosses_comm (p a b : Pt ℝ) : rayCrosses p (a, b) = rayCrosses p (b, a) := by
  rw [Bool.eq_iff_iff, rayCrosses_iff, rayCrosses_iff]
  exact rayCrosses_swap

/-- Off the edges, a point is in the whole if it is in exactly one of the pieces. -/
theorem inside_cut {a b : Pt ℝ} {l m : List (Pt ℝ)} {p : Pt ℝ} (h : ¬ OnRing (a :: l ++ b :: m) p)
    (h1 : ¬ OnRing (a :: l ++ [b]) p) (h2 : ¬ OnRing (b :: m ++ [a]) p) :
    Inside (a :: l ++ b :: m) p ↔ ¬ (Inside (a :: l ++ [b]) p ↔ Inside (b :: m ++ [a]) p) := by
  have key : ∀ v : List (Pt ℝ), ¬ OnRing v p → (Inside v p ↔ (edgesOf (ringOf v)).countP (rayCrosses p) % 2 = 1) := by
    intro v hv
    rw [← polyContains_iff, polyContains]
    have : ringContains v p = false := by
      rw [Bool.eq_false_iff]; exact fun h => hv ((ringContains_iff _ _).1 h)
    simp [this]
  rw [key _ h, key _ h1, key _ h2, edges_whole, edges_piece, edges_piece]
  simp only [List.countP_append, List.countP_singleton, rayCrosses_comm p b a]
  split <;> omega

theorem filled_inside (v : List (Pt ℝ)) : filled v =ᵐ[volume] {p | Inside v p} := by
  have : ∀ᵐ p, ¬ OnRing v p := by
    rw [ae_iff]; simpa using ring_null v
  filter_upwards [this] with p hp
  exact propext ⟨fun h => h.resolve_right hp, Or.inl⟩

theorem filled_cut {a b : Pt ℝ} {l m : List (Pt ℝ)}
    (h : ∀ p, ¬ (Inside (a :: l ++ [b]) p ∧ Inside (b :: m ++ [a]) p)) :
    filled (a :: l ++ b :: m) =ᵐ[volume] (filled (a :: l ++ [b]) ∪ filled (b :: m ++ [a]) : Set (Pt ℝ)) ∧
      volume (filled (a :: l ++ [b]) ∩ filled (b :: m ++ [a])) = 0 := by
  have hn : ∀ v, ∀ᵐ p, ¬ OnRing v p := fun v => by rw [ae_iff]; simpa using ring_null v
  constructor
  · filter_upwards [hn (a :: l ++ b :: m), hn (a :: l ++ [b]), hn (b :: m ++ [a])] with p h0 h1 h2
    have := inside_cut h0 h1 h2
    have hp := h p
    refine propext ⟨?_, ?_⟩
    · rintro (hi | hi)
      · have := this.1 hi
        by_cases hP : Inside (a :: l ++ [b]) p
        · exact Or.inl (Or.inl hP)
        · exact Or.inr (Or.inl (by tauto))
      · exact absurd hi h0
    · rintro ((hi | hi) | (hi | hi))
      · exact Or.inl (this.2 (by tauto))
      · exact absurd hi h1
      · exact Or.inl (this.2 (by tauto))
      · exact absurd hi h2
  · have : ∀ᵐ p, p ∉ filled (a :: l ++ [b]) ∩ filled (b :: m ++ [a]) := by
      filter_upwards [hn (a :: l ++ [b]), hn (b :: m ++ [a])] with p h1 h2
      rintro ⟨hi | hi, hj | hj⟩
      · exact h p ⟨hi, hj⟩
      · exact h2 hj
      · exact h1 hi
      · exact h1 hi
    rw [ae_iff] at this
    simpa using this

theorem measurable_star {c : Pt ℝ} {v : List (Pt ℝ)} (h : StarAbout c v) : MeasurableSet (filled v) := by
  have : filled v = ⋃ i ∈ Finset.range v.length, convexHull ℝ {c, corner v i, corner v (i + 1)} := by
    ext p
    rw [star_triangles h]
    simp
  rw [this]
  refine Finset.measurableSet_biUnion _ fun i _ => ?_
  exact ((Set.toFinite _).isCompact_convexHull ℝ).isClosed.measurableSet

theorem volume_cuttable {v : List (Pt ℝ)} (h : Cuttable v) :
    NullMeasurableSet (filled v) ∧ 0 ≤ signedArea2 v ∧ volume (filled v) = ENNReal.ofReal (signedArea2 v / 2) := by
  induction h with
  | star h => exact ⟨(measurable_star h).nullMeasurableSet, (volume_star h).2, (volume_star h).1⟩
  | rotate n h ih => rw [filled_rotated, signedArea2_rotate]; exact ih
  | cut h1 h2 h ih1 ih2 =>
    obtain ⟨m1, s1, e1⟩ := ih1
    obtain ⟨m2, s2, e2⟩ := ih2
    obtain ⟨hc, hz⟩ := filled_cut h
    refine ⟨(m1.union m2).congr hc.symm, by rw [signedArea2_cut]; exact add_nonneg s1 s2, ?_⟩
    rw [measure_congr hc, measure_union₀ m2 hz, e1, e2, ← ENNReal.ofReal_add (by positivity) (by positivity),
      ← add_div, ← signedArea2_cut]

end Starworlds
