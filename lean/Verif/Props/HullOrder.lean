import Verif.Proofs.HullOrder
import Verif.Proofs.FilledRing
import Verif.Props.HullChecked
import Verif.Props.HullMeaning

/-! # C110: the star-shaped hull does not depend on the first vertex and the orientation of the ring -/

namespace Starworlds

open Real Spec

/-- C110: if one vertex is farther to the right than all others and the turn there is larger than the threshold, then all ways to write
down the ring (any first vertex, clockwise or counter-clockwise) describe the same region and give the same result, for all shapely
operations. Missing: several rightmost vertices, or a small turn at the rightmost one. -/
theorem C110_same_partial (ops : HullOps) (ks : List (Pt ℝ)) {m a b : Pt ℝ} {s v w : List (Pt ℝ)} (ha : a.1 < m.1) (hs : ∀ p ∈ s, p.1 < m.1)
    (hb : b.1 < m.1) (hturn : 1 / 10 ^ 10 < |cross (m - b) (a - m)|) (hv : (m :: a :: (s ++ [b])) ~r v) (hw : v ~r w ∨ v ~r w.reverse) :
    filled w = filled v ∧ polygonKernelHull ops w ks = polygonKernelHull ops v ks := by
  refine ⟨filled_ring hw, ?_⟩
  have e : orderVertices w = orderVertices v := by
    rw [orderVertices_ring ha hs hb hturn (hw.imp hv.trans hv.trans), orderVertices_ring ha hs hb hturn (Or.inl hv)]
  unfold polygonKernelHull
  rw [e]

/-- C110: the hull of a polygon that is star-shaped about the kernel points is the polygon itself, also if its ring is clockwise. Missing:
as above. -/
theorem C110_star_partial {ops : HullOps} {ks : List (Pt ℝ)} {m a b : Pt ℝ} {s w : List (Pt ℝ)}
    (ho : HullMeaning ops (filled w) ks) (hks : ks ≠ []) (hw : (m :: a :: (s ++ [b])) ~r w ∨ (m :: a :: (s ++ [b])) ~r w.reverse)
    (hstar : ∀ k ∈ ks, StarAbout k (m :: a :: (s ++ [b]))) (ha : a.1 < m.1) (hs : ∀ p ∈ s, p.1 < m.1) (hb : b.1 < m.1)
    (hturn : 1 / 10 ^ 10 < |cross (m - b) (a - m)|) :
    ∃ star, polygonKernelHull ops w ks = .ok star ∧ IsStarHull (filled w) ks (filled star) ∧ filled star = filled w := by
  obtain ⟨e1, e2⟩ := C110_same_partial ops ks ha hs hb hturn (List.IsRotated.refl _) hw
  rw [e1] at ho ⊢
  obtain ⟨star, h1, h2, h3, _⟩ := C109_star_partial ho hks hstar
  exact ⟨star, by rw [e2, h1], h2, h3⟩

/-- The clockwise ring of a triangle: there are operations, and its hull about two inner points is the triangle. -/
example : ∃ ops star, polygonKernelHull ops [((0, 2) : Pt ℝ), (3, 0), (0, -2)] ([((1 : ℚ), (0 : ℚ)), (1, 1 / 2)].map toReal) = .ok star ∧
    filled star = filled [((0, 2) : Pt ℝ), (3, 0), (0, -2)] := by
  have e : [((3, 0) : Pt ℝ), (0, 2), (0, -2)] = [((3 : ℚ), (0 : ℚ)), (0, 2), (0, -2)].map toReal := by simp [toReal]
  have h1 : StarAbout (toReal (1, 0)) [((3, 0) : Pt ℝ), (0, 2), (0, -2)] := by rw [e]; exact starAbout_rat (by decide +kernel)
  have h2 : StarAbout (toReal (1, 1 / 2)) [((3, 0) : Pt ℝ), (0, 2), (0, -2)] := by rw [e]; exact starAbout_rat (by decide +kernel)
  have hw : (((3, 0) : Pt ℝ) :: (0, 2) :: ([] ++ [(0, -2)])) ~r [((0, 2) : Pt ℝ), (3, 0), (0, -2)].reverse := ⟨2, rfl⟩
  obtain ⟨ops, ho⟩ := hullMeaning_exists h1 ([((1 : ℚ), (0 : ℚ)), (1, 1 / 2)].map toReal)
  obtain ⟨star, g1, _, g2⟩ := C110_star_partial (ops := ops) (w := [((0, 2) : Pt ℝ), (3, 0), (0, -2)])
    (ks := [((1 : ℚ), (0 : ℚ)), (1, 1 / 2)].map toReal) (m := (3, 0)) (a := (0, 2)) (b := (0, -2)) (s := [])
    (by rw [filled_ring (Or.inr hw)]; exact ho) (by simp) (Or.inr hw)
    (by simp only [List.map_cons, List.map_nil, List.mem_cons, List.not_mem_nil, or_false]; rintro k (rfl | rfl) <;> assumption)
    (by norm_num) (by simp) (by norm_num) (by simp [cross]; norm_num)
  exact ⟨ops, star, g1, g2⟩

/-- The test of a run with reversed vertices. -/
def HullRow.testReversed (r : HullRow) : Bool :=
  !(r.P.any fun m => r.P.all fun p => decide (p = m ∨ p.1 < m.1)) ||
    (!r.ks.isEmpty && goesAround r.c r.P && decide (hullQ (fanQ r.c r.P) r.P.reverse r.ks = some r.R))

theorem hullRows_testReversed : (hullRows.all HullRow.testReversed) = true := by decide +kernel

/-- C110: the runs of C109 that have only one rightmost vertex, with the vertices in clockwise order: the same results. Missing: other
polygons. -/
theorem C110_runs_partial : ∀ r ∈ hullRows, (∃ m ∈ r.P, ∀ p ∈ r.P, p = m ∨ p.1 < m.1) →
    ∀ ops, HullMeaning ops (filled (r.P.map toReal).reverse) (r.ks.map toReal) → HullPlain ops (filled (r.P.map toReal).reverse) →
      polygonKernelHull ops (r.P.map toReal).reverse (r.ks.map toReal) = .ok (r.R.map toReal) := by
  intro r hr hm ops ho hp
  have ht := List.all_eq_true.1 hullRows_testReversed r hr
  unfold HullRow.testReversed at ht
  rw [Bool.or_eq_true] at ht
  rcases ht with ht | ht
  · exfalso
    obtain ⟨m, h1, h2⟩ := hm
    rw [Bool.not_eq_true', List.any_eq_false] at ht
    exact ht m h1 (List.all_eq_true.2 fun p hp => by simpa using h2 p hp)
  simp only [Bool.and_eq_true, Bool.not_eq_true', decide_eq_true_eq] at ht
  obtain ⟨⟨h1, h2⟩, h3⟩ := ht
  have hks : r.ks ≠ [] := by
    intro e; rw [e] at h1; simp at h1
  have e : (r.P.map toReal).reverse = r.P.reverse.map toReal := by simp
  rw [filled_reverse] at ho hp
  rw [e]
  exact hullQ_sound (fan_union h2) hks ho hp h3

/-- There are nine such runs. -/
example : (hullRows.filter fun r => r.P.any fun m => r.P.all fun p => decide (p = m ∨ p.1 < m.1)).length = 9 := by decide +kernel

/-- A convex pentagon with clockwise vertices and a small turn at the rightmost vertex. -/
def flatPentagon : List (Pt ℚ) := [(2 + 1 / 10 ^ 12, 1), (2, 0), (0, 0), (0, 2), (2, 2)]

/-- What is returned for it. -/
def flatPentagonHull : List (Pt ℚ) := [(1, 1), (2 + 1 / 10 ^ 12, 1), (2, 0), (0, 0), (0, 2), (2, 2)]

/-- C110 is false: the vertices of a pentagon without collinear vertices, which is star-shaped about the kernel point. In one order its
hull is the pentagon, in the opposite order a part of the pentagon is lost. The turn at the rightmost vertex is below the threshold, so
the clockwise ring is not turned around, and the kernel point appears to be outside of the first edge. -/
theorem C110_false : ∃ (vertices : List (Pt ℝ)) (k : Pt ℝ), StarAbout k vertices ∧ (∀ i < 5, 0 < turn vertices i) ∧ vertices.length = 5 ∧
    (∃ ops, HullMeaning ops (filled vertices) [k] ∧ HullPlain ops (filled vertices)) ∧
    ∀ ops, HullMeaning ops (filled vertices) [k] → HullPlain ops (filled vertices) →
      (∃ star, polygonKernelHull ops vertices [k] = .ok star ∧ IsStarHull (filled vertices) [k] (filled star)) ∧
      ∃ star, polygonKernelHull ops vertices.reverse [k] = .ok star ∧ ¬ filled vertices.reverse ⊆ filled star := by
  have hg : goesAround (11 / 10, 19 / 20) flatPentagon.reverse = true := by decide +kernel
  have hg1 : goesAround (1, 1) flatPentagon.reverse = true := by decide +kernel
  have e : flatPentagon.map toReal = (flatPentagon.reverse.map toReal).reverse := by simp
  refine ⟨flatPentagon.reverse.map toReal, toReal (1, 1), starAbout_rat hg1, ?_, rfl, hullPlain_exists (starAbout_rat hg) _, ?_⟩
  · intro i hi
    have h : ∀ i < 5, 0 < turn flatPentagon.reverse i := by decide +kernel
    have := h i hi
    unfold turn at this ⊢
    rw [corner_toReal, corner_toReal, corner_toReal, ← toReal_sub, ← toReal_sub, cross_toReal, List.length_map]
    exact_mod_cast this
  intro ops ho hp
  refine ⟨?_, flatPentagonHull.map toReal, ?_, ?_⟩
  · obtain ⟨star, h1, h2, _⟩ := C109_star_partial ho (by simp) (by
      intro k hk
      rw [List.mem_singleton.1 hk]
      exact starAbout_rat hg1)
    exact ⟨star, h1, h2⟩
  · rw [← e]
    exact hullQ_sound (ks := [(1, 1)]) (fan_union hg) (by simp) ho hp (by decide +kernel)
  · intro h
    rw [← e] at h
    have h1 := h ((filledB_iff flatPentagon (9 / 5, 3 / 2)).1 (by decide +kernel))
    exact absurd ((filledB_iff flatPentagonHull _).2 h1) (by decide +kernel)

end Starworlds
