import Verif.Proofs.HullPlain
import Verif.Proofs.HullCertificate
import Verif.Proofs.HullRunModel
import Verif.Proofs.FilledRational

/-! # C109: runs of polygon_kernel_starshaped_hull that are followed in rational numbers -/

namespace Starworlds

open Real Spec

/-- C109: if the run in rational numbers ends with `R`, and the test `starHullQ` accepts `R`, then the call returns `R` for all shapely
operations that return plain descriptions of the intersections, and `R` is the star-shaped hull. Missing: polygons for which the test
fails. -/
theorem C109_check_partial {c : Pt ℚ} {P ks R : List (Pt ℚ)} (hks : ks ≠ []) (hrun : hullQ (fanQ c P) P ks = some R)
    (htest : starHullQ c P R ks = true) {ops : HullOps} (ho : HullMeaning ops (filled (P.map toReal)) (ks.map toReal))
    (hp : HullPlain ops (filled (P.map toReal))) :
    polygonKernelHull ops (P.map toReal) (ks.map toReal) = .ok (R.map toReal) ∧
      IsStarHull (filled (P.map toReal)) (ks.map toReal) (filled (R.map toReal)) := by
  have hP : goesAround c P = true := by
    unfold starHullQ at htest
    simp only [Bool.and_eq_true] at htest
    exact htest.1.1.1.1
  exact ⟨hullQ_sound (fan_union hP) hks ho hp hrun, starHullQ_sound htest hks⟩

/-- A run: a point from which the polygon is star-shaped, the polygon, the kernel points, the returned polygon. -/
structure HullRow where
  c : Pt ℚ
  P : List (Pt ℚ)
  ks : List (Pt ℚ)
  R : List (Pt ℚ)

/-- Runs that together take all branches of the algorithm. -/
def hullRows : List HullRow := [
  -- the dent is filled up to the kernel point
  ⟨(-1/2, 1/9), [(-1, 0), (3, -3), (0, 0), (3, 3)], [(2, 1/5)], [(3, -3), (2, 1/5), (3, 3), (-1, 0)]⟩,
  -- one of two or three kernel points is a vertex of the hull
  ⟨(-1/2, 1/9), [(-1, 0), (3, -3), (0, 0), (3, 3)], [(2, 1/5), (3, 1/2)], [(3, -3), (3, 1/2), (3, 3), (-1, 0)]⟩,
  ⟨(-1/2, 1/9), [(-1, 0), (3, -3), (0, 0), (3, 3)], [(2, 1/5), (3, 1/2), (2, 1)], [(3, -3), (3, 1/2), (3, 3), (-1, 0)]⟩,
  -- a point on an edge and the kernel point are added
  ⟨(-1/2, 1/9), [(-1, 0), (3, -3), (0, 0), (3, 3)], [(2, 5/2)], [(3, -3), (27/13, 27/13), (3, 3), (2, 5/2), (-1, 0)]⟩,
  ⟨(-6/7, -32/11), [(-1, -1), (-4, -4), (-2, -5), (2, 2), (-1, 5)], [(-4, -5)],
    [(2, 2), (-1, 5), (-25/7, -25/7), (-4, -4), (-4, -5), (-2, -5)]⟩,
  -- the added point goes before the vertex
  ⟨(-27/7, 35/22), [(2, -1), (-4, 2), (-3, -5), (1, -2), (4, -4)], [(-2, -4)], [(-5/3, -4), (4, -4), (2, -1), (-4, 2), (-3, -5)]⟩,
  -- the added point is adjusted
  ⟨(9/14, -31/22), [(-1, -5), (4, 3), (-3, 1), (0, -1), (-5, -1)], [(-1, 0), (-2, -2)],
    [(4, 3), (-3, 1), (-33/13, -5/13), (-5, -1), (-1, -5)]⟩,
  ⟨(-20/7, 57/22), [(5, 0), (3, 4), (-3, 3), (-1, -5), (2, -1)], [(-1, 2), (0, -2), (4, 1)],
    [(9/4, -11/10), (5, 0), (3, 4), (-3, 3), (-1, -5)]⟩,
  -- the added point is moved to the line from another kernel point
  ⟨(-5/14, -9/22), [(1, -2), (4, -5), (5, 5), (-5, -4), (2, -4)], [(-1, -1), (2, -2)],
    [(5, 5), (-5, -4), (2, -4), (2, -17/5), (4, -5)]⟩,
  ⟨(-27/7, -65/11), [(4, -3), (6, 4), (0, -1), (3, 3), (-4, 6), (-4, -6)], [(0, 0), (0, -4), (3, 0)],
    [(6, 4), (3, 2), (3, 3), (-4, 6), (-4, -6), (4, -3)]⟩,
  ⟨(22/7, -97/22), [(1, 3), (-5, 6), (2, -3), (-5, 3), (3, -5), (6, 2)], [(0, -1), (5, 2), (-2, 4)],
    [(6, 2), (10/3, 8/3), (-5, 6), (-85/26, 93/26), (-5, 3), (3, -5)]⟩,
  -- it is moved twice
  ⟨(23/14, 1/11), [(1, 0), (-2, -1), (5, -3), (-1, 4), (-5, 3)], [(1, -2), (-2, 5), (-1, -1)],
    [(1, -2), (5, -3), (-1, 4), (-2, 5), (-5, 3), (-2, 0), (-2, -1)]⟩,
  -- kernel points are inserted at the end
  ⟨(1/7, 1/11), [(3, 1), (0, 1), (0, 0), (3, 0)], [(4, 5), (-3, 4), (-5, 3)], [(-3, 4), (-5, 3), (0, 0), (3, 0), (4, 5)]⟩,
  ⟨(-13/7, -32/11), [(-2, -3), (5, -4), (0, -2), (5, 4)], [(-2, 3), (4, -3), (-2, 5)],
    [(5, -4), (117/29, -80/29), (5, 4), (-2, 5), (-2, 3), (-2, -3)]⟩,
  ⟨(-5/14, -9/22), [(2, 2), (1, 1), (1, 3), (-3, 0), (0, -1)], [(-4, -3), (0, -2), (3, 0)],
    [(0, -2), (3, 0), (2, 2), (25/14, 51/28), (1, 3), (-3, 0), (-4, -3)]⟩]

/-- The test of a run; the last condition: the middle of an edge of the returned polygon is not in the polygon. -/
def HullRow.test (r : HullRow) : Bool :=
  !r.ks.isEmpty && decide (hullQ (fanQ r.c r.P) r.P r.ks = some r.R) && starHullQ r.c r.P r.R r.ks &&
    (List.range r.R.length).any fun i =>
      filledB r.R ((1 / 2 : ℚ) • (corner r.R i + corner r.R (i + 1))) && !filledB r.P ((1 / 2 : ℚ) • (corner r.R i + corner r.R (i + 1)))

theorem hullRows_test : (hullRows.all HullRow.test) = true := by decide +kernel

/-- C109: in each of these runs the call returns the listed polygon; it is the star-shaped hull, and it is larger than the polygon. There
are operations of this kind in each case. Missing: other polygons. -/
theorem C109_runs_partial : ∀ r ∈ hullRows,
    (∃ ops, HullMeaning ops (filled (r.P.map toReal)) (r.ks.map toReal) ∧ HullPlain ops (filled (r.P.map toReal))) ∧
    ∀ ops, HullMeaning ops (filled (r.P.map toReal)) (r.ks.map toReal) → HullPlain ops (filled (r.P.map toReal)) →
      polygonKernelHull ops (r.P.map toReal) (r.ks.map toReal) = .ok (r.R.map toReal) ∧
      IsStarHull (filled (r.P.map toReal)) (r.ks.map toReal) (filled (r.R.map toReal)) ∧
      ¬ filled (r.R.map toReal) ⊆ filled (r.P.map toReal) := by
  intro r hr
  have ht := List.all_eq_true.1 hullRows_test r hr
  unfold HullRow.test at ht
  simp only [Bool.and_eq_true, Bool.not_eq_true', decide_eq_true_eq] at ht
  obtain ⟨⟨⟨h1, h2⟩, h3⟩, h4⟩ := ht
  have hks : r.ks ≠ [] := by
    intro e; rw [e] at h1; simp at h1
  have hP : goesAround r.c r.P = true := by
    unfold starHullQ at h3
    simp only [Bool.and_eq_true] at h3
    exact h3.1.1.1.1
  refine ⟨hullPlain_exists (starAbout_rat hP) _, fun ops ho hp => ?_⟩
  obtain ⟨g1, g2⟩ := C109_check_partial hks h2 h3 ho hp
  refine ⟨g1, g2, fun hsub => ?_⟩
  obtain ⟨i, _, hi⟩ := List.any_eq_true.1 h4
  simp only [Bool.and_eq_true, Bool.not_eq_true'] at hi
  have := (filledB_iff r.P _).2 (hsub ((filledB_iff r.R _).1 hi.1))
  rw [hi.2] at this
  cases this

/-- The first run: there are operations for which the call returns a hull that is not the polygon. -/
example : ∃ ops, polygonKernelHull ops ([((-1 : ℚ), (0 : ℚ)), (3, -3), (0, 0), (3, 3)].map toReal) ([((2 : ℚ), (1/5 : ℚ))].map toReal) =
    .ok ([((3 : ℚ), (-3 : ℚ)), (2, 1/5), (3, 3), (-1, 0)].map toReal) := by
  obtain ⟨⟨ops, ho, hp⟩, h⟩ := C109_runs_partial _ (List.mem_cons_self : (⟨(-1/2, 1/9), [(-1, 0), (3, -3), (0, 0), (3, 3)], [(2, 1/5)],
    [(3, -3), (2, 1/5), (3, 3), (-1, 0)]⟩ : HullRow) ∈ hullRows)
  exact ⟨ops, (h ops ho hp).1⟩

/-- A triangle of ordinary size. -/
def bigTriangle : List (Pt ℚ) := [(1, -1), (2, 3), (-5, 1)]

/-- What is returned for it. -/
def bigTriangleHull : List (Pt ℚ) := [(-1, 1), (2, 3), (-5/3, 1), (-4, 3), (-5, 1)]

/-- C109 is false also for the kernel points of a triangle, and for a polygon and kernel points of ordinary size: the returned polygon
contains neither all of the polygon nor all kernel points. -/
theorem C109_triangle_false : ∃ (vertices ks : List (Pt ℝ)) (c : Pt ℝ), vertices.length = 3 ∧ ks.length = 3 ∧ StarAbout c vertices ∧
    (∃ ops, HullMeaning ops (filled vertices) ks ∧ HullPlain ops (filled vertices)) ∧
    ∀ ops, HullMeaning ops (filled vertices) ks → HullPlain ops (filled vertices) →
      ∃ star, polygonKernelHull ops vertices ks = .ok star ∧ (∃ v ∈ vertices, v ∉ filled star) ∧ ∃ k ∈ ks, k ∉ filled star := by
  have hg : goesAround (0, 1) bigTriangle = true := by decide +kernel
  refine ⟨bigTriangle.map toReal, [((-4 : ℚ), (3 : ℚ)), (3, -3), (-1, 1)].map toReal, toReal (0, 1), rfl, rfl, starAbout_rat hg,
    hullPlain_exists (starAbout_rat hg) _, fun ops ho hp => ?_⟩
  refine ⟨bigTriangleHull.map toReal, hullQ_sound (fan_union hg) (by simp) ho hp (by decide +kernel), ?_, ?_⟩
  · refine ⟨toReal (1, -1), by simp [bigTriangle], fun h => ?_⟩
    exact absurd ((filledB_iff bigTriangleHull _).2 h) (by decide +kernel)
  · refine ⟨toReal (3, -3), by simp, fun h => ?_⟩
    exact absurd ((filledB_iff bigTriangleHull _).2 h) (by decide +kernel)

end Starworlds
