import Verif.Proofs.Polygon
import Verif.Proofs.Ellipse
import Mathlib.Tactic.NormNum

/-! # C37: Polygon.point_location -/

set_option linter.unusedSectionVars false

namespace Starworlds

open Spec

variable {K : Type*} [Field K] [LinearOrder K] [IsStrictOrderedRing K]

theorem inBox_iff (a : Pt K) (l : List (Pt K)) (x : Pt K) :
    (!(decide ((boundsOf a l).1 < x.1) && decide (x.1 < (boundsOf a l).2.2.1) &&
      (decide ((boundsOf a l).2.1 < x.2) && decide (x.2 < (boundsOf a l).2.2.2)))) = false ↔
    ((boundsOf a l).1 < x.1 ∧ x.1 < (boundsOf a l).2.2.1 ∧ (boundsOf a l).2.1 < x.2 ∧ x.2 < (boundsOf a l).2.2.2) := by
  simp [and_assoc]

/-- C37: interior points, and only they, are reported as interior. -/
theorem C37_interior (v : List (Pt K)) (x : Pt K) : polyLocation v x = -1 ↔ Inside v x := by
  rw [← polyContains_iff]
  cases v with
  | nil => simp [polyLocation, polyContains, edgesOf, ringOf]
  | cons a l =>
    simp only [polyLocation]
    split
    · rename_i hbox
      constructor
      · intro h; simp at h
      · intro h
        rw [(inBox_iff a l x).2 (contains_in_box h)] at hbox
        exact absurd hbox Bool.false_ne_true
    · split
      · rename_i h; simp [h]
      · rename_i h
        split <;> simp [h]

/-- C37: every point that is neither in the interior nor on the boundary is reported as exterior. -/
theorem C37_exterior (v : List (Pt K)) (x : Pt K) (h : ¬ Inside v x) (h' : ¬ OnRing v x) : polyLocation v x = 1 := by
  rw [← polyContains_iff, Bool.not_eq_true] at h
  rw [← ringContains_iff, Bool.not_eq_true] at h'
  cases v with
  | nil => rfl
  | cons a l => simp [polyLocation, h, h']

/-- C37 (partial): a boundary point is reported as boundary if it is strictly inside the bounding box: some
vertices are to the left, to the right, above and below. Missing: boundary points on the bounding box, which
are reported as exterior (`C37_boundary_false`). -/
theorem C37_boundary_partial (v : List (Pt K)) (x : Pt K) (h : OnRing v x)
    (hl : ∃ p ∈ v, p.1 < x.1) (hr : ∃ p ∈ v, x.1 < p.1) (hd : ∃ p ∈ v, p.2 < x.2) (hu : ∃ p ∈ v, x.2 < p.2) :
    polyLocation v x = 0 := by
  rw [← ringContains_iff] at h
  cases v with
  | nil => obtain ⟨p, hp, _⟩ := hl; simp at hp
  | cons a l =>
    have hb := bounds_spec a l
    obtain ⟨p1, m1, h1⟩ := hl
    obtain ⟨p2, m2, h2⟩ := hr
    obtain ⟨p3, m3, h3⟩ := hd
    obtain ⟨p4, m4, h4⟩ := hu
    have hbox := (inBox_iff a l x).2 ⟨(hb p1 m1).1.trans_lt h1, h2.trans_le (hb p2 m2).2.1,
      (hb p3 m3).2.2.1.trans_lt h3, h4.trans_le (hb p4 m4).2.2.2⟩
    have hc : polyContains (a :: l) x = false := by simp [polyContains, h]
    simp only [polyLocation, hbox, hc, h, if_true, Bool.false_eq_true, if_false]

/-- C37 is false for every polygon: it has a boundary point (a leftmost vertex) that is reported as exterior. -/
theorem C37_boundary_false (v : List (Pt K)) (hv : v ≠ []) : ∃ x ∈ v, OnRing v x ∧ polyLocation v x = 1 := by
  cases v with
  | nil => exact absurd rfl hv
  | cons a l =>
    obtain ⟨p, hp, he⟩ := foldl_min_mem (fun p : Pt K => p.1) l a
    refine ⟨p, hp, ?_, ?_⟩
    · obtain ⟨i, hi, rfl⟩ := List.getElem_of_mem hp
      refine ⟨i, hi, 0, le_rfl, zero_le_one, ?_⟩
      rw [corner, Nat.mod_eq_of_lt hi, List.getD_eq_getElem _ _ hi]
      simp
    · have : ¬ (boundsOf a l).1 < p.1 := by
        simp only [boundsOf]
        rw [he]; exact lt_irrefl _
      simp [polyLocation, this]

/-- C37: the same for a placed polygon and points given in either frame. -/
theorem C37_placed (mm : Option Pose) (v : List (Pt ℝ)) (f : Frame) (hf : f.Valid) (p : Pt ℝ) :
    polygonPointLocation mm v (inFrame mm f p) f = .ok (polyLocation v p) := by
  simp only [polygonPointLocation, transform_to_obstacle _ _ hf, bind, Except.bind]

/-- An L-shape: (1/2, 3/2) is inside, the inner corner (1, 1) on the boundary, the notch (3/2, 3/2) outside,
and the outer edge point (2, 1/2), on the bounding box, is reported outside. -/
def ellShape : List (Pt ℚ) := [(0, 0), (2, 0), (2, 1), (1, 1), (1, 2), (0, 2)]

example : polyLocation ellShape (1 / 2, 3 / 2) = -1 ∧ polyLocation ellShape (1, 1) = 0 ∧
    polyLocation ellShape (3 / 2, 3 / 2) = 1 ∧ polyLocation ellShape (2, 1 / 2) = 1 := by decide +kernel

end Starworlds
