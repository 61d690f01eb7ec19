import Verif.Proofs.StarInside
import Verif.Proofs.KernelCertificate
import Verif.Spec.Kernel
import Verif.Proofs.Polygon

/-! # Deciding whether a rational point belongs to a polygon with rational vertices -/

namespace Starworlds

open Spec

/-- The ray to the right crosses the edge. -/
def crossesB (a b p : Pt ℚ) : Bool :=
  decide ((a.2 - p.2 ≤ 0 ∧ 0 < b.2 - p.2 ∧ 0 < cross (b - a) (p - a)) ∨
      (b.2 - p.2 ≤ 0 ∧ 0 < a.2 - p.2 ∧ cross (b - a) (p - a) < 0))

/-- In the polygon or on its boundary. -/
def filledB (v : List (Pt ℚ)) (p : Pt ℚ) : Bool :=
  ((List.range v.length).any fun i => onSegB (corner v i) (corner v (i + 1)) p) ||
    ((List.range v.length).filter fun i => crossesB (corner v i) (corner v (i + 1)) p).length % 2 == 1

theorem onSegB_real (a b p : Pt ℚ) : onSegB a b p = true ↔ OnSegment (toReal a) (toReal b) (toReal p) := by
  rw [← onSegB_iff]
  simp only [onSegB, toReal, Bool.and_eq_true, decide_eq_true_eq]
  norm_cast
  simp only [decide_eq_true_eq]

theorem crossesB_iff (a b p : Pt ℚ) : crossesB a b p = true ↔ RayCrosses (toReal a) (toReal b) (toReal p) := by
  unfold crossesB
  rw [decide_eq_true_eq, rayCrosses_signs, ← toReal_sub, ← toReal_sub, cross_toReal]
  simp only [toReal]
  norm_cast

theorem filledB_iff (v : List (Pt ℚ)) (p : Pt ℚ) : filledB v p = true ↔ toReal p ∈ filled (v.map toReal) := by
  classical
  have hring : ((List.range v.length).any fun i => onSegB (corner v i) (corner v (i + 1)) p) = true ↔ OnRing (v.map toReal) (toReal p) := by
    rw [List.any_eq_true]
    unfold OnRing
    simp only [List.mem_range, onSegB_real, corner_toReal, List.length_map]
  have hcount : ((List.range v.length).filter fun i => crossesB (corner v i) (corner v (i + 1)) p) =
      (List.range (v.map toReal).length).filter fun i =>
        decide (RayCrosses (corner (v.map toReal) i) (corner (v.map toReal) (i + 1)) (toReal p)) := by
    rw [List.length_map]
    apply List.filter_congr
    intro i _
    rw [Bool.eq_iff_iff, crossesB_iff, corner_toReal, corner_toReal, decide_eq_true_eq]
  unfold filledB filled Inside
  rw [Bool.or_eq_true, hring, beq_iff_eq, hcount, Set.mem_ofPred_eq]
  constructor
  · rintro (h | h)
    · exact Or.inr h
    · by_cases hr : OnRing (v.map toReal) (toReal p)
      · exact Or.inr hr
      · exact Or.inl ⟨hr, by convert h⟩
  · rintro (h | h)
    · exact Or.inr (by convert h.2)
    · exact Or.inl h

end Starworlds
