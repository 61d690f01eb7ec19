import Verif.Model.Flags
import Verif.Spec.Kernel

/-! # Specification for the shape flags: the shape after a history of calls, and erosion -/

namespace Starworlds.Spec

/-- The vertices of the obstacle after a history of calls: those of the last dilation, or the initial ones. -/
def lastShape {K : Type*} (v : List (Pt K)) : List (FlagOp K) → List (Pt K)
  | [] => v
  | .dilate b :: ops => lastShape b ops
  | _ :: ops => lastShape v ops

/-- The points of the polygon that are at least `r` from its border: dilation by `-r`. -/
def eroded (v : List (Pt ℝ)) (r : ℝ) : Set (Pt ℝ) := {p | p ∈ filled v ∧ ∀ q, OnRing v q → r ^ 2 ≤ normSq (q - p)}

/-- Exactly one of three statements holds. -/
def ExactlyOne (a b c : Prop) : Prop := (a ∧ ¬ b ∧ ¬ c) ∨ (¬ a ∧ b ∧ ¬ c) ∨ (¬ a ∧ ¬ b ∧ c)

end Starworlds.Spec
