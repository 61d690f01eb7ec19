import Verif.Model.Cg
import Verif.Spec.Plane
import Mathlib.Tactic.Ring
import Mathlib.Tactic.Linarith
import Mathlib.Tactic.LinearCombination
import Mathlib.Tactic.FieldSimp
import Mathlib.Tactic.Positivity
import Mathlib.Tactic.NormNum

namespace Starworlds

open Spec

set_option linter.unusedSectionVars false

variable {K : Type*} [Field K] [LinearOrder K] [IsStrictOrderedRing K]

theorem thr_pos : (0 : K) < collinearThreshold := by
  unfold collinearThreshold; positivity

theorem orientationVal_eq_cross (a b c : Pt K) :
    orientationVal a b c = - cross (b - a) (c - a) := by
  simp only [orientationVal, cross, Prod.fst_sub, Prod.snd_sub]; ring

theorem isCcw_iff (a b c : Pt K) :
    isCcw a b c = true ↔ collinearThreshold < cross (b - a) (c - a) := by
  simp only [isCcw, decide_eq_true_eq, orientationVal_eq_cross]; constructor <;> intro h <;> linarith

theorem isCw_iff (a b c : Pt K) :
    isCw a b c = true ↔ cross (b - a) (c - a) < -collinearThreshold := by
  simp only [isCw, decide_eq_true_eq, orientationVal_eq_cross]; constructor <;> intro h <;> linarith

theorem isCollinear_iff (a b c : Pt K) :
    isCollinear a b c = true ↔ |cross (b - a) (c - a)| < collinearThreshold := by
  simp only [isCollinear, decide_eq_true_eq, orientationVal_eq_cross, abs_neg]

end Starworlds
