import Verif.Model.XrHeap
import Verif.Spec.StarPolygon

/-! # Spec: an obstacle that owns its reference point -/

namespace Starworlds.Spec

open Real

/-- The call of a method of obstacle `j` that an operation makes, with the value the given array has at that time;
nothing else is to have an influence on the obstacle. -/
def callOf (w : XrWorld) (j : Nat) : XrOp → Option StarOp
  | .setXr i a f => if i = j ∧ a ∈ w.known then (w.cells[a]?).map fun x => .setXr x f false else none
  | .setPose i p => if i = j then some (.setPose p) else none
  | .setMotionModel i mm => if i = j then some (.setMotionModel mm) else none
  | _ => none

/-- The calls of methods of obstacle `j` that a program makes. -/
noncomputable def callsOf (argsort : List ℝ → List Nat) (j : Nat) : XrWorld → List XrOp → List StarOp
  | _, [] => []
  | w, op :: ops => (callOf w j op).toList ++ callsOf argsort j (w.step argsort op) ops

/-- The obstacle sees exactly the calls of its own methods. -/
def Owns (argsort : List ℝ → List Nat) (w : XrWorld) (ops : List XrOp) : Prop :=
  ∀ j s, w.view j = some s → (w.run argsort ops).view j = some (s.run argsort (callsOf argsort j w ops))

/-- The vertex angles belong to the reference point. -/
def AnglesMatch (s : StarPoly) : Prop :=
  ∀ i < s.vertices.length, SeenAt s.xr (s.vertices.getD i 0) (s.vertexAngles.getD i 0)

/-- No write to an array that is the reference point of an obstacle at that time. -/
def KeepsXr (w : XrWorld) : XrOp → Prop
  | .write a _ => a ∈ w.known → ∀ o ∈ w.obs, o.2 ≠ a
  | _ => True

/-- The same for each operation of a program. -/
def KeepsXrRun (argsort : List ℝ → List Nat) : XrWorld → List XrOp → Prop
  | _, [] => True
  | w, op :: ops => KeepsXr w op ∧ KeepsXrRun argsort (w.step argsort op) ops

/-- An operation of a program that uses global coordinates only, with obstacles that have a motion model. -/
def GlobalOp : XrOp → Prop
  | .construct mm _ _ => mm.isSome
  | .xr _ f => f = .global
  | .setXr _ _ f => f = .global
  | .setMotionModel _ mm => mm.isSome
  | _ => True

/-- An operation of a program that does not assign to arrays. -/
def NoWrite : XrOp → Prop
  | .write _ _ => False
  | _ => True

end Starworlds.Spec
