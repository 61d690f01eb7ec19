import Verif.Model.MotionHeap

/-! # What the statements about position arrays speak of -/

namespace Starworlds.Spec

/-- Is the operation a `move` or a `set_pos` of motion model `j`? -/
def OwnOp (j : Nat) : ArrOp → Prop
  | .move i _ => i = j
  | .setPos i _ => i = j
  | _ => False

/-- No two motion models have the same object as position. -/
def Separate (h : ArrHeap) : Prop :=
  (∀ i j a, h.posRef i = some a → h.posRef j = some a → i = j) ∧ ∀ i a, h.posRef i = some a → a < h.cells.length

/-- A program that is careful: it gives no object to `set_pos` that is the position of another motion model,
and writes to no object that is the position of a motion model. -/
def Careful (h : ArrHeap) : ArrOp → Prop
  | .setPos j a => ∀ i, i ≠ j → h.posRef i ≠ some a
  | .write a _ => ∀ i, h.posRef i ≠ some a
  | _ => True

/-- Every operation of a history is careful in the state in which it is done. -/
def CarefulRun (h : ArrHeap) : List ArrOp → Prop
  | [] => True
  | op :: ops => Careful h op ∧ CarefulRun (stepArr h op) ops

end Starworlds.Spec
