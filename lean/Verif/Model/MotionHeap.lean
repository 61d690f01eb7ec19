import Verif.Model.Motion

/-!
# The arrays behind `_pos`: obstacles/motion_model.py:7-27

`set_pos` stores the object that it is given (line 21), `pos()` returns the stored object itself (line 27)
and `move` adds to it in place (line 16).  Here the objects are the entries of a heap and a motion model
holds the address of one.  A program creates objects, hands them to `set_pos`, writes to objects it has,
and moves motion models.

Simplified: positions are pairs; lists hold floats; the arrays `pos_point` and `waypoints` are of floats;
`move` of a motion model that does not exist does nothing.
-/

namespace Starworlds

/-- What kind of object a position is: a float array, an integer array, a list of floats, a tuple. -/
inductive CellTag where
  | floatArray
  | intArray
  | list
  | tuple
  deriving DecidableEq, Repr

/-- A motion model object: `_pos` is the address `ref`. -/
structure MotionObj where
  kind : MotionKind
  ref : Nat
  rot : ℝ
  t : ℝ
  wpIdx : Nat

/-- The objects that can be positions, and the motion models, both in order of creation. -/
structure ArrHeap where
  cells : List (CellTag × Pt ℝ)
  mms : List MotionObj

/-- What a program does.  `pos()` changes nothing: the program then knows the address `ref`. -/
inductive ArrOp where
  | construct (k : MotionKind) (p : Pt ℝ) (rot : ℝ)
  | alloc (tag : CellTag) (p : Pt ℝ)
  | write (a : Nat) (p : Pt ℝ)
  | setPos (j a : Nat)
  | setRot (j : Nat) (r : ℝ)
  | move (j : Nat) (dt : ℝ)

/-- The attributes of a motion model whose position has the value `p`. -/
def MotionObj.state (m : MotionObj) (p : Pt ℝ) : MotionState := ⟨p, m.rot, m.t, m.wpIdx⟩

/-- obstacles/motion_model.py:12-18 `move` on the heap.  Line 13 calls `lin_vel` (`Waypoints` advances its
index there), line 15 calls `_pos.copy()`, which a tuple does not have, line 16 is `_pos += xy_vel * dt`: in
place for a float array, `UFuncTypeError` for an integer array, a new array for a list.  Lines 17-18 are
not reached after an error. -/
noncomputable def moveHeap (h : ArrHeap) (j : Nat) (dt : ℝ) : ArrHeap × Except PyErr Unit :=
  match h.mms[j]? with
  | none => (h, .ok ())
  | some m =>
    match h.cells[m.ref]? with
    | none => (h, .ok ())
    | some (tag, p) =>
      match linVel m.kind (m.state p) with
      | .error e => (h, .error e)
      | .ok (v, s) =>
        let m1 := { m with wpIdx := s.wpIdx }
        let m2 := { m1 with rot := s.rot + rotVel m.kind s * dt, t := s.t + dt }
        match tag with
        | .tuple => (⟨h.cells, h.mms.set j m1⟩, .error .attributeError)
        | .intArray => (⟨h.cells, h.mms.set j m1⟩, .error .typeError)
        | .floatArray => (⟨h.cells.set m.ref (.floatArray, p + dt • v), h.mms.set j m2⟩, .ok ())
        | .list =>
          (⟨h.cells ++ [(.floatArray, p + dt • v)], h.mms.set j { m2 with ref := h.cells.length }⟩, .ok ())

/-- One operation.  obstacles/motion_model.py:7-10: the constructor copies (`np.array(pos, dtype='float64')`);
20-21 `set_pos` and 23-24 `set_rot` store.  Writing to a tuple is not possible. -/
noncomputable def stepArr (h : ArrHeap) : ArrOp → ArrHeap
  | .construct k p rot =>
    ⟨h.cells ++ [(.floatArray, p)], h.mms ++ [⟨k, h.cells.length, rot, 0, 0⟩]⟩
  | .alloc tag p => ⟨h.cells ++ [(tag, p)], h.mms⟩
  | .write a p => ⟨h.cells.modify a fun c => if c.1 = .tuple then c else (c.1, p), h.mms⟩
  | .setPos j a => if a < h.cells.length then ⟨h.cells, h.mms.modify j fun m => { m with ref := a }⟩ else h
  | .setRot j r => ⟨h.cells, h.mms.modify j fun m => { m with rot := r }⟩
  | .move j dt => (moveHeap h j dt).1

/-- A history of operations. -/
noncomputable def runArr (h : ArrHeap) (ops : List ArrOp) : ArrHeap := ops.foldl stepArr h

/-- The program start. -/
def ArrHeap.empty : ArrHeap := ⟨[], []⟩

/-- obstacles/motion_model.py:26-27 `pos()`: the address of the stored object. -/
def ArrHeap.posRef (h : ArrHeap) (j : Nat) : Option Nat := h.mms[j]?.map MotionObj.ref

/-- The entries of an object. -/
def ArrHeap.value (h : ArrHeap) (a : Nat) : Option (Pt ℝ) := h.cells[a]?.map Prod.snd

/-- The position of motion model `j`: the entries of the object that `pos()` returns. -/
def ArrHeap.position (h : ArrHeap) (j : Nat) : Option (Pt ℝ) := (h.posRef j).bind h.value

/-- All attributes of motion model `j`. -/
def ArrHeap.state (h : ArrHeap) (j : Nat) : Option MotionState :=
  h.mms[j]?.bind fun m => (h.value m.ref).map m.state

end Starworlds
