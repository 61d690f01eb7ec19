import Verif.Model.StarPolygon

/-!
# Model of the arrays behind `xr` and `set_xr`

obstacles/starshaped_obstacle.py:16-26 and obstacles/starshaped_polygon.py:158-160. A reference point is a numpy
array. `transform` returns its argument itself when no conversion is needed (obstacles/obstacle.py:94-96), so `xr`
can return the array the obstacle keeps, and `set_xr` can keep the array of the caller. Here arrays are cells with
addresses; an array never changes its length, and only in-place assignment of both coordinates is a write.

What is simplified: the pose of an obstacle is a value (`setPose j p` is what its motion model reports from then
on; for a motion model shared by two obstacles the move is two operations), ids, names and drawing are left out, and
`safe_set`, with which the call always raises, is left out.
-/

namespace Starworlds

/-- The arrays of two numbers, the StarshapedPolygon objects with the address of their `_xr` array, and the
addresses of the arrays the calling program has a reference to. The field `xr` of the stored `StarPoly` is not
used: the value is in the cell. -/
structure XrWorld where
  cells : List (Pt ℝ)
  obs : List (StarPoly × Nat)
  known : List Nat

/-- What a program can do. -/
inductive XrOp where
  /-- `StarshapedPolygon(ring, xr=..., motion_model=...)` -/
  | construct (mm : Option Pose) (ring : List (Pt ℝ)) (xr : Pt ℝ)
  /-- `o.copy(...)` -/
  | copy (j : Nat)
  /-- `np.array([...])` -/
  | alloc (p : Pt ℝ)
  /-- `a[:] = p`, `a += d` and the like -/
  | write (a : Nat) (p : Pt ℝ)
  /-- `o.xr(output_frame)`, the result of which the program keeps -/
  | xr (j : Nat) (f : Frame)
  /-- `o.set_xr(a, input_frame)` -/
  | setXr (j a : Nat) (f : Frame)
  /-- a movement of the motion model -/
  | setPose (j : Nat) (p : Pose)
  /-- `o.set_motion_model(...)` -/
  | setMotionModel (j : Nat) (mm : Option Pose)

/-- obstacles/obstacle.py:95-96: `transform` between the frame `f` and the obstacle frame returns its argument
itself. -/
def sameArray (mm : Option Pose) (f : Frame) : Bool := mm.isNone || f == .obstacle

/-- A new array. -/
def XrWorld.push (w : XrWorld) (p : Pt ℝ) : XrWorld := { w with cells := w.cells ++ [p] }

/-- A new obstacle with a new array for its reference point (`np.array(xr)` copies,
obstacles/starshaped_polygon.py:19). -/
def XrWorld.addObs (w : XrWorld) (s : StarPoly) (x : Pt ℝ) : XrWorld :=
  { w with cells := w.cells ++ [x], obs := w.obs ++ [(s, w.cells.length)] }

/-- One operation. An operation on an object or an array that the program does not have does nothing; a raised
exception is caught by the caller. -/
noncomputable def XrWorld.step (argsort : List ℝ → List Nat) (w : XrWorld) : XrOp → XrWorld
  | .construct mm ring x => w.addObs (StarPoly.make argsort mm ring x) x
  | .copy j =>
    match w.obs[j]? with
    | none => w
    | some (s, a) =>
      match w.cells[a]? with
      | none => w
      | some x => w.addObs (StarPoly.make argsort s.mm s.ring x) x
  | .alloc p => { w.push p with known := w.known ++ [w.cells.length] }
  | .write a p => if a ∈ w.known then { w with cells := w.cells.set a p } else w
  | .xr j f =>
    match w.obs[j]? with
    | none => w
    | some (s, a) =>
      if sameArray s.mm f then { w with known := w.known ++ [a] }
      else
        match w.cells[a]? with
        | none => w
        | some x =>
          match transform s.mm x .obstacle f with
          | .error _ => w
          | .ok y => { w.push y with known := w.known ++ [w.cells.length] }
  | .setXr j a f =>
    if a ∈ w.known then
      match w.obs[j]?, w.cells[a]? with
      | some (s, _), some x =>
        if sameArray s.mm f then { w with obs := w.obs.set j (StarPoly.update argsort { s with xr := x }, a) }
        else
          match transform s.mm x f .obstacle with
          | .error _ => w
          | .ok y =>
            { w.push y with obs := w.obs.set j (StarPoly.update argsort { s with xr := y }, w.cells.length) }
      | _, _ => w
    else w
  | .setPose j p => { w with obs := w.obs.modify j fun o => ({ o.1 with mm := o.1.mm.map fun _ => p }, o.2) }
  | .setMotionModel j mm => { w with obs := w.obs.modify j fun o => ({ o.1 with mm := mm }, o.2) }

/-- The state after a program. -/
noncomputable def XrWorld.run (argsort : List ℝ → List Nat) (w : XrWorld) (ops : List XrOp) : XrWorld :=
  ops.foldl (XrWorld.step argsort) w

/-- The start of a program. -/
def XrWorld.empty : XrWorld := ⟨[], [], []⟩

/-- What the methods of obstacle number `j` see: its fields, and the reference point that is in the array now. -/
def XrWorld.view (w : XrWorld) (j : Nat) : Option StarPoly :=
  match w.obs[j]? with
  | none => none
  | some (s, a) => (w.cells[a]?).map fun x => { s with xr := x }

end Starworlds
