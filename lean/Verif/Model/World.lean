import Verif.Model.Obstacle

/-!
# A program's obstacles: the class counter and the motion model objects on the heap

obstacles/obstacle.py:21-44, 67-69, 129-144, obstacles/ellipse.py:20-23,
obstacles/starshaped_polygon.py:24-27.  `M` is the state of a motion model object and
`step : ℝ → M → M` its `move(dt)`; only identity and state of these objects matter here.
-/

namespace Starworlds

variable {M : Type*}

/-- One obstacle object: its class' `copy`, its id, the motion model object it refers to, and whether it
was created with `id='new'` (bookkeeping for the statements, not a field of the code). -/
structure ObRec where
  kind : CopyKind
  id : Option Nat
  ref : Option Nat
  byNew : Bool

/-- `Obstacle.id_counter`, the motion model objects, the obstacles in order of creation. -/
structure World (M : Type*) where
  counter : Nat
  heap : List M
  obs : List ObRec

/-- The `motion_model` argument: `None`, a motion model object used nowhere else, or an existing one. -/
inductive MMArg (M : Type*) where
  | none
  | fresh (m : M)
  | existing (r : Nat)

/-- Operations of a program on its obstacles. -/
inductive WOp (M : Type*) where
  | construct (kind : CopyKind) (r : IdReq) (mm : MMArg M)
  | copy (i : Nat) (r : CopyReq)
  | move (i : Nat) (dt : ℝ)
  | setMotionModel (i : Nat) (mm : MMArg M)

/-- Store the argument: the new heap and the reference. -/
def allocMM (heap : List M) : MMArg M → List M × Option Nat
  | .none => (heap, none)
  | .fresh m => (heap ++ [m], some heap.length)
  | .existing r => if r < heap.length then (heap, some r) else (heap, none)

/-- Is the id request `'new'`? -/
def IdReq.isNew : IdReq → Bool
  | .new => true
  | _ => false

/-- Is the id request of a copy `'new'`? -/
def CopyReq.isNew : CopyReq → Bool
  | .req r => r.isNew
  | .duplicate => false

/-- The motion model of a copy: `deepcopy` (obstacles/obstacle.py:41) copies the motion model object,
the rebuilding classes pass the reference on (`motion_model=self._motion_model`). -/
def copyMM (heap : List M) (kind : CopyKind) (ref : Option Nat) : List M × Option Nat :=
  match kind, ref with
  | _, none => (heap, none)
  | .rebuild, some r => (heap, some r)
  | .deep, some r => match heap[r]? with
    | some m => (heap ++ [m], some heap.length)
    | none => (heap, some r)

/-- One operation. -/
def stepW (step : ℝ → M → M) (w : World M) : WOp M → World M
  | .construct kind r mm =>
    ⟨(setId w.counter r).1, (allocMM w.heap mm).1,
      w.obs ++ [⟨kind, (setId w.counter r).2, (allocMM w.heap mm).2, r.isNew⟩]⟩
  | .copy i r =>
    match w.obs[i]? with
    | none => w
    | some o =>
      ⟨(copyId w.counter o.kind o.id r).1, (copyMM w.heap o.kind o.ref).1,
        w.obs ++ [⟨o.kind, (copyId w.counter o.kind o.id r).2, (copyMM w.heap o.kind o.ref).2, r.isNew⟩]⟩
  | .move i dt =>
    match w.obs[i]? with
    | some ⟨_, _, some r, _⟩ => { w with heap := w.heap.modify r (step dt) }
    | _ => w
  | .setMotionModel i mm =>
    { w with heap := (allocMM w.heap mm).1,
             obs := w.obs.modify i fun o => { o with ref := (allocMM w.heap mm).2 } }

/-- A history of operations. -/
def runW (step : ℝ → M → M) (w : World M) (ops : List (WOp M)) : World M := ops.foldl (stepW step) w

/-- The program start: `id_counter = 0`, no objects. -/
def World.empty : World M := ⟨0, [], []⟩

/-- The state of the motion model of obstacle `i` (`none` if there is none). -/
def World.motion (w : World M) (i : Nat) : Option M :=
  match w.obs[i]? with
  | some ⟨_, _, some r, _⟩ => w.heap[r]?
  | _ => none

end Starworlds
