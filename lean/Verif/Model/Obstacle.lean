import Verif.Model.CgReal

/-!
# Model of obstacles/obstacle.py and obstacles/starshaped_obstacle.py

`Frame`, the two frame conversions, id allocation, the polygon and kernel caches, `xr`,
`reference_direction`, `vel_intertial_frame`.

A shapely geometry is modelled by the list of its vertices; `sh_affinity.affine_transform(pol, m)` maps
every vertex with the affine map of the matrix `m`.  Only single points are modelled here (for
arrays of points see `Verif.Model.Batch`).
-/

namespace Starworlds

open Real

/-- obstacles/obstacle.py:10-15 `Frame`; `other` stands for any value that is neither of the two members. -/
inductive Frame where
  | global
  | obstacle
  | other
  deriving DecidableEq

/-- What the motion model reports as `pos()` and `rot()`. -/
structure Pose where
  pos : Pt ℝ
  rot : ℝ

/-! ## Frames -/

/-- obstacles/obstacle.py:94-102 `Obstacle.transform` with 154-160; `mm = none` is `_motion_model is None`. -/
noncomputable def transform (mm : Option Pose) (x : Pt ℝ) (fin fout : Frame) : Except PyErr (Pt ℝ) :=
  match mm with
  | none => .ok x
  | some p =>
    if fin = fout then .ok x
    else if fin = .obstacle ∧ fout = .global then .ok (affineTransform x p.rot p.pos false)
    else if fin = .global ∧ fout = .obstacle then .ok (affineTransform x p.rot p.pos true)
    else .error .invalidFrameError

/-- obstacles/obstacle.py:104-112 `Obstacle.rotate` with 146-152. -/
noncomputable def rotate (mm : Option Pose) (x : Pt ℝ) (fin fout : Frame) : Except PyErr (Pt ℝ) :=
  match mm with
  | none => .ok x
  | some p =>
    if fin = fout then .ok x
    else if fin = .obstacle ∧ fout = .global then .ok (affineTransform x p.rot (0, 0) false)
    else if fin = .global ∧ fout = .obstacle then .ok (affineTransform x p.rot (0, 0) true)
    else .error .invalidFrameError

/-- obstacles/obstacle.py:46-50 `Obstacle.pos`; a frame that is no member of the enumeration falls through to `None`. -/
def obstaclePos (mm : Option Pose) (f : Frame) : Option (Pt ℝ) :=
  match mm with
  | none => some (0, 0)
  | some p => match f with
    | .obstacle => some (0, 0)
    | .global => some p.pos
    | .other => none

/-- obstacles/obstacle.py:52-56 `Obstacle.rot`. -/
def obstacleRot (mm : Option Pose) (f : Frame) : Option ℝ :=
  match mm with
  | none => some 0
  | some p => match f with
    | .obstacle => some 0
    | .global => some p.rot
    | .other => none

/-! ## Ids -/

/-- The `id` argument of the constructor and of `copy`: `'new'`/`'n'`, `'temporary'`/`'temp'`/`'t'`,
an `int`, or anything else. -/
inductive IdReq where
  | new
  | temporary
  | int (k : Int)
  | other

/-- obstacles/obstacle.py:133-143 `_set_id_name`: new value of the class attribute `id_counter` and the
id that is assigned. -/
def setId (counter : Nat) : IdReq → Nat × Option Nat
  | .new => (counter + 1, some (counter + 1))
  | .temporary => (counter, none)
  | .int k => if 0 < k ∧ k ≤ counter then (counter, some k.toNat) else (counter, none)
  | .other => (counter, none)

/-- obstacles/obstacle.py:144 the name: the given one if it is non-empty, else `str(id)`. -/
def setName (name : Option String) (id : Option Nat) : String :=
  match name with
  | some n => if n.isEmpty then (match id with | some k => toString k | none => "None") else n
  | none => match id with | some k => toString k | none => "None"

/-- The `id` argument of `copy`. -/
inductive CopyReq where
  | duplicate
  | req (r : IdReq)

/-- Which `copy` a class has: `deep` is obstacles/obstacle.py:40-44 (Polygon,
StarshapedPrimitiveCombination), `rebuild` is obstacles/ellipse.py:20-23 and
obstacles/starshaped_polygon.py:24-27. -/
inductive CopyKind where
  | deep
  | rebuild
  deriving DecidableEq

/-- The id given to a copy of an obstacle with id `src`: `deepcopy` keeps the id on `'duplicate'`,
the rebuilding classes pass `self.id()` to the constructor. -/
def copyId (counter : Nat) (kind : CopyKind) (src : Option Nat) : CopyReq → Nat × Option Nat
  | .req r => setId counter r
  | .duplicate =>
    match kind with
    | .deep => (counter, src)
    | .rebuild => match src with
      | some k => setId counter (.int k)
      | none => setId counter .other

/-! ## Polygon and kernel caches -/

/-- A geometry: its vertices. -/
abbrev Shape := List (Pt ℝ)

/-- `sh_affinity.affine_transform(pol, [c, -s, s, c, x, y])`, as called in obstacles/obstacle.py:80-85 and
obstacles/starshaped_obstacle.py:54-58: each vertex `v` goes to the matrix image. -/
noncomputable def affMatrix (p : Pose) (s : Shape) : Shape :=
  s.map fun v => (cos p.rot * v.1 + -sin p.rot * v.2 + p.pos.1, sin p.rot * v.1 + cos p.rot * v.2 + p.pos.2)

/-- How a class computes its kernel: `fromPolygon` is obstacles/ellipse.py:209-210
(`self._kernel = self._polygon`), `computed k` stands for
obstacles/starshaped_polygon.py:185-866, whose result is an oracle here (`none`: the code returned
`False` and left `_kernel` as `None`). -/
inductive KernelSrc where
  | fromPolygon
  | computed (k : Option Shape)

/-- The fields of an obstacle that `polygon`, `kernel`, `xr` and `set_xr` use. `base` is what
`_compute_polygon_representation` stores in `_polygon`. -/
structure ObState where
  base : Shape
  mm : Option Pose
  polygon : Option Shape
  polygonGlobal : Option Shape
  polygonGlobalPose : Option Pose
  kernel : Option Shape
  kernelGlobal : Option Shape
  kernelGlobalPose : Option Pose
  xr : Pt ℝ

/-- obstacles/obstacle.py:162-173 `_compute_global_polygon_representation`; `static` says whether the
class of the motion model is `Static`.  The pose is not recorded. -/
noncomputable def computeGlobalPolygon (static : Bool) (s : ObState) : ObState :=
  let s := { s with polygon := some s.base }
  match s.mm with
  | none => { s with polygonGlobal := some s.base }
  | some p => if static then { s with polygonGlobal := some (affMatrix p s.base) } else s

/-- obstacles/obstacle.py:24-36 and obstacles/starshaped_obstacle.py:9-14, constructors; `eager` is
`compute_polygon` (always the case for `Polygon`, obstacles/polygon.py:11-16). -/
noncomputable def construct (base : Shape) (mm : Option Pose) (xr : Pt ℝ) (eager static : Bool) : ObState :=
  let s : ObState := ⟨base, mm, none, none, none, none, none, none, xr⟩
  let s := if eager then computeGlobalPolygon static s else s
  { s with xr := xr, kernel := none, kernelGlobal := none, kernelGlobalPose := none }

open scoped Classical in
/-- obstacles/obstacle.py:73-89 `Obstacle.polygon`. -/
noncomputable def polygonCall (s : ObState) (f : Frame) : Except PyErr Shape × ObState :=
  let pol := s.polygon.getD s.base
  let s := { s with polygon := some pol }
  match s.mm with
  | none => (.ok pol, s)
  | some p =>
    match f with
    | .obstacle => (.ok pol, s)
    | .global =>
      let s := if s.polygonGlobalPose = some p then s
        else { s with polygonGlobalPose := some p, polygonGlobal := some (affMatrix p pol) }
      (.ok (s.polygonGlobal.getD []), s)
    | .other => (.error .invalidFrameError, s)

/-- `_compute_kernel` of the classes, see `KernelSrc`. -/
def computeKernel (src : KernelSrc) (s : ObState) : Option Shape :=
  match src with
  | .fromPolygon => s.polygon
  | .computed k => k

/-- obstacles/starshaped_obstacle.py:47-48: the lazy computation of `_kernel`. -/
def ensureKernel (src : KernelSrc) (s : ObState) : ObState :=
  match s.kernel with
  | some _ => s
  | none => { s with kernel := computeKernel src s }

open scoped Classical in
/-- obstacles/starshaped_obstacle.py:46-61 `StarshapedObstacle.kernel`; the returned value may be `None`.
`noneRaises` says whether `sh_affinity.affine_transform(None, ..)` raises (shapely 2.0: `geom.is_empty` on
`None`) or returns `None` (shapely 2.1); the repository does not pin the version.  The pose is recorded
before the call, so it stays recorded when the call raises. -/
noncomputable def kernelCall (src : KernelSrc) (noneRaises : Bool) (s : ObState) (f : Frame) :
    Except PyErr (Option Shape) × ObState :=
  let s := ensureKernel src s
  match s.mm with
  | none => (.ok s.kernel, s)
  | some p =>
    match f with
    | .obstacle => (.ok s.kernel, s)
    | .global =>
      if s.kernelGlobalPose = some p then (.ok s.kernelGlobal, s)
      else
        let s := { s with kernelGlobalPose := some p }
        match s.kernel with
        | some k =>
          let s := { s with kernelGlobal := some (affMatrix p k) }
          (.ok s.kernelGlobal, s)
        | none =>
          if noneRaises then (.error .attributeError, s)
          else ({ s with kernelGlobal := none } |> fun s => (.ok s.kernelGlobal, s))
    | .other => (.error .invalidFrameError, s)

/-! ## Reference point -/

/-- obstacles/starshaped_obstacle.py:16-17 `xr`. -/
noncomputable def xrCall (s : ObState) (f : Frame) : Except PyErr (Pt ℝ) :=
  transform s.mm s.xr .obstacle f

/-- obstacles/starshaped_obstacle.py:19-26 `set_xr`.  With `safe_set` the value of `self.kernel()` is a
shapely geometry or `None`; neither has an attribute `exterior_point`. -/
noncomputable def setXr (src : KernelSrc) (noneRaises : Bool) (s : ObState) (x : Pt ℝ) (fin : Frame)
    (safeSet : Bool) : Except PyErr Unit × ObState :=
  match transform s.mm x fin .obstacle with
  | .error e => (.error e, s)
  | .ok newXr =>
    if safeSet then
      match kernelCall src noneRaises s .global with
      | (.error e, s) => (.error e, s)
      | (.ok _, s) => (.error .attributeError, s)
    else (.ok (), { s with xr := newXr })

/-- obstacles/starshaped_obstacle.py:28-32 `reference_direction`. -/
noncomputable def referenceDirection (mm : Option Pose) (xr x : Pt ℝ) (fin fout : Frame) :
    Except PyErr (Pt ℝ) := do
  let a ← transform mm x fin fout
  let b ← transform mm xr .obstacle fout
  let dir := a - b
  if norm2 dir = 0 then .error .nonFinite
  else .ok (dir.1 / norm2 dir, dir.2 / norm2 dir)

/-- obstacles/starshaped_obstacle.py:63-68 `vel_intertial_frame`; `linVel`, `omega` are the values of
`lin_vel()` and `rot_vel()` of the motion model; `(0,0,ω) × (d, 0) = (-ω d_y, ω d_x, 0)`. -/
noncomputable def velInertialFrame (mm : Option Pose) (linVel : Pt ℝ) (omega : ℝ) (xr x : Pt ℝ) :
    Except PyErr (Pt ℝ) :=
  match mm with
  | none => .ok (0, 0)
  | some p => do
    let d ← referenceDirection (some p) xr x .global .global
    .ok (linVel + (0 * 0 - omega * d.2, omega * d.1 - 0 * 0))

/-! ## Histories -/

/-- What a caller can do to one starshaped obstacle. `setPose` stands for `move(dt)` and for `set_pos`,
`set_rot` of the motion model, with whatever pose results. -/
inductive ObOp where
  | setMotionModel (mm : Option Pose)
  | setPose (p : Pose)
  | polygon (f : Frame)
  | kernel (f : Frame)
  | xr (f : Frame)
  | setXr (x : Pt ℝ) (f : Frame) (safeSet : Bool)

/-- The state after one call; a raised exception is caught by the caller. obstacles/obstacle.py:67-69,
129-130 for `move` and `set_motion_model`. -/
noncomputable def stepOp (src : KernelSrc) (nr : Bool) (s : ObState) : ObOp → ObState
  | .setMotionModel mm => { s with mm := mm }
  | .setPose p => { s with mm := s.mm.map fun _ => p }
  | .polygon f => (polygonCall s f).2
  | .kernel f => (kernelCall src nr s f).2
  | .xr _ => s
  | .setXr x f safe => (setXr src nr s x f safe).2

/-- The state after a history of calls. -/
noncomputable def runOps (src : KernelSrc) (nr : Bool) (s : ObState) (ops : List ObOp) : ObState :=
  ops.foldl (stepOp src nr) s

end Starworlds
