import Verif.Model.CgReal

/-!
# Model of obstacles/motion_model.py

Over `ℝ`.  The five classes are the constructors of `MotionKind`; the mutable attributes are in
`MotionState`.  `set_pos` and `set_rot` overwrite a field.  Aliasing of numpy arrays between the caller
and `_pos` is modelled in `Verif.Model.MotionHeap`, sharing of whole motion models in `Verif.Model.World`.
-/

namespace Starworlds

open Real

/-- Python list / numpy array indexing, with negative indices counted from the end. -/
def pyIdx {α : Type*} (l : List α) (i : Int) : Except PyErr α :=
  match l[(if i < 0 then i + l.length else i).toNat]? with
  | some a => if (if i < 0 then i + l.length else i) < 0 then .error .indexError else .ok a
  | none => .error .indexError

/-- Division of a numpy vector by a scalar; division by zero gives inf/nan. -/
noncomputable def divPt (v : Pt ℝ) (s : ℝ) : Except PyErr (Pt ℝ) :=
  if s = 0 then .error .nonFinite else .ok (v.1 / s, v.2 / s)

/-- `np.cumsum([acc] + ds)`. -/
def cumsum (acc : ℝ) : List ℝ → List ℝ
  | [] => [acc]
  | d :: ds => acc :: cumsum (acc + d) ds

/-- `np.argmax` of a boolean array: the first `True`, or 0 if there is none. -/
def argmaxTrue (bs : List Bool) : Nat :=
  match bs.findIdx? id with
  | some i => i
  | none => 0

/-- The classes of obstacles/motion_model.py with their constructor parameters: `Static` (41-47),
`SinusVelocity` (50-74), `Interval` (77-95), `Waypoints` (98-119).  For `Waypoints` the list is
`[init_pos] + waypoints` (line 101). -/
inductive MotionKind where
  | static
  | sinus (cartesian : Bool) (x1Mag x1Period x2Mag x2Period : ℝ)
  | interval (initPos : Pt ℝ) (timePos : List (ℝ × Pt ℝ))
  | waypoints (wps : List (Pt ℝ)) (vel thresh : ℝ)

/-- The mutable attributes: `_pos`, `_rot`, `_t` (motion_model.py:7-10) and `_wp_idx` (line 103). -/
structure MotionState where
  pos : Pt ℝ
  rot : ℝ
  t : ℝ
  wpIdx : Nat

/-- obstacles/motion_model.py:57,59: `2 * np.pi / period if period else 0`. -/
noncomputable def sinusFreq (period : ℝ) : ℝ := if period = 0 then 0 else 2 * π / period

/-- obstacles/motion_model.py:80 `pos_point`. -/
def intervalPos (initPos : Pt ℝ) (timePos : List (ℝ × Pt ℝ)) : List (Pt ℝ) := initPos :: timePos.map Prod.snd

/-- obstacles/motion_model.py:81 `time_point`. -/
def intervalTime (timePos : List (ℝ × Pt ℝ)) : List ℝ := cumsum 0 (timePos.map Prod.fst)

/-- obstacles/motion_model.py:84-92 `Interval.lin_vel`. -/
noncomputable def intervalLinVel (initPos : Pt ℝ) (timePos : List (ℝ × Pt ℝ)) (t : ℝ) (pos : Pt ℝ) :
    Except PyErr (Pt ℝ) := do
  let tl ← pyIdx (intervalTime timePos) (-1)
  if t > tl then
    let pl ← pyIdx (intervalPos initPos timePos) (-1)
    let pl2 ← pyIdx (intervalPos initPos timePos) (-2)
    let tl2 ← pyIdx (intervalTime timePos) (-2)
    let v ← divPt (pl - pl2) (tl - tl2)
    let velNorm := norm2 v
    let dir := pl - pos
    let dir' ← if norm2 dir > velNorm then divPt dir (norm2 dir) else pure dir
    return velNorm • dir'
  else
    let idx : Int := argmaxTrue ((intervalTime timePos).map fun tp => decide (t < tp))
    let p1 ← pyIdx (intervalPos initPos timePos) idx
    let p0 ← pyIdx (intervalPos initPos timePos) (idx - 1)
    let t1 ← pyIdx (intervalTime timePos) idx
    let t0 ← pyIdx (intervalTime timePos) (idx - 1)
    divPt (p1 - p0) (t1 - t0)

/-- obstacles/motion_model.py:107-116 `Waypoints.lin_vel`, on the waypoints from the current index
on; the second component is the new index.  The recursion of the code is on the index. -/
noncomputable def wpLinVel (vel thresh : ℝ) (pos : Pt ℝ) : List (Pt ℝ) → Nat → Except PyErr (Pt ℝ × Nat)
  | [], idx => .ok ((0, 0), idx)
  | w :: ws, idx =>
    let dir := w - pos
    let dist := norm2 dir
    if dist < thresh then wpLinVel vel thresh pos ws (idx + 1)
    else
      match divPt dir dist with
      | .error e => .error e
      | .ok d => .ok (vel • d, idx)

/-- `lin_vel` of the five classes (motion_model.py:43-44, 62-68, 84-92, 107-116); `Waypoints` may
advance its index. -/
noncomputable def linVel (k : MotionKind) (s : MotionState) : Except PyErr (Pt ℝ × MotionState) :=
  match k with
  | .static => .ok ((0, 0), s)
  | .sinus true m1 p1 m2 p2 => .ok ((m1 * cos (sinusFreq p1 * s.t), m2 * cos (sinusFreq p2 * s.t)), s)
  | .sinus false m1 p1 _ _ =>
    let v := m1 * cos (sinusFreq p1 * s.t)
    .ok ((cos s.rot * v + -sin s.rot * 0, sin s.rot * v + cos s.rot * 0), s)
  | .interval p0 tp =>
    match intervalLinVel p0 tp s.t s.pos with
    | .error e => .error e
    | .ok v => .ok (v, s)
  | .waypoints wps vel th =>
    match wpLinVel vel th s.pos (wps.drop s.wpIdx) s.wpIdx with
    | .error e => .error e
    | .ok (v, idx) => .ok (v, { s with wpIdx := idx })

/-- `rot_vel` of the five classes (motion_model.py:46-47, 70-74, 94-95, 118-119). -/
noncomputable def rotVel (k : MotionKind) (s : MotionState) : ℝ :=
  match k with
  | .sinus false _ _ m2 p2 => m2 * cos (sinusFreq p2 * s.t)
  | _ => 0

/-- obstacles/motion_model.py:12-18 `MotionModel.move`. -/
noncomputable def motionMove (k : MotionKind) (s : MotionState) (dt : ℝ) : Except PyErr MotionState :=
  match linVel k s with
  | .error e => .error e
  | .ok (v, s') =>
    .ok { s' with pos := s'.pos + dt • v, rot := s'.rot + rotVel k s' * dt, t := s'.t + dt }

/-- A sequence of `move(dt)` calls. -/
noncomputable def runMoves (k : MotionKind) (s : MotionState) : List ℝ → Except PyErr MotionState
  | [] => .ok s
  | dt :: dts =>
    match motionMove k s dt with
    | .error e => .error e
    | .ok s' => runMoves k s' dts

/-- obstacles/motion_model.py:7-10 and 83, 103-105: the state after construction. -/
def initState (pos : Pt ℝ) (rot : ℝ) : MotionState := ⟨pos, rot, 0, 0⟩

end Starworlds
