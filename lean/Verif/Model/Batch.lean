import Verif.Model.Ellipse

/-!
# Arrays of points as argument

obstacles/starshaped_obstacle.py:28-32 `reference_direction` takes norms along the last axis (`axis=x.ndim - 1`), so that an array with
one point per row is meant to be allowed.  obstacles/obstacle.py:94-102 `transform` and obstacles/ellipse.py:90-93 `point_location` take
`x[0]` and `x[1]` for the coordinates, so that an array with one point per column is.  An array with `n` rows of two numbers is a list of
points; an array with two rows of `n` numbers is a pair of lists.
-/

namespace Starworlds

open Real

/-- `v + c` for a row of two numbers and a number. -/
def addScalar (v : Pt ℝ) (c : ℝ) : Pt ℝ := (v.1 + c, v.2 + c)

/-- utils/cg.py:12-24 `affine_transform` of an array with the rows `r0`, `r1` (and more, which are not looked at): `x[0]` and `x[1]` are
rows. -/
noncomputable def affineRows (r0 r1 : Pt ℝ) (rotation : ℝ) (translation : Pt ℝ) (inverse : Bool) : List (Pt ℝ) :=
  if inverse then
    let x0 := addScalar r0 (-translation.1)
    let x1 := addScalar r1 (-translation.2)
    if rotation = 0 then [x0, x1]
    else [cos rotation • x0 + sin rotation • x1, -sin rotation • x0 + cos rotation • x1]
  else if rotation ≠ 0 then
    [addScalar (cos rotation • r0 - sin rotation • r1) translation.1,
     addScalar (sin rotation • r0 + cos rotation • r1) translation.2]
  else [addScalar r0 translation.1, addScalar r1 translation.2]

/-- obstacles/obstacle.py:94-102 `transform` of an array with one point per row. -/
noncomputable def transformRows (mm : Option Pose) (x : List (Pt ℝ)) (fin fout : Frame) : Except PyErr (List (Pt ℝ)) :=
  match mm with
  | none => .ok x
  | some p =>
    if fin = fout then .ok x
    else if fin = .obstacle ∧ fout = .global ∨ fin = .global ∧ fout = .obstacle then
      match x with
      | r0 :: r1 :: _ => .ok (affineRows r0 r1 p.rot p.pos (decide (fin = .global)))
      | _ => .error .indexError
    else .error .invalidFrameError

/-- numpy's `dir / norms` for shapes `(n, 2)` and `(n,)`: the norms are matched with the columns. -/
noncomputable def divRows (dirs : List (Pt ℝ)) (norms : List ℝ) : Except PyErr (List (Pt ℝ)) :=
  match norms with
  | [a] => if a = 0 then .error .nonFinite else .ok (dirs.map fun d => (d.1 / a, d.2 / a))
  | [a, b] => if a = 0 ∨ b = 0 then .error .nonFinite else .ok (dirs.map fun d => (d.1 / a, d.2 / b))
  | _ => .error .valueError

/-- obstacles/starshaped_obstacle.py:28-32 `reference_direction` of an array with one point per row. -/
noncomputable def referenceDirectionRows (mm : Option Pose) (xr : Pt ℝ) (x : List (Pt ℝ)) (fin fout : Frame) :
    Except PyErr (List (Pt ℝ)) := do
  let a ← transformRows mm x fin fout
  let b ← transform mm xr .obstacle fout
  let dirs := a.map (· - b)
  divRows dirs (dirs.map norm2)

/-- obstacles/ellipse.py:90-93 `point_location` of an array with one point per row: `x[0]` and `x[1]` are the first two rows. -/
noncomputable def Ell.pointLocationRows (e : Ell) (x : List (Pt ℝ)) (fin : Frame) : Except PyErr (List ℝ) := do
  let y ← transformRows e.mm x fin .obstacle
  match y with
  | r0 :: r1 :: _ =>
    if e.a.1 = 0 ∨ e.a.2 = 0 then .error .nonFinite
    else .ok [(r0.1 / e.a.1) ^ 2 + (r1.1 / e.a.2) ^ 2 - 1, (r0.2 / e.a.1) ^ 2 + (r1.2 / e.a.2) ^ 2 - 1]
  | _ => .error .indexError

/-- utils/cg.py:12-24 `affine_transform` of an array with one point per column. -/
noncomputable def affineColumns (x : List ℝ × List ℝ) (rotation : ℝ) (translation : Pt ℝ) (inverse : Bool) : List ℝ × List ℝ :=
  if inverse then
    let x0 := x.1.map (· - translation.1)
    let x1 := x.2.map (· - translation.2)
    if rotation = 0 then (x0, x1)
    else (List.zipWith (fun u v => cos rotation * u + sin rotation * v) x0 x1,
      List.zipWith (fun u v => -sin rotation * u + cos rotation * v) x0 x1)
  else if rotation ≠ 0 then
    (List.zipWith (fun u v => cos rotation * u - sin rotation * v + translation.1) x.1 x.2,
      List.zipWith (fun u v => sin rotation * u + cos rotation * v + translation.2) x.1 x.2)
  else (x.1.map (· + translation.1), x.2.map (· + translation.2))

/-- obstacles/obstacle.py:94-102 `transform` of an array with one point per column. -/
noncomputable def transformColumns (mm : Option Pose) (x : List ℝ × List ℝ) (fin fout : Frame) : Except PyErr (List ℝ × List ℝ) :=
  match mm with
  | none => .ok x
  | some p =>
    if fin = fout then .ok x
    else if fin = .obstacle ∧ fout = .global then .ok (affineColumns x p.rot p.pos false)
    else if fin = .global ∧ fout = .obstacle then .ok (affineColumns x p.rot p.pos true)
    else .error .invalidFrameError

/-- obstacles/ellipse.py:90-93 `point_location` of an array with one point per column. -/
noncomputable def Ell.pointLocationColumns (e : Ell) (x : List ℝ × List ℝ) (fin : Frame) : Except PyErr (List ℝ) := do
  let y ← transformColumns e.mm x fin .obstacle
  if e.a.1 = 0 ∨ e.a.2 = 0 then .error .nonFinite
  else .ok (List.zipWith (fun u v => (u / e.a.1) ^ 2 + (v / e.a.2) ^ 2 - 1) y.1 y.2)

end Starworlds
