import Verif.Model.Draw
import Verif.Spec.Intersects

/-! # Specification: what a picture shows -/

namespace Starworlds.Spec

open Real

/-- The points that an artist covers. -/
def artRegion : Artist → Set (Pt ℝ)
  | .ellipse c w h t => {x | ∃ q, ellForm (w / 2, h / 2) q ≤ 1 ∧ x = worldOf (some ⟨c, t * (π / 180)⟩) q}
  | .ring v => filled v
  | .marker p => {p}
  | .text p _ => {p}

/-- The artists of handles. -/
def artistsOf (hs : List Handle) (c : Canvas) : List Artist := hs.filterMap fun h => h.bind fun k => c[k]?

/-- The points of an obstacle in its own frame. -/
def ownArea (k : DrawKind) (base : Shape) : Set (Pt ℝ) :=
  match k with
  | .ellipse a => {p | ellForm a p ≤ 1}
  | _ => filled base

/-- Where the name is: at the reference point; an obstacle of class `Polygon` has none, and its position is used. -/
def namePoint (k : DrawKind) (xr : Pt ℝ) : Pt ℝ :=
  match k with
  | .polygon => (0, 0)
  | _ => xr

/-- Whether there is a mark. -/
def marked (k : DrawKind) (showReference : Bool) : Bool :=
  match k with
  | .polygon => false
  | _ => showReference

/-- The handles show the obstacle in frame `f`: one patch that covers exactly its points, a mark at the reference point
and the name if wanted, and nothing else. -/
def Depicts (o : DrawObj) (base : Shape) (mm : Option Pose) (xr : Pt ℝ) (f : Frame) (sr sn : Bool) (hs : List Handle) (c : Canvas) :
    Prop :=
  ∃ patch, artRegion patch = {x | ∃ p ∈ ownArea o.kind base, x = inFrame mm f p} ∧
    (artistsOf hs c).Perm ([patch] ++ (if marked o.kind sr then [.marker (inFrame mm f xr)] else []) ++
      (if sn then [.text (inFrame mm f (namePoint o.kind xr)) o.name] else []))

/-- The local point with coordinates `x` in frame `f`, if there is such a frame. -/
noncomputable def localOf (mm : Option Pose) (f : Frame) (x : Pt ℝ) : Option (Pt ℝ) :=
  match mm, f with
  | none, _ => some x
  | some _, .obstacle => some x
  | some q, .global => some (cos q.rot * (x.1 - q.pos.1) + sin q.rot * (x.2 - q.pos.2),
      -sin q.rot * (x.1 - q.pos.1) + cos q.rot * (x.2 - q.pos.2))
  | some _, .other => none

/-- The pose and the reference point of obstacle `i` after one call. -/
noncomputable def nextPoint (i : Nat) (mm : Option Pose) (xr : Pt ℝ) : SceneOp → Option Pose × Pt ℝ
  | .on k (.setMotionModel m) => if k = i then (m, xr) else (mm, xr)
  | .on k (.setPose p) => if k = i then (mm.map fun _ => p, xr) else (mm, xr)
  | .on k (.setXr x f false) => if k = i then (mm, (localOf mm f x).getD xr) else (mm, xr)
  | _ => (mm, xr)

/-- The same after a history. -/
noncomputable def lastPoint (i : Nat) (mm : Option Pose) (xr : Pt ℝ) (ops : List SceneOp) : Option Pose × Pt ℝ :=
  ops.foldl (fun s op => nextPoint i s.1 s.2 op) (mm, xr)

end Starworlds.Spec
