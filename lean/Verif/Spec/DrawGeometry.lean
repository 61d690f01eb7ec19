import Verif.Model.DrawGeometry
import Verif.Spec.Draw
import Mathlib.Topology.Connected.Basic

/-! # Specification: what a picture of a geometry shows -/

namespace Starworlds.Spec

/-- The points of a polygon with holes. -/
def polyArea (p : PolyG) : Set (Pt ℝ) := {x | x ∈ filled p.exterior ∧ ∀ h ∈ p.holes, ¬ Inside h x}

/-- The points of the polygons of a geometry. -/
def geomArea : ShGeom → Set (Pt ℝ)
  | .polygon p => polyArea p
  | .multi parts => {x | ∃ p, some p ∈ parts ∧ x ∈ polyArea p}
  | .thin => ∅

/-- The points that a list of handles covers. -/
def coveredBy (hs : List Handle) (c : Canvas) : Set (Pt ℝ) := {x | ∃ a ∈ artistsOf hs c, x ∈ artRegion a}

/-- The points of a box. -/
def boxArea (b : Box) : Set (Pt ℝ) := {x | b.low.1 ≤ x.1 ∧ x.1 ≤ b.high.1 ∧ b.low.2 ≤ x.2 ∧ x.2 ≤ b.high.2}

/-- The part of the plane that is visible with the given limits. -/
def window (xlim ylim : Lim) : Set (Pt ℝ) :=
  {x | (∀ l ∈ xlim, l.1 ≤ x.1 ∧ x.1 ≤ l.2) ∧ ∀ l ∈ ylim, l.1 ≤ x.2 ∧ x.2 ≤ l.2}

/-- Law of shapely's `intersection` of a polygon and a box: if the result is a Polygon, it has the common points, and its
interior is connected, as that of every valid Polygon. -/
def ClipOk (clip : PolyG → Box → ShGeom) : Prop :=
  ∀ p b q, clip p b = .polygon q → polyArea q = polyArea p ∩ boxArea b ∧ IsPreconnected (interior (polyArea q))

/-- The polygons of a geometry have no holes. -/
def WithoutHoles : ShGeom → Prop
  | .polygon p => p.holes = []
  | .multi parts => ∀ p, some p ∈ parts → p.holes = []
  | .thin => False

/-- The polygons of a geometry. -/
def IsPart (p : PolyG) : ShGeom → Prop
  | .polygon q => p = q
  | .multi parts => some p ∈ parts
  | .thin => False

/-- What the panel of a cluster should show: the admissible kernel and the triangle of the kernel points; nothing for
a kernel that is a point. -/
def admArea (cl : AdmCluster) : Set (Pt ℝ) :=
  match cl.kernel with
  | .geom g => {x | x ∈ geomArea g ∨ ∃ ps ∈ cl.kernelPoints, x ∈ filled ps}
  | _ => ∅

/-- The admissible kernel is there and not empty. -/
def HasKernel (cl : AdmCluster) : Prop := cl.kernel ≠ .missing ∧ cl.kernel ≠ .empty

/-- Admissible kernel and kernel points are a point, or polygons without holes. -/
def PlainKernel (cl : AdmCluster) : Prop :=
  cl.kernel = .point ∨ ∃ g, cl.kernel = .geom g ∧ WithoutHoles g ∧ ∀ ps ∈ cl.kernelPoints, 3 ≤ ps.length

end Starworlds.Spec
