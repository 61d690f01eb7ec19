import Verif.Model.Admissible

/-! # Specification: robot and goal exchanged -/

namespace Starworlds.Spec

/-- `p` is not near the line through `x` and `xg`. -/
def OffLine (x xg p : Pt ℝ) : Prop := 1 / 10 ^ 10 < |cross (xg - x) (p - x)|

/-- The order of robot and goal does not matter to shapely: parts are the same if the line is drawn in the other direction. -/
def SplitsBothWays {G : Type} (geo : PolyOps G) (x xg : Pt ℝ) : Prop := ∀ g, geo.split g x xg = geo.split g xg x

/-- If the centre `c` of the previous kernel points is not kept, then neither it nor a part of the selection set `S` has its centre near the
line. -/
def SidesClear {G : Type} (geo : PolyOps G) (x xg : Pt ℝ) (S : G) (c : Pt ℝ) : Prop :=
  (geo.contains S c = true ∧ OffLine x xg c) ∨
    (OffLine x xg c ∧ ∀ gs, geo.split S x xg = .ok gs → ∀ g ∈ gs, ∀ q, geo.centroid g = .ok q → OffLine x xg q)

end Starworlds.Spec
