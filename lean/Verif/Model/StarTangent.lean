import Verif.Model.StarPolygon

/-! # tangent_points of a StarshapedPolygon

obstacles/starshaped_polygon.py does not override `tangent_points` of obstacles/polygon.py:91-135, which reads
`circular_vertices`. `_update_vertex_angles` (obstacles/starshaped_polygon.py:177-183) has put these in the order of their angles
about the reference point. -/

namespace Starworlds

/-- obstacles/polygon.py:91-135 `tangent_points` of a StarshapedPolygon: with `vertices` as ordered by `StarPoly.update`. -/
noncomputable def StarPoly.tangentPoints (s : StarPoly) (x : Pt ℝ) (fin fout : Frame) : Except PyErr (List (Pt ℝ)) :=
  polygonTangentPoints s.mm s.vertices x fin fout

end Starworlds
