import Verif.Proofs.ConePolygon

/-! # C16: Cone.polygon -/

namespace Starworlds

open Real Spec

/-- The corners of the square `[-10^6, 10^6]²`, counter-clockwise from the lower right one. -/
def Spec.boxCorner : Fin 4 → Pt ℝ
  | 0 => (10 ^ 6, -10 ^ 6)
  | 1 => (10 ^ 6, 10 ^ 6)
  | 2 => (-10 ^ 6, 10 ^ 6)
  | 3 => (-10 ^ 6, -10 ^ 6)

/-- The four lines bounding the square `[-10^6, 10^6]²`, counter-clockwise from the lower one; line
`i` ends at corner `i`. -/
def Spec.OnBoxLine (i : Fin 4) (p : Pt ℝ) : Prop :=
  match i with
  | 0 => p.2 = -10 ^ 6
  | 1 => p.1 = 10 ^ 6
  | 2 => p.2 = 10 ^ 6
  | 3 => p.1 = -10 ^ 6

theorem bbCorner_eq (i : Fin 4) : (bbCorner i : Pt ℝ) = Spec.boxCorner i := by
  fin_cases i <;> rfl

theorem bbEdge_line {i : Fin 4} {p : Pt ℝ} (h : OnLine (bbEdge i).p1 (bbEdge i).p2 p) :
    Spec.OnBoxLine i p := by
  obtain ⟨u, rfl⟩ := h
  fin_cases i <;> simp [bbEdge, bbW, Spec.OnBoxLine]

/-- C16, the true part: for an apex at least 1 away from the border of the bounding box and
directions of length at least `1e-9`, `Cone.polygon` succeeds: both border points are found, lie on
their ray and on a bounding-box line, the corner walk stops after at most four corners (which are
consecutive box corners), and the vertex list is apex, first border point, corners, second border
point.  (What is missing with respect to C16: apexes closer than 1 to the border.) -/
theorem C16_polygon_partial (c : Cone ℝ) (hx : |c.apex.1| ≤ 10 ^ 6 - 1) (hy : |c.apex.2| ≤ 10 ^ 6 - 1)
    (h1 : (1 / 10 ^ 9) ^ 2 ≤ normSq c.dir1) (h2 : (1 / 10 ^ 9) ^ 2 ≤ normSq c.dir2)
    (fuel : Nat) (hf : 4 ≤ fuel) :
    ∃ (p1 p2 : Pt ℝ) (i1 i2 : Fin 4) (m : Nat),
      conePolygon c fuel = .ok (some ([c.apex, p1] ++
        ((List.range m).map fun i => Spec.boxCorner (i1 + Fin.ofNat 4 i)) ++ [p2])) ∧
      m ≤ 4 ∧
      OnRay c.apex (c.apex + c.dir1) p1 ∧ Spec.OnBoxLine i1 p1 ∧
      OnRay c.apex (c.apex + c.dir2) p2 ∧ Spec.OnBoxLine i2 p2 ∧
      i1 + Fin.ofNat 4 m = i2 := by
  simp only [← bbCorner_eq]
  obtain ⟨p1, e1⟩ := border_exists c.apex c.dir1 hx hy h1 _ (sectorIdx_spec c.dir1)
  obtain ⟨p2, e2⟩ := border_exists c.apex c.dir2 hx hy h2 _ (sectorIdx_spec c.dir2)
  have e1' : (borderPoint c.ray1 (sectorIdx c.dir1)).1 = some p1 := e1
  have e2' : (borderPoint c.ray2 (sectorIdx c.dir2)).1 = some p2 := e2
  obtain ⟨r1, ⟨u1, _, q1⟩⟩ := border_sound e1'
  obtain ⟨r2, ⟨u2, _, q2⟩⟩ := border_sound e2'
  set i1 := (borderPoint c.ray1 (sectorIdx c.dir1)).2
  set i2 := (borderPoint c.ray2 (sectorIdx c.dir2)).2
  obtain ⟨m, hm1, hm4, hm, hw⟩ := cornerWalk_spec (K := ℝ) i2 i1
  by_cases hcv : (!(c.isConvex && decide (i1 = i2))) = true
  · refine ⟨p1, p2, i1, i2, m, ?_, hm4, r1, bbEdge_line ⟨u1, q1⟩, r2, bbEdge_line ⟨u2, q2⟩, hm⟩
    unfold conePolygon conePolygonVertices
    simp only [e1', e2']
    rw [if_pos hcv, hw fuel hf]
    rfl
  · have hi : i1 = i2 := by
      simp only [Bool.not_eq_true', Bool.not_eq_false, Bool.and_eq_true, decide_eq_true_eq] at hcv
      exact hcv.2
    refine ⟨p1, p2, i1, i2, 0, ?_, by omega, r1, bbEdge_line ⟨u1, q1⟩, r2, bbEdge_line ⟨u2, q2⟩, by simpa using hi⟩
    unfold conePolygon conePolygonVertices
    simp only [e1', e2']
    rw [if_neg hcv]
    rfl

/-- C16: the corner walk stops, whatever the two edge indices. -/
theorem C16_corner_walk (stop c : Fin 4) (fuel : Nat) (hf : 4 ≤ fuel) :
    ∃ cs : List (Pt ℝ), cornerWalk stop fuel c = some cs ∧ 1 ≤ cs.length ∧ cs.length ≤ 4 := by
  obtain ⟨m, h1, h4, _, hw⟩ := cornerWalk_spec (K := ℝ) stop c
  exact ⟨_, hw fuel hf, by simpa using h1, by simpa using h4⟩

/-- C16 is false of the code for apexes close to the border: an apex strictly inside the box with
directions longer than `1e-9` for which `Cone.polygon` fails (no border point is found, and
`None.xy` raises AttributeError). -/
theorem C16_polygon_false : ∃ c : Cone ℝ, |c.apex.1| < 10 ^ 6 ∧ |c.apex.2| < 10 ^ 6 ∧
    (1 / 10 ^ 9) ^ 2 ≤ normSq c.dir1 ∧ (1 / 10 ^ 9) ^ 2 ≤ normSq c.dir2 ∧
    ∀ fuel, conePolygon c fuel = .error .attributeError := by
  refine ⟨⟨(-10 ^ 6 + 1 / 100, 0), (-4 / 10 ^ 17, -1 / 10 ^ 9), (1, 0)⟩, ?_, ?_, ?_, ?_, ?_⟩
  · simp only []; rw [abs_lt]; constructor <;> norm_num
  · simp
  · simp only [normSq]; norm_num
  · simp only [normSq]; norm_num
  · intro fuel
    set d : Pt ℝ := (-4 / 10 ^ 17, -1 / 10 ^ 9) with hd
    have hs : sectorIdx d = 0 := by
      have h := sectorIdx_spec d
      generalize sectorIdx d = i at h
      fin_cases i
      · rfl
      · exfalso; have := h.2; simp only [hd] at this; norm_num at this
      · exfalso; have := h.2; simp only [hd] at this; norm_num at this
      · exfalso; have := h.2; simp only [hd] at this; norm_num at this
    have n0 : (⟨(-10 ^ 6 + 1 / 100, 0), (-10 ^ 6 + 1 / 100, 0) + d⟩ : Line ℝ).rayIntersection (bbEdge 0) = none := by
      simp only [Line.rayIntersection, bbEdge, bbW, hd, Prod.fst_add, Prod.snd_add]
      norm_num
    have n1 : (⟨(-10 ^ 6 + 1 / 100, 0), (-10 ^ 6 + 1 / 100, 0) + d⟩ : Line ℝ).rayIntersection (bbEdge 1) = none := by
      simp only [Line.rayIntersection, bbEdge, bbW, hd, Prod.fst_add, Prod.snd_add]
      rw [if_pos]
      rw [abs_lt]; constructor <;> norm_num
    have n3 : (⟨(-10 ^ 6 + 1 / 100, 0), (-10 ^ 6 + 1 / 100, 0) + d⟩ : Line ℝ).rayIntersection (bbEdge 3) = none := by
      simp only [Line.rayIntersection, bbEdge, bbW, hd, Prod.fst_add, Prod.snd_add]
      rw [if_pos]
      rw [abs_lt]; constructor <;> norm_num
    have hb : (borderPoint (⟨(-10 ^ 6 + 1 / 100, 0), (-10 ^ 6 + 1 / 100, 0) + d⟩ : Line ℝ) 0).1 = none := by
      unfold borderPoint
      rw [n0]
      simp only [zero_add]
      rw [n1]
      exact n3
    unfold conePolygon conePolygonVertices
    simp only [Cone.ray1]
    rw [hs, hb]

/-- A cone meeting the hypotheses of `C16_polygon_partial`. -/
example : ∃ c : Cone ℝ, |c.apex.1| ≤ 10 ^ 6 - 1 ∧ |c.apex.2| ≤ 10 ^ 6 - 1 ∧
    (1 / 10 ^ 9) ^ 2 ≤ normSq c.dir1 ∧ (1 / 10 ^ 9) ^ 2 ≤ normSq c.dir2 ∧ c.dir1 ≠ c.dir2 := by
  refine ⟨⟨(3, -5), (1, 2), (-2, 1)⟩, ?_, ?_, ?_, ?_, ?_⟩ <;> simp [normSq] <;> norm_num

end Starworlds
