import Verif.Proofs.ConeRegion

/-! # C91: the region of Cone.polygon -/

namespace Starworlds

open Real Spec Filter Topology

/-- The polygon with the two border points and what is known about them. -/
theorem conePolygon_angles (c : Cone ℝ) (hx : |c.apex.1| ≤ 10 ^ 6 - 1) (hy : |c.apex.2| ≤ 10 ^ 6 - 1)
    (h1 : (1 / 10 ^ 9) ^ 2 ≤ normSq c.dir1) (h2 : (1 / 10 ^ 9) ^ 2 ≤ normSq c.dir2)
    {β γ3 γ0 γ1 : ℝ} (hA : BoxAngles c.apex β γ3 γ0 γ1) (fuel : Nat) (hf : 4 ≤ fuel) :
    ∃ (p1 p2 : Pt ℝ) (i1 i2 : Fin 4) (m : Nat) (r1 r2 φ1 φ2 : ℝ),
      conePolygon c fuel = .ok (some ([c.apex, p1] ++
        ((List.range m).map fun i => boxCorner (i1 + Fin.ofNat 4 i)) ++ [p2])) ∧
      m ≤ 4 ∧ i1 + Fin.ofNat 4 m = i2 ∧ (m = 0 ↔ c.isConvex = true ∧ i1 = i2) ∧
      (∃ t : ℝ, 0 < t ∧ p1 = c.apex + t • c.dir1) ∧ OnBoxLine i1 p1 ∧ (∃ t : ℝ, 0 < t ∧ p2 = c.apex + t • c.dir2) ∧ OnBoxLine i2 p2 ∧
      0 < r1 ∧ 0 < r2 ∧ |φ1 - lineAngle i1| < π / 2 ∧ |φ2 - lineAngle i2| < π / 2 ∧ c.dir1 = atAngle r1 φ1 ∧
      c.dir2 = atAngle r2 φ2 ∧ ChosenAngle β γ3 γ0 i1 φ1 ∧ ChosenAngle β γ3 γ0 i2 φ2 := by
  have ha : InBox c.apex := ⟨by linarith, by linarith⟩
  obtain ⟨p1, e1⟩ := border_exists c.apex c.dir1 hx hy h1 _ (sectorIdx_spec c.dir1)
  obtain ⟨p2, e2⟩ := border_exists c.apex c.dir2 hx hy h2 _ (sectorIdx_spec c.dir2)
  have e1' : (borderPoint c.ray1 (sectorIdx c.dir1)).1 = some p1 := e1
  have e2' : (borderPoint c.ray2 (sectorIdx c.dir2)).1 = some p2 := e2
  obtain ⟨⟨t1, ht1, q1⟩, ⟨u1, _, l1⟩⟩ := border_sound e1'
  obtain ⟨⟨t2, ht2, q2⟩, ⟨u2, _, l2⟩⟩ := border_sound e2'
  obtain ⟨i1, hi1⟩ : ∃ i, (borderPoint c.ray1 (sectorIdx c.dir1)).2 = i := ⟨_, rfl⟩
  obtain ⟨i2, hi2⟩ : ∃ i, (borderPoint c.ray2 (sectorIdx c.dir2)).2 = i := ⟨_, rfl⟩
  rw [hi1] at l1
  rw [hi2] at l2
  have L1 : OnBoxLine i1 p1 := bbEdge_line ⟨u1, l1⟩
  have L2 : OnBoxLine i2 p2 := bbEdge_line ⟨u2, l2⟩
  obtain ⟨r1, φ1, hr1, n1, d1, k1⟩ := border_angle (p := p1) (i := i1) ha hA h1 (Prod.ext e1' hi1)
  obtain ⟨r2, φ2, hr2, n2, d2, k2⟩ := border_angle (p := p2) (i := i2) ha hA h2 (Prod.ext e2' hi2)
  have q1' : p1 = c.apex + t1 • c.dir1 := by rw [q1]; simp [Cone.ray1]
  have q2' : p2 = c.apex + t2 • c.dir2 := by rw [q2]; simp [Cone.ray2]
  have ht1' : 0 < t1 := by
    refine lt_of_le_of_ne ht1 fun h => ?_
    rw [← h, zero_smul, add_zero] at q1'
    rw [q1'] at L1
    exact not_inBox_of_line L1 ha
  have ht2' : 0 < t2 := by
    refine lt_of_le_of_ne ht2 fun h => ?_
    rw [← h, zero_smul, add_zero] at q2'
    rw [q2'] at L2
    exact not_inBox_of_line L2 ha
  obtain ⟨m, hm1, hm4, hm, hw⟩ := cornerWalk_spec (K := ℝ) i2 i1
  have bb : (fun i => bbCorner (i1 + Fin.ofNat 4 i)) = fun i => (boxCorner (i1 + Fin.ofNat 4 i) : Pt ℝ) := by
    funext i; exact bbCorner_eq _
  by_cases hcv : (!(c.isConvex && decide (i1 = i2))) = true
  · refine ⟨p1, p2, i1, i2, m, r1, r2, φ1, φ2, ?_, hm4, hm, ?_, ⟨t1, ht1', q1'⟩, L1, ⟨t2, ht2', q2'⟩, L2, hr1, hr2, n1, n2, d1, d2, k1, k2⟩
    · unfold conePolygon conePolygonVertices
      simp only [e1', e2', hi1, hi2]
      rw [if_pos hcv, hw fuel hf, bb]
      rfl
    · constructor
      · intro h; omega
      · rintro ⟨g1, g2⟩
        simp [g1, g2] at hcv
  · have hcv' : c.isConvex = true ∧ i1 = i2 := by
      simpa using hcv
    refine ⟨p1, p2, i1, i2, 0, r1, r2, φ1, φ2, ?_, by omega, by simpa using hcv'.2, by simp [hcv'], ⟨t1, ht1', q1'⟩, L1, ⟨t2, ht2', q2'⟩, L2, hr1, hr2, n1, n2, d1, d2, k1, k2⟩
    unfold conePolygon conePolygonVertices
    simp only [e1', e2', hi1, hi2]
    rw [if_neg hcv]
    rfl

theorem chosen_range {a : Pt ℝ} {β γ3 γ0 γ1 : ℝ} (hA : BoxAngles a β γ3 γ0 γ1) {i : Fin 4} {φ : ℝ} (h : ChosenAngle β γ3 γ0 i φ) :
    β ≤ φ ∧ φ ≤ β + 2 * π := by
  obtain ⟨-, -, -, -, hβ, h3, h0, h1⟩ := hA
  have hpi := pi_pos
  have m1 : max (5 * π / 4) γ3 < 3 * π / 2 := max_lt (by linarith) (by linarith)
  have m1' : 5 * π / 4 ≤ max (5 * π / 4) γ3 := le_max_left _ _
  have m2 : max (7 * π / 4) γ0 < 2 * π := max_lt (by linarith) (by linarith)
  have m2' : 7 * π / 4 ≤ max (7 * π / 4) γ0 := le_max_left _ _
  fin_cases i <;> obtain ⟨g1, g2⟩ := h <;> constructor <;> linarith

/-- The upper left corner is visited exactly when the second angle is before the first. -/
theorem visits_order {a : Pt ℝ} {β γ3 γ0 γ1 : ℝ} (hA : BoxAngles a β γ3 γ0 γ1) {i1 i2 : Fin 4} {φ1 φ2 : ℝ}
    (k1 : ChosenAngle β γ3 γ0 i1 φ1) (k2 : ChosenAngle β γ3 γ0 i2 φ2) (hne : φ1 ≠ φ2) {m : ℕ} (hm : m ≤ 4)
    (hi : i1 + Fin.ofNat 4 m = i2) (h0 : m = 0 → φ1 < φ2) (h4 : m = 4 → φ2 < φ1) :
    ∑ k ∈ Finset.range m, (if i1 + Fin.ofNat 4 k = 2 then 1 else 0 : ZMod 2) = if φ1 < φ2 then 0 else 1 := by
  obtain ⟨-, -, -, -, hβ, h3, h0', h1⟩ := hA
  have hpi := pi_pos
  have m1 : max (5 * π / 4) γ3 < 3 * π / 2 := max_lt (by linarith) (by linarith)
  have m1' : 5 * π / 4 ≤ max (5 * π / 4) γ3 := le_max_left _ _
  have m2 : max (7 * π / 4) γ0 < 2 * π := max_lt (by linarith) (by linarith)
  have m2' : 7 * π / 4 ≤ max (7 * π / 4) γ0 := le_max_left _ _
  have lt : φ1 ≤ φ2 → φ1 < φ2 := fun h => lt_of_le_of_ne h hne
  have ge : φ2 ≤ φ1 → ¬ φ1 < φ2 := fun h => not_lt.2 h
  subst hi
  interval_cases m
  · simp [h0 rfl]
  · fin_cases i1
    · have a1 : max (5 * π / 4) γ3 ≤ φ1 ∧ φ1 ≤ max (7 * π / 4) γ0 := k1
      have a2 : max (7 * π / 4) γ0 ≤ φ2 ∧ φ2 ≤ 9 * π / 4 := k2
      rw [if_pos (lt (by linarith))]; decide
    · have a1 : max (7 * π / 4) γ0 ≤ φ1 ∧ φ1 ≤ 9 * π / 4 := k1
      have a2 : 9 * π / 4 ≤ φ2 ∧ φ2 ≤ β + 2 * π := k2
      rw [if_pos (lt (by linarith))]; decide
    · have a1 : 9 * π / 4 ≤ φ1 ∧ φ1 ≤ β + 2 * π := k1
      have a2 : β ≤ φ2 ∧ φ2 ≤ max (5 * π / 4) γ3 := k2
      rw [if_neg (ge (by linarith))]; decide
    · have a1 : β ≤ φ1 ∧ φ1 ≤ max (5 * π / 4) γ3 := k1
      have a2 : max (5 * π / 4) γ3 ≤ φ2 ∧ φ2 ≤ max (7 * π / 4) γ0 := k2
      rw [if_pos (lt (by linarith))]; decide
  · fin_cases i1
    · have a1 : max (5 * π / 4) γ3 ≤ φ1 ∧ φ1 ≤ max (7 * π / 4) γ0 := k1
      have a2 : 9 * π / 4 ≤ φ2 ∧ φ2 ≤ β + 2 * π := k2
      rw [if_pos (lt (by linarith))]; decide
    · have a1 : max (7 * π / 4) γ0 ≤ φ1 ∧ φ1 ≤ 9 * π / 4 := k1
      have a2 : β ≤ φ2 ∧ φ2 ≤ max (5 * π / 4) γ3 := k2
      rw [if_neg (ge (by linarith))]; decide
    · have a1 : 9 * π / 4 ≤ φ1 ∧ φ1 ≤ β + 2 * π := k1
      have a2 : max (5 * π / 4) γ3 ≤ φ2 ∧ φ2 ≤ max (7 * π / 4) γ0 := k2
      rw [if_neg (ge (by linarith))]; decide
    · have a1 : β ≤ φ1 ∧ φ1 ≤ max (5 * π / 4) γ3 := k1
      have a2 : max (7 * π / 4) γ0 ≤ φ2 ∧ φ2 ≤ 9 * π / 4 := k2
      rw [if_pos (lt (by linarith))]; decide
  · fin_cases i1
    · have a1 : max (5 * π / 4) γ3 ≤ φ1 ∧ φ1 ≤ max (7 * π / 4) γ0 := k1
      have a2 : β ≤ φ2 ∧ φ2 ≤ max (5 * π / 4) γ3 := k2
      rw [if_neg (ge (by linarith))]; decide
    · have a1 : max (7 * π / 4) γ0 ≤ φ1 ∧ φ1 ≤ 9 * π / 4 := k1
      have a2 : max (5 * π / 4) γ3 ≤ φ2 ∧ φ2 ≤ max (7 * π / 4) γ0 := k2
      rw [if_neg (ge (by linarith))]; decide
    · have a1 : 9 * π / 4 ≤ φ1 ∧ φ1 ≤ β + 2 * π := k1
      have a2 : max (7 * π / 4) γ0 ≤ φ2 ∧ φ2 ≤ 9 * π / 4 := k2
      rw [if_neg (ge (by linarith))]; decide
    · have a1 : β ≤ φ1 ∧ φ1 ≤ max (5 * π / 4) γ3 := k1
      have a2 : 9 * π / 4 ≤ φ2 ∧ φ2 ≤ β + 2 * π := k2
      rw [if_pos (lt (by linarith))]; decide
  · rw [if_neg (ge (h4 rfl).le)]; fin_cases i1 <;> decide

theorem isConvex_iff (c : Cone ℝ) : c.isConvex = true ↔ 1 / 10 ^ 10 < cross c.dir1 c.dir2 := by
  rw [Cone.isConvex, isCcw, decide_eq_true_iff]
  simp only [orientationVal, collinearThreshold, cross]
  constructor <;> intro h <;> linarith

/-- Where the polygon and the cone are compared: no border case between the two directions. -/
theorem cone_order {d1 d2 : Pt ℝ}
    (hc : 1 / 10 ^ 10 < cross d1 d2 ∨ cross d1 d2 < 0 ∨ (cross d1 d2 = 0 ∧ dot d1 d2 < 0)) {i1 i2 : Fin 4} {r1 r2 φ1 φ2 : ℝ}
    (hr1 : 0 < r1) (hr2 : 0 < r2) (n1 : |φ1 - lineAngle i1| < π / 2) (n2 : |φ2 - lineAngle i2| < π / 2)
    (e1 : d1 = atAngle r1 φ1) (e2 : d2 = atAngle r2 φ2) {m : ℕ}
    (hi : i1 + Fin.ofNat 4 m = i2) (h0 : m = 0 ↔ 1 / 10 ^ 10 < cross d1 d2 ∧ i1 = i2) :
    (m = 0 → φ1 < φ2) ∧ (m = 4 → φ2 < φ1) := by
  have near : i1 = i2 → |φ2 - φ1| < π := by
    intro h
    rw [h] at n1
    rw [abs_lt] at *
    constructor <;> linarith
  constructor
  · intro h
    obtain ⟨g1, g2⟩ := h0.1 h
    subst e1 e2
    exact angle_lt_of_cross hr1 hr2 (near g2) (lt_trans (by norm_num) g1)
  · intro h
    have g2 : i1 = i2 := by
      rw [← hi, h]; fin_cases i1 <;> rfl
    have g1 : ¬ 1 / 10 ^ 10 < cross d1 d2 := fun hh => by have := h0.2 ⟨hh, g2⟩; omega
    have sw : cross d2 d1 = -cross d1 d2 := by simp only [cross]; ring
    have nr := near g2
    have nr' : |φ1 - φ2| < π := by rw [abs_sub_comm]; exact nr
    rcases hc with hh | hh | ⟨hh, hd⟩
    · exact absurd hh g1
    · have : 0 < cross d2 d1 := by rw [sw]; linarith
      rw [e1, e2] at this
      exact angle_lt_of_cross hr2 hr1 nr' this
    · exfalso
      rw [e1, e2] at hh hd
      have q1 := angle_le_of_cross hr1 hr2 nr hh.ge
      have q2 := angle_le_of_cross hr2 hr1 nr' (by rw [cross_atAngle] at hh ⊢; rw [← neg_sub, sin_neg]; linarith)
      have : φ1 = φ2 := le_antisymm q1 q2
      rw [dot_atAngle, this, sub_self, cos_zero] at hd
      have := mul_pos hr1 hr2
      linarith

/-- Away from all lines through the apex and a vertex, the parity of the crossed edges is membership in the cone. -/
theorem cone_generic {a d1 d2 p p1 p2 : Pt ℝ} {β γ3 γ0 γ1 : ℝ} (ha : InBox a) (hp : InBox p) (hA : BoxAngles a β γ3 γ0 γ1)
    (hc : 1 / 10 ^ 10 < cross d1 d2 ∨ cross d1 d2 < 0 ∨ (cross d1 d2 = 0 ∧ dot d1 d2 < 0))
    {i1 i2 : Fin 4} {m : ℕ} (hm : m ≤ 4) (hi : i1 + Fin.ofNat 4 m = i2) (h0 : m = 0 ↔ 1 / 10 ^ 10 < cross d1 d2 ∧ i1 = i2)
    (hl1 : OnBoxLine i1 p1) (hl2 : OnBoxLine i2 p2)
    {r1 r2 φ1 φ2 t1 t2 : ℝ} (hr1 : 0 < r1) (hr2 : 0 < r2) (ht1 : 0 < t1) (ht2 : 0 < t2)
    (q1 : p1 = a + t1 • d1) (q2 : p2 = a + t2 • d2)
    (n1 : |φ1 - lineAngle i1| < π / 2) (n2 : |φ2 - lineAngle i2| < π / 2) (e1 : d1 = atAngle r1 φ1) (e2 : d2 = atAngle r2 φ2)
    (k1 : ChosenAngle β γ3 γ0 i1 φ1) (k2 : ChosenAngle β γ3 γ0 i2 φ2)
    (g1 : cross (p1 - a) (p - a) ≠ 0) (g2 : cross (p2 - a) (p - a) ≠ 0) (gc : ∀ j, cross (boxCorner j - a) (p - a) ≠ 0)
    (v : List (Pt ℝ)) (hv : v = [a, p1] ++ ((List.range m).map fun k => boxCorner (i1 + Fin.ofNat 4 k)) ++ [p2]) :
    ∑ i ∈ Finset.range v.length, crossBit p (corner v i) (corner v (i + 1)) = 1 ↔ p - a ∈ sweep d1 d2 := by
  have hpi := pi_pos
  obtain ⟨b1, b1'⟩ := chosen_range hA k1
  obtain ⟨b2, b2'⟩ := chosen_range hA k2
  have w0 : p - a ≠ 0 := by
    intro h; apply g1; rw [h]; simp [cross]
  obtain ⟨t, θ, ht, h3, h3', ep⟩ := exists_angle β w0
  have h3s : β < θ := by
    refine lt_of_le_of_ne h3 fun h => gc 2 ?_
    obtain ⟨r, -, er⟩ := hA.c2
    rw [er, ep, ← h, cross_atAngle]; simp
  have sc : ∀ r s φ : ℝ, s • atAngle r φ = atAngle (s * r) φ := by
    intro r s φ; ext <;> simp [atAngle] <;> ring
  have f1 : p1 - a = atAngle (t1 * r1) φ1 := by rw [q1, e1, add_sub_cancel_left, sc]
  have f2 : p2 - a = atAngle (t2 * r2) φ2 := by rw [q2, e2, add_sub_cancel_left, sc]
  obtain ⟨o0, o4⟩ := cone_order hc hr1 hr2 n1 n2 e1 e2 hi h0
  have hne : ∀ k : ℤ, φ2 ≠ φ1 + k * (2 * π) := by
    intro k hk
    have hpos := mul_pos hr1 hr2
    have e : cross d1 d2 = 0 ∧ 0 < dot d1 d2 := by
      rw [e1, e2, hk, atAngle_add_int, cross_atAngle, dot_atAngle]; simpa using hpos
    rcases hc with h | h | ⟨h, h'⟩
    · rw [e.1] at h; norm_num at h
    · linarith [e.1]
    · linarith [e.2]
  have hne0 : φ1 ≠ φ2 := by
    intro h; apply hne 0; simp [h]
  have x1 : θ ≠ φ1 := by
    intro h; apply g1; rw [f1, ep, h, cross_atAngle]; simp
  have x2 : θ ≠ φ2 := by
    intro h; apply g2; rw [f2, ep, h, cross_atAngle]; simp
  rw [fan_parity ha hp hA hm hi hl1 hl2 (mul_pos ht1 hr1) (mul_pos ht2 hr2) ht f1 f2 ep n1 n2 b1 b1' b2 b2' h3s h3' g1 g2 gc v hv,
    visits_order hA k1 k2 hne0 hm hi o0 o4, ep, e1, e2, sweep_angles hr1 hr2 ht b1 b1' b2 b2' h3s h3' hne]
  unfold before
  rcases lt_or_gt_of_ne hne0 with h | h
  · rw [if_pos h, if_pos h]
    rcases lt_or_gt_of_ne x1 with y1 | y1 <;> rcases lt_or_gt_of_ne x2 with y2 | y2
    · rw [if_neg (by linarith), if_neg (by linarith)]
      exact ⟨fun hh => absurd hh (by decide), fun hh => by linarith [hh.1]⟩
    · linarith
    · rw [if_pos (by linarith), if_neg (by linarith)]
      exact ⟨fun _ => ⟨y1.le, y2.le⟩, fun _ => by decide⟩
    · rw [if_pos (by linarith), if_pos (by linarith)]
      exact ⟨fun hh => absurd hh (by decide), fun hh => by linarith [hh.2]⟩
  · rw [if_neg (not_lt.2 h.le), if_neg (not_lt.2 h.le)]
    rcases lt_or_gt_of_ne x1 with y1 | y1 <;> rcases lt_or_gt_of_ne x2 with y2 | y2
    · rw [if_neg (by linarith), if_neg (by linarith)]
      exact ⟨fun _ hh => by linarith [hh.1], fun _ => by decide⟩
    · rw [if_neg (by linarith), if_pos (by linarith)]
      exact ⟨fun hh => absurd hh (by decide), fun hh => absurd ⟨y2, y1⟩ hh⟩
    · linarith
    · rw [if_pos (by linarith), if_pos (by linarith)]
      exact ⟨fun _ hh => by linarith [hh.2], fun _ => by decide⟩

/-- A point of the box on the ray from `a` through a point of a line of the box is before that point. -/
theorem ray_in_box {a d p q : Pt ℝ} {i : Fin 4} {t s : ℝ} (ha : InBox a) (hp : InBox p) (ht : 0 < t) (hq : q = a + t • d)
    (hl : OnBoxLine i q) (hs : 0 ≤ s) (e : p - a = s • d) : OnSegment a q p := by
  have hst : s ≤ t := by
    by_contra hh
    push Not at hh
    obtain ⟨ha1, ha2⟩ := ha
    obtain ⟨hp1, hp2⟩ := hp
    rw [abs_lt] at ha1 ha2 hp1 hp2
    have x1 := congrArg Prod.fst e
    have x2 := congrArg Prod.snd e
    have y1 := congrArg Prod.fst hq
    have y2 := congrArg Prod.snd hq
    simp at x1 x2 y1 y2
    fin_cases i <;> simp only [OnBoxLine] at hl
    · have : d.2 < 0 := by by_contra h; push Not at h; nlinarith
      nlinarith
    · have : 0 < d.1 := by by_contra h; push Not at h; nlinarith
      nlinarith
    · have : 0 < d.2 := by by_contra h; push Not at h; nlinarith
      nlinarith
    · have : d.1 < 0 := by by_contra h; push Not at h; nlinarith
      nlinarith
  refine ⟨s / t, div_nonneg hs ht.le, (div_le_one ht).2 hst, ?_⟩
  rw [hq, add_sub_cancel_left, smul_smul, div_mul_cancel₀ _ ht.ne', ← e]
  simp

theorem ev_inBox {p : Pt ℝ} (hp : InBox p) (d : Pt ℝ) : ∀ᶠ ε in 𝓝[>] (0 : ℝ), InBox (p + ε • d) := by
  obtain ⟨hp1, hp2⟩ := hp
  rw [abs_lt] at hp1 hp2
  filter_upwards [ev_sign (10 ^ 6 - p.1) (-d.1), ev_sign (10 ^ 6 + p.1) (d.1), ev_sign (10 ^ 6 - p.2) (-d.2),
    ev_sign (10 ^ 6 + p.2) (d.2)] with ε h1 h2 h3 h4
  have := h1.1 (by linarith)
  have := h2.1 (by linarith)
  have := h3.1 (by linarith)
  have := h4.1 (by linarith)
  constructor <;> rw [abs_lt] <;> constructor <;> simp <;> linarith

/-- C91: inside the box the polygon of a cone is the cone, that is what is swept by turning the first direction
counter-clockwise into the second.  What is missing: points outside the box, where it is false
(`C91_outside_false`), thin cones, for which it is false (`C91_thin_false`), directions shorter than `10^-9` and apexes closer
than 1 to the border of the box, for which there may be no polygon (`C16_polygon_false`). -/
theorem C91_region_partial (c : Cone ℝ) (hx : |c.apex.1| ≤ 10 ^ 6 - 1) (hy : |c.apex.2| ≤ 10 ^ 6 - 1)
    (h1 : (1 / 10 ^ 9) ^ 2 ≤ normSq c.dir1) (h2 : (1 / 10 ^ 9) ^ 2 ≤ normSq c.dir2)
    (hc : 1 / 10 ^ 10 < cross c.dir1 c.dir2 ∨ cross c.dir1 c.dir2 < 0 ∨ (cross c.dir1 c.dir2 = 0 ∧ dot c.dir1 c.dir2 < 0))
    (fuel : Nat) (hf : 4 ≤ fuel) :
    ∃ v, conePolygon c fuel = .ok (some v) ∧ ∀ p, InBox p → (p ∈ filled v ↔ p - c.apex ∈ sweep c.dir1 c.dir2) := by
  have ha : InBox c.apex := ⟨by linarith, by linarith⟩
  obtain ⟨β, γ3, γ0, γ1, hA⟩ := box_angles ha
  obtain ⟨p1, p2, i1, i2, m, r1, r2, φ1, φ2, hv, hm, hi, h0, ⟨t1, ht1, q1⟩, l1, ⟨t2, ht2, q2⟩, l2, hr1, hr2, n1, n2, e1, e2, k1, k2⟩ :=
    conePolygon_angles c hx hy h1 h2 hA fuel hf
  rw [isConvex_iff] at h0
  refine ⟨_, hv, ?_⟩
  generalize hvv : [c.apex, p1] ++ ((List.range m).map fun i => boxCorner (i1 + Fin.ofNat 4 i)) ++ [p2] = v
  have hvv' := hvv.symm
  have hc' : 0 < cross c.dir1 c.dir2 ∨ cross c.dir1 c.dir2 < 0 ∨ (cross c.dir1 c.dir2 = 0 ∧ dot c.dir1 c.dir2 < 0) := by
    rcases hc with h | h
    · exact Or.inl (lt_trans (by norm_num) h)
    · exact Or.inr h
  intro p hp
  by_cases hr : OnRing v p
  · refine iff_of_true (Or.inr hr) ?_
    rcases (cone_ring hm hi l1 l2 hp v hvv').1 hr with ⟨s, hs, -, e⟩ | ⟨s, hs, -, e⟩
    · rw [e, q1]
      have : c.apex + s • (c.apex + t1 • c.dir1 - c.apex) - c.apex = (s * t1) • c.dir1 := by
        rw [add_sub_cancel_left, add_sub_cancel_left, smul_smul]
      rw [this]
      exact (sweep_smul_left hc' (by positivity)).1
    · rw [e, q2]
      have : c.apex + s • (c.apex + t2 • c.dir2 - c.apex) - c.apex = (s * t2) • c.dir2 := by
        rw [add_sub_cancel_left, add_sub_cancel_left, smul_smul]
      rw [this]
      exact (sweep_smul_left hc' (by positivity)).2
  · have s1 : ∀ s : ℝ, 0 ≤ s → p - c.apex ≠ s • c.dir1 := fun s hs e =>
      hr ((cone_ring hm hi l1 l2 hp v hvv').2 (Or.inl (ray_in_box ha hp ht1 q1 l1 hs e)))
    have s2 : ∀ s : ℝ, 0 ≤ s → p - c.apex ≠ s • c.dir2 := fun s hs e =>
      hr ((cone_ring hm hi l1 l2 hp v hvv').2 (Or.inr (ray_in_box ha hp ht2 q2 l2 hs e)))
    have nl : ∀ {j : Fin 4} {x : Pt ℝ}, OnBoxLine j x → x - c.apex ≠ 0 := by
      intro j x hj h
      rw [sub_eq_zero.1 h] at hj
      exact not_inBox_of_line hj ha
    obtain ⟨d, hd, hgen⟩ := generic_direction 6 (fun i => if i = 4 then p1 - c.apex else if i = 5 then p2 - c.apex else
      boxCorner (Fin.ofNat 4 i) - c.apex) (by
        intro i _
        split_ifs
        · exact nl l1
        · exact nl l2
        · exact nl (corner_line _).1)
    have E1 : ∀ᶠ ε in 𝓝[>] (0 : ℝ), ∀ i ∈ Finset.range v.length,
        (RayCrosses (corner v i) (corner v (i + 1)) (p + ε • d) ↔ RayCrosses (corner v i) (corner v (i + 1)) p) := by
      rw [Filter.eventually_all_finset]
      intro i hi
      exact ev_crosses (fun hs => hr ⟨i, Finset.mem_range.1 hi, hs⟩) hd
    have E2 : ∀ᶠ ε in 𝓝[>] (0 : ℝ), cross (p1 - c.apex) (p + ε • d - c.apex) ≠ 0 := by
      simp only [cross_move]
      exact ev_ne (by simpa using hgen 4 (by norm_num))
    have E3 : ∀ᶠ ε in 𝓝[>] (0 : ℝ), cross (p2 - c.apex) (p + ε • d - c.apex) ≠ 0 := by
      simp only [cross_move]
      exact ev_ne (by simpa using hgen 5 (by norm_num))
    have E4 : ∀ᶠ ε in 𝓝[>] (0 : ℝ), ∀ j : Fin 4, cross (boxCorner j - c.apex) (p + ε • d - c.apex) ≠ 0 := by
      rw [Filter.eventually_all]
      intro j
      simp only [cross_move]
      have := hgen j.1 (by omega)
      refine ev_ne ?_
      rw [if_neg (by omega), if_neg (by omega)] at this
      convert this using 3
      fin_cases j <;> rfl
    obtain ⟨ε, ⟨⟨⟨⟨g1, g2⟩, g3⟩, g4⟩, g5⟩, g6⟩ :=
      (((((E1.and E2).and E3).and E4).and (ev_inBox hp d)).and (ev_sweep hc' s1 s2 d)).exists
    have key := cone_generic ha g5 hA hc hm hi h0 l1 l2 hr1 hr2 ht1 ht2 q1 q2 n1 n2 e1 e2 k1 k2 g2 g3 g4 v hvv'
    have hsum : ∑ i ∈ Finset.range v.length, crossBit (p + ε • d) (corner v i) (corner v (i + 1)) =
        ∑ i ∈ Finset.range v.length, crossBit p (corner v i) (corner v (i + 1)) := by
      refine Finset.sum_congr rfl fun i hi => ?_
      unfold crossBit
      rw [g1 i hi]
    rw [hsum, ← inside_bits hr] at key
    have : p + ε • d - c.apex = p - c.apex + ε • d := by abel
    rw [this, g6] at key
    exact ⟨fun h => key.1 (h.resolve_right hr), fun h => Or.inl (key.2 h)⟩

/-- The sector of a direction whose angle does not fall on a corner angle is decided by `SectorOk`. -/
theorem sectorIdx_of {d : Pt ℝ} {i : Fin 4} (h : ∀ j, j ≠ i → ¬ SectorOk d j) : sectorIdx d = i := by
  by_contra hh
  exact h _ hh (sectorIdx_spec d)

/-- The polygon once the two intersection points are known. -/
theorem conePolygon_known {c : Cone ℝ} {p1 p2 : Pt ℝ} {i1 i2 : Fin 4} (s1 : sectorIdx c.dir1 = i1) (s2 : sectorIdx c.dir2 = i2)
    (h1 : c.ray1.rayIntersection (bbEdge i1) = some p1) (h2 : c.ray2.rayIntersection (bbEdge i2) = some p2)
    (hn : ¬ (c.isConvex = true ∧ i1 = i2)) {l : List (Pt ℝ)} {fuel : ℕ} (hl : cornerWalk i2 fuel i1 = some l) :
    conePolygon c fuel = .ok (some ([c.apex, p1] ++ l ++ [p2])) := by
  have b1 : borderPoint c.ray1 i1 = (some p1, i1) := by unfold borderPoint; rw [h1]
  have b2 : borderPoint c.ray2 i2 = (some p2, i2) := by unfold borderPoint; rw [h2]
  unfold conePolygon conePolygonVertices
  rw [s1, s2, b1, b2]
  have : (!(c.isConvex && decide (i1 = i2))) = true := by
    by_cases h : c.isConvex = true <;> by_cases h' : i1 = i2 <;> simp_all
  simp only [this, if_true, hl, Option.map_some]

/-- C91 is false outside the box: the polygon of a cone can leave the box, and then its ring meets itself and the polygon
has points that are not in the cone. -/
theorem C91_outside_false : ∃ c : Cone ℝ, |c.apex.1| ≤ 10 ^ 6 - 1 ∧ |c.apex.2| ≤ 10 ^ 6 - 1 ∧ (1 / 10 ^ 9) ^ 2 ≤ normSq c.dir1 ∧
    (1 / 10 ^ 9) ^ 2 ≤ normSq c.dir2 ∧ 1 / 10 ^ 10 < cross c.dir1 c.dir2 ∧ ∀ fuel, 4 ≤ fuel → ∃ v, conePolygon c fuel = .ok (some v) ∧
      v.length = 5 ∧ (∃ q, OnSegment (corner v 2) (corner v 3) q ∧ OnSegment (corner v 4) (corner v 5) q) ∧
      ∃ p, p ∈ filled v ∧ p - c.apex ∉ sweep c.dir1 c.dir2 := by
  have hcr : cross ((0, -1) : Pt ℝ) (3, 4) = 3 := by norm_num [cross]
  refine ⟨⟨(400000, 0), (0, -1), (3, 4)⟩, ?_, ?_, ?_, ?_, ?_, fun fuel hf => ?_⟩
  · norm_num
  · norm_num
  · norm_num [normSq]
  · norm_num [normSq]
  · norm_num [cross]
  · have s1 : sectorIdx (0, -1) = 0 := by
      apply sectorIdx_of
      intro j hj h
      fin_cases j <;> simp [SectorOk] at h hj <;> norm_num at h
    have s2 : sectorIdx (3, 4) = 2 := by
      apply sectorIdx_of
      intro j hj h
      fin_cases j <;> simp [SectorOk] at h hj <;> norm_num at h
    obtain ⟨f, rfl⟩ : ∃ f, fuel = f + 4 := ⟨fuel - 4, by omega⟩
    refine ⟨[(400000, 0), (400000, -1000000), (1000000, -1000000), (1000000, 1000000), (1150000, 1000000)], ?_, rfl,
      ⟨(1000000, 800000), ⟨9 / 10, by norm_num, by norm_num, ?_⟩, ⟨1 / 5, by norm_num, by norm_num, ?_⟩⟩, (1010000, 950000), ?_, ?_⟩
    · rw [conePolygon_known (p1 := (400000, -1000000)) (p2 := (1150000, 1000000)) (l := [bbCorner 0, bbCorner 1]) s1 s2 ?_ ?_ ?_ ?_]
      · simp [bbCorner, bbWidth]; norm_num
      · simp only [Cone.ray1, Line.rayIntersection, bbEdge, bbWidth]; norm_num
      · simp only [Cone.ray2, Line.rayIntersection, bbEdge, bbWidth]; norm_num
      · rintro ⟨-, h⟩; exact absurd h (by decide)
      · rfl
    · simp [corner]; norm_num
    · simp [corner]; norm_num
    · refine or_iff_not_imp_right.2 fun hr => (inside_bits hr).2 ?_
      simp only [List.length_cons, List.length_nil, Finset.sum_range_succ, Finset.sum_range_zero, crossBit, rayCrosses_signs, corner]
      norm_num [cross]
    · rw [sweep_convex (by rw [hcr]; norm_num)]
      rintro ⟨-, h⟩
      norm_num [cross] at h

/-- C91 is false for a thin cone: the second direction is counter-clockwise of the first by less than the threshold, and
the polygon is the whole box instead of the sector between the two directions. -/
theorem C91_thin_false : ∃ c : Cone ℝ, |c.apex.1| ≤ 10 ^ 6 - 1 ∧ |c.apex.2| ≤ 10 ^ 6 - 1 ∧ (1 / 10 ^ 9) ^ 2 ≤ normSq c.dir1 ∧
    (1 / 10 ^ 9) ^ 2 ≤ normSq c.dir2 ∧ 0 < cross c.dir1 c.dir2 ∧ ∀ fuel, 4 ≤ fuel → ∃ v, conePolygon c fuel = .ok (some v) ∧
      ∃ p, InBox p ∧ p ∈ filled v ∧ p - c.apex ∉ sweep c.dir1 c.dir2 := by
  have hcr : cross ((1, 0) : Pt ℝ) (1, 1 / 10 ^ 11) = 1 / 10 ^ 11 := by norm_num [cross]
  refine ⟨⟨(0, 0), (1, 0), (1, 1 / 10 ^ 11)⟩, ?_, ?_, ?_, ?_, ?_, fun fuel hf => ?_⟩
  · norm_num
  · norm_num
  · norm_num [normSq]
  · norm_num [normSq]
  · norm_num [cross]
  · have s1 : sectorIdx (1, 0) = 1 := by
      apply sectorIdx_of
      intro j hj h
      fin_cases j <;> simp [SectorOk] at h hj <;> norm_num at h
    have s2 : sectorIdx (1, 1 / 10 ^ 11) = 1 := by
      apply sectorIdx_of
      intro j hj h
      fin_cases j <;> simp [SectorOk] at h hj <;> norm_num at h
    obtain ⟨f, rfl⟩ : ∃ f, fuel = f + 4 := ⟨fuel - 4, by omega⟩
    refine ⟨[(0, 0), (1000000, 0), (1000000, 1000000), (-1000000, 1000000), (-1000000, -1000000), (1000000, -1000000),
      (1000000, 1 / 10 ^ 5)], ?_, (0, 1), by norm_num [InBox], ?_, ?_⟩
    · rw [conePolygon_known (p1 := (1000000, 0)) (p2 := (1000000, 1 / 10 ^ 5)) (l := [bbCorner 1, bbCorner 2, bbCorner 3, bbCorner 0]) s1 s2 ?_ ?_ ?_ ?_]
      · simp [bbCorner, bbWidth]; norm_num
      · simp only [Cone.ray1, Line.rayIntersection, bbEdge, bbWidth]; norm_num
      · simp only [Cone.ray2, Line.rayIntersection, bbEdge, bbWidth]; norm_num
      · rintro ⟨h, -⟩
        rw [isConvex_iff, hcr] at h
        norm_num at h
      · rfl
    · refine or_iff_not_imp_right.2 fun hr => (inside_bits hr).2 ?_
      simp only [List.length_cons, List.length_nil, Finset.sum_range_succ, Finset.sum_range_zero, crossBit, rayCrosses_signs, corner]
      norm_num [cross]
    · rw [sweep_convex (by rw [hcr]; norm_num)]
      rintro ⟨-, h⟩
      norm_num [cross] at h

/-- A concrete case of `C91_region_partial`: a convex cone, a point of it and a point that is not in it. -/
example : ∃ v, conePolygon ⟨(3, -5), (1, 2), (-2, 1)⟩ 4 = .ok (some v) ∧ ((3, 0) : Pt ℝ) ∈ filled v ∧ ((3, -6) : Pt ℝ) ∉ filled v := by
  have hcr : cross ((1, 2) : Pt ℝ) (-2, 1) = 5 := by norm_num [cross]
  obtain ⟨v, h1, h2⟩ := C91_region_partial ⟨(3, -5), (1, 2), (-2, 1)⟩ (by norm_num) (by norm_num) (by norm_num [normSq])
    (by norm_num [normSq]) (Or.inl (by rw [hcr]; norm_num)) 4 le_rfl
  refine ⟨v, h1, (h2 _ (by norm_num [InBox])).2 ?_, fun h => ?_⟩
  · rw [sweep_convex (by rw [hcr]; norm_num)]; norm_num [cross]
  · have := (h2 _ (by norm_num [InBox])).1 h
    rw [sweep_convex (by rw [hcr]; norm_num)] at this
    norm_num [cross] at this

/-- A concrete case of `C91_region_partial`: the complementary cone, which is not convex. -/
example : ∃ v, conePolygon ⟨(3, -5), (-2, 1), (1, 2)⟩ 4 = .ok (some v) ∧ ((3, 0) : Pt ℝ) ∉ filled v ∧ ((3, -6) : Pt ℝ) ∈ filled v := by
  have hcr : cross ((-2, 1) : Pt ℝ) (1, 2) = -5 := by norm_num [cross]
  obtain ⟨v, h1, h2⟩ := C91_region_partial ⟨(3, -5), (-2, 1), (1, 2)⟩ (by norm_num) (by norm_num) (by norm_num [normSq])
    (by norm_num [normSq]) (Or.inr (Or.inl (by rw [hcr]; norm_num))) 4 le_rfl
  refine ⟨v, h1, fun h => ?_, (h2 _ (by norm_num [InBox])).2 ?_⟩
  · have := (h2 _ (by norm_num [InBox])).1 h
    rw [sweep_reflex (by rw [hcr]; norm_num)] at this
    norm_num [cross] at this
  · rw [sweep_reflex (by rw [hcr]; norm_num)]; norm_num [cross]

end Starworlds
