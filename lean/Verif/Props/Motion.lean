import Verif.Proofs.Motion

/-! # C46-C49: motion models -/

namespace Starworlds

open Real Spec

/-! ## C46 -/

/-- C46: a Static motion model never changes position or rotation. -/
theorem C46_static (s : MotionState) (dts : List ℝ) :
    ∃ s', runMoves .static s dts = .ok s' ∧ s'.pos = s.pos ∧ s'.rot = s.rot := by
  induction dts generalizing s with
  | nil => exact ⟨s, rfl, rfl, rfl⟩
  | cons dt dts ih =>
    obtain ⟨s', h, h1, h2⟩ := ih { s with t := s.t + dt }
    refine ⟨s', ?_, h1, h2⟩
    simp only [runMoves, motionMove, linVel, rotVel]
    have e : ({ s with pos := s.pos + dt • ((0, 0) : Pt ℝ), rot := s.rot + 0 * dt, t := s.t + dt } : MotionState)
        = { s with t := s.t + dt } := by
      congr 1
      · ext <;> simp
      · ring
    rw [e]; exact h

/-- C46: a static model keeps the position and the rotation it was made with. -/
theorem C46_constructed (pos : Pt ℝ) (rot : ℝ) (dts : List ℝ) :
    ∃ s, runMoves .static (initState pos rot) dts = .ok s ∧ s.pos = pos ∧ s.rot = rot :=
  C46_static (initState pos rot) dts

/-- Turned by 1 at (2, 3), after three steps. -/
example : ∃ s, runMoves .static (initState (2, 3) 1) [1, 2, 1 / 2] = .ok s ∧ s.pos = (2, 3) ∧ s.rot = 1 :=
  C46_constructed (2, 3) 1 _

/-! ## C49 -/

/-- C49, cartesian: one step keeps the rotation, moves at most `|x1_mag| * |dt|` in the first and
`|x2_mag| * |dt|` in the second coordinate. -/
theorem C49_cartesian_step (m1 p1 m2 p2 : ℝ) (s : MotionState) (dt : ℝ) :
    ∃ s', motionMove (.sinus true m1 p1 m2 p2) s dt = .ok s' ∧ s'.rot = s.rot ∧ s'.t = s.t + dt ∧
      |s'.pos.1 - s.pos.1| ≤ |m1| * |dt| ∧ |s'.pos.2 - s.pos.2| ≤ |m2| * |dt| := by
  refine ⟨_, rfl, ?_, rfl, ?_, ?_⟩
  · simp [rotVel]
  · simp only [Prod.fst_add, Prod.smul_fst, smul_eq_mul, add_sub_cancel_left, abs_mul]
    nlinarith [abs_nonneg m1, abs_nonneg dt, abs_cos_le_one (sinusFreq p1 * s.t),
      mul_nonneg (abs_nonneg m1) (abs_nonneg dt), abs_nonneg (cos (sinusFreq p1 * s.t)),
      mul_le_mul_of_nonneg_left (abs_cos_le_one (sinusFreq p1 * s.t)) (mul_nonneg (abs_nonneg m1) (abs_nonneg dt))]
  · simp only [Prod.snd_add, Prod.smul_snd, smul_eq_mul, add_sub_cancel_left, abs_mul]
    nlinarith [mul_le_mul_of_nonneg_left (abs_cos_le_one (sinusFreq p2 * s.t)) (mul_nonneg (abs_nonneg m2) (abs_nonneg dt))]

/-- C49, cartesian, whole runs: the rotation never changes and the total displacement per axis is at
most the magnitude times the total time. -/
theorem C49_cartesian_run (m1 p1 m2 p2 : ℝ) (s : MotionState) (dts : List ℝ) :
    ∃ s', runMoves (.sinus true m1 p1 m2 p2) s dts = .ok s' ∧ s'.rot = s.rot ∧ s'.t = s.t + dts.sum ∧
      |s'.pos.1 - s.pos.1| ≤ |m1| * (dts.map abs).sum ∧ |s'.pos.2 - s.pos.2| ≤ |m2| * (dts.map abs).sum := by
  induction dts generalizing s with
  | nil => exact ⟨s, rfl, rfl, by simp, by simp, by simp⟩
  | cons dt dts ih =>
    obtain ⟨s1, e1, r1, t1, x1, y1⟩ := C49_cartesian_step m1 p1 m2 p2 s dt
    obtain ⟨s2, e2, r2, t2, x2, y2⟩ := ih s1
    refine ⟨s2, ?_, r2.trans r1, ?_, ?_, ?_⟩
    · simp only [runMoves, e1, e2]
    · rw [t2, t1, List.sum_cons]; ring
    · rw [List.map_cons, List.sum_cons]
      have := abs_sub_le s2.pos.1 s1.pos.1 s.pos.1
      nlinarith
    · rw [List.map_cons, List.sum_cons]
      have := abs_sub_le s2.pos.2 s1.pos.2 s.pos.2
      nlinarith

/-- C49, polar: the displacement of one step is along the current heading with length at most
`|x1_mag| * |dt|`, and the rotation changes by at most `|x2_mag| * |dt|`. -/
theorem C49_polar_step (m1 p1 m2 p2 : ℝ) (s : MotionState) (dt : ℝ) :
    ∃ s', motionMove (.sinus false m1 p1 m2 p2) s dt = .ok s' ∧ s'.t = s.t + dt ∧
      (∃ v, |v| ≤ |m1| ∧ s'.pos = s.pos + (dt * v) • ((cos s.rot, sin s.rot) : Pt ℝ)) ∧
      |s'.rot - s.rot| ≤ |m2| * |dt| := by
  refine ⟨_, rfl, rfl, ⟨m1 * cos (sinusFreq p1 * s.t), ?_, ?_⟩, ?_⟩
  · rw [abs_mul]
    nlinarith [abs_nonneg m1, abs_cos_le_one (sinusFreq p1 * s.t)]
  · ext
    · simp only [Prod.fst_add, Prod.smul_fst, smul_eq_mul]; ring
    · simp only [Prod.snd_add, Prod.smul_snd, smul_eq_mul]; ring
  · simp only [rotVel, add_sub_cancel_left, abs_mul]
    nlinarith [mul_le_mul_of_nonneg_left (abs_cos_le_one (sinusFreq p2 * s.t)) (mul_nonneg (abs_nonneg m2) (abs_nonneg dt))]

/-- C49, polar, whole runs: total turning and total distance travelled are bounded by the magnitudes. -/
theorem C49_polar_run (m1 p1 m2 p2 : ℝ) (s : MotionState) (dts : List ℝ) :
    ∃ s', runMoves (.sinus false m1 p1 m2 p2) s dts = .ok s' ∧
      |s'.rot - s.rot| ≤ |m2| * (dts.map abs).sum ∧
      |s'.pos.1 - s.pos.1| ≤ |m1| * (dts.map abs).sum ∧ |s'.pos.2 - s.pos.2| ≤ |m1| * (dts.map abs).sum := by
  induction dts generalizing s with
  | nil => exact ⟨s, rfl, by simp, by simp, by simp⟩
  | cons dt dts ih =>
    obtain ⟨s1, e1, _, ⟨v, hv, hp⟩, r1⟩ := C49_polar_step m1 p1 m2 p2 s dt
    obtain ⟨s2, e2, r2, x2, y2⟩ := ih s1
    have b : ∀ c : ℝ, |c| ≤ 1 → |dt * v * c| ≤ |m1| * |dt| := by
      intro c hc
      rw [abs_mul, abs_mul]
      have h1 : |dt| * |v| * |c| ≤ |dt| * |v| * 1 :=
        mul_le_mul_of_nonneg_left hc (mul_nonneg (abs_nonneg _) (abs_nonneg _))
      have h2 : |dt| * |v| ≤ |dt| * |m1| := mul_le_mul_of_nonneg_left hv (abs_nonneg _)
      linarith
    have x1 : |s1.pos.1 - s.pos.1| ≤ |m1| * |dt| := by
      rw [hp]; simp only [Prod.fst_add, Prod.smul_fst, smul_eq_mul, add_sub_cancel_left]
      exact b _ (abs_cos_le_one _)
    have y1 : |s1.pos.2 - s.pos.2| ≤ |m1| * |dt| := by
      rw [hp]; simp only [Prod.snd_add, Prod.smul_snd, smul_eq_mul, add_sub_cancel_left]
      exact b _ (abs_sin_le_one _)
    refine ⟨s2, ?_, ?_, ?_, ?_⟩
    · simp only [runMoves, e1, e2]
    · rw [List.map_cons, List.sum_cons]
      have := abs_sub_le s2.rot s1.rot s.rot
      nlinarith
    · rw [List.map_cons, List.sum_cons]
      have := abs_sub_le s2.pos.1 s1.pos.1 s.pos.1
      nlinarith
    · rw [List.map_cons, List.sum_cons]
      have := abs_sub_le s2.pos.2 s1.pos.2 s.pos.2
      nlinarith

/-- The bound is reached: a first step of an obstacle with `x1_mag = 2` and no period. -/
example : ∃ s', motionMove (.sinus true 2 0 0 0) (initState (0, 0) 0) 3 = .ok s' ∧ s'.pos = (6, 0) := by
  refine ⟨_, rfl, ?_⟩
  simp [initState, sinusFreq]; norm_num

/-! ## C47 -/

/-- C47: with a positive threshold `lin_vel` returns (it neither diverges nor divides by zero); the
result is the zero vector or has length `|vel|`; the index does not decrease and stays within the
list; the pose is untouched; and asking again gives the same value and the same state. -/
theorem C47_lin_vel (wps : List (Pt ℝ)) (vel th : ℝ) (hth : 0 < th) (s : MotionState)
    (hidx : s.wpIdx ≤ wps.length) :
    ∃ v s', linVel (.waypoints wps vel th) s = .ok (v, s') ∧
      (v = (0, 0) ∨ norm2 v = |vel|) ∧ s.wpIdx ≤ s'.wpIdx ∧ s'.wpIdx ≤ wps.length ∧
      s'.pos = s.pos ∧ s'.rot = s.rot ∧ s'.t = s.t ∧
      linVel (.waypoints wps vel th) s' = .ok (v, s') := by
  have key : ∀ (ws : List (Pt ℝ)) (idx : Nat), wps.drop idx = ws → idx ≤ wps.length →
      ∃ v idx', wpLinVel vel th s.pos ws idx = .ok (v, idx') ∧ (v = (0, 0) ∨ norm2 v = |vel|) ∧
        idx ≤ idx' ∧ idx' ≤ wps.length ∧ wpLinVel vel th s.pos (wps.drop idx') idx' = .ok (v, idx') := by
    intro ws
    induction ws with
    | nil =>
      intro idx hd hi
      exact ⟨(0, 0), idx, rfl, Or.inl rfl, le_refl _, hi, by rw [hd]; rfl⟩
    | cons w ws ih =>
      intro idx hd hi
      by_cases hlt : norm2 (w - s.pos) < th
      · have hi' : idx < wps.length := by
          rcases Nat.lt_or_ge idx wps.length with h | h
          · exact h
          · rw [List.drop_eq_nil_of_le h] at hd; cases hd
        have hd' : wps.drop (idx + 1) = ws := by
          rw [← List.drop_drop, hd]; rfl
        obtain ⟨v, idx', h1, h2, h3, h4, h5⟩ := ih (idx + 1) hd' (by omega)
        refine ⟨v, idx', ?_, h2, by omega, h4, h5⟩
        simp only [wpLinVel, hlt, if_true]
        exact h1
      · have hne : norm2 (w - s.pos) ≠ 0 := by intro h; rw [h] at hlt; exact hlt hth
        have e : wpLinVel vel th s.pos (w :: ws) idx =
            .ok (vel • ((w - s.pos).1 / norm2 (w - s.pos), (w - s.pos).2 / norm2 (w - s.pos)), idx) := by
          simp only [wpLinVel, hlt, if_false, divPt, hne]
        refine ⟨_, idx, e, Or.inr ?_, le_refl _, hi, by rw [hd]; exact e⟩
        rw [norm2_smul, norm2_unit hne, mul_one]
  obtain ⟨v, idx', h1, h2, h3, h4, h5⟩ := key _ s.wpIdx rfl hidx
  refine ⟨v, { s with wpIdx := idx' }, ?_, h2, h3, h4, rfl, rfl, rfl, ?_⟩
  · simp only [linVel, h1]
  · simp only [linVel, h5]

/-- C47: every run of `move` calls succeeds, keeps the rotation, never decreases the waypoint index
and never lets it exceed the number of waypoints. -/
theorem C47_run (wps : List (Pt ℝ)) (vel th : ℝ) (hth : 0 < th) (s : MotionState)
    (hidx : s.wpIdx ≤ wps.length) (dts : List ℝ) :
    ∃ s', runMoves (.waypoints wps vel th) s dts = .ok s' ∧ s.wpIdx ≤ s'.wpIdx ∧ s'.wpIdx ≤ wps.length ∧
      s'.rot = s.rot := by
  induction dts generalizing s with
  | nil => exact ⟨s, rfl, le_refl _, hidx, rfl⟩
  | cons dt dts ih =>
    obtain ⟨v, s1, e, _, h1, h2, _, h4, _, _⟩ := C47_lin_vel wps vel th hth s hidx
    obtain ⟨s2, e2, g1, g2, g3⟩ := ih { s1 with pos := s1.pos + dt • v, rot := s1.rot + rotVel (.waypoints wps vel th) s1 * dt, t := s1.t + dt } h2
    refine ⟨s2, ?_, h1.trans g1, g2, ?_⟩
    · simp only [runMoves, motionMove, e, e2]
    · rw [g3]; simp [rotVel, h4]

/-- C47: once the index has passed the last waypoint the obstacle never moves again (whatever the
threshold and speed). -/
theorem C47_rest (wps : List (Pt ℝ)) (vel th : ℝ) (s : MotionState) (hidx : wps.length ≤ s.wpIdx)
    (dts : List ℝ) :
    ∃ s', runMoves (.waypoints wps vel th) s dts = .ok s' ∧ s'.pos = s.pos ∧ s'.rot = s.rot := by
  induction dts generalizing s with
  | nil => exact ⟨s, rfl, rfl, rfl⟩
  | cons dt dts ih =>
    have e : linVel (.waypoints wps vel th) s = .ok ((0, 0), s) := by
      simp only [linVel, List.drop_eq_nil_of_le hidx, wpLinVel]
    obtain ⟨s', h, h1, h2⟩ := ih { s with pos := s.pos + dt • ((0, 0) : Pt ℝ), rot := s.rot + rotVel (.waypoints wps vel th) s * dt, t := s.t + dt } hidx
    refine ⟨s', ?_, ?_, ?_⟩
    · simp only [runMoves, motionMove, e, h]
    · rw [h1]; ext <;> simp
    · rw [h2]; simp [rotVel]

/-- C47: while the obstacle is moving, it moves towards the waypoint of the (new) index, which is at
distance at least the threshold. -/
theorem C47_direction (wps : List (Pt ℝ)) (vel th : ℝ) (hth : 0 < th) (s s' : MotionState) (v : Pt ℝ)
    (h : linVel (.waypoints wps vel th) s = .ok (v, s')) (hlt : s'.wpIdx < wps.length) :
    th ≤ norm2 (wps[s'.wpIdx] - s.pos) ∧
      norm2 (wps[s'.wpIdx] - s.pos) • v = vel • (wps[s'.wpIdx] - s.pos) := by
  have key : ∀ (ws : List (Pt ℝ)) (idx idx' : Nat) (v : Pt ℝ), wps.drop idx = ws →
      wpLinVel vel th s.pos ws idx = .ok (v, idx') → ∀ hl : idx' < wps.length,
        th ≤ norm2 (wps[idx'] - s.pos) ∧ norm2 (wps[idx'] - s.pos) • v = vel • (wps[idx'] - s.pos) := by
    intro ws
    induction ws with
    | nil =>
      intro idx idx' v hd h hl
      simp only [wpLinVel, Except.ok.injEq, Prod.mk.injEq] at h
      obtain ⟨rfl, rfl⟩ := h
      have := congrArg List.length hd
      simp at this; omega
    | cons w ws ih =>
      intro idx idx' v hd h hl
      simp only [wpLinVel] at h
      split at h
      · refine ih (idx + 1) idx' v ?_ h hl
        rw [← List.drop_drop, hd]; rfl
      · rename_i hnl
        have hne : norm2 (w - s.pos) ≠ 0 := by intro h0; rw [h0] at hnl; exact hnl hth
        simp only [divPt, hne, if_false, Except.ok.injEq, Prod.mk.injEq] at h
        obtain ⟨rfl, rfl⟩ := h
        have hw : wps[idx] = w := by
          have h0 : (wps.drop idx)[0]? = some w := by rw [hd]; rfl
          rw [List.getElem?_drop, add_zero, List.getElem?_eq_getElem hl] at h0
          exact Option.some.inj h0
        rw [hw]
        refine ⟨not_lt.1 hnl, ?_⟩
        ext
        · simp only [Prod.smul_fst, smul_eq_mul]; field_simp
        · simp only [Prod.smul_snd, smul_eq_mul]; field_simp
  simp only [linVel] at h
  split at h
  · cases h
  · rename_i v1 idx1 h1
    simp only [Except.ok.injEq, Prod.mk.injEq] at h
    obtain ⟨rfl, rfl⟩ := h
    exact key _ _ _ _ rfl h1 hlt

/-- C47: the positive threshold is needed: with `wp_thresh = 0` the very first call divides by zero. -/
theorem C47_zero_threshold (p : Pt ℝ) (ws : List (Pt ℝ)) (vel : ℝ) :
    linVel (.waypoints (p :: ws) vel 0) (initState p 0) = .error .nonFinite := by
  simp [linVel, initState, wpLinVel, divPt, norm2]

/-- A concrete case: an obstacle at the first waypoint heads for the second. -/
example : linVel (.waypoints [(0, 0), (4, 0)] 2 (1 / 5)) (initState (0, 0) 0) =
    .ok ((2, 0), ⟨(0, 0), 0, 0, 1⟩) := by
  have h4 : norm2 ((4, 0) : Pt ℝ) = 4 := by
    rw [norm2, show ((4 : ℝ) ^ 2 + 0 ^ 2) = 4 ^ 2 by norm_num, sqrt_sq (by norm_num)]
  have h0 : norm2 (0 : Pt ℝ) = 0 := by simp [norm2]
  simp [linVel, initState, wpLinVel, divPt, h4, h0]
  rw [if_neg (by norm_num)]

/-! ## C48 -/

/-- At a scheduled time the interpolated position is the scheduled point. -/
theorem onSchedule_at {p0 : Pt ℝ} {tp : List (ℝ × Pt ℝ)} (hpos : ∀ e ∈ tp, 0 < e.1) {p : Pt ℝ} {j : Nat}
    (hj : j ≤ tp.length) (h : OnSchedule p0 tp (schedTime tp j) p) : p = schedPos p0 tp j := by
  obtain ⟨k, hk, h1, h2, rfl⟩ := h
  have hlt := schedTime_lt hpos (Nat.lt_succ_self k) (by omega)
  have hjk : j = k ∨ j = k + 1 := by
    rcases Nat.lt_trichotomy j k with h | h | h
    · have := schedTime_lt hpos h (by omega); linarith
    · exact Or.inl h
    · rcases Nat.lt_or_ge (k + 1) j with h' | h'
      · have := schedTime_lt hpos h' hj; linarith
      · exact Or.inr (by omega)
  rcases hjk with rfl | rfl
  · simp
  · have hne : schedTime tp (k + 1) - schedTime tp k ≠ 0 := by linarith
    rw [div_self hne, one_smul]; abel

/-- C48, the true part about the schedule: with positive durations, for every sequence of positive
time steps that hits the schedule's time points (no step jumps over one) and does not run past the
last one, all moves succeed and the position at the elapsed time is the scheduled one; in particular
at each scheduled time the obstacle is at the scheduled point.  (Missing with respect to C48: resting at
the last point, which is false, see `C48_stop_false`.) -/
theorem C48_schedule_partial (p0 : Pt ℝ) (tp : List (ℝ × Pt ℝ)) (hne : tp ≠ []) (hpos : ∀ e ∈ tp, 0 < e.1)
    (dts : List ℝ) (hdt : ∀ d ∈ dts, 0 < d)
    (hal : ∀ pre dt post, dts = pre ++ dt :: post → ∀ k ≤ tp.length,
      pre.sum < schedTime tp k → pre.sum + dt ≤ schedTime tp k)
    (htot : dts.sum ≤ schedTime tp tp.length) :
    ∃ s, runMoves (.interval p0 tp) (initState p0 0) dts = .ok s ∧ s.t = dts.sum ∧
      OnSchedule p0 tp dts.sum s.pos ∧
      ∀ j ≤ tp.length, dts.sum = schedTime tp j → s.pos = schedPos p0 tp j := by
  suffices H : ∃ s, runMoves (.interval p0 tp) (initState p0 0) dts = .ok s ∧ s.t = dts.sum ∧
      OnSchedule p0 tp dts.sum s.pos by
    obtain ⟨s, h1, h2, h3⟩ := H
    exact ⟨s, h1, h2, h3, fun j hj e => onSchedule_at hpos hj (e ▸ h3)⟩
  induction dts using List.reverseRecOn with
  | nil =>
    have hl : 0 < tp.length := List.length_pos_of_ne_nil hne
    have h01 := schedTime_lt hpos (Nat.lt_succ_self 0) hl
    have h0 : schedTime tp 0 = 0 := by simp [schedTime]
    refine ⟨initState p0 0, rfl, rfl, 0, hl, by simp [h0], by rw [h0] at h01; simpa using h01.le, ?_⟩
    simp [h0, initState, schedPos]
  | append_singleton dts dt ih =>
    have hsum : (dts ++ [dt]).sum = dts.sum + dt := by simp
    have hdtp : 0 < dt := hdt dt (by simp)
    obtain ⟨s, e, ht, k, hk, h1, h2, hp⟩ := ih (fun d hd => hdt d (by simp [hd]))
      (by
        intro pre d post hpre k hk hlt
        exact hal pre d (post ++ [dt]) (by rw [hpre]; simp) k hk hlt)
      (by rw [hsum] at htot; linarith)
    -- a leg that contains the current time strictly before its end
    have hleg : ∃ k, k < tp.length ∧ schedTime tp k ≤ dts.sum ∧ dts.sum < schedTime tp (k + 1) ∧
        s.pos = schedPos p0 tp k + ((dts.sum - schedTime tp k) / (schedTime tp (k + 1) - schedTime tp k)) •
          (schedPos p0 tp (k + 1) - schedPos p0 tp k) := by
      rcases lt_or_eq_of_le h2 with h | h
      · exact ⟨k, hk, h1, h, hp⟩
      · have hk' : k + 1 < tp.length := by
          rcases Nat.lt_or_ge (k + 1) tp.length with h' | h'
          · exact h'
          · have : k + 1 = tp.length := by omega
            rw [this] at h
            rw [hsum] at htot
            linarith
        have hlt := schedTime_lt hpos (Nat.lt_succ_self k) (by omega)
        have hlt' := schedTime_lt hpos (Nat.lt_succ_self (k + 1)) (by omega)
        refine ⟨k + 1, hk', h.ge, by rw [h]; exact hlt', ?_⟩
        rw [hp, h]
        have hne : schedTime tp (k + 1) - schedTime tp k ≠ 0 := by linarith
        rw [div_self hne, one_smul, sub_self, zero_div, zero_smul]
        abel
    obtain ⟨k, hk, h1, h2, hp⟩ := hleg
    have hle : dts.sum + dt ≤ schedTime tp (k + 1) := hal dts dt [] rfl (k + 1) (by omega) h2
    have hv := intervalLinVel_leg (p0 := p0) hpos hk (by rw [ht]; exact h1 : schedTime tp k ≤ s.t) (by rw [ht]; exact h2) s.pos
    refine ⟨{ s with
        pos := s.pos + dt • ((schedTime tp (k + 1) - schedTime tp k)⁻¹ • (schedPos p0 tp (k + 1) - schedPos p0 tp k)),
        rot := s.rot + 0 * dt, t := s.t + dt }, ?_, ?_, ?_⟩
    · rw [runMoves_append, e]
      simp only [runMoves, motionMove, linVel, hv, rotVel]
    · simp only []; rw [ht, hsum]
    · rw [hsum]
      refine ⟨k, hk, by linarith, hle, ?_⟩
      simp only []
      rw [hp, smul_smul, add_assoc, ← add_smul]
      congr 2
      rw [div_eq_mul_inv, div_eq_mul_inv]; ring

/-- What the code does exactly at the end time `T` of the schedule: no later time point is found,
`argmax` of an all-false array is 0, and the velocity is the mean velocity `(p_last - p_0) / T` of the
whole schedule instead of zero. -/
theorem C48_at_end (p0 : Pt ℝ) (tp : List (ℝ × Pt ℝ)) (hne : tp ≠ []) (hpos : ∀ e ∈ tp, 0 < e.1)
    (pos : Pt ℝ) :
    intervalLinVel p0 tp (schedTime tp tp.length) pos =
      .ok ((schedTime tp tp.length)⁻¹ • (schedPos p0 tp tp.length - p0)) := by
  have hl := intervalTime_length tp
  have hp := intervalPos_length p0 tp
  have hlp : 0 < tp.length := List.length_pos_of_ne_nil hne
  have h0 : schedTime tp 0 = 0 := by simp [schedTime]
  have hT := schedTime_lt hpos hlp (le_refl _)
  rw [h0] at hT
  have ha : argmaxTrue ((intervalTime tp).map fun x => decide (schedTime tp tp.length < x)) = 0 := by
    unfold argmaxTrue
    rw [List.findIdx?_eq_none_iff.2]
    intro b hb
    obtain ⟨x, hx, rfl⟩ := List.mem_map.1 hb
    obtain ⟨i, hi, rfl⟩ := List.getElem_of_mem hx
    rw [intervalTime_get]
    simpa using schedTime_le hpos (show i ≤ tp.length by omega) (le_refl _)
  unfold intervalLinVel
  rw [pyIdx_last _ tp.length (by omega)]
  simp only [intervalTime_get, bind, Except.bind]
  rw [if_neg (lt_irrefl _), ha]
  rw [show (((0 : Nat) : Int) - 1) = -1 by omega]
  rw [pyIdx_nat _ 0 (by omega), pyIdx_last _ tp.length (by omega), pyIdx_nat _ 0 (by omega),
    pyIdx_last _ tp.length (by omega)]
  simp only [intervalTime_get, intervalPos_get]
  rw [divPt, h0, if_neg (by linarith : ¬ 0 - schedTime tp tp.length = 0)]
  have hs : schedPos p0 tp 0 = p0 := by simp [schedPos]
  rw [hs]
  congr 1
  have hT' := hT.ne'
  ext
  · simp only [Prod.fst_sub, Prod.smul_fst, smul_eq_mul, zero_sub]; field_simp; ring
  · simp only [Prod.snd_sub, Prod.smul_snd, smul_eq_mul, zero_sub]; field_simp; ring

/-- C48 is false of the code at the end of the schedule: whenever the last point differs from the
initial position, an obstacle that is at the last point exactly at the last time leaves it with the next
positive step. -/
theorem C48_stop_false (p0 : Pt ℝ) (tp : List (ℝ × Pt ℝ)) (hne : tp ≠ []) (hpos : ∀ e ∈ tp, 0 < e.1)
    (hlast : schedPos p0 tp tp.length ≠ p0) (s : MotionState) (ht : s.t = schedTime tp tp.length)
    (hp : s.pos = schedPos p0 tp tp.length) (dt : ℝ) (hdt : 0 < dt) :
    ∃ s', motionMove (.interval p0 tp) s dt = .ok s' ∧ s'.pos ≠ schedPos p0 tp tp.length := by
  have hv := C48_at_end p0 tp hne hpos s.pos
  rw [← ht] at hv
  refine ⟨_, by simp only [motionMove, linVel, hv]; rfl, ?_⟩
  simp only []
  rw [hp]
  intro h
  have hlp : 0 < tp.length := List.length_pos_of_ne_nil hne
  have h0 : schedTime tp 0 = 0 := by simp [schedTime]
  have hT := schedTime_lt hpos hlp (le_refl _)
  rw [h0, ← ht] at hT
  have h' : dt • (s.t⁻¹ • (schedPos p0 tp tp.length - p0)) = 0 := by simpa using h
  rw [smul_smul] at h'
  rcases smul_eq_zero.1 h' with h' | h'
  · exact (mul_pos hdt (inv_pos.2 hT)).ne' h'
  · exact hlast (sub_eq_zero.1 h')

/-- The run of the smallest schedule: at `(1,0)` at time 1 as scheduled, at `(2,0)` at time 2. -/
theorem C48_stop_witness_false :
    ∃ s1 s2, schedTime [((1 : ℝ), ((1, 0) : Pt ℝ))] 1 = 1 ∧ schedPos (0, 0) [((1 : ℝ), ((1, 0) : Pt ℝ))] 1 = (1, 0) ∧
    runMoves (.interval (0, 0) [(1, (1, 0))]) (initState (0, 0) 0) [1] = .ok s1 ∧ s1.pos = (1, 0) ∧
    runMoves (.interval (0, 0) [(1, (1, 0))]) (initState (0, 0) 0) [1, 1] = .ok s2 ∧ s2.pos = (2, 0) := by
  have hpos : ∀ e ∈ [((1 : ℝ), ((1, 0) : Pt ℝ))], 0 < e.1 := by simp
  have t0 : schedTime [((1 : ℝ), ((1, 0) : Pt ℝ))] 0 = 0 := by simp [schedTime]
  have t1 : schedTime [((1 : ℝ), ((1, 0) : Pt ℝ))] 1 = 1 := by simp [schedTime]
  have p0 : schedPos (0, 0) [((1 : ℝ), ((1, 0) : Pt ℝ))] 0 = (0, 0) := by simp [schedPos]
  have p1 : schedPos (0, 0) [((1 : ℝ), ((1, 0) : Pt ℝ))] 1 = (1, 0) := by simp [schedPos]
  have h1 := intervalLinVel_leg (p0 := (0, 0)) hpos (k := 0) (by simp) (t := 0) (by rw [t0])
    (by rw [t1]; norm_num) (0, 0)
  have h2 := C48_at_end (0, 0) _ (by simp) hpos (1, 0)
  simp only [List.length_singleton, zero_add, t0, t1, p0, p1] at h1 h2
  have e1 : motionMove (.interval (0, 0) [(1, (1, 0))]) (initState (0, 0) 0) 1 = .ok ⟨(1, 0), 0, 1, 0⟩ := by
    simp only [motionMove, linVel, initState, h1, rotVel]
    norm_num
  have e2 : motionMove (.interval (0, 0) [(1, (1, 0))]) ⟨(1, 0), 0, 1, 0⟩ 1 = .ok ⟨(2, 0), 0, 2, 0⟩ := by
    simp only [motionMove, linVel, h2, rotVel]
    norm_num
  exact ⟨⟨(1, 0), 0, 1, 0⟩, ⟨(2, 0), 0, 2, 0⟩, t1, p1, by simp only [runMoves, e1], rfl,
    by simp only [runMoves, e1, e2], rfl⟩

/-- C48 is false of the empty schedule: there is no velocity at time 0 (0 / 0), and IndexError later. -/
theorem C48_empty_false (p0 pos : Pt ℝ) :
    intervalLinVel p0 [] 0 pos = .error .nonFinite ∧ ∀ t, 0 < t → intervalLinVel p0 [] t pos = .error .indexError := by
  constructor
  · simp [intervalLinVel, pyIdx, intervalTime, intervalPos, cumsum, argmaxTrue, divPt, Bind.bind, Except.bind]
  · intro t ht
    simp [intervalLinVel, pyIdx, intervalTime, intervalPos, cumsum, ht, Bind.bind, Except.bind]

/-- An obstacle at (1, 2) with nothing scheduled, after one second. -/
example : intervalLinVel (1, 2) [] 1 (1, 2) = .error .indexError := (C48_empty_false (1, 2) (1, 2)).2 1 one_pos

/-- C48, the true part about resting: strictly after the end of the schedule, an obstacle that is at the
last point stays there for ever. -/
theorem C48_rest_partial (p0 : Pt ℝ) (tp : List (ℝ × Pt ℝ)) (hne : tp ≠ []) (hpos : ∀ e ∈ tp, 0 < e.1)
    (s : MotionState) (ht : schedTime tp tp.length < s.t) (hp : s.pos = schedPos p0 tp tp.length)
    (dts : List ℝ) (hdt : ∀ d ∈ dts, 0 ≤ d) :
    ∃ s', runMoves (.interval p0 tp) s dts = .ok s' ∧ s'.pos = schedPos p0 tp tp.length := by
  obtain ⟨m, hm⟩ : ∃ m, tp.length = m + 1 := ⟨tp.length - 1, by have := List.length_pos_of_ne_nil hne; omega⟩
  induction dts generalizing s with
  | nil => exact ⟨s, rfl, hp⟩
  | cons dt dts ih =>
    have hv : intervalLinVel p0 tp s.t s.pos = .ok 0 := by
      have hl := intervalTime_length tp
      have hpl := intervalPos_length p0 tp
      unfold intervalLinVel
      rw [pyIdx_last _ tp.length (by omega)]
      simp only [intervalTime_get, bind, Except.bind]
      rw [if_pos ht, pyIdx_last _ tp.length (by omega), pyIdx_last2 _ m (by omega), pyIdx_last2 _ m (by omega)]
      simp only [intervalTime_get, intervalPos_get]
      have hlt := schedTime_lt hpos (show m < tp.length by omega) (le_refl _)
      simp only [divPt]
      rw [if_neg (by linarith : ¬ schedTime tp tp.length - schedTime tp m = 0)]
      simp only []
      rw [hp, sub_self]
      have h0 : norm2 (0 : Pt ℝ) = 0 := by simp [norm2]
      rw [h0, if_neg (not_lt.2 (norm2_nonneg _))]
      simp [pure, Except.pure]
    have hd := hdt dt (by simp)
    obtain ⟨s', e, h⟩ := ih { s with pos := s.pos + dt • (0 : Pt ℝ), rot := s.rot + 0 * dt, t := s.t + dt }
      (by simp only []; linarith) (by simp only [smul_zero, add_zero]; exact hp) (fun d hd => hdt d (by simp [hd]))
    refine ⟨s', ?_, h⟩
    simp only [runMoves, motionMove, linVel, hv, rotVel]
    exact e

/-- A schedule and steps meeting the hypotheses of `C48_schedule_partial`. -/
example : (∀ e ∈ [((2 : ℝ), ((1, 0) : Pt ℝ)), (3, (1, 6))], 0 < e.1) ∧
    (∀ pre dt post, [(1 : ℝ), 1, 3] = pre ++ dt :: post → ∀ k ≤ 2,
      pre.sum < schedTime [((2 : ℝ), ((1, 0) : Pt ℝ)), (3, (1, 6))] k →
      pre.sum + dt ≤ schedTime [((2 : ℝ), ((1, 0) : Pt ℝ)), (3, (1, 6))] k) := by
  refine ⟨by simp, ?_⟩
  intro pre dt post h k hk hlt
  have t0 : schedTime [((2 : ℝ), ((1, 0) : Pt ℝ)), (3, (1, 6))] 0 = 0 := by simp [schedTime]
  have t1 : schedTime [((2 : ℝ), ((1, 0) : Pt ℝ)), (3, (1, 6))] 1 = 2 := by simp [schedTime]
  have t2 : schedTime [((2 : ℝ), ((1, 0) : Pt ℝ)), (3, (1, 6))] 2 = 5 := by simp [schedTime]; norm_num
  have hk' : k = 0 ∨ k = 1 ∨ k = 2 := by omega
  rcases pre with _ | ⟨a, _ | ⟨b, _ | ⟨c, _ | ⟨d, pre⟩⟩⟩⟩ <;> simp at h
  · obtain ⟨rfl, _⟩ := h
    rcases hk' with rfl | rfl | rfl <;> simp [t0, t1, t2] at hlt ⊢
  · obtain ⟨rfl, rfl, _⟩ := h
    rcases hk' with rfl | rfl | rfl <;> simp [t0, t1, t2] at hlt ⊢ <;> linarith
  · obtain ⟨rfl, rfl, rfl, _⟩ := h
    rcases hk' with rfl | rfl | rfl <;> simp [t0, t1, t2] at hlt ⊢ <;> linarith

end Starworlds
