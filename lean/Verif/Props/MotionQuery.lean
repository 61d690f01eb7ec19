import Verif.Model.MotionQuery
import Verif.Proofs.MotionHeap

/-! # C100: asking for the velocity does not change the motion -/

namespace Starworlds

theorem wpLinVel_again (vel th : ℝ) (pos : Pt ℝ) (l : List (Pt ℝ)) {idx idx' : Nat} {v : Pt ℝ}
    (h : wpLinVel vel th pos l idx = .ok (v, idx')) :
    idx ≤ idx' ∧ wpLinVel vel th pos (l.drop (idx' - idx)) idx' = .ok (v, idx') := by
  induction l generalizing idx with
  | nil =>
    simp only [wpLinVel, Except.ok.injEq, Prod.mk.injEq] at h
    obtain ⟨rfl, rfl⟩ := h
    simp [wpLinVel]
  | cons w ws ih =>
    by_cases hd : norm2 (w - pos) < th
    · simp only [wpLinVel, hd, if_true] at h
      obtain ⟨h1, h2⟩ := ih h
      refine ⟨by omega, ?_⟩
      rw [show idx' - idx = (idx' - (idx + 1)) + 1 by omega, List.drop_succ_cons]
      exact h2
    · have h0 := h
      simp only [wpLinVel, hd, if_false] at h
      rcases e : divPt (w - pos) (norm2 (w - pos)) with _ | d
      · simp [e] at h
      · simp only [e, Except.ok.injEq, Prod.mk.injEq] at h
        obtain ⟨_, rfl⟩ := h
        simpa using h0

/-- A second query gives the same velocity and changes nothing. -/
theorem linVel_again {k : MotionKind} {s s' : MotionState} {v : Pt ℝ} (h : linVel k s = .ok (v, s')) :
    linVel k s' = .ok (v, s') := by
  rcases k with _ | ⟨_ | _, _, _, _, _⟩ | ⟨p0, tp⟩ | ⟨wps, vel, th⟩
  · simp only [linVel, Except.ok.injEq, Prod.mk.injEq] at h ⊢; exact ⟨h.1, trivial⟩
  · have h0 := h
    simp only [linVel, Except.ok.injEq, Prod.mk.injEq] at h; rw [← h.2] at h0 ⊢; exact h0
  · have h0 := h
    simp only [linVel, Except.ok.injEq, Prod.mk.injEq] at h; rw [← h.2] at h0 ⊢; exact h0
  · have h0 := h
    rcases e : intervalLinVel p0 tp s.t s.pos with _ | _ <;> simp [linVel, e] at h
    rw [← h.2] at h0 ⊢; exact h0
  · rcases e : wpLinVel vel th s.pos (wps.drop s.wpIdx) s.wpIdx with _ | ⟨w, i⟩ <;> simp [linVel, e] at h
    obtain ⟨h1, h2⟩ := wpLinVel_again vel th s.pos _ e
    rw [List.drop_drop, show s.wpIdx + (i - s.wpIdx) = i by omega] at h2
    rw [← h.2, ← h.1]
    simp [linVel, h2]

/-- Only `Waypoints` is changed by a query. -/
theorem linVel_same {k : MotionKind} (hk : ∀ wps vel th, k ≠ .waypoints wps vel th) {s s' : MotionState} {v : Pt ℝ}
    (h : linVel k s = .ok (v, s')) : s' = s := by
  rcases k with _ | ⟨_ | _, _, _, _, _⟩ | ⟨p0, tp⟩ | ⟨wps, vel, th⟩
  · simp only [linVel, Except.ok.injEq, Prod.mk.injEq] at h; exact h.2.symm
  · simp only [linVel, Except.ok.injEq, Prod.mk.injEq] at h; exact h.2.symm
  · simp only [linVel, Except.ok.injEq, Prod.mk.injEq] at h; exact h.2.symm
  · rcases e : intervalLinVel p0 tp s.t s.pos with _ | _ <;> simp [linVel, e] at h
    exact h.2.symm
  · exact absurd rfl (hk wps vel th)

/-- `Waypoints` does not look at the rotation. -/
theorem linVel_setRot {wps : List (Pt ℝ)} {vel th : ℝ} {s s' : MotionState} {v : Pt ℝ} (r : ℝ)
    (h : linVel (.waypoints wps vel th) s = .ok (v, s')) :
    linVel (.waypoints wps vel th) { s with rot := r } = .ok (v, { s' with rot := r }) := by
  rcases e : wpLinVel vel th s.pos (wps.drop s.wpIdx) s.wpIdx with _ | ⟨w, i⟩ <;> simp [linVel, e] at h
  rw [← h.2, ← h.1]
  simp [linVel, e]

/-- The history without its queries. -/
def withoutQueries (ops : List MotionOp) : List MotionOp := ops.filter fun o => match o with | .query => false | _ => true

/-- C100: a history that succeeds leads to the same position, rotation and time without its queries, for all
motion models but `Waypoints`, and for `Waypoints` if there is no `set_pos` in the history.  Missing:
`Waypoints` with `set_pos` (`C100_false`). -/
theorem C100_partial (k : MotionKind) (s : MotionState) (ops : List MotionOp)
    (hk : (∀ wps vel th, k ≠ .waypoints wps vel th) ∨ ∀ p, .setPos p ∉ ops) {s' : MotionState}
    (h : runMotion k s ops = .ok s') :
    ∃ s'', runMotion k s (withoutQueries ops) = .ok s'' ∧ s''.pos = s'.pos ∧ s''.rot = s'.rot ∧ s''.t = s'.t := by
  suffices key : ∀ s0 : MotionState, (s = s0 ∨ ∃ v, linVel k s0 = .ok (v, s)) →
      ∃ s'', runMotion k s0 (withoutQueries ops) = .ok s'' ∧ (s' = s'' ∨ ∃ v, linVel k s'' = .ok (v, s')) by
    obtain ⟨s'', h1, h2⟩ := key s (.inl rfl)
    refine ⟨s'', h1, ?_⟩
    rcases h2 with rfl | ⟨v, h2⟩
    · exact ⟨rfl, rfl, rfl⟩
    · obtain ⟨a, b, c⟩ := linVel_keeps h2
      exact ⟨a.symm, b.symm, c.symm⟩
  induction ops generalizing s with
  | nil =>
    intro s0 h0
    simp only [runMotion, Except.ok.injEq] at h
    subst h
    exact ⟨s0, rfl, h0⟩
  | cons op ops ih =>
    intro s0 h0
    have hk' : (∀ wps vel th, k ≠ .waypoints wps vel th) ∨ ∀ p, .setPos p ∉ ops :=
      hk.imp id fun hp p m => hp p (by simp [m])
    rcases op with dt | _ | p | r
    · rcases hm : motionMove k s dt with e | s1
      · simp [runMotion, stepMotion, hm] at h
      · simp only [runMotion, stepMotion, hm] at h
        obtain ⟨s'', h1, h2⟩ := ih s1 hk' h s1 (.inl rfl)
        refine ⟨s'', ?_, h2⟩
        have hm0 : motionMove k s0 dt = .ok s1 := by
          rcases h0 with rfl | ⟨v, h0⟩
          · exact hm
          · have := linVel_again h0
            simp only [motionMove, this] at hm
            simp only [motionMove, h0]
            exact hm
        simp only [withoutQueries, List.filter_cons, if_true, runMotion, stepMotion, hm0]
        exact h1
    · rcases hl : linVel k s with e | ⟨v, s1⟩
      · simp [runMotion, stepMotion, hl] at h
      · simp only [runMotion, stepMotion, hl] at h
        have h0' : s1 = s0 ∨ ∃ v, linVel k s0 = .ok (v, s1) := by
          rcases h0 with rfl | ⟨w, h0⟩
          · exact .inr ⟨v, hl⟩
          · have := linVel_again h0
            rw [hl] at this
            simp only [Except.ok.injEq, Prod.mk.injEq] at this
            exact .inr ⟨w, by rw [this.2]; exact h0⟩
        obtain ⟨s'', h1, h2⟩ := ih s1 hk' h s0 h0'
        exact ⟨s'', by simpa [withoutQueries] using h1, h2⟩
    · simp only [runMotion, stepMotion] at h
      have hk2 : ∀ wps vel th, k ≠ .waypoints wps vel th := by
        rcases hk with hk | hk
        · exact hk
        · exact absurd (by simp) (hk p)
      have e : s = s0 := by
        rcases h0 with h0 | ⟨v, h0⟩
        · exact h0
        · exact linVel_same hk2 h0
      obtain ⟨s'', h1, h2⟩ := ih _ hk' h { s0 with pos := p } (.inl (by rw [e]))
      exact ⟨s'', by simpa [withoutQueries, runMotion, stepMotion] using h1, h2⟩
    · simp only [runMotion, stepMotion] at h
      have h0' : ({ s with rot := r } : MotionState) = { s0 with rot := r } ∨
          ∃ v, linVel k { s0 with rot := r } = .ok (v, { s with rot := r }) := by
        rcases h0 with rfl | ⟨v, h0⟩
        · exact .inl rfl
        · by_cases hw : ∀ wps vel th, k ≠ .waypoints wps vel th
          · exact .inl (by rw [linVel_same hw h0])
          · push Not at hw
            obtain ⟨wps, vel, th, rfl⟩ := hw
            exact .inr ⟨v, linVel_setRot r h0⟩
      obtain ⟨s'', h1, h2⟩ := ih _ hk' h { s0 with rot := r } h0'
      exact ⟨s'', by simpa [withoutQueries, runMotion, stepMotion] using h1, h2⟩

/-- The obstacle of `C100_false`: it is at the first of its waypoints `(0, 0)` and `(10, 0)`. -/
noncomputable def twoStops : MotionKind := .waypoints [(0, 0), (10, 0)] 1 (1 / 5)

theorem twoStops_rotVel (s : MotionState) : rotVel twoStops s = 0 := rfl

/-- C100 is false: the obstacle is asked for its velocity at its first waypoint, is then put at `(10, 4)` and
moved.  Asked before, it goes down to the second waypoint; not asked, it goes to the first one. -/
theorem C100_false : ∃ s1 s2 : MotionState,
    runMotion twoStops (initState (0, 0) 0) [.query, .setPos (10, 4), .move 1] = .ok s1 ∧
    runMotion twoStops (initState (0, 0) 0) [.setPos (10, 4), .move 1] = .ok s2 ∧
    s1.pos = (10, 3) ∧ s2.pos.1 < 10 := by
  have e : ∀ a b : ℝ, 0 ≤ a → b = a ^ 2 → Real.sqrt b = a := fun a b h e => by rw [e, Real.sqrt_sq h]
  have n1 : norm2 ((0, 0) - (0, 0) : Pt ℝ) = 0 := e _ _ (by norm_num) (by norm_num)
  have n2 : norm2 ((10, 0) - (0, 0) : Pt ℝ) = 10 := e _ _ (by norm_num) (by norm_num)
  have n3 : norm2 ((10, 0) - (10, 4) : Pt ℝ) = 4 := e _ _ (by norm_num) (by norm_num)
  have n4 : 10 ≤ norm2 ((0, 0) - (10, 4) : Pt ℝ) := by
    unfold norm2
    exact Real.le_sqrt_of_sq_le (by norm_num)
  have n4' : ¬ norm2 ((0, 0) - (10, 4) : Pt ℝ) < 1 / 5 := by linarith
  have n4'' : norm2 ((0, 0) - (10, 4) : Pt ℝ) ≠ 0 := by linarith
  have l1 : linVel twoStops (initState (0, 0) 0) = .ok ((1, 0), { initState (0, 0) 0 with wpIdx := 1 }) := by
    simp only [linVel, twoStops, initState, List.drop_zero, wpLinVel, n1, n2, divPt]
    norm_num
  have l2 : linVel twoStops ⟨(10, 4), 0, 0, 1⟩ = .ok ((0, -1), ⟨(10, 4), 0, 0, 1⟩) := by
    simp only [linVel, twoStops, List.drop_succ_cons, List.drop_zero, wpLinVel, n3, divPt]
    norm_num
  have l3 : linVel twoStops ⟨(10, 4), 0, 0, 0⟩ = .ok ((-10 / norm2 ((0, 0) - (10, 4) : Pt ℝ),
      -4 / norm2 ((0, 0) - (10, 4) : Pt ℝ)), ⟨(10, 4), 0, 0, 0⟩) := by
    simp only [linVel, twoStops, List.drop_zero, wpLinVel, n4', if_false, divPt, n4'']
    norm_num
  refine ⟨⟨(10, 3), 0, 1, 1⟩, ⟨(10, 4) + (1 : ℝ) • (-10 / norm2 ((0, 0) - (10, 4) : Pt ℝ),
      -4 / norm2 ((0, 0) - (10, 4) : Pt ℝ)), 0, 1, 0⟩, ?_, ?_, rfl, ?_⟩
  · simp only [runMotion, stepMotion, l1]
    simp only [initState, motionMove, l2, twoStops_rotVel]
    norm_num
  · simp only [runMotion, stepMotion, initState, motionMove, l3, twoStops_rotVel]
    norm_num
  · have : 0 < 10 / norm2 ((0, 0) - (10, 4) : Pt ℝ) := by positivity
    simp only [Prod.fst_add, Prod.smul_fst, smul_eq_mul, one_mul, neg_div]
    linarith

/-- `C100_partial` for the same obstacle without `set_pos`: a move from `(0, 0)` after a query. -/
example : ∃ s1, runMotion twoStops (initState (0, 0) 0) [.query, .move 2] = .ok s1 ∧ s1.pos = (2, 0) ∧
    ∃ s2, runMotion twoStops (initState (0, 0) 0) [.move 2] = .ok s2 ∧ s2.pos = (2, 0) := by
  have e : ∀ a b : ℝ, 0 ≤ a → b = a ^ 2 → Real.sqrt b = a := fun a b h e => by rw [e, Real.sqrt_sq h]
  have n1 : norm2 ((0, 0) - (0, 0) : Pt ℝ) = 0 := e _ _ (by norm_num) (by norm_num)
  have n2 : norm2 ((10, 0) - (0, 0) : Pt ℝ) = 10 := e _ _ (by norm_num) (by norm_num)
  have l1 : linVel twoStops (initState (0, 0) 0) = .ok ((1, 0), { initState (0, 0) 0 with wpIdx := 1 }) := by
    simp only [linVel, twoStops, initState, List.drop_zero, wpLinVel, n1, n2, divPt]
    norm_num
  have h : runMotion twoStops (initState (0, 0) 0) [.query, .move 2] = .ok ⟨(2, 0), 0, 2, 1⟩ := by
    simp only [runMotion, stepMotion, l1, motionMove, linVel_again l1]
    simp [initState, twoStops_rotVel]
  obtain ⟨s2, h1, h2, _⟩ := C100_partial twoStops _ _ (.inr (by simp)) h
  exact ⟨_, h, rfl, s2, h1, h2⟩

end Starworlds
