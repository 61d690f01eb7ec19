import Verif.Props.Motion
import Verif.Spec.Waypoints
import Mathlib.Analysis.Complex.Norm

/-! # C127: a Waypoints obstacle comes to every waypoint and stays near the path -/

namespace Starworlds

open Real Spec

theorem norm2_triangle (u v : Pt ℝ) : norm2 (u + v) ≤ norm2 u + norm2 v := by
  have e : ∀ w : Pt ℝ, norm2 w = ‖(⟨w.1, w.2⟩ : ℂ)‖ := by
    intro w
    rw [Complex.norm_eq_sqrt_sq_add_sq]
    rfl
  rw [e, e, e]
  exact norm_add_le (⟨u.1, u.2⟩ : ℂ) ⟨v.1, v.2⟩

theorem gap_norm2 (p q : Pt ℝ) : gap p q = norm2 (q - p) := rfl

theorem gap_nonneg (p q : Pt ℝ) : 0 ≤ gap p q := sqrt_nonneg _

theorem gap_comm (p q : Pt ℝ) : gap p q = gap q p := by
  simp only [gap]; congr 1; ring

theorem gap_triangle (p q r : Pt ℝ) : gap p r ≤ gap p q + gap q r := by
  have := norm2_triangle (q - p) (r - q)
  rwa [show q - p + (r - q) = r - p by abel] at this

/-! ## One step -/

/-- The waypoints that are left. -/
noncomputable def pending (th : ℝ) (p : Pt ℝ) (ws : List (Pt ℝ)) : List (Pt ℝ) := ws.dropWhile fun w => decide (gap p w < th)

theorem pending_nil (th : ℝ) (p : Pt ℝ) : pending th p [] = [] := rfl

theorem pending_cons (th : ℝ) (p w : Pt ℝ) (ws : List (Pt ℝ)) :
    pending th p (w :: ws) = if gap p w < th then pending th p ws else w :: ws := by
  by_cases h : gap p w < th <;> simp [pending, h]

theorem pending_head {th : ℝ} {p w : Pt ℝ} {ws r : List (Pt ℝ)} (h : pending th p ws = w :: r) : th ≤ gap p w := by
  induction ws with
  | nil => cases h
  | cons v ws ih =>
    rw [pending_cons] at h
    split at h
    · exact ih h
    · rename_i hn
      rw [← (List.cons.inj h).1]
      exact not_lt.1 hn

theorem lin_pending {th : ℝ} (hth : 0 < th) (vel : ℝ) (p : Pt ℝ) (wps : List (Pt ℝ)) : ∀ (ws : List (Pt ℝ)) (idx : Nat), wps.drop idx = ws →
    ∃ v idx', wpLinVel vel th p ws idx = .ok (v, idx') ∧ wps.drop idx' = pending th p ws ∧ (pending th p ws = [] → v = (0, 0)) ∧
      ∀ w r, pending th p ws = w :: r → v = (vel / gap p w) • (w - p) := by
  intro ws
  induction ws with
  | nil => intro idx hd; exact ⟨(0, 0), idx, rfl, hd, fun _ => rfl, fun w r h => by cases h⟩
  | cons w ws ih =>
    intro idx hd
    by_cases h : gap p w < th
    · obtain ⟨v, idx', h1, h2, h3⟩ := ih (idx + 1) (by rw [← List.drop_drop, hd]; rfl)
      refine ⟨v, idx', ?_, ?_, ?_⟩
      · simp only [wpLinVel]
        rw [if_pos (show norm2 (w - p) < th from h)]
        exact h1
      · rw [pending_cons, if_pos h, h2]
      · rw [pending_cons, if_pos h]; exact h3
    · have hne : norm2 (w - p) ≠ 0 := by
        intro h0
        apply h
        rw [gap_norm2, h0]; exact hth
      refine ⟨vel • ((w - p).1 / norm2 (w - p), (w - p).2 / norm2 (w - p)), idx, ?_, ?_, ?_, ?_⟩
      · simp only [wpLinVel]
        rw [if_neg (show ¬ norm2 (w - p) < th from h)]
        simp only [divPt, hne, if_false]
      · rw [pending_cons, if_neg h, hd]
      · rw [pending_cons, if_neg h]; intro h'; cases h'
      · rw [pending_cons, if_neg h]
        intro w' r h'
        rw [← (List.cons.inj h').1, gap_norm2]
        ext
        · simp only [Prod.smul_fst, smul_eq_mul]; ring
        · simp only [Prod.smul_snd, smul_eq_mul]; ring

theorem move_pending {th : ℝ} (hth : 0 < th) (vel : ℝ) (wps : List (Pt ℝ)) (s : MotionState) (dt : ℝ) :
    ∃ s', motionMove (.waypoints wps vel th) s dt = .ok s' ∧ wps.drop s'.wpIdx = pending th s.pos (wps.drop s.wpIdx) ∧
      (pending th s.pos (wps.drop s.wpIdx) = [] → s'.pos = s.pos) ∧
      ∀ w r, pending th s.pos (wps.drop s.wpIdx) = w :: r → s'.pos = s.pos + (vel * dt / gap s.pos w) • (w - s.pos) := by
  obtain ⟨v, idx', h1, h2, h3, h4⟩ := lin_pending hth vel s.pos wps _ s.wpIdx rfl
  refine ⟨{ s with wpIdx := idx', pos := s.pos + dt • v, rot := s.rot + rotVel (.waypoints wps vel th) { s with wpIdx := idx' } * dt, t := s.t + dt },
    ?_, h2, ?_, ?_⟩
  · simp only [motionMove, linVel, h1]
  · intro h
    simp only [h3 h]
    ext <;> simp
  · intro w r h
    simp only [h4 w r h, smul_smul]
    congr 2
    ring

/-- The distance from the waypoint after a step. -/
theorem step_gap {p w : Pt ℝ} {s : ℝ} (h : 0 < gap p w) : gap (p + (s / gap p w) • (w - p)) w = |gap p w - s| := by
  rw [gap_norm2, show w - (p + (s / gap p w) • (w - p)) = (1 - s / gap p w) • (w - p) by module, norm2_smul, ← gap_norm2]
  nth_rewrite 2 [← abs_of_pos h]
  rw [← abs_mul]
  congr 1
  field_simp

/-! ## Arrival -/

/-- What the rest of the path costs from a waypoint on. -/
noncomputable def restCost (th : ℝ) : Pt ℝ → List (Pt ℝ) → ℝ
  | _, [] => 0
  | w, w' :: r => gap w w' + 2 * th + restCost th w' r

/-- What the rest of the path costs. -/
noncomputable def cost (th : ℝ) (p : Pt ℝ) : List (Pt ℝ) → ℝ
  | [] => 0
  | w :: r => gap p w + th + restCost th w r

theorem restCost_nonneg {th : ℝ} (hth : 0 < th) (r : List (Pt ℝ)) : ∀ w, 0 ≤ restCost th w r := by
  induction r with
  | nil => intro w; exact le_refl _
  | cons w' r ih => intro w; have := ih w'; have := gap_nonneg w w'; simp only [restCost]; linarith

/-- Leaving out waypoints makes the path cheaper. -/
theorem pending_cost {th : ℝ} (hth : 0 < th) (p : Pt ℝ) (ws : List (Pt ℝ)) : cost th p (pending th p ws) ≤ cost th p ws := by
  induction ws with
  | nil => exact le_refl _
  | cons w ws ih =>
    rw [pending_cons]
    split
    · refine ih.trans ?_
      cases ws with
      | nil => have := gap_nonneg p w; simp only [cost, restCost]; linarith
      | cons w' r => have := gap_triangle p w w'; have := gap_nonneg p w; simp only [cost, restCost]; linarith
    · exact le_refl _

/-- One step of length `s` makes the path cheaper by `s`. -/
theorem step_cost {th : ℝ} (hth : 0 < th) {p w : Pt ℝ} {r : List (Pt ℝ)} {s : ℝ} (hw : th ≤ gap p w) (hs : s < 2 * th) :
    cost th (p + (s / gap p w) • (w - p)) (pending th (p + (s / gap p w) • (w - p)) (w :: r)) ≤ cost th p (w :: r) - s := by
  have hg := step_gap (s := s) (hth.trans_le hw)
  generalize p + (s / gap p w) • (w - p) = p' at hg ⊢
  rw [pending_cons]
  split
  · rename_i hlt
    refine (pending_cost hth p' r).trans ?_
    rw [hg, abs_lt] at hlt
    cases r with
    | nil => simp only [cost, restCost]; linarith
    | cons w' r =>
      have h1 := gap_triangle p' w w'
      simp only [cost, restCost]
      rw [hg] at h1
      have : |gap p w - s| ≤ gap p w - s + 2 * th := by rw [abs_le]; constructor <;> linarith
      linarith
  · rename_i hlt
    rw [hg, not_lt, le_abs] at hlt
    have h2 : th ≤ gap p w - s := by rcases hlt with h | h <;> linarith
    simp only [cost]
    rw [hg, abs_of_nonneg (by linarith)]
    linarith

theorem run_done {th : ℝ} (hth : 0 < th) (vel : ℝ) (wps : List (Pt ℝ)) : ∀ (dts : List ℝ) (s : MotionState), pending th s.pos (wps.drop s.wpIdx) = [] →
    ∃ s', runMoves (.waypoints wps vel th) s dts = .ok s' ∧ s'.pos = s.pos ∧ pending th s'.pos (wps.drop s'.wpIdx) = [] := by
  intro dts
  induction dts with
  | nil => intro s h; exact ⟨s, rfl, rfl, h⟩
  | cons dt dts ih =>
    intro s h
    obtain ⟨s1, e1, h1, h2, -⟩ := move_pending hth vel wps s dt
    obtain ⟨s2, e2, h3, h4⟩ := ih s1 (by rw [h1, h]; rfl)
    exact ⟨s2, by simp only [runMoves, e1, e2], h3.trans (h2 h), h4⟩

theorem run_cost {th vel : ℝ} (hth : 0 < th) (wps : List (Pt ℝ)) : ∀ (dts : List ℝ) (s : MotionState),
    (∀ dt ∈ dts, vel * dt < 2 * th) → ∃ s', runMoves (.waypoints wps vel th) s dts = .ok s' ∧
      (pending th s'.pos (wps.drop s'.wpIdx) = [] ∨
        cost th s'.pos (pending th s'.pos (wps.drop s'.wpIdx)) ≤ cost th s.pos (pending th s.pos (wps.drop s.wpIdx)) - vel * dts.sum) := by
  intro dts
  induction dts with
  | nil => intro s _; exact ⟨s, rfl, Or.inr (by simp)⟩
  | cons dt dts ih =>
    intro s hd
    obtain ⟨s1, e1, h1, h2, h3⟩ := move_pending hth vel wps s dt
    cases hp : pending th s.pos (wps.drop s.wpIdx) with
    | nil =>
      obtain ⟨s2, e2, -, h4⟩ := run_done hth vel wps (dt :: dts) s hp
      exact ⟨s2, e2, Or.inl h4⟩
    | cons w r =>
      obtain ⟨s2, e2, h4⟩ := ih s1 fun d hd' => hd d (by simp [hd'])
      refine ⟨s2, by simp only [runMoves, e1, e2], ?_⟩
      rcases h4 with h4 | h4
      · exact Or.inl h4
      · right
        refine h4.trans ?_
        rw [h1, h3 w r hp, hp]
        have := step_cost hth (r := r) (pending_head hp) (hd dt (by simp))
        rw [List.sum_cons]
        linarith

theorem restCost_path (th : ℝ) (r : List (Pt ℝ)) : ∀ w, restCost th w r = pathLength (w :: r) + 2 * th * r.length := by
  induction r with
  | nil => intro w; simp [restCost, pathLength]
  | cons w' r ih => intro w; simp only [restCost, pathLength, ih, List.length_cons, Nat.cast_add, Nat.cast_one]; ring

theorem pending_nil_near {th : ℝ} {p : Pt ℝ} {ws : List (Pt ℝ)} (h : pending th p ws = []) : ∀ w ∈ ws, gap p w < th := by
  induction ws with
  | nil => intro w hw; cases hw
  | cons v ws ih =>
    rw [pending_cons] at h
    split at h
    · intro w hw
      rcases List.mem_cons.1 hw with rfl | hw
      · assumption
      · exact ih h w hw
    · cases h

theorem last_near {th : ℝ} {p w : Pt ℝ} {wps : List (Pt ℝ)} {i : ℕ} (hw : wps.getLast? = some w) (h : wps.drop i = [] → gap p w < th)
    (hp : pending th p (wps.drop i) = []) : gap p w < th := by
  by_cases he : wps.drop i = []
  · exact h he
  · refine pending_nil_near hp w (List.mem_of_getLast? ?_)
    rw [List.getLast?_drop, if_neg (by simpa using he), hw]

theorem run_last {th : ℝ} (hth : 0 < th) (vel : ℝ) {w : Pt ℝ} (wps : List (Pt ℝ)) (hw : wps.getLast? = some w) : ∀ (dts : List ℝ) (s s' : MotionState),
    runMoves (.waypoints wps vel th) s dts = .ok s' → (wps.drop s.wpIdx = [] → gap s.pos w < th) → wps.drop s'.wpIdx = [] → gap s'.pos w < th := by
  intro dts
  induction dts with
  | nil =>
    intro s s' h
    simp only [runMoves, Except.ok.injEq] at h
    subst h
    exact id
  | cons dt dts ih =>
    intro s s' h hs
    obtain ⟨s1, e1, h1, h2, -⟩ := move_pending hth vel wps s dt
    simp only [runMoves, e1] at h
    refine ih s1 s' h fun h0 => ?_
    rw [h1] at h0
    rw [h2 h0]
    exact last_near hw hs h0

/-! ## The waypoints are visited -/

theorem visits_later {r : ℝ} {track : ℕ → Pt ℝ} (ws : List (Pt ℝ)) : ∀ {k k' : ℕ}, k' ≤ k → VisitsFrom r track k ws → VisitsFrom r track k' ws := by
  cases ws with
  | nil => intro _ _ _ _; trivial
  | cons w ws => rintro k k' h ⟨j, h1, h2⟩; exact ⟨j, h.trans h1, h2⟩

theorem visits_shift {r : ℝ} {track : ℕ → Pt ℝ} (ws : List (Pt ℝ)) : ∀ {k : ℕ}, VisitsFrom r (fun k => track (k + 1)) k ws →
    VisitsFrom r track (k + 1) ws := by
  induction ws with
  | nil => intro _ _; trivial
  | cons w ws ih => rintro k ⟨j, h1, h2, h3⟩; exact ⟨j + 1, by omega, h2, ih h3⟩

theorem visits_reached {th : ℝ} {track : ℕ → Pt ℝ} {k : ℕ} (ws : List (Pt ℝ)) (h : VisitsFrom th track k (pending th (track k) ws)) :
    VisitsFrom th track k ws := by
  induction ws with
  | nil => exact h
  | cons w ws ih =>
    rw [pending_cons] at h
    split at h
    · exact ⟨k, le_refl _, ‹_›, ih h⟩
    · exact h

theorem run_visits {th : ℝ} (hth : 0 < th) (vel : ℝ) (wps : List (Pt ℝ)) : ∀ (dts : List ℝ) (s s' : MotionState),
    runMoves (.waypoints wps vel th) s dts = .ok s' → pending th s'.pos (wps.drop s'.wpIdx) = [] →
    ∃ track : ℕ → MotionState, (∀ k, runMoves (.waypoints wps vel th) s (dts.take k) = .ok (track k)) ∧
      VisitsFrom th (fun k => (track k).pos) 0 (wps.drop s.wpIdx) := by
  intro dts
  induction dts with
  | nil =>
    intro s s' h hp
    simp only [runMoves, Except.ok.injEq] at h
    subst h
    refine ⟨fun _ => s, fun k => by simp [runMoves], ?_⟩
    apply visits_reached
    simp only [hp]
    trivial
  | cons dt dts ih =>
    intro s s' h hp
    obtain ⟨s1, e1, h1, -⟩ := move_pending hth vel wps s dt
    simp only [runMoves, e1] at h
    obtain ⟨track, t1, t2⟩ := ih s1 s' h hp
    refine ⟨fun k => match k with | 0 => s | k + 1 => track k, ?_, ?_⟩
    · intro k
      cases k with
      | zero => rfl
      | succ k => simp only [List.take_succ_cons, runMoves, e1, t1]
    · apply visits_reached
      rw [← h1]
      exact visits_later _ (Nat.zero_le 1) (visits_shift (track := fun k => (match k with | 0 => s | k + 1 => track k : MotionState).pos) _ t2)

/-- C127, arrival: an obstacle that starts at the first waypoint and is moved in steps that are shorter than twice the threshold has visited all waypoints, in
their order, when the steps add up to the length of the path and twice the threshold per leg; it is then at the last waypoint, up to the threshold, and never
moves again. Missing: longer steps, see `C127_overshoot_false`. -/
theorem C127_arrival_partial {th vel : ℝ} (hth : 0 < th) (init : Pt ℝ) (ws : List (Pt ℝ)) (dts : List ℝ) (hd : ∀ dt ∈ dts, vel * dt < 2 * th)
    (hsum : pathLength (init :: ws) + 2 * th * ws.length ≤ vel * dts.sum) :
    ∃ track : ℕ → MotionState, (∀ k, runMoves (.waypoints (init :: ws) vel th) (initState init 0) (dts.take k) = .ok (track k)) ∧
      VisitsFrom th (fun k => (track k).pos) 0 (init :: ws) ∧
      (∀ w, (init :: ws).getLast? = some w → gap (track dts.length).pos w < th) ∧
      ∀ more, ∃ s', runMoves (.waypoints (init :: ws) vel th) (initState init 0) (dts ++ more) = .ok s' ∧ s'.pos = (track dts.length).pos := by
  obtain ⟨s', e, h⟩ := run_cost hth (init :: ws) dts (initState init 0) hd
  have g0 : gap init init = 0 := by simp [gap]
  have hp : pending th s'.pos ((init :: ws).drop s'.wpIdx) = [] := by
    rcases h with h | h
    · exact h
    · by_contra hne
      have h0 : cost th init (pending th init (init :: ws)) ≤ pathLength (init :: ws) + 2 * th * ws.length := by
        rw [pending_cons, g0, if_pos hth]
        refine (pending_cost hth init ws).trans ?_
        cases ws with
        | nil => simp [cost, pathLength]
        | cons w r =>
          simp only [cost, pathLength, restCost_path, List.length_cons, Nat.cast_add, Nat.cast_one]
          linarith
      have h1 : cost th s'.pos (pending th s'.pos ((init :: ws).drop s'.wpIdx)) ≤ 0 := h.trans (by
        have : cost th (initState init 0).pos (pending th (initState init 0).pos ((init :: ws).drop (initState init 0).wpIdx)) =
          cost th init (pending th init (init :: ws)) := rfl
        rw [this]; linarith)
      cases hc : pending th s'.pos ((init :: ws).drop s'.wpIdx) with
      | nil => exact hne hc
      | cons w r =>
        rw [hc] at h1
        have := restCost_nonneg hth r w
        have := gap_nonneg s'.pos w
        simp only [cost] at h1
        linarith
  obtain ⟨track, t1, t2⟩ := run_visits hth vel (init :: ws) dts _ s' e hp
  have hl : track dts.length = s' := by
    have := t1 dts.length
    rw [List.take_length, e] at this
    exact (Except.ok.inj this).symm
  refine ⟨track, t1, t2, ?_, ?_⟩
  · intro w hw
    rw [hl]
    exact last_near hw (run_last hth vel _ hw dts _ s' e (fun h => by simp [initState] at h)) hp
  · intro more
    obtain ⟨s2, e2, h2, -⟩ := run_done hth vel (init :: ws) more s' hp
    refine ⟨s2, ?_, by rw [hl]; exact h2⟩
    rw [runMoves_append, e]
    exact e2

/-! ## Near the path -/

/-- Near the leg that leads to the next waypoint. -/
def OnLeg (th : ℝ) (wps : List (Pt ℝ)) (p : Pt ℝ) : List (Pt ℝ) → Prop
  | [] => ∃ q ∈ wps, gap p q < th ∧ wps.getLast? = some q
  | w :: _ => ∃ a q, (a = w ∨ [a, w] <:+: wps) ∧ OnSegment a w q ∧ gap p q < th

theorem leg_pending {th : ℝ} {wps : List (Pt ℝ)} {p : Pt ℝ} (ws : List (Pt ℝ)) (hs : ws <:+ wps) (h : OnLeg th wps p ws) :
    OnLeg th wps p (pending th p ws) := by
  induction ws with
  | nil => exact h
  | cons w ws ih =>
    rw [pending_cons]
    split
    · rename_i hlt
      refine ih ((List.suffix_cons w ws).trans hs) ?_
      cases ws with
      | nil =>
        obtain ⟨t, ht⟩ := hs
        exact ⟨w, by rw [← ht]; simp, hlt, by rw [← ht]; simp⟩
      | cons w' r =>
        refine ⟨w, w, Or.inr ?_, ⟨0, le_refl _, by norm_num, by simp⟩, hlt⟩
        obtain ⟨t, ht⟩ := hs
        exact ⟨t, r, by rw [← ht]; simp⟩
    · exact h

theorem leg_step {th : ℝ} (hth : 0 < th) {wps : List (Pt ℝ)} {p w : Pt ℝ} {r : List (Pt ℝ)} {s : ℝ} (hs0 : 0 ≤ s) (hs : s < 2 * th) (hw : th ≤ gap p w)
    (h : OnLeg th wps p (w :: r)) : OnLeg th wps (p + (s / gap p w) • (w - p)) (w :: r) := by
  obtain ⟨a, q, h1, ⟨t, ht0, ht1, rfl⟩, h3⟩ := h
  have hpos : 0 < gap p w := hth.trans_le hw
  by_cases hle : s ≤ gap p w
  · have l0 : 0 ≤ s / gap p w := div_nonneg hs0 hpos.le
    have l1 : s / gap p w ≤ 1 := (div_le_one hpos).2 hle
    generalize s / gap p w = c at l0 l1
    refine ⟨a, a + (t + c * (1 - t)) • (w - a), h1, ⟨t + c * (1 - t), by nlinarith, by nlinarith, rfl⟩, ?_⟩
    rw [gap_norm2, show a + (t + c * (1 - t)) • (w - a) - (p + c • (w - p)) = (1 - c) • (a + t • (w - a) - p) by module, norm2_smul, ← gap_norm2,
      abs_of_nonneg (by linarith)]
    nlinarith [gap_nonneg p (a + t • (w - a))]
  · refine ⟨a, w, h1, ⟨1, by norm_num, le_refl _, by module⟩, ?_⟩
    rw [step_gap hpos, abs_lt]
    constructor <;> linarith

theorem run_leg {th vel : ℝ} (hth : 0 < th) (wps : List (Pt ℝ)) : ∀ (dts : List ℝ) (s : MotionState),
    (∀ dt ∈ dts, 0 ≤ vel * dt ∧ vel * dt < 2 * th) → OnLeg th wps s.pos (wps.drop s.wpIdx) →
    ∃ s', runMoves (.waypoints wps vel th) s dts = .ok s' ∧ OnLeg th wps s'.pos (wps.drop s'.wpIdx) := by
  intro dts
  induction dts with
  | nil => intro s _ h; exact ⟨s, rfl, h⟩
  | cons dt dts ih =>
    intro s hd h
    obtain ⟨s1, e1, h1, h2, h3⟩ := move_pending hth vel wps s dt
    have hl := leg_pending _ (List.drop_suffix _ _) h
    obtain ⟨s2, e2, h4⟩ := ih s1 (fun d hd' => hd d (by simp [hd'])) (by
      rw [h1]
      cases hp : pending th s.pos (wps.drop s.wpIdx) with
      | nil => rw [h2 hp, ← hp]; exact hl
      | cons w r =>
        rw [h3 w r hp]
        rw [hp] at hl
        exact leg_step hth (hd dt (by simp)).1 (hd dt (by simp)).2 (pending_head hp) hl)
    exact ⟨s2, by simp only [runMoves, e1, e2], h4⟩

/-- C127, path: in steps as in `C127_arrival_partial` that do not go backwards, the obstacle is always nearer than the threshold to the path. -/
theorem C127_path_partial {th vel : ℝ} (hth : 0 < th) (init : Pt ℝ) (ws : List (Pt ℝ)) (dts : List ℝ)
    (hd : ∀ dt ∈ dts, 0 ≤ vel * dt ∧ vel * dt < 2 * th) :
    ∃ s q, runMoves (.waypoints (init :: ws) vel th) (initState init 0) dts = .ok s ∧ OnPath (init :: ws) q ∧ gap s.pos q < th := by
  obtain ⟨s, e, h⟩ := run_leg hth (init :: ws) dts (initState init 0) hd ⟨init, init, Or.inl rfl, ⟨0, le_refl _, by norm_num, by simp⟩, by
    simpa [gap, initState] using hth⟩
  cases hp : (init :: ws).drop s.wpIdx with
  | nil =>
    rw [hp] at h
    obtain ⟨q, h1, h2, -⟩ := h
    exact ⟨s, q, e, Or.inl h1, h2⟩
  | cons w r =>
    rw [hp] at h
    obtain ⟨a, q, h1, h2, h3⟩ := h
    refine ⟨s, q, e, ?_, h3⟩
    rcases h1 with rfl | h1
    · left
      obtain ⟨t, -, -, rfl⟩ := h2
      rw [sub_self, smul_zero, add_zero]
      exact List.mem_of_mem_drop (hp ▸ List.mem_cons_self)
    · exact Or.inr ⟨a, w, h1, h2⟩

/-! ## Steps that are too long -/

/-- C127 is false for steps of twice the threshold and more: for all such steps there is a waypoint that the obstacle jumps over, to and fro, and never
reaches. -/
theorem C127_overshoot_false {th vel dt : ℝ} (hth : 0 < th) (h : 2 * th ≤ vel * dt) (n : ℕ) :
    ∃ s, runMoves (.waypoints [(0, 0), (vel * dt / 2, 0)] vel th) (initState (0, 0) 0) (List.replicate n dt) = .ok s ∧
      s.pos = (if n % 2 = 0 then (0, 0) else (vel * dt, 0)) ∧ gap s.pos (vel * dt / 2, 0) = vel * dt / 2 ∧ th ≤ vel * dt / 2 := by
  have ev : ∀ x : ℝ, gap (x, 0) (vel * dt / 2, 0) = |vel * dt / 2 - x| := by
    intro x
    simp only [gap, sub_self, ne_eq, OfNat.ofNat_ne_zero, not_false_eq_true, zero_pow, add_zero, sqrt_sq_eq_abs]
  have e0 : gap (0, 0) (vel * dt / 2, 0) = vel * dt / 2 := by
    rw [ev, sub_zero, abs_of_pos (by linarith)]
  have e1 : gap (vel * dt, 0) (vel * dt / 2, 0) = vel * dt / 2 := by
    rw [ev, abs_sub_comm, show vel * dt - vel * dt / 2 = vel * dt / 2 by ring, abs_of_pos (by linarith)]
  have key : ∀ m (s : MotionState), s.wpIdx ≤ 1 → (s.pos = (0, 0) ∨ s.pos = (vel * dt, 0) ∧ s.wpIdx = 1) →
      ∃ s', runMoves (.waypoints [(0, 0), (vel * dt / 2, 0)] vel th) s (List.replicate m dt) = .ok s' ∧
        ((s.pos = (0, 0) → s'.pos = if m % 2 = 0 then (0, 0) else (vel * dt, 0)) ∧
          (s.pos = (vel * dt, 0) → s'.pos = if m % 2 = 0 then (vel * dt, 0) else (0, 0))) := by
    intro m
    induction m with
    | zero => intro s _ _; exact ⟨s, rfl, by simp, by simp⟩
    | succ m ih =>
      intro s hi hs
      obtain ⟨s1, a1, a2, a3, a4⟩ := move_pending hth vel [(0, 0), (vel * dt / 2, 0)] s dt
      have hpd : pending th s.pos ([(0, 0), (vel * dt / 2, 0)].drop s.wpIdx) = [(vel * dt / 2, 0)] := by
        have g0 : gap (0, 0) (0, 0) = 0 := by simp [gap]
        have hlt : ¬ vel * dt / 2 < th := by linarith
        rcases hs with hs | ⟨hs, hi'⟩
        · rw [hs]
          rcases Nat.le_one_iff_eq_zero_or_eq_one.1 hi with h0 | h0 <;> rw [h0]
          · simp only [List.drop_zero, pending_cons, g0, hth, if_true, e0, hlt, if_false]
          · simp only [List.drop_succ_cons, List.drop_zero, pending_cons, e0, hlt, if_false]
        · rw [hs, hi']
          simp only [List.drop_succ_cons, List.drop_zero, pending_cons, e1, hlt, if_false]
      have hpos := a4 _ _ hpd
      have hidx : s1.wpIdx = 1 := by
        rw [hpd] at a2
        have := congrArg List.length a2
        simp only [List.length_drop, List.length_cons, List.length_nil] at this
        omega
      have h2 : vel * dt / (vel * dt / 2) = 2 := by
        have : vel * dt ≠ 0 := by linarith
        generalize vel * dt = c at this
        field_simp
      have p1 : s.pos = (0, 0) → s1.pos = (vel * dt, 0) := by
        intro h'
        rw [hpos, h', e0, h2]
        ext
        · simp only [Prod.fst_add, Prod.smul_fst, Prod.fst_sub, smul_eq_mul]; ring
        · simp
      have p2 : s.pos = (vel * dt, 0) → s1.pos = (0, 0) := by
        intro h'
        rw [hpos, h', e1, h2]
        ext
        · simp only [Prod.fst_add, Prod.smul_fst, Prod.fst_sub, smul_eq_mul]; ring
        · simp
      obtain ⟨s2, b1, b2, b3⟩ := ih s1 hidx.le (by
        rcases hs with hs | hs
        · exact Or.inr ⟨p1 hs, hidx⟩
        · exact Or.inl (p2 hs.1))
      refine ⟨s2, by simp only [List.replicate_succ, runMoves, a1, b1], ?_, ?_⟩
      · intro h'
        rw [b3 (p1 h')]
        rcases Nat.mod_two_eq_zero_or_one m with hm | hm
        · rw [if_pos hm, if_neg (by omega)]
        · rw [if_neg (by omega), if_pos (by omega)]
      · intro h'
        rw [b2 (p2 h')]
        rcases Nat.mod_two_eq_zero_or_one m with hm | hm
        · rw [if_pos hm, if_neg (by omega)]
        · rw [if_neg (by omega), if_pos (by omega)]
  obtain ⟨s, h1, h2, -⟩ := key n (initState (0, 0) 0) (by simp [initState]) (Or.inl rfl)
  refine ⟨s, h1, h2 rfl, ?_, by linarith⟩
  rw [h2 rfl]
  split
  · exact e0
  · exact e1

/-- With the default threshold 0.2 and steps of 0.3 the corner of a path of length 7 is visited and the end is reached in 27 steps. -/
example : ∃ track : ℕ → MotionState,
    (∀ k, runMoves (.waypoints [(0, 0), (3, 0), (3, 4)] 3 0.2) (initState (0, 0) 0) ((List.replicate 27 0.1).take k) = .ok (track k)) ∧
    (∃ k, gap (track k).pos (3, 0) < 0.2) ∧ gap (track 27).pos (3, 4) < 0.2 := by
  have e1 : gap ((0, 0) : Pt ℝ) (3, 0) = 3 := by
    rw [gap, show ((3 : ℝ) - 0) ^ 2 + (0 - 0) ^ 2 = 3 ^ 2 by norm_num, sqrt_sq (by norm_num)]
  have e2 : gap ((3, 0) : Pt ℝ) (3, 4) = 4 := by
    rw [gap, show ((3 : ℝ) - 3) ^ 2 + (4 - 0) ^ 2 = 4 ^ 2 by norm_num, sqrt_sq (by norm_num)]
  obtain ⟨track, h1, ⟨-, -, -, k, -, h2, -⟩, h3, -⟩ := C127_arrival_partial (th := 0.2) (vel := 3) (by norm_num) (0, 0) [(3, 0), (3, 4)]
    (List.replicate 27 0.1) (fun dt hdt => by rw [List.eq_of_mem_replicate hdt]; norm_num)
    (by simp only [pathLength, e1, e2, List.sum_replicate]; norm_num)
  refine ⟨track, h1, ⟨k, h2⟩, ?_⟩
  have := h3 (3, 4) rfl
  rwa [List.length_replicate] at this

/-- With steps of 0.4 the waypoint (0.2, 0) is not reached. -/
example : ∃ s, runMoves (.waypoints [(0, 0), (4 * 0.1 / 2, 0)] 4 0.2) (initState (0, 0) 0) (List.replicate 1000 0.1) = .ok s ∧ s.pos = (0, 0) := by
  obtain ⟨s, h1, h2, -⟩ := C127_overshoot_false (th := 0.2) (vel := 4) (dt := 0.1) (by norm_num) (by norm_num) 1000
  exact ⟨s, h1, by simpa using h2⟩

end Starworlds
