import Verif.Props.Motion
import Verif.Spec.Interval
import Mathlib.Topology.Order.MonotoneConvergence

/-! # C129: an Interval obstacle stays near its schedule and approaches its last position -/

namespace Starworlds

open Real Spec Filter Topology

/-! ## Until the end of the schedule -/

theorem changes_mono (v : ℕ → ℝ) {i j : ℕ} (h : i ≤ j) : changes v i ≤ changes v j := by
  induction h with
  | refl => exact le_refl _
  | step _ ih =>
    rename_i m _
    exact ih.trans (by simp only [changes]; linarith [abs_nonneg (v (m + 1) - v m)])

theorem changes_diff (v : ℕ → ℝ) {i j : ℕ} (h : i ≤ j) : |v j - v i| ≤ changes v j - changes v i := by
  induction h with
  | refl => simp
  | step _ ih =>
    rename_i m _
    have := abs_sub_le (v (m + 1)) (v m) (v i)
    simp only [changes, Nat.succ_eq_add_one]
    linarith

/-- A straight line that starts on a broken line, with the velocity it has there, leaves it by no more than the changes of the velocity times the time. -/
theorem lead {T P V : ℕ → ℝ} {k : ℕ} {t : ℝ} {j : ℕ} (hkj : k ≤ j) :
    (∀ i, k ≤ i → i < j → P (i + 1) = P i + (T (i + 1) - T i) * V i) → (∀ i, k < i → i ≤ j → t ≤ T i) → (∀ i, k ≤ i → i < j → T i ≤ T (i + 1)) → ∀ t', T j ≤ t' → t ≤ t' →
    |P j + (t' - T j) * V j - (P k + (t - T k) * V k + (t' - t) * V k)| ≤ (changes V j - changes V k) * (t' - t) := by
  induction hkj with
  | refl => intro _ _ _ t' _ _; rw [show P k + (t' - T k) * V k - (P k + (t - T k) * V k + (t' - t) * V k) = 0 by ring]; simp
  | step hkm ih =>
    rename_i m
    intro hV ht hT t' h1 h2
    simp only [Nat.succ_eq_add_one] at *
    have hm := ht (m + 1) (by have : k ≤ m := hkm; omega) (le_refl _)
    have i1 := ih (fun i a b => hV i a (by omega)) (fun i a b => ht i a (by omega)) (fun i a b => hT i a (by omega)) (T (m + 1)) (hT m hkm (by omega)) hm
    have i2 := changes_diff V (show k ≤ m + 1 by have : k ≤ m := hkm; omega)
    have i3 := abs_add_le (P m + (T (m + 1) - T m) * V m - (P k + (t - T k) * V k + (T (m + 1) - t) * V k)) ((t' - T (m + 1)) * (V (m + 1) - V k))
    rw [abs_mul, abs_of_nonneg (by linarith : 0 ≤ t' - T (m + 1))] at i3
    have i4 := mul_le_mul_of_nonneg_left i2 (by linarith : 0 ≤ t' - T (m + 1))
    have i5 : changes V m ≤ changes V (m + 1) := changes_mono V (by omega)
    have i6 := mul_le_mul_of_nonneg_right i5 (by linarith : 0 ≤ T (m + 1) - t)
    rw [hV m hkm (by omega)]
    rw [show P m + (T (m + 1) - T m) * V m + (t' - T (m + 1)) * V (m + 1) - (P k + (t - T k) * V k + (t' - t) * V k) =
      P m + (T (m + 1) - T m) * V m - (P k + (t - T k) * V k + (T (m + 1) - t) * V k) + (t' - T (m + 1)) * (V (m + 1) - V k) by ring]
    nlinarith

theorem step_bound {x q q' v dt B c c' : ℝ} (h : |x - q| ≤ B * c) (hl : |q' - (q + (t + dt - t) * v)| ≤ (c' - c) * (t + dt - t)) (hc : c ≤ c')
    (hB : dt ≤ B) : |x + dt * v - q'| ≤ B * c' := by
  rw [add_sub_cancel_left] at hl
  have := abs_sub_le (x + dt * v) (q + dt * v) q'
  rw [add_sub_add_right_eq_sub, abs_sub_comm (q + dt * v)] at this
  nlinarith

/-- The leg of a time. -/
theorem exists_leg {tp : List (ℝ × Pt ℝ)} {t : ℝ} (h0 : 0 ≤ t) (h : t < schedTime tp tp.length) :
    ∃ k, k < tp.length ∧ schedTime tp k ≤ t ∧ t < schedTime tp (k + 1) := by
  have hz : schedTime tp 0 = 0 := by simp [schedTime]
  classical
  have hex : ∃ k, t < schedTime tp k := ⟨_, h⟩
  have h1 := Nat.find_spec hex
  have h2 := Nat.find_min' hex h
  have h3 : Nat.find hex ≠ 0 := fun e => by rw [e, hz] at h1; linarith
  obtain ⟨k, hk⟩ := Nat.exists_eq_succ_of_ne_zero h3
  refine ⟨k, by omega, not_lt.1 (Nat.find_min hex (by omega)), ?_⟩
  rw [hk] at h1
  exact h1

/-- C129, schedule: with positive durations and steps of at most `B`, until the end of the schedule each coordinate differs from that of the scheduled
position by at most `B` times the sum of the changes of the scheduled velocity. -/
theorem C129_schedule_partial (p0 : Pt ℝ) (tp : List (ℝ × Pt ℝ)) (hne : tp ≠ []) (hpos : ∀ e ∈ tp, 0 < e.1) {B : ℝ} (hB : 0 ≤ B)
    (dts : List ℝ) (hdt : ∀ d ∈ dts, 0 < d ∧ d ≤ B) (htot : dts.sum ≤ schedTime tp tp.length) :
    ∃ s q, runMoves (.interval p0 tp) (initState p0 0) dts = .ok s ∧ s.t = dts.sum ∧ OnSchedule p0 tp dts.sum q ∧
      |s.pos.1 - q.1| ≤ B * changes (fun k => (legVel p0 tp k).1) (tp.length - 1) ∧
      |s.pos.2 - q.2| ≤ B * changes (fun k => (legVel p0 tp k).2) (tp.length - 1) := by
  have hl : 0 < tp.length := List.length_pos_of_ne_nil hne
  -- the leg, and the distance with the changes up to it
  suffices H : ∃ s k, runMoves (.interval p0 tp) (initState p0 0) dts = .ok s ∧ s.t = dts.sum ∧ k < tp.length ∧ schedTime tp k ≤ dts.sum ∧
      dts.sum ≤ schedTime tp (k + 1) ∧
      |s.pos.1 - ((schedPos p0 tp k).1 + (dts.sum - schedTime tp k) * (legVel p0 tp k).1)| ≤ B * changes (fun k => (legVel p0 tp k).1) k ∧
      |s.pos.2 - ((schedPos p0 tp k).2 + (dts.sum - schedTime tp k) * (legVel p0 tp k).2)| ≤ B * changes (fun k => (legVel p0 tp k).2) k by
    obtain ⟨s, k, h1, h2, h3, h4, h5, h6, h7⟩ := H
    refine ⟨s, schedPos p0 tp k + ((dts.sum - schedTime tp k) / (schedTime tp (k + 1) - schedTime tp k)) • (schedPos p0 tp (k + 1) - schedPos p0 tp k),
      h1, h2, ⟨k, h3, h4, h5, rfl⟩, ?_, ?_⟩
    · have hc := mul_le_mul_of_nonneg_left (changes_mono (fun k => (legVel p0 tp k).1) (show k ≤ tp.length - 1 by omega)) hB
      refine le_trans (le_of_eq ?_) (h6.trans hc)
      simp only [Prod.fst_add, Prod.smul_fst, Prod.fst_sub, smul_eq_mul, legVel]
      congr 3; ring
    · have hc := mul_le_mul_of_nonneg_left (changes_mono (fun k => (legVel p0 tp k).2) (show k ≤ tp.length - 1 by omega)) hB
      refine le_trans (le_of_eq ?_) (h7.trans hc)
      simp only [Prod.snd_add, Prod.smul_snd, Prod.snd_sub, smul_eq_mul, legVel]
      congr 3; ring
  have hV1 : ∀ i < tp.length, (schedPos p0 tp (i + 1)).1 = (schedPos p0 tp i).1 + (schedTime tp (i + 1) - schedTime tp i) * (legVel p0 tp i).1 := by
    intro i hi
    have := schedTime_lt hpos (Nat.lt_succ_self i) hi
    rw [legVel, mul_div_cancel₀ _ (by simp only [Nat.succ_eq_add_one] at this; linarith)]; ring
  have hV2 : ∀ i < tp.length, (schedPos p0 tp (i + 1)).2 = (schedPos p0 tp i).2 + (schedTime tp (i + 1) - schedTime tp i) * (legVel p0 tp i).2 := by
    intro i hi
    have := schedTime_lt hpos (Nat.lt_succ_self i) hi
    rw [legVel, mul_div_cancel₀ _ (by simp only [Nat.succ_eq_add_one] at this; linarith)]; ring
  induction dts using List.reverseRecOn with
  | nil =>
    have h01 := schedTime_lt hpos (Nat.lt_succ_self 0) hl
    have h0 : schedTime tp 0 = 0 := by simp [schedTime]
    refine ⟨initState p0 0, 0, rfl, rfl, hl, by simp [h0], by rw [h0] at h01; simpa using h01.le, ?_, ?_⟩ <;>
      simp [h0, initState, schedPos, changes]
  | append_singleton dts dt ih =>
    have hsum : (dts ++ [dt]).sum = dts.sum + dt := by simp
    obtain ⟨hdtp, hdtB⟩ := hdt dt (by simp)
    rw [hsum] at htot ⊢
    obtain ⟨s, k, e, ht, hk, h1, h2, hp1, hp2⟩ := ih (fun d hd => hdt d (by simp [hd])) (by linarith)
    have h0 : 0 ≤ dts.sum := List.sum_nonneg fun d hd => (hdt d (by simp [hd])).1.le
    -- the leg in which the step starts
    have hleg : ∃ k, k < tp.length ∧ schedTime tp k ≤ dts.sum ∧ dts.sum < schedTime tp (k + 1) ∧
        |s.pos.1 - ((schedPos p0 tp k).1 + (dts.sum - schedTime tp k) * (legVel p0 tp k).1)| ≤ B * changes (fun k => (legVel p0 tp k).1) k ∧
        |s.pos.2 - ((schedPos p0 tp k).2 + (dts.sum - schedTime tp k) * (legVel p0 tp k).2)| ≤ B * changes (fun k => (legVel p0 tp k).2) k := by
      rcases lt_or_eq_of_le h2 with h | h
      · exact ⟨k, hk, h1, h, hp1, hp2⟩
      · have hk' : k + 1 < tp.length := by
          rcases Nat.lt_or_ge (k + 1) tp.length with h' | h'
          · exact h'
          · rw [show k + 1 = tp.length by omega] at h
            linarith
        have hlt' := schedTime_lt hpos (Nat.lt_succ_self (k + 1)) (by omega)
        refine ⟨k + 1, hk', h.ge, by rw [h]; exact hlt', ?_, ?_⟩
        · rw [hV1 k hk, h, sub_self, zero_mul, add_zero]
          rw [h] at hp1
          exact hp1.trans (mul_le_mul_of_nonneg_left (changes_mono _ (by omega)) hB)
        · rw [hV2 k hk, h, sub_self, zero_mul, add_zero]
          rw [h] at hp2
          exact hp2.trans (mul_le_mul_of_nonneg_left (changes_mono _ (by omega)) hB)
    clear hp1 hp2 h1 h2 hk
    obtain ⟨k, hk, h1, h2, hp1, hp2⟩ := hleg
    -- the leg in which it ends
    have hleg' : ∃ j, k ≤ j ∧ j < tp.length ∧ schedTime tp j ≤ dts.sum + dt ∧ dts.sum + dt ≤ schedTime tp (j + 1) := by
      rcases lt_or_eq_of_le htot with h | h
      · obtain ⟨j, hj, g1, g2⟩ := exists_leg (by linarith : 0 ≤ dts.sum + dt) h
        refine ⟨j, ?_, hj, g1, g2.le⟩
        by_contra hc
        have := schedTime_le hpos (show j + 1 ≤ k by omega) hk.le
        linarith
      · refine ⟨tp.length - 1, by omega, by omega, ?_, ?_⟩
        · rw [h]; exact schedTime_le hpos (by omega) (le_refl _)
        · rw [show tp.length - 1 + 1 = tp.length by omega, h]
    obtain ⟨j, hkj, hj, g1, g2⟩ := hleg'
    have hv := intervalLinVel_leg (p0 := p0) hpos hk (by rw [ht]; exact h1 : schedTime tp k ≤ s.t) (by rw [ht]; exact h2) s.pos
    have hv' : (schedTime tp (k + 1) - schedTime tp k)⁻¹ • (schedPos p0 tp (k + 1) - schedPos p0 tp k) = legVel p0 tp k := by
      ext <;> simp [legVel, div_eq_inv_mul]
    rw [hv'] at hv
    refine ⟨{ s with pos := s.pos + dt • legVel p0 tp k, rot := s.rot + 0 * dt, t := s.t + dt }, j, ?_, by simp only [ht], hj, g1, g2, ?_, ?_⟩
    · rw [runMoves_append, e]
      simp only [runMoves, motionMove, linVel, hv, rotVel]
    · have := lead (T := schedTime tp) (P := fun i => (schedPos p0 tp i).1) (V := fun i => (legVel p0 tp i).1) hkj (fun i _ b => hV1 i (by omega))
        (t := dts.sum) (fun i a b => h2.le.trans (schedTime_le hpos (by omega) (by omega))) (fun i a b => schedTime_le hpos (by omega) (by omega)) _ g1 (by linarith)
      exact step_bound hp1 this (changes_mono _ hkj) hdtB
    · have := lead (T := schedTime tp) (P := fun i => (schedPos p0 tp i).2) (V := fun i => (legVel p0 tp i).2) hkj (fun i _ b => hV2 i (by omega))
        (t := dts.sum) (fun i a b => h2.le.trans (schedTime_le hpos (by omega) (by omega))) (fun i a b => schedTime_le hpos (by omega) (by omega)) _ g1 (by linarith)
      exact step_bound hp2 this (changes_mono _ hkj) hdtB

/-! ## After the end -/

/-- The factor by which the way to the last position changes in a step. -/
noncomputable def wayFactor (v d dt : ℝ) : ℝ := if v < d then 1 - v * dt / d else 1 - v * dt

theorem intervalLinVel_after {p0 : Pt ℝ} {tp : List (ℝ × Pt ℝ)} (hne : tp ≠ []) (hpos : ∀ e ∈ tp, 0 < e.1) {t : ℝ} (ht : schedTime tp tp.length < t)
    (pos : Pt ℝ) : intervalLinVel p0 tp t pos = .ok (if lastSpeed p0 tp < gap pos (schedPos p0 tp tp.length) then
      (lastSpeed p0 tp / gap pos (schedPos p0 tp tp.length)) • (schedPos p0 tp tp.length - pos)
      else lastSpeed p0 tp • (schedPos p0 tp tp.length - pos)) := by
  obtain ⟨m, hm⟩ : ∃ m, tp.length = m + 1 := ⟨tp.length - 1, by have := List.length_pos_of_ne_nil hne; omega⟩
  have hl := intervalTime_length tp
  have hpl := intervalPos_length p0 tp
  have hlt := schedTime_lt hpos (show m < tp.length by omega) (le_refl _)
  have hm' : tp.length - 1 = m := by omega
  have hg : ∀ a b : Pt ℝ, norm2 (b - a) = gap a b := fun a b => rfl
  unfold intervalLinVel
  rw [pyIdx_last _ tp.length (by omega)]
  simp only [intervalTime_get, Bind.bind, Except.bind]
  rw [if_pos ht, pyIdx_last _ tp.length (by omega), pyIdx_last2 _ m (by omega), pyIdx_last2 _ m (by omega)]
  simp only [intervalTime_get, intervalPos_get]
  simp only [divPt]
  rw [if_neg (by linarith : ¬ schedTime tp tp.length - schedTime tp m = 0)]
  simp only [hg]
  have hv : norm2 ((schedPos p0 tp tp.length - schedPos p0 tp m).1 / (schedTime tp tp.length - schedTime tp m),
      (schedPos p0 tp tp.length - schedPos p0 tp m).2 / (schedTime tp tp.length - schedTime tp m)) = lastSpeed p0 tp := by
    rw [lastSpeed, hm', norm2, gap]
    simp only [Prod.fst_sub, Prod.snd_sub, div_pow]
    rw [← add_div, sqrt_div (by positivity), sqrt_sq (by linarith)]
  rw [hv]
  by_cases h : lastSpeed p0 tp < gap pos (schedPos p0 tp tp.length)
  · have h0 : 0 ≤ lastSpeed p0 tp := by rw [← hv]; exact norm2_nonneg _
    rw [if_pos h, if_pos h, if_neg (by linarith)]
    simp only [pure, Except.pure]
    congr 1
    ext <;> simp <;> ring
  · rw [if_neg h, if_neg h]
    rfl

theorem move_after {p0 : Pt ℝ} {tp : List (ℝ × Pt ℝ)} (hne : tp ≠ []) (hpos : ∀ e ∈ tp, 0 < e.1) {s : MotionState} (ht : schedTime tp tp.length < s.t) (dt : ℝ) :
    ∃ s', motionMove (.interval p0 tp) s dt = .ok s' ∧ s'.t = s.t + dt ∧
      schedPos p0 tp tp.length - s'.pos =
        wayFactor (lastSpeed p0 tp) (gap s.pos (schedPos p0 tp tp.length)) dt • (schedPos p0 tp tp.length - s.pos) := by
  have hv := intervalLinVel_after (p0 := p0) hne hpos ht s.pos
  refine ⟨_, by simp only [motionMove, linVel, hv]; rfl, rfl, ?_⟩
  simp only [wayFactor]
  split <;> (ext <;> simp <;> ring)

theorem gap_factor {p q z : Pt ℝ} {c : ℝ} (h : z - q = c • (z - p)) : gap q z = |c| * gap p z := by
  have h1 := congrArg Prod.fst h
  have h2 := congrArg Prod.snd h
  simp only [Prod.fst_sub, Prod.snd_sub, Prod.smul_fst, Prod.smul_snd, smul_eq_mul] at h1 h2
  rw [gap, gap, h1, h2, ← sqrt_sq_eq_abs, ← sqrt_mul (sq_nonneg c)]
  congr 1; ring

theorem gap_nonneg' (p q : Pt ℝ) : 0 ≤ gap p q := sqrt_nonneg _

/-- One step is a contraction, or a step of at least `v * δ` towards the last position. -/
theorem way_step {v d dt δ B : ℝ} (hv : 0 < v) (hd : 0 ≤ d) (hδ : 0 < δ) (h1 : δ ≤ dt) (h2 : dt ≤ B) :
    |wayFactor v d dt| * d ≤ max (max (max (1 - v * δ) (v * B - 1)) (max (B - 1) 0) * d) (d - v * δ) := by
  have e1 : v * δ ≤ v * dt := mul_le_mul_of_nonneg_left h1 hv.le
  have e2 : v * dt ≤ v * B := mul_le_mul_of_nonneg_left h2 hv.le
  rw [wayFactor]
  split
  · rename_i h
    have hd0 : 0 < d := hv.trans h
    have e3 : |1 - v * dt / d| * d = |d - v * dt| := by
      rw [show d - v * dt = (1 - v * dt / d) * d by field_simp, abs_mul, abs_of_pos hd0]
    rw [e3]
    rcases le_total (v * dt) d with h' | h'
    · apply le_max_of_le_right
      rw [abs_of_nonneg (by linarith)]; linarith
    · apply le_max_of_le_left
      rw [abs_of_nonpos (by linarith)]
      have : (B - 1) * d ≤ max (max (1 - v * δ) (v * B - 1)) (max (B - 1) 0) * d :=
        mul_le_mul_of_nonneg_right ((le_max_left _ _).trans (le_max_right _ _)) hd
      refine le_trans ?_ this
      nlinarith
  · apply le_max_of_le_left
    apply mul_le_mul_of_nonneg_right _ hd
    apply le_trans _ (le_max_left _ _)
    rw [abs_le']
    exact ⟨(by linarith : _ ≤ 1 - v * δ).trans (le_max_left _ _), (by linarith : _ ≤ v * B - 1).trans (le_max_right _ _)⟩

/-- A sequence of distances with such steps tends to zero. -/
theorem way_tendsto {d : ℕ → ℝ} {r c : ℝ} (h0 : ∀ n, 0 ≤ d n) (hr : r < 1) (hc : 0 < c) (h : ∀ n, d (n + 1) ≤ max (r * d n) (d n - c)) :
    Antitone d ∧ Tendsto d atTop (𝓝 0) := by
  have ha : Antitone d := antitone_nat_of_succ_le fun n => (h n).trans (max_le (by nlinarith [h0 n]) (by linarith))
  refine ⟨ha, ?_⟩
  obtain ⟨L, hL⟩ : ∃ L, Tendsto d atTop (𝓝 L) := ⟨_, tendsto_atTop_ciInf ha ⟨0, by rintro _ ⟨n, rfl⟩; exact h0 n⟩⟩
  have hL0 : 0 ≤ L := ge_of_tendsto' hL h0
  have h1 : L ≤ max (r * L) (L - c) :=
    le_of_tendsto_of_tendsto' (hL.comp (tendsto_add_atTop_nat 1)) ((hL.const_mul r).max (hL.sub_const c)) h
  have : L = 0 := by
    rcases le_max_iff.1 h1 with h | h
    · nlinarith
    · linarith
  rwa [this] at hL

/-- No step fails. -/
theorem move_ok {p0 : Pt ℝ} {tp : List (ℝ × Pt ℝ)} (hne : tp ≠ []) (hpos : ∀ e ∈ tp, 0 < e.1) {s : MotionState} (h0 : 0 ≤ s.t) (dt : ℝ) :
    ∃ s', motionMove (.interval p0 tp) s dt = .ok s' ∧ s'.t = s.t + dt := by
  rcases lt_trichotomy s.t (schedTime tp tp.length) with h | h | h
  · obtain ⟨k, hk, h1, h2⟩ := exists_leg h0 h
    have hv := intervalLinVel_leg (p0 := p0) hpos hk h1 h2 s.pos
    exact ⟨_, by simp only [motionMove, linVel, hv]; rfl, rfl⟩
  · have hv := C48_at_end p0 tp hne hpos s.pos
    rw [← h] at hv
    exact ⟨_, by simp only [motionMove, linVel, hv]; rfl, rfl⟩
  · obtain ⟨s', h1, h2, -⟩ := move_after (p0 := p0) hne hpos h dt
    exact ⟨s', h1, h2⟩

/-- C129, approach: if the last leg has a speed `v > 0`, and the steps are between a positive number and a `B` with `B < 2` and `v * B < 2`, then the
obstacle, wherever it is, comes arbitrarily near to the last position, and does not go away from it after the end of the schedule. Missing: longer steps, see
`C129_swing_false`, and schedules that end with a pause, see `C129_pause_false`. -/
theorem C129_approach_partial (p0 : Pt ℝ) (tp : List (ℝ × Pt ℝ)) (hne : tp ≠ []) (hpos : ∀ e ∈ tp, 0 < e.1) (hv : 0 < lastSpeed p0 tp)
    {δ B : ℝ} (hδ : 0 < δ) (hB : B < 2) (hvB : lastSpeed p0 tp * B < 2) (dt : ℕ → ℝ) (hdt : ∀ k, δ ≤ dt k ∧ dt k ≤ B)
    (s : MotionState) (hs : 0 ≤ s.t) :
    ∃ track : ℕ → MotionState, track 0 = s ∧ (∀ k, motionMove (.interval p0 tp) (track k) (dt k) = .ok (track (k + 1))) ∧
      (∀ k, schedTime tp tp.length < (track k).t →
        gap (track (k + 1)).pos (schedPos p0 tp tp.length) ≤ gap (track k).pos (schedPos p0 tp tp.length)) ∧
      Tendsto (fun k => gap (track k).pos (schedPos p0 tp tp.length)) atTop (𝓝 0) := by
  classical
  let next (k : ℕ) (s : MotionState) : MotionState := if h : ∃ s', motionMove (.interval p0 tp) s (dt k) = .ok s' then h.choose else s
  let track : ℕ → MotionState := fun k => Nat.rec s (fun k s => next k s) k
  have hn : ∀ k s s', motionMove (.interval p0 tp) s (dt k) = .ok s' → next k s = s' := by
    intro k s s' h
    have hex : ∃ s', motionMove (.interval p0 tp) s (dt k) = .ok s' := ⟨s', h⟩
    simp only [next]
    rw [dif_pos hex]
    exact Except.ok.inj (hex.choose_spec.symm.trans h)
  have ht : ∀ k, s.t + k * δ ≤ (track k).t := by
    intro k
    induction k with
    | zero => simp [track]
    | succ k ih =>
      have hk : 0 ≤ k * δ := by positivity
      obtain ⟨s', h1, h2⟩ := move_ok (p0 := p0) hne hpos (s := track k) (by linarith) (dt k)
      have : track (k + 1) = s' := hn k _ _ h1
      rw [this, h2]; push_cast; linarith [(hdt k).1]
  have hstep : ∀ k, motionMove (.interval p0 tp) (track k) (dt k) = .ok (track (k + 1)) := by
    intro k
    have hk : 0 ≤ k * δ := by positivity
    obtain ⟨s', h1, -⟩ := move_ok (p0 := p0) hne hpos (s := track k) (by linarith [ht k]) (dt k)
    have : track (k + 1) = s' := hn k _ _ h1
    rw [this, h1]
  have hgap : ∀ k, schedTime tp tp.length < (track k).t → gap (track (k + 1)).pos (schedPos p0 tp tp.length) =
      |wayFactor (lastSpeed p0 tp) (gap (track k).pos (schedPos p0 tp tp.length)) (dt k)| * gap (track k).pos (schedPos p0 tp tp.length) := by
    intro k h
    obtain ⟨s', h1, -, h3⟩ := move_after (p0 := p0) hne hpos h (dt k)
    rw [hstep k] at h1
    rw [Except.ok.inj h1]
    exact gap_factor h3
  have hr : max (max (1 - lastSpeed p0 tp * δ) (lastSpeed p0 tp * B - 1)) (max (B - 1) 0) < 1 := by
    have : 0 < lastSpeed p0 tp * δ := mul_pos hv hδ
    refine max_lt (max_lt (by linarith) (by linarith)) (max_lt (by linarith) (by norm_num))
  have hc : 0 < lastSpeed p0 tp * δ := mul_pos hv hδ
  refine ⟨track, rfl, hstep, ?_, ?_⟩
  · intro k h
    rw [hgap k h]
    refine (way_step hv (gap_nonneg' _ _) hδ (hdt k).1 (hdt k).2).trans (max_le ?_ (by linarith))
    nlinarith [gap_nonneg' (track k).pos (schedPos p0 tp tp.length)]
  · -- the end is passed at some time
    obtain ⟨N, hN⟩ := exists_nat_gt (schedTime tp tp.length / δ)
    rw [div_lt_iff₀ hδ] at hN
    have hafter : ∀ n, schedTime tp tp.length < (track (n + N)).t := by
      intro n
      have := ht (n + N)
      push_cast at this
      have : 0 ≤ n * δ := by positivity
      nlinarith
    have := (way_tendsto (d := fun n => gap (track (n + N)).pos (schedPos p0 tp tp.length)) (fun n => gap_nonneg' _ _) hr hc (by
      intro n
      have h := hgap (n + N) (hafter n)
      rw [show n + N + 1 = n + 1 + N by ring] at h
      simp only [h]
      exact way_step hv (gap_nonneg' _ _) hδ (hdt _).1 (hdt _).2)).2
    exact (tendsto_add_atTop_iff_nat (f := fun k => gap (track k).pos (schedPos p0 tp tp.length)) N).1 this

/-- C129 is false for long steps: for every step there is a schedule, one way of length 1 in half a step, whose last position the obstacle passes to and fro
for ever at distance 1. -/
theorem C129_swing_false {dt : ℝ} (hdt : 0 < dt) (n : ℕ) :
    ∃ s, runMoves (.interval (0, 0) [(dt / 2, (1, 0))]) (initState (0, 0) 0) (List.replicate n dt) = .ok s ∧
      s.pos = (if n % 2 = 0 then (0, 0) else (2, 0)) ∧ gap s.pos (schedPos (0, 0) [(dt / 2, (1, 0))] 1) = 1 := by
  have hpos : ∀ e ∈ [((dt / 2 : ℝ), ((1, 0) : Pt ℝ))], 0 < e.1 := by simpa using hdt
  have t0 : schedTime [((dt / 2 : ℝ), ((1, 0) : Pt ℝ))] 0 = 0 := by simp [schedTime]
  have t1 : schedTime [((dt / 2 : ℝ), ((1, 0) : Pt ℝ))] 1 = dt / 2 := by simp [schedTime]
  have p0 : schedPos (0, 0) [((dt / 2 : ℝ), ((1, 0) : Pt ℝ))] 0 = (0, 0) := by simp [schedPos]
  have p1 : schedPos (0, 0) [((dt / 2 : ℝ), ((1, 0) : Pt ℝ))] 1 = (1, 0) := by simp [schedPos]
  have g0 : gap (0, 0) (1, 0) = 1 := by simp [gap]
  have g2 : gap (2, 0) (1, 0) = 1 := by norm_num [gap]
  have hls : lastSpeed (0, 0) [((dt / 2 : ℝ), ((1, 0) : Pt ℝ))] = 2 / dt := by
    simp only [lastSpeed, List.length_singleton, Nat.sub_self, t0, t1, p0, p1, g0]
    field_simp
    simp [hdt.ne']
  suffices H : ∃ s, runMoves (.interval (0, 0) [(dt / 2, (1, 0))]) (initState (0, 0) 0) (List.replicate n dt) = .ok s ∧
      s.pos = (if n % 2 = 0 then (0, 0) else (2, 0)) ∧ s.t = n * dt by
    obtain ⟨s, h1, h2, -⟩ := H
    refine ⟨s, h1, h2, ?_⟩
    rw [h2, p1]
    split
    · exact g0
    · exact g2
  induction n with
  | zero => exact ⟨_, rfl, rfl, by simp [initState]⟩
  | succ n ih =>
    obtain ⟨s, h1, h2, h3⟩ := ih
    rw [List.replicate_succ', runMoves_append, h1]
    rcases Nat.eq_zero_or_pos n with rfl | hn
    · have hv := intervalLinVel_leg (p0 := (0, 0)) hpos (k := 0) (by simp) (t := s.t) (by rw [t0, h3]; simp) (by rw [t1, h3]; simpa using hdt) s.pos
      simp only [zero_add, t0, t1, p0, p1] at hv
      refine ⟨_, by simp only [runMoves, motionMove, linVel, hv]; rfl, ?_, by simp [h3]⟩
      simp only [h2]
      ext
      · simp; field_simp
      · simp
    · have hafter : schedTime [((dt / 2 : ℝ), ((1, 0) : Pt ℝ))] 1 < s.t := by
        rw [t1, h3]
        have : (1 : ℝ) ≤ n := by exact_mod_cast hn
        nlinarith
      obtain ⟨s', e1, e2, e3⟩ := move_after (p0 := (0, 0)) (by simp) hpos hafter dt
      refine ⟨s', by simp only [runMoves, e1], ?_, by rw [e2, h3]; push_cast; ring⟩
      simp only [List.length_singleton, p1, hls] at e3
      have hg : gap s.pos (1, 0) = 1 := by
        rw [h2]; split
        · exact g0
        · exact g2
      have hw : wayFactor (2 / dt) (gap s.pos (1, 0)) dt = -1 := by
        rw [hg, wayFactor, div_mul_cancel₀ _ hdt.ne']
        split <;> norm_num
      rw [hw, h2] at e3
      have f1 := congrArg Prod.fst e3
      have f2 := congrArg Prod.snd e3
      rcases Nat.mod_two_eq_zero_or_one n with h | h
      · rw [if_neg (by omega)]
        rw [if_pos h] at f1 f2
        simp at f1 f2
        ext
        · show s'.pos.1 = 2
          linarith
        · exact f2
      · rw [if_pos (by omega)]
        rw [if_neg (by omega)] at f1 f2
        simp at f1 f2
        ext
        · show s'.pos.1 = 0
          linarith
        · exact f2

/-- C129 is false for schedules that end with a pause: to (1, 0) in time 1, then a pause of 1. With steps of 3/4 the obstacle runs past (1, 0) and stays at
(3/2, 0). -/
theorem C129_pause_false (n : ℕ) :
    ∃ s, runMoves (.interval (0, 0) [(1, (1, 0)), (1, (1, 0))]) (initState (0, 0) 0) (List.replicate (n + 2) (3 / 4)) = .ok s ∧ s.pos = (3 / 2, 0) := by
  have hpos : ∀ e ∈ [((1 : ℝ), ((1, 0) : Pt ℝ)), (1, (1, 0))], 0 < e.1 := by simp
  have t0 : schedTime [((1 : ℝ), ((1, 0) : Pt ℝ)), (1, (1, 0))] 0 = 0 := by simp [schedTime]
  have t1 : schedTime [((1 : ℝ), ((1, 0) : Pt ℝ)), (1, (1, 0))] 1 = 1 := by simp [schedTime]
  have t2 : schedTime [((1 : ℝ), ((1, 0) : Pt ℝ)), (1, (1, 0))] 2 = 2 := by norm_num [schedTime]
  have p0 : schedPos (0, 0) [((1 : ℝ), ((1, 0) : Pt ℝ)), (1, (1, 0))] 0 = (0, 0) := by simp [schedPos]
  have p1 : schedPos (0, 0) [((1 : ℝ), ((1, 0) : Pt ℝ)), (1, (1, 0))] 1 = (1, 0) := by simp [schedPos]
  have p2 : schedPos (0, 0) [((1 : ℝ), ((1, 0) : Pt ℝ)), (1, (1, 0))] 2 = (1, 0) := by simp [schedPos]
  have hls : lastSpeed (0, 0) [((1 : ℝ), ((1, 0) : Pt ℝ)), (1, (1, 0))] = 0 := by
    simp [lastSpeed, p1, p2, gap]
  suffices H : ∃ s, runMoves (.interval (0, 0) [(1, (1, 0)), (1, (1, 0))]) (initState (0, 0) 0) (List.replicate (n + 2) (3 / 4)) = .ok s ∧
      s.pos = (3 / 2, 0) ∧ s.t = (n + 2) * (3 / 4) by
    obtain ⟨s, h1, h2, -⟩ := H
    exact ⟨s, h1, h2⟩
  induction n with
  | zero =>
    have h1 := intervalLinVel_leg (p0 := (0, 0)) hpos (k := 0) (by simp) (t := 0) (by rw [t0]) (by rw [t1]; norm_num) (0, 0)
    have h2 := intervalLinVel_leg (p0 := (0, 0)) hpos (k := 0) (by simp) (t := 3 / 4) (by rw [t0]; norm_num) (by rw [t1]; norm_num) (3 / 4, 0)
    simp only [zero_add, t0, t1, p0, p1] at h1 h2
    have e1 : motionMove (.interval (0, 0) [(1, (1, 0)), (1, (1, 0))]) (initState (0, 0) 0) (3 / 4) = .ok ⟨(3 / 4, 0), 0, 3 / 4, 0⟩ := by
      simp only [motionMove, linVel, initState, h1, rotVel]
      norm_num
    have e2 : motionMove (.interval (0, 0) [(1, (1, 0)), (1, (1, 0))]) ⟨(3 / 4, 0), 0, 3 / 4, 0⟩ (3 / 4) = .ok ⟨(3 / 2, 0), 0, 3 / 2, 0⟩ := by
      simp only [motionMove, linVel, h2, rotVel]
      norm_num
    exact ⟨⟨(3 / 2, 0), 0, 3 / 2, 0⟩, by simp only [List.replicate, runMoves, e1, e2], rfl, by norm_num⟩
  | succ n ih =>
    obtain ⟨s, h1, h2, h3⟩ := ih
    rw [List.replicate_succ', runMoves_append, h1]
    suffices H : ∃ s', motionMove (.interval (0, 0) [(1, (1, 0)), (1, (1, 0))]) s (3 / 4) = .ok s' ∧ s'.pos = (3 / 2, 0) ∧ s'.t = s.t + 3 / 4 by
      obtain ⟨s', e1, e2, e3⟩ := H
      exact ⟨s', by simp only [runMoves, e1], e2, by rw [e3, h3]; push_cast; ring⟩
    rcases Nat.eq_zero_or_pos n with rfl | hn
    · have hv := intervalLinVel_leg (p0 := (0, 0)) hpos (k := 1) (by simp) (t := s.t) (by rw [t1, h3]; norm_num) (by rw [t2, h3]; norm_num) s.pos
      simp only [Nat.reduceAdd, p1, p2, sub_self, smul_zero] at hv
      exact ⟨_, by simp only [motionMove, linVel, hv]; rfl, by simp [h2], rfl⟩
    · have hafter : schedTime [((1 : ℝ), ((1, 0) : Pt ℝ)), (1, (1, 0))] 2 < s.t := by
        rw [t2, h3]
        have : (1 : ℝ) ≤ n := by exact_mod_cast hn
        linarith
      obtain ⟨s', e1, e2, e3⟩ := move_after (p0 := (0, 0)) (by simp) hpos hafter (3 / 4)
      refine ⟨s', e1, ?_, e2⟩
      simp only [List.length_cons, List.length_nil, Nat.reduceAdd, zero_add, hls, wayFactor, zero_mul, zero_div, sub_zero, ite_self, one_smul] at e3
      rw [← h2]
      exact sub_right_injective e3

/-- A schedule with a bend, to (1, 0) and on to (1, 1), in steps of 3/4: at time 3/2 the obstacle is at (3/2, 0) and not at (1, 1/2), within 3/4 in each
coordinate. -/
example : ∃ s q, runMoves (.interval (0, 0) [(1, (1, 0)), (1, (1, 1))]) (initState (0, 0) 0) [3 / 4, 3 / 4] = .ok s ∧ s.t = 3 / 2 ∧
    OnSchedule (0, 0) [(1, (1, 0)), (1, (1, 1))] (3 / 2) q ∧ |s.pos.1 - q.1| ≤ 3 / 4 ∧ |s.pos.2 - q.2| ≤ 3 / 4 := by
  obtain ⟨s, q, h1, h2, h3, h4, h5⟩ := C129_schedule_partial (0, 0) [(1, (1, 0)), (1, (1, 1))] (by simp) (by simp) (B := 3 / 4) (by norm_num)
    [3 / 4, 3 / 4] (by norm_num) (by norm_num [schedTime])
  norm_num [changes, legVel, schedPos, schedTime] at h2 h3 h4 h5
  exact ⟨s, q, h1, h2, h3, h4, h5⟩

/-- The same schedule with steps between 1/10 and 1 for ever. -/
example (dt : ℕ → ℝ) (hdt : ∀ k, 1 / 10 ≤ dt k ∧ dt k ≤ 1) :
    ∃ track : ℕ → MotionState, track 0 = initState (0, 0) 0 ∧
      (∀ k, motionMove (.interval (0, 0) [(1, (1, 0)), (1, (1, 1))]) (track k) (dt k) = .ok (track (k + 1))) ∧
      Tendsto (fun k => gap (track k).pos (1, 1)) atTop (𝓝 0) := by
  have hv : lastSpeed (0, 0) [((1 : ℝ), ((1, 0) : Pt ℝ)), (1, (1, 1))] = 1 := by
    norm_num [lastSpeed, schedPos, schedTime, gap]
  obtain ⟨track, h1, h2, -, h3⟩ := C129_approach_partial (0, 0) [(1, (1, 0)), (1, (1, 1))] (by simp) (by simp) (by rw [hv]; norm_num) (δ := 1 / 10) (B := 1)
    (by norm_num) (by norm_num) (by rw [hv]; norm_num) dt hdt (initState (0, 0) 0) (le_refl _)
  exact ⟨track, h1, h2, h3⟩

end Starworlds
