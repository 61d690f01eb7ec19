import Verif.Proofs.StarInside
import Verif.Spec.Ellipse
import Mathlib.Analysis.SpecialFunctions.Complex.Arg
import Mathlib.Topology.Connected.Clopen
import Mathlib.Topology.Instances.Int
import Mathlib.Analysis.Normed.Module.Basic
import Mathlib.Analysis.Complex.Basic
import Mathlib.Tactic.Linarith

/-! # Even-odd regions and winding numbers -/

namespace Starworlds

open Real Spec

/-- A vector as a complex number. -/
def cz (u : Pt ℝ) : ℂ := ⟨u.1, u.2⟩

theorem cz_ne {u : Pt ℝ} (h : u ≠ 0) : cz u ≠ 0 := by
  intro e
  apply h
  have h1 := congrArg Complex.re e
  have h2 := congrArg Complex.im e
  exact Prod.ext h1 h2

theorem cz_div_im (u w : Pt ℝ) : (cz w / cz u).im = cross u w / (u.1 ^ 2 + u.2 ^ 2) := by
  rw [Complex.div_im]
  simp only [cz, Complex.normSq_mk, cross]
  ring

theorem cz_div_re (u w : Pt ℝ) : (cz w / cz u).re = (u.1 * w.1 + u.2 * w.2) / (u.1 ^ 2 + u.2 ^ 2) := by
  rw [Complex.div_re]
  simp only [cz, Complex.normSq_mk]
  ring

/-- The angle by which an edge turns, seen from `p`. -/
noncomputable def turnAt (p a b : Pt ℝ) : ℝ := Complex.arg (cz (b - p) / cz (a - p))

/-- The angle of a vector in `(0, 2π]`. -/
noncomputable def angleUp (u : Pt ℝ) : ℝ := if 0 < Complex.arg (cz u) then Complex.arg (cz u) else Complex.arg (cz u) + 2 * π

theorem angleUp_coe (u : Pt ℝ) : ((angleUp u : ℝ) : Real.Angle) = (Complex.arg (cz u) : Real.Angle) := by
  unfold angleUp
  split
  · rfl
  · rw [Real.Angle.coe_add, Real.Angle.coe_two_pi, add_zero]

theorem angleUp_upper {u : Pt ℝ} (h : 0 < u.2) : 0 < angleUp u ∧ angleUp u < π := by
  have h0 : 0 < Complex.arg (cz u) := by
    refine lt_of_le_of_ne (Complex.arg_nonneg_iff.2 h.le) fun e => ?_
    exact h.ne' (Complex.arg_eq_zero_iff.1 e.symm).2
  have h1 : Complex.arg (cz u) < π := Complex.arg_lt_pi_iff.2 (Or.inr h.ne')
  unfold angleUp
  rw [if_pos h0]
  exact ⟨h0, h1⟩

theorem angleUp_lower {u : Pt ℝ} (h : u.2 ≤ 0) : π ≤ angleUp u ∧ angleUp u ≤ 2 * π := by
  have h1 := Complex.arg_le_pi (cz u)
  have h2 := Complex.neg_pi_lt_arg (cz u)
  unfold angleUp
  split
  · rename_i h0
    have : Complex.arg (cz u) = π := by
      have him : (cz u).im = 0 := le_antisymm h (Complex.arg_nonneg_iff.1 h0.le)
      rcases lt_or_ge (cz u).re 0 with hr | hr
      · exact Complex.arg_eq_pi_iff.2 ⟨hr, him⟩
      · exact absurd (Complex.arg_eq_zero_iff.2 ⟨hr, him⟩) h0.ne'
    rw [this]
    exact ⟨le_rfl, by linarith [pi_pos]⟩
  · rename_i h0
    exact ⟨by linarith, by linarith⟩

open scoped Classical in
/-- Upward crossings of the ray to the right count 1, downward ones -1. -/
noncomputable def signedCross (a b p : Pt ℝ) : ℤ :=
  if a.2 - p.2 ≤ 0 ∧ 0 < b.2 - p.2 ∧ 0 < cross (b - a) (p - a) then 1
  else if b.2 - p.2 ≤ 0 ∧ 0 < a.2 - p.2 ∧ cross (b - a) (p - a) < 0 then -1 else 0

theorem cross_about (a b p : Pt ℝ) : cross (b - a) (p - a) = cross (a - p) (b - p) := by
  simp [cross]; ring

/-- Vectors to the ends of an edge that does not contain `p`. -/
theorem edge_vectors {a b p : Pt ℝ} (h : ¬ OnSegment a b p) : a - p ≠ 0 ∧ b - p ≠ 0 ∧
    (cross (a - p) (b - p) = 0 → 0 < (a - p).1 * (b - p).1 + (a - p).2 * (b - p).2) := by
  refine ⟨fun e => h ?_, fun e => h ?_, fun hc => ?_⟩
  · exact ⟨0, le_rfl, zero_le_one, by rw [zero_smul, add_zero]; exact (sub_eq_zero.1 e).symm⟩
  · exact ⟨1, zero_le_one, le_rfl, by rw [one_smul]; rw [← sub_eq_zero.1 e]; simp⟩
  · by_contra hneg
    push Not at hneg
    apply h
    obtain ⟨u, hu⟩ : ∃ u, u = a - p := ⟨_, rfl⟩
    obtain ⟨w, hw⟩ : ∃ w, w = b - p := ⟨_, rfl⟩
    rw [← hu, ← hw] at hc hneg
    have ea : a = p + u := by rw [hu]; simp
    have eb : b = p + w := by rw [hw]; simp
    -- `p` divides the edge in the ratio of the lengths
    obtain ⟨S, hS⟩ : ∃ S, S = u.1 ^ 2 + u.2 ^ 2 := ⟨_, rfl⟩
    obtain ⟨D, hD⟩ : ∃ D, D = u.1 * w.1 + u.2 * w.2 := ⟨_, rfl⟩
    have hS0 : 0 ≤ S := by rw [hS]; positivity
    rw [← hD] at hneg
    simp only [cross] at hc
    by_cases hz : S - D = 0
    · have hS' : S = 0 := by linarith
      have h1 : u.1 = 0 := by nlinarith [sq_nonneg u.1, sq_nonneg u.2]
      have h2 : u.2 = 0 := by nlinarith [sq_nonneg u.1, sq_nonneg u.2]
      exact ⟨0, le_rfl, zero_le_one, by rw [ea]; ext <;> simp [h1, h2]⟩
    · have hpos : 0 < S - D := lt_of_le_of_ne (by linarith) (Ne.symm hz)
      refine ⟨S / (S - D), by positivity, by rw [div_le_one hpos]; linarith, ?_⟩
      have k1 : u.1 * (S - D) + S * (w.1 - u.1) = 0 := by rw [hS, hD]; linear_combination -u.2 * hc
      have k2 : u.2 * (S - D) + S * (w.2 - u.2) = 0 := by rw [hS, hD]; linear_combination u.1 * hc
      rw [ea, eb]
      ext
      · simp only [Prod.fst_add, Prod.smul_fst, Prod.fst_sub, smul_eq_mul]
        field_simp
        linarith
      · simp only [Prod.snd_add, Prod.smul_snd, Prod.snd_sub, smul_eq_mul]
        field_simp
        linarith

/-- The angle of an edge is the difference of the angles of its ends, up to a full turn at a crossing of the ray to the right. -/
theorem turnAt_eq {a b p : Pt ℝ} (h : ¬ OnSegment a b p) :
    turnAt p a b = angleUp (b - p) - angleUp (a - p) + 2 * π * signedCross a b p := by
  obtain ⟨ha, hb, hdot⟩ := edge_vectors h
  have hc := cross_about a b p
  unfold signedCross turnAt
  rw [hc]
  rw [show b.2 - p.2 = (b - p).2 from rfl, show a.2 - p.2 = (a - p).2 from rfl]
  obtain ⟨u, hu⟩ : ∃ u, u = a - p := ⟨_, rfl⟩
  obtain ⟨w, hw⟩ : ∃ w, w = b - p := ⟨_, rfl⟩
  rw [← hu] at ha hdot ⊢
  rw [← hw] at hb hdot ⊢
  clear hu hw hc h
  have hq : 0 < u.1 ^ 2 + u.2 ^ 2 := by
    by_contra hle
    push Not at hle
    apply ha
    ext
    · show u.1 = 0; nlinarith [sq_nonneg u.1, sq_nonneg u.2]
    · show u.2 = 0; nlinarith [sq_nonneg u.1, sq_nonneg u.2]
  obtain ⟨d, hd⟩ : ∃ d, d = Complex.arg (cz w / cz u) := ⟨_, rfl⟩
  rw [← hd]
  have dlt : d < π := by
    rw [hd, Complex.arg_lt_pi_iff]
    by_cases hz : cross u w = 0
    · left; rw [cz_div_re]; exact (div_pos (hdot hz) hq).le
    · right; rw [cz_div_im]; exact div_ne_zero hz hq.ne'
  have dgt : -π < d := by rw [hd]; exact Complex.neg_pi_lt_arg _
  have dneg : d < 0 ↔ cross u w < 0 := by
    rw [hd, Complex.arg_neg_iff, cz_div_im]
    constructor
    · intro h; by_contra hn; push Not at hn; exact absurd (div_nonneg hn hq.le) (not_le.2 h)
    · intro h; exact div_neg_of_neg_of_pos h hq
  have dpos : 0 < d ↔ 0 < cross u w := by
    constructor
    · intro h
      by_contra hn
      push Not at hn
      rcases hn.lt_or_eq with hn | hn
      · linarith [dneg.2 hn]
      · have : d = 0 := by
          rw [hd, Complex.arg_eq_zero_iff, cz_div_im, cz_div_re, hn, zero_div]
          exact ⟨(div_pos (hdot hn) hq).le, rfl⟩
        linarith
    · intro h
      have h0 : 0 ≤ d := by by_contra hn; push Not at hn; linarith [dneg.1 hn]
      refine lt_of_le_of_ne h0 fun e => ?_
      have := (Complex.arg_eq_zero_iff.1 (hd ▸ e.symm)).2
      rw [cz_div_im] at this
      exact (div_pos h hq).ne' this
  obtain ⟨k, hk⟩ : ∃ k : ℤ, d = angleUp w - angleUp u + 2 * π * k := by
    have e : ((d : ℝ) : Real.Angle) = ((angleUp w - angleUp u : ℝ) : Real.Angle) := by
      rw [hd, Complex.arg_div_coe_angle (cz_ne hb) (cz_ne ha), Real.Angle.coe_sub, angleUp_coe, angleUp_coe]
    obtain ⟨k, hk⟩ := Real.Angle.angle_eq_iff_two_pi_dvd_sub.1 e
    exact ⟨k, by linarith⟩
  have hpi := pi_pos
  have bound : ∀ m : ℤ, (m : ℝ) * (2 * π) - 2 * π < 2 * π * k → 2 * π * k < m * (2 * π) + 2 * π → k = m := by
    intro m h1 h2
    have h1' : ((m - 1 : ℤ) : ℝ) < k := by
      push_cast
      by_contra hn
      push Not at hn
      nlinarith
    have h2' : (k : ℝ) < ((m + 1 : ℤ) : ℝ) := by
      push_cast
      by_contra hn
      push Not at hn
      nlinarith
    have g1 : m - 1 < k := by exact_mod_cast h1'
    have g2 : k < m + 1 := by exact_mod_cast h2'
    omega
  rw [hk]
  congr 3
  rcases lt_or_ge 0 u.2 with hu2 | hu2 <;> rcases lt_or_ge 0 w.2 with hw2 | hw2
  · -- both above
    have := angleUp_upper hu2
    have := angleUp_upper hw2
    rw [if_neg (by rintro ⟨h, _⟩; linarith), if_neg (by rintro ⟨h, _⟩; linarith)]
    exact bound 0 (by push_cast; linarith) (by push_cast; linarith)
  · -- down
    have := angleUp_upper hu2
    have := angleUp_lower hw2
    rw [if_neg (by rintro ⟨h, _⟩; linarith)]
    by_cases hn : cross u w < 0
    · rw [if_pos ⟨hw2, hu2, hn⟩]
      have := dneg.2 hn
      exact bound (-1) (by push_cast; linarith) (by push_cast; linarith)
    · rw [if_neg (fun h => hn h.2.2)]
      have : 0 ≤ d := by by_contra h'; push Not at h'; exact hn (dneg.1 h')
      exact bound 0 (by push_cast; linarith) (by push_cast; linarith)
  · -- up
    have := angleUp_lower hu2
    have := angleUp_upper hw2
    by_cases hn : 0 < cross u w
    · rw [if_pos ⟨hu2, hw2, hn⟩]
      have := dpos.2 hn
      exact bound 1 (by push_cast; linarith) (by push_cast; linarith)
    · rw [if_neg (fun h => hn h.2.2), if_neg (by rintro ⟨h, _⟩; linarith)]
      have : d ≤ 0 := by by_contra h'; push Not at h'; exact hn (dpos.1 h')
      exact bound 0 (by push_cast; linarith) (by push_cast; linarith)
  · -- both below
    have := angleUp_lower hu2
    have := angleUp_lower hw2
    rw [if_neg (by rintro ⟨_, h, _⟩; linarith), if_neg (by rintro ⟨_, h, _⟩; linarith)]
    exact bound 0 (by push_cast; linarith) (by push_cast; linarith)

/-- The total angle by which the ring turns around `p`. -/
noncomputable def ringTurn (v : List (Pt ℝ)) (p : Pt ℝ) : ℝ :=
  ∑ i ∈ Finset.range v.length, turnAt p (corner v i) (corner v (i + 1))

/-- The winding number. -/
noncomputable def windingNumber (v : List (Pt ℝ)) (p : Pt ℝ) : ℤ :=
  ∑ i ∈ Finset.range v.length, signedCross (corner v i) (corner v (i + 1)) p

theorem ringTurn_eq {v : List (Pt ℝ)} {p : Pt ℝ} (h : ¬ OnRing v p) : ringTurn v p = 2 * π * windingNumber v p := by
  have hedge : ∀ i ∈ Finset.range v.length, turnAt p (corner v i) (corner v (i + 1)) =
      (angleUp (corner v (i + 1) - p) - angleUp (corner v i - p)) + 2 * π * signedCross (corner v i) (corner v (i + 1)) p := by
    intro i hi
    exact turnAt_eq fun hs => h ⟨i, Finset.mem_range.1 hi, hs⟩
  unfold ringTurn windingNumber
  rw [Finset.sum_congr rfl hedge, Finset.sum_add_distrib, Finset.sum_range_sub (fun i => angleUp (corner v i - p)), ← Finset.mul_sum]
  have e : corner v v.length = corner v 0 := by simp [corner]
  rw [e, sub_self, zero_add]
  push_cast
  rfl

open scoped Classical in
theorem signedCross_odd (a b p : Pt ℝ) : signedCross a b p % 2 = if RayCrosses a b p then 1 else 0 := by
  unfold signedCross
  by_cases h1 : a.2 - p.2 ≤ 0 ∧ 0 < b.2 - p.2 ∧ 0 < cross (b - a) (p - a)
  · rw [if_pos h1, if_pos (rayCrosses_signs.2 (Or.inl h1))]; rfl
  · rw [if_neg h1]
    by_cases h2 : b.2 - p.2 ≤ 0 ∧ 0 < a.2 - p.2 ∧ cross (b - a) (p - a) < 0
    · rw [if_pos h2, if_pos (rayCrosses_signs.2 (Or.inr h2))]; rfl
    · rw [if_neg h2, if_neg fun h => (rayCrosses_signs.1 h).elim h1 h2]; rfl

/-- A point is in the interior if the ring winds around it an odd number of times. -/
theorem inside_iff_winding {v : List (Pt ℝ)} {p : Pt ℝ} : Inside v p ↔ ¬ OnRing v p ∧ windingNumber v p % 2 = 1 := by
  classical
  unfold Inside
  refine and_congr_right fun _ => ?_
  have key : ∀ n, (∑ i ∈ Finset.range n, signedCross (corner v i) (corner v (i + 1)) p) % 2 =
      ((((List.range n).filter fun i => decide (RayCrosses (corner v i) (corner v (i + 1)) p)).length : ℕ) : ℤ) % 2 := by
    intro n
    induction n with
    | zero => simp
    | succ n ih =>
      rw [Finset.sum_range_succ, List.range_succ, List.filter_append, List.length_append]
      have hs := signedCross_odd (corner v n) (corner v (n + 1)) p
      by_cases hc : RayCrosses (corner v n) (corner v (n + 1)) p
      · rw [if_pos hc] at hs
        simp only [List.filter_cons, List.filter_nil, hc, decide_true, if_true, List.length_cons, List.length_nil]
        push_cast
        omega
      · rw [if_neg hc] at hs
        simp only [List.filter_cons, List.filter_nil, hc, decide_false, Bool.false_eq_true, if_false, List.length_nil]
        push_cast
        omega
  unfold windingNumber
  rw [key]
  constructor <;> intro h <;> omega

/-! ## Moving a polygon -/

theorem corner_map (g : Pt ℝ → Pt ℝ) {v : List (Pt ℝ)} (hv : v ≠ []) (i : ℕ) : corner (v.map g) i = g (corner v i) := by
  have h : i % v.length < v.length := Nat.mod_lt _ (List.length_pos_iff.2 hv)
  unfold corner
  rw [List.length_map, List.getD_eq_getElem _ _ (by simpa using h), List.getD_eq_getElem _ _ h, List.getElem_map]

theorem worldOf_line (mm : Option Pose) (a b : Pt ℝ) (t : ℝ) :
    worldOf mm (a + t • (b - a)) = worldOf mm a + t • (worldOf mm b - worldOf mm a) := by
  cases mm with
  | none => rfl
  | some q => ext <;> simp [worldOf] <;> ring

theorem worldOf_injective (mm : Option Pose) : Function.Injective (worldOf mm) := by
  intro a b h
  cases mm with
  | none => exact h
  | some q =>
    have h1 : cos q.rot * a.1 - sin q.rot * a.2 + q.pos.1 = cos q.rot * b.1 - sin q.rot * b.2 + q.pos.1 := congrArg Prod.fst h
    have h2 : sin q.rot * a.1 + cos q.rot * a.2 + q.pos.2 = sin q.rot * b.1 + cos q.rot * b.2 + q.pos.2 := congrArg Prod.snd h
    have hs := sin_sq_add_cos_sq q.rot
    ext
    · linear_combination cos q.rot * h1 + sin q.rot * h2 - (a.1 - b.1) * hs
    · linear_combination cos q.rot * h2 - sin q.rot * h1 - (a.2 - b.2) * hs

theorem onSegment_world (mm : Option Pose) (a b p : Pt ℝ) :
    OnSegment (worldOf mm a) (worldOf mm b) (worldOf mm p) ↔ OnSegment a b p := by
  constructor
  · rintro ⟨t, h0, h1, e⟩
    rw [← worldOf_line] at e
    exact ⟨t, h0, h1, worldOf_injective mm e⟩
  · rintro ⟨t, h0, h1, rfl⟩
    exact ⟨t, h0, h1, worldOf_line mm a b t⟩

theorem turnAt_world (mm : Option Pose) (a b p : Pt ℝ) :
    turnAt (worldOf mm p) (worldOf mm a) (worldOf mm b) = turnAt p a b := by
  cases mm with
  | none => rfl
  | some q =>
    have key : ∀ u : Pt ℝ, cz (worldOf (some q) u - worldOf (some q) p) = (⟨cos q.rot, sin q.rot⟩ : ℂ) * cz (u - p) := by
      intro u
      apply Complex.ext <;> simp [cz, worldOf] <;> ring
    have hr : (⟨cos q.rot, sin q.rot⟩ : ℂ) ≠ 0 := by
      intro e
      have h1 : cos q.rot = 0 := congrArg Complex.re e
      have h2 : sin q.rot = 0 := congrArg Complex.im e
      have := sin_sq_add_cos_sq q.rot
      rw [h1, h2] at this
      norm_num at this
    unfold turnAt
    rw [key, key, mul_div_mul_left _ _ hr]

theorem onRing_world (mm : Option Pose) (v : List (Pt ℝ)) (p : Pt ℝ) :
    OnRing (v.map (worldOf mm)) (worldOf mm p) ↔ OnRing v p := by
  by_cases hv : v = []
  · simp [hv, OnRing]
  · simp only [OnRing, List.length_map, corner_map _ hv, onSegment_world]

/-- The interior moves with the polygon. -/
theorem inside_world (mm : Option Pose) (v : List (Pt ℝ)) (p : Pt ℝ) :
    Inside (v.map (worldOf mm)) (worldOf mm p) ↔ Inside v p := by
  rw [inside_iff_winding, inside_iff_winding, onRing_world]
  refine and_congr_right fun h => ?_
  have h' : ¬ OnRing (v.map (worldOf mm)) (worldOf mm p) := by rwa [onRing_world]
  have e : ringTurn (v.map (worldOf mm)) (worldOf mm p) = ringTurn v p := by
    by_cases hv : v = []
    · simp [hv, ringTurn]
    · unfold ringTurn
      rw [List.length_map]
      exact Finset.sum_congr rfl fun i _ => by rw [corner_map _ hv, corner_map _ hv, turnAt_world]
  rw [ringTurn_eq h, ringTurn_eq h'] at e
  have e' : (windingNumber (v.map (worldOf mm)) (worldOf mm p) : ℝ) = windingNumber v p :=
    mul_left_cancel₀ (by positivity) e
  rw [Int.cast_inj.1 e']

/-- The region moves with the polygon. -/
theorem filled_world (mm : Option Pose) (v : List (Pt ℝ)) : filled (v.map (worldOf mm)) = worldOf mm '' filled v := by
  have surj : ∀ x, ∃ p, worldOf mm p = x := by
    intro x
    cases mm with
    | none => exact ⟨x, rfl⟩
    | some q =>
      have hs := sin_sq_add_cos_sq q.rot
      refine ⟨(cos q.rot * (x.1 - q.pos.1) + sin q.rot * (x.2 - q.pos.2), cos q.rot * (x.2 - q.pos.2) - sin q.rot * (x.1 - q.pos.1)), ?_⟩
      ext
      · simp only [worldOf]; linear_combination (x.1 - q.pos.1) * hs
      · simp only [worldOf]; linear_combination (x.2 - q.pos.2) * hs
  ext x
  obtain ⟨p, rfl⟩ := surj x
  rw [(worldOf_injective mm).mem_set_image]
  show (_ ∨ _) ↔ (_ ∨ _)
  rw [inside_world, onRing_world]

/-! ## Interior and exterior are open -/

theorem onRing_closed (v : List (Pt ℝ)) : IsClosed {p : Pt ℝ | OnRing v p} := by
  have e : {p : Pt ℝ | OnRing v p} = ⋃ i ∈ Finset.range v.length, segment ℝ (corner v i) (corner v (i + 1)) := by
    ext p
    simp only [Set.mem_iUnion, Finset.mem_range, exists_prop, segment_eq_image', Set.mem_image, Set.mem_Icc]
    constructor
    · rintro ⟨i, hi, t, h0, h1, rfl⟩; exact ⟨i, hi, t, ⟨h0, h1⟩, rfl⟩
    · rintro ⟨i, hi, t, ⟨h0, h1⟩, rfl⟩; exact ⟨i, hi, t, h0, h1, rfl⟩
  rw [e]
  refine Set.Finite.isClosed_biUnion (Finset.finite_toSet _) fun i _ => ?_
  rw [segment_eq_image']
  exact (isCompact_Icc.image (by fun_prop)).isClosed

theorem cz_continuous : Continuous cz := by
  have : cz = fun u => Complex.equivRealProdCLM.symm u := by
    funext u; exact Complex.ext (by simp [cz]) (by simp [cz])
  rw [this]
  exact Complex.equivRealProdCLM.symm.continuous

theorem turnAt_continuousAt {a b p : Pt ℝ} (h : ¬ OnSegment a b p) : ContinuousAt (fun p => turnAt p a b) p := by
  obtain ⟨ha, hb, hdot⟩ := edge_vectors h
  unfold turnAt
  have hsq : 0 < (a - p).1 ^ 2 + (a - p).2 ^ 2 := by
    by_contra hle
    push Not at hle
    apply ha
    refine Prod.ext ?_ ?_
    · show (a - p).1 = 0; nlinarith [sq_nonneg (a - p).1, sq_nonneg (a - p).2]
    · show (a - p).2 = 0; nlinarith [sq_nonneg (a - p).1, sq_nonneg (a - p).2]
  have hslit : cz (b - p) / cz (a - p) ∈ Complex.slitPlane := by
    rw [Complex.mem_slitPlane_iff]
    by_cases hz : cross (a - p) (b - p) = 0
    · left; rw [cz_div_re]; exact div_pos (hdot hz) hsq
    · right; rw [cz_div_im]; exact div_ne_zero hz hsq.ne'
  have hc : ∀ u : Pt ℝ, ContinuousAt (fun p => cz (u - p)) p := fun u =>
    (cz_continuous.comp (by fun_prop : Continuous fun p : Pt ℝ => u - p)).continuousAt
  exact ContinuousAt.comp (f := fun p => cz (b - p) / cz (a - p)) (Complex.continuousAt_arg hslit)
    ((hc b).div (hc a) (cz_ne ha))

theorem windingNumber_continuousOn (v : List (Pt ℝ)) : ContinuousOn (windingNumber v) {p | ¬ OnRing v p} := by
  rw [Int.isClosedEmbedding_coe_real.isInducing.continuousOn_iff]
  have h1 : ContinuousOn (fun p => ringTurn v p / (2 * π)) {p | ¬ OnRing v p} := by
    refine ContinuousOn.div_const ?_ _
    unfold ringTurn
    refine continuousOn_finsetSum _ fun i hi => ?_
    intro p hp
    exact (turnAt_continuousAt fun h => hp ⟨i, Finset.mem_range.1 hi, h⟩).continuousWithinAt
  refine h1.congr fun p hp => ?_
  have : (2 : ℝ) * π ≠ 0 := by positivity
  show (windingNumber v p : ℝ) = ringTurn v p / (2 * π)
  rw [ringTurn_eq hp, mul_div_cancel_left₀ _ this]

/-- Points that are connected off the boundary are all inside or all outside. -/
theorem inside_connected {v : List (Pt ℝ)} {S : Set (Pt ℝ)} (hS : IsPreconnected S) (hr : ∀ p ∈ S, ¬ OnRing v p)
    {p q : Pt ℝ} (hp : p ∈ S) (hq : q ∈ S) : Inside v p ↔ Inside v q := by
  have h := hS.constant ((windingNumber_continuousOn v).mono hr) hp hq
  rw [inside_iff_winding, inside_iff_winding, h]
  exact ⟨fun ⟨_, k⟩ => ⟨hr q hq, k⟩, fun ⟨_, k⟩ => ⟨hr p hp, k⟩⟩

theorem inside_open (v : List (Pt ℝ)) : IsOpen {p : Pt ℝ | Inside v p} := by
  have ho : IsOpen {p : Pt ℝ | ¬ OnRing v p} := (onRing_closed v).isOpen_compl
  have := (windingNumber_continuousOn v).isOpen_inter_preimage ho (isOpen_discrete {n : ℤ | n % 2 = 1})
  convert this using 1
  ext p
  exact inside_iff_winding

/-- The region of a polygon is closed. -/
theorem filled_closed (v : List (Pt ℝ)) : IsClosed (filled v) := by
  have ho : IsOpen {p : Pt ℝ | ¬ OnRing v p} := (onRing_closed v).isOpen_compl
  have := (windingNumber_continuousOn v).isOpen_inter_preimage ho (isOpen_discrete {n : ℤ | n % 2 = 1}ᶜ)
  rw [← isOpen_compl_iff]
  convert this using 1
  ext p
  show ¬ (Inside v p ∨ OnRing v p) ↔ (¬ OnRing v p ∧ ¬ _ % 2 = 1)
  rw [inside_iff_winding]
  tauto

end Starworlds
