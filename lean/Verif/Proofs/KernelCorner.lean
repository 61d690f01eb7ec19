import Verif.Proofs.KernelRational
import Verif.Proofs.KernelVisible

/-! # The run of the kernel computation on an L-shape -/

namespace Starworlds

open Spec

section
variable {a b c d : ℝ}

theorem ok_then {ε α β : Type} (x : α) (f : α → Except ε β) : (Except.ok x >>= f) = f x := rfl

theorem ccw_yes {x y z : Pt ℝ} (h : 1 / 10 ^ 9 ≤ cross (y - x) (z - y)) : isCcw x y z = true := by
  simp only [isCcw, orientationVal, collinearThreshold]
  simp only [cross, Prod.fst_sub, Prod.snd_sub] at h
  norm_num at h ⊢
  linarith

theorem ccw_no {x y z : Pt ℝ} (h : cross (y - x) (z - y) ≤ 0) : isCcw x y z = false := by
  simp only [isCcw, orientationVal, collinearThreshold]
  simp only [cross, Prod.fst_sub, Prod.snd_sub] at h
  norm_num at h ⊢
  linarith

theorem cw_yes {x y z : Pt ℝ} (h : cross (y - x) (z - y) ≤ -(1 / 10 ^ 9)) : isCw x y z = true := by
  simp only [isCw, orientationVal, collinearThreshold]
  simp only [cross, Prod.fst_sub, Prod.snd_sub] at h
  norm_num at h ⊢
  linarith

theorem cw_no {x y z : Pt ℝ} (h : 0 ≤ cross (y - x) (z - y)) : isCw x y z = false := by
  simp only [isCw, orientationVal, collinearThreshold]
  simp only [cross, Prod.fst_sub, Prod.snd_sub] at h
  norm_num at h ⊢
  linarith

theorem norm2_horizontal (x : ℝ) : norm2 (x, 0) = |x| := by
  simp [norm2, Real.sqrt_sq_eq_abs]

theorem norm2_vertical (x : ℝ) : norm2 (0, x) = |x| := by
  simp [norm2, Real.sqrt_sq_eq_abs]

theorem norm2_ge_fst (v : Pt ℝ) : |v.1| ≤ norm2 v := by
  rw [← Real.sqrt_sq_eq_abs]; exact Real.sqrt_le_sqrt (by nlinarith [sq_nonneg v.2])

theorem norm2_ge_snd (v : Pt ℝ) : |v.2| ≤ norm2 v := by
  rw [← Real.sqrt_sq_eq_abs]; exact Real.sqrt_le_sqrt (by nlinarith [sq_nonneg v.1])

theorem between_no {x y z : Pt ℝ} (h : norm2 (x - z) + (1 / 10 ^ 8 + 1 / 10 ^ 7 * norm2 (x - z)) < norm2 (x - y) + norm2 (z - y)) :
    isBetween x y z = false := by
  rw [← Bool.not_eq_true, isBetween_iff]
  exact not_le.mpr h

theorem between_yes {x y z : Pt ℝ} (h : norm2 (x - y) + norm2 (z - y) = norm2 (x - z)) : isBetween x y z = true := by
  rw [isBetween_iff]
  have : 0 ≤ norm2 (x - z) := Real.sqrt_nonneg _
  show norm2 _ + norm2 _ ≤ norm2 _ + (_ + _ * norm2 _)
  linarith

/-- The primitive intersection test when the segments cross. -/
theorem meet_cross {a1 a2 b1 b2 : Pt ℝ} (h : intersect a1 a2 b1 b2 = true) {w : Pt ℝ}
    (h1 : cross (b2 - b1) (w - b1) = 0) (h2 : cross (a2 - a1) (w - a1) = 0) :
    realOps.meet a1 a2 b1 b2 = .ok (some w) := by
  obtain ⟨hd, p, hp, e1, e2⟩ := getIntersection_crossing h
  have : realOps.meet a1 a2 b1 b2 = getIntersection a1 a2 b1 b2 := rfl
  rw [this, hp]
  have hcr : cross (a2 - a1) (b2 - b1) ≠ 0 := by
    intro hz
    apply hd
    simp only [cross, orientationVal, Prod.fst_sub, Prod.snd_sub] at hz ⊢
    linear_combination -hz
  have p1 : cross (b2 - b1) (p - b1) = 0 := by
    rw [e1]; simp only [cross, Prod.fst_sub, Prod.snd_sub, Prod.fst_add, Prod.snd_add, Prod.smul_fst, Prod.smul_snd, smul_eq_mul]; ring
  have p2 : cross (a2 - a1) (p - a1) = 0 := by
    rw [e2]; simp only [cross, Prod.fst_sub, Prod.snd_sub, Prod.fst_add, Prod.snd_add, Prod.smul_fst, Prod.smul_snd, smul_eq_mul]; ring
  simp only [cross, Prod.fst_sub, Prod.snd_sub] at h1 h2 p1 p2 hcr
  congr 2
  ext
  · refine mul_left_cancel₀ hcr ?_
    linear_combination -(a2.1 - a1.1) * p1 + (b2.1 - b1.1) * p2 + (a2.1 - a1.1) * h1 - (b2.1 - b1.1) * h2
  · refine mul_left_cancel₀ hcr ?_
    linear_combination -(a2.2 - a1.2) * p1 + (b2.2 - b1.2) * p2 + (a2.2 - a1.2) * h1 - (b2.2 - b1.2) * h2


theorem scanTurn_skip {P : Type} {side : P → P → P → Bool} {stretch : P → P → P} {xk : List P} {p w n : P} {cur t : Int}
    {ts : List Int} (hw : kGet xk t = .ok w) (hn : kGet xk ((t + 1) % xk.length) = .ok n)
    (h : side p (stretch p w) n = false) :
    scanTurn side stretch xk p cur (t :: ts) = scanTurn side stretch xk p cur ts := by
  simp only [scanTurn, hw, hn, ok_then, h, Bool.false_eq_true, if_false]

theorem scanTurn_hit {P : Type} {side : P → P → P → Bool} {stretch : P → P → P} {xk : List P} {p w n : P} {cur t : Int}
    {ts : List Int} (hw : kGet xk t = .ok w) (hn : kGet xk ((t + 1) % xk.length) = .ok n)
    (h : side p (stretch p w) n = true) :
    scanTurn side stretch xk p cur (t :: ts) = .ok t := by
  simp only [scanTurn, hw, hn, ok_then, h, if_true]

theorem scanMeet_hit {P : Type} {ops : KernelOps P} {xk : List P} {edge : Int → Int × Int} {c d a b w : P} {t : Int}
    {ts : List Int} (ha : kGet xk (edge t).1 = .ok a) (hb : kGet xk (edge t).2 = .ok b)
    (h : ops.meet a b c d = .ok (some w)) : scanMeet ops xk edge c d (t :: ts) = .ok (some (t, w)) := by
  simp only [scanMeet, ha, hb, ok_then, h]

theorem scanMeet_skip {P : Type} {ops : KernelOps P} {xk : List P} {edge : Int → Int × Int} {c d a b : P} {t : Int}
    {ts : List Int} (ha : kGet xk (edge t).1 = .ok a) (hb : kGet xk (edge t).2 = .ok b)
    (h : ops.meet a b c d = .ok none) : scanMeet ops xk edge c d (t :: ts) = scanMeet ops xk edge c d ts := by
  simp only [scanMeet, ha, hb, ok_then, h]

theorem cross_stretch (p w n : Pt ℝ) :
    cross (realOps.stretch p w - p) (n - realOps.stretch p w) = 300 * cross (w - p) (n - p) := by
  simp only [realOps, kernelOps, cross, Prod.fst_sub, Prod.snd_sub, Prod.fst_add, Prod.snd_add, Prod.smul_fst,
    Prod.smul_snd, smul_eq_mul]
  ring

theorem turn_cw_yes {p w n : Pt ℝ} (h : cross (w - p) (n - p) ≤ -(1 / 10 ^ 10)) :
    realOps.cw p (realOps.stretch p w) n = true := cw_yes (by rw [cross_stretch]; norm_num at h ⊢; linarith)

theorem turn_cw_no {p w n : Pt ℝ} (h : 0 ≤ cross (w - p) (n - p)) :
    realOps.cw p (realOps.stretch p w) n = false := cw_no (by rw [cross_stretch]; linarith)

theorem turn_ccw_yes {p w n : Pt ℝ} (h : 1 / 10 ^ 10 ≤ cross (w - p) (n - p)) :
    realOps.ccw p (realOps.stretch p w) n = true := ccw_yes (by rw [cross_stretch]; norm_num at h ⊢; linarith)

theorem turn_ccw_no {p w n : Pt ℝ} (h : cross (w - p) (n - p) ≤ 0) :
    realOps.ccw p (realOps.stretch p w) n = false := ccw_no (by rw [cross_stretch]; linarith)

/-- Crossing segments: the ends of each are on the two sides of the other. -/
theorem meet_inside {a1 a2 b1 b2 w : Pt ℝ}
    (h1 : (1 / 10 ^ 9 ≤ cross (b1 - a1) (b2 - b1) ∧ cross (b1 - a2) (b2 - b1) ≤ 0) ∨
      (cross (b1 - a1) (b2 - b1) ≤ 0 ∧ 1 / 10 ^ 9 ≤ cross (b1 - a2) (b2 - b1)))
    (h2 : (1 / 10 ^ 9 ≤ cross (a2 - a1) (b1 - a2) ∧ cross (a2 - a1) (b2 - a2) ≤ 0) ∨
      (cross (a2 - a1) (b1 - a2) ≤ 0 ∧ 1 / 10 ^ 9 ≤ cross (a2 - a1) (b2 - a2)))
    (w1 : cross (b2 - b1) (w - b1) = 0) (w2 : cross (a2 - a1) (w - a1) = 0) :
    realOps.meet a1 a2 b1 b2 = .ok (some w) := by
  refine meet_cross ?_ w1 w2
  unfold intersect
  rcases h1 with ⟨p, q⟩ | ⟨p, q⟩ <;> rcases h2 with ⟨r, s⟩ | ⟨r, s⟩
  · rw [ccw_yes p, ccw_no q, ccw_yes r, ccw_no s]; rfl
  · rw [ccw_yes p, ccw_no q, ccw_no r, ccw_yes s]; rfl
  · rw [ccw_no p, ccw_yes q, ccw_yes r, ccw_no s]; rfl
  · rw [ccw_no p, ccw_yes q, ccw_no r, ccw_yes s]; rfl

/-- The L-shapes considered: no two coordinates nearer than a millimetre, no side longer than 299 m. -/
structure CornerRange (a b c d : ℝ) : Prop where
  hc : 1 / 1000 ≤ c
  hd : 1 / 1000 ≤ d
  hca : c + 1 / 1000 ≤ a
  hdb : d + 1 / 1000 ≤ b
  ha : a ≤ 299
  hb : b ≤ 299

theorem beyond_left {x y z : ℝ} (h : y < x) : realOps.beyond (x, z) (y, z) = .ok (x - 300, z) := by
  have e : norm2 ((y, z) - (x, z)) = x - y := by
    rw [Prod.mk_sub_mk, sub_self, norm2_horizontal, abs_of_neg (by linarith)]; ring
  have : x - y ≠ 0 := by linarith
  simp only [realOps, kernelOps, e, if_neg this]
  congr 1
  ext
  · simp; field_simp; ring
  · simp

theorem beyond_right {x y z : ℝ} (h : x < y) : realOps.beyond (x, z) (y, z) = .ok (x + 300, z) := by
  have e : norm2 ((y, z) - (x, z)) = y - x := by
    rw [Prod.mk_sub_mk, sub_self, norm2_horizontal, abs_of_pos (by linarith)]
  have : y - x ≠ 0 := by linarith
  simp only [realOps, kernelOps, e, if_neg this]
  congr 1
  ext
  · simp; field_simp
  · simp

theorem beyond_down {x y z : ℝ} (h : y < x) : realOps.beyond (z, x) (z, y) = .ok (z, x - 300) := by
  have e : norm2 ((z, y) - (z, x)) = x - y := by
    rw [Prod.mk_sub_mk, sub_self, norm2_vertical, abs_of_neg (by linarith)]; ring
  have : x - y ≠ 0 := by linarith
  simp only [realOps, kernelOps, e, if_neg this]
  congr 1
  ext
  · simp
  · simp; field_simp; ring

theorem beyond_up {x y z : ℝ} (h : x < y) : realOps.beyond (z, x) (z, y) = .ok (z, x + 300) := by
  have e : norm2 ((z, y) - (z, x)) = y - x := by
    rw [Prod.mk_sub_mk, sub_self, norm2_vertical, abs_of_pos (by linarith)]
  have : y - x ≠ 0 := by linarith
  simp only [realOps, kernelOps, e, if_neg this]
  congr 1
  ext
  · simp
  · simp; field_simp

theorem before_right {x y z : ℝ} (h : x < y) : realOps.before (x, z) (y, z) = .ok (x - 300, z) := by
  have e : norm2 ((y, z) - (x, z)) = y - x := by
    rw [Prod.mk_sub_mk, sub_self, norm2_horizontal, abs_of_pos (by linarith)]
  have : y - x ≠ 0 := by linarith
  simp only [realOps, kernelOps, e, if_neg this]
  congr 1
  ext
  · simp; field_simp
  · simp

theorem before_up {x y z : ℝ} (h : x < y) : realOps.before (z, x) (z, y) = .ok (z, x - 300) := by
  have e : norm2 ((z, y) - (z, x)) = y - x := by
    rw [Prod.mk_sub_mk, sub_self, norm2_vertical, abs_of_pos (by linarith)]
  have : y - x ≠ 0 := by linarith
  simp only [realOps, kernelOps, e, if_neg this]
  congr 1
  ext
  · simp
  · simp; field_simp

/-- Turn a statement about a cross product into one about the coordinates. -/
macro "coords" : tactic => `(tactic| simp only [cross, Prod.fst_sub, Prod.snd_sub, Prod.fst_add, Prod.snd_add])

theorem corner_round1 (h : CornerRange a b c d) :
    kernelRound realOps false ⟨[(c, d - 300), (c, d), (c - 300, d)], 0, 2, false, none⟩ (c, b) (0, b) false =
      .ok (some ⟨[(c, d - 300), (c, d), (c - 300, d)], 1, 2, false, none⟩) := by
  obtain ⟨hc, hd, hca, hdb, ha, hb⟩ := h
  have e1 : realOps.beyond (c, b) (0, b) = .ok (c - 300, b) := beyond_left (by linarith)
  have e2 : realOps.ccw (c, b) (c - 300, b) (c - 300, d) = true := ccw_yes (by coords; norm_num; nlinarith)
  have e3 : scanTurn realOps.cw realOps.stretch [(c, d - 300), (c, d), (c - 300, d)] (0, b) 0 (around 0 3) = .ok 1 := by
    show scanTurn _ _ _ _ _ [0, 1, 2] = _
    rw [scanTurn_skip rfl rfl (turn_cw_no (by coords; nlinarith)),
      scanTurn_hit rfl rfl (turn_cw_yes (by coords; norm_num; nlinarith))]
  have g : kGet [(c, d - 300), (c, d), (c - 300, d)] 2 = .ok (c - 300, d) := rfl
  simp only [kernelRound, Bool.false_eq_true, if_false, convexRound, g, ok_then, e1, e2, if_true, List.length_cons,
    List.length_nil, e3]


theorem corner_round2 (h : CornerRange a b c d) :
    kernelRound realOps false ⟨[(c, d - 300), (c, d), (c - 300, d)], 1, 2, false, none⟩ (0, b) (0, 0) false =
      .ok (some ⟨[(c, d - 300), (c, d), (0, d), (0, b - 300)], 2, 3, false, none⟩) := by
  obtain ⟨hc, hd, hca, hdb, ha, hb⟩ := h
  have e1 : realOps.beyond (0, b) (0, 0) = .ok (0, b - 300) := beyond_down (by linarith)
  have e2 : realOps.ccw (0, b) (0, b - 300) (c - 300, d) = false := ccw_no (by coords; nlinarith)
  have e3 : scanMeet realOps [(c, d - 300), (c, d), (c - 300, d)] (fun t => (t, t - 1)) (0, b) (0, b - 300)
      (backTo 2 1 3) = .ok (some (2, (0, d))) := by
    show scanMeet _ _ _ _ _ [2] = _
    refine scanMeet_hit rfl rfl (meet_inside ?_ ?_ ?_ ?_)
    · right; coords; constructor <;> norm_num <;> nlinarith
    · left; coords; constructor <;> norm_num <;> nlinarith
    · coords; ring
    · coords; ring
  have e4 : realOps.agree (c, d) (c - 300, d) (0, b - 300) (0, b) (0, b - 300) (c, d - 300) = true := by
    refine decide_eq_true ?_
    simp only [orientationVal]
    have h1 : 0 < 300 * (300 + d - b) := by linarith
    have h2 : 0 < 300 * c := by linarith
    nlinarith [mul_pos h1 h2]
  have e5 : cutConvex realOps ⟨[(c, d - 300), (c, d), (c - 300, d)], 1, 2, false, none⟩ (0, b) (0, b - 300) 2 (0, d) =
      .ok (⟨[(c, d - 300), (c, d), (0, d), (0, b - 300)], 0, 3, false, none⟩, 2, none) := by
    have g0 : scanMeet realOps [(c, d - 300), (c, d), (c - 300, d)] (fun s => (s - 1, s)) (0, b) (0, b - 300)
        (ahead 2 3 false) = .ok none := rfl
    have g1 : kGet [(c, d - 300), (c, d), (c - 300, d)] (-2) = .ok (c, d) := rfl
    have g2 : kGet [(c, d - 300), (c, d), (c - 300, d)] (-1) = .ok (c - 300, d) := rfl
    have g3 : kGet [(c, d - 300), (c, d), (c - 300, d)] 0 = .ok (c, d - 300) := rfl
    simp only [cutConvex, List.length_cons, List.length_nil, Nat.zero_add, Nat.reduceAdd, g0, g1, g2, g3, ok_then,
      Bool.not_false, e4, Bool.and_self, if_true]
    rfl
  have e6 : realOps.between (0, b) (0, 0) (0, d) = false := by
    refine between_no ?_
    simp only [Prod.mk_sub_mk, sub_self, sub_zero, norm2_vertical]
    rw [abs_of_pos (by linarith : 0 < b - d), abs_of_pos (by linarith : 0 < b), abs_of_pos (by linarith : 0 < d)]
    norm_num; linarith
  have g : kGet [(c, d - 300), (c, d), (c - 300, d)] 2 = .ok (c - 300, d) := rfl
  simp only [kernelRound, Bool.false_eq_true, if_false, convexRound, g, ok_then, e1, e2, List.length_cons,
    List.length_nil, Nat.zero_add, Nat.reduceAdd, e3, e5, convexF, e6, convexL]
  rfl

theorem corner_round3 (h : CornerRange a b c d) :
    kernelRound realOps false ⟨[(c, d - 300), (c, d), (0, d), (0, b - 300)], 2, 3, false, none⟩ (0, 0) (a, 0) false =
      .ok (some ⟨[(c, d), (0, d), (0, 0), (c, 0)], 2, 0, true, some [(c, d), (0, d)]⟩) := by
  obtain ⟨hc, hd, hca, hdb, ha, hb⟩ := h
  have e1 : realOps.beyond (0, 0) (a, 0) = .ok (300, 0) := by
    rw [beyond_right (by linarith : (0 : ℝ) < a)]; norm_num
  have e2 : realOps.ccw (0, 0) (300, 0) (0, b - 300) = false := ccw_no (by coords; nlinarith)
  have m1 : realOps.meet (0, b - 300) (0, d) (0, 0) (300, 0) = .ok (some (0, 0)) := by
    have i1 : intersect (0, b - 300) (0, d) (0, 0) (300, 0) = false := by
      unfold intersect
      rw [ccw_no (x := (0, b - 300)) (y := (0, d)) (z := (0, 0)) (by coords; norm_num),
        ccw_no (x := (0, b - 300)) (y := (0, d)) (z := (300, 0)) (by coords; nlinarith)]
      simp
    have b1 : isBetween (0, 0) (0, b - 300) (300, 0) = false := by
      refine between_no ?_
      have := norm2_ge_fst ((300, 0) - (0, b - 300) : Pt ℝ)
      simp only [Prod.mk_sub_mk, sub_self, sub_zero, norm2_horizontal, norm2_vertical, zero_sub] at this ⊢
      rw [abs_neg, abs_neg, abs_of_neg (by linarith : b - 300 < 0), abs_of_pos (by norm_num : (0:ℝ) < 300)]
      rw [abs_of_pos (by norm_num : (0:ℝ) < 300)] at this
      norm_num at this ⊢; linarith
    have b2 : isBetween (0, 0) (0, d) (300, 0) = false := by
      refine between_no ?_
      have := norm2_ge_fst ((300, 0) - (0, d) : Pt ℝ)
      simp only [Prod.mk_sub_mk, sub_self, sub_zero, norm2_horizontal, norm2_vertical, zero_sub] at this ⊢
      rw [abs_neg, abs_neg, abs_of_pos (by linarith : 0 < d), abs_of_pos (by norm_num : (0:ℝ) < 300)]
      rw [abs_of_pos (by norm_num : (0:ℝ) < 300)] at this
      norm_num at this ⊢; linarith
    have b3 : isBetween (0, b - 300) (0, 0) (0, d) = true := by
      refine between_yes ?_
      simp only [Prod.mk_sub_mk, sub_self, sub_zero, norm2_vertical]
      rw [abs_of_neg (by linarith : b - 300 < 0), abs_of_pos (by linarith : 0 < d),
        abs_of_neg (by linarith : b - 300 - d < 0)]
      ring
    simp only [realOps, kernelOps, i1, b1, b2, b3]
    rfl
  have e3 : scanMeet realOps [(c, d - 300), (c, d), (0, d), (0, b - 300)] (fun t => (t, t - 1)) (0, 0) (300, 0)
      (backTo 3 2 4) = .ok (some (3, (0, 0))) := by
    show scanMeet _ _ _ _ _ [3] = _
    exact scanMeet_hit rfl rfl m1
  have e4 : realOps.agree (0, d) (0, b - 300) (300, 0) (0, 0) (300, 0) (c, d - 300) = false := by
    refine decide_eq_false (not_lt.mpr ?_)
    simp only [orientationVal]
    have h1 : 0 < 300 * (300 + d - b) := by linarith
    have h2 : 0 < 300 * (300 - d) := by linarith
    nlinarith [mul_pos h1 h2]
  have e5 : cutConvex realOps ⟨[(c, d - 300), (c, d), (0, d), (0, b - 300)], 2, 3, false, none⟩ (0, 0) (300, 0) 3 (0, 0) =
      .ok (⟨[(c, d), (0, d), (0, 0), (c, 0)], 0, 0, true, some [(c, d), (0, d)]⟩, 2, some ((c, 0), 3)) := by
    have g0 : scanMeet realOps [(c, d - 300), (c, d), (0, d), (0, b - 300)] (fun s => (s - 1, s)) (0, 0) (300, 0)
        (ahead 3 4 false) = .ok none := rfl
    have g1 : kGet [(c, d - 300), (c, d), (0, d), (0, b - 300)] (-2) = .ok (0, d) := rfl
    have g2 : kGet [(c, d - 300), (c, d), (0, d), (0, b - 300)] (-1) = .ok (0, b - 300) := rfl
    have g3 : kGet [(c, d - 300), (c, d), (0, d), (0, b - 300)] 0 = .ok (c, d - 300) := rfl
    have g4 : scanMeet realOps [(c, d - 300), (c, d), (0, d), (0, b - 300)] (fun r => (r - 1, r % ((4 : Nat) : Int)))
        (0, 0) (300, 0) ((List.range 4).map fun k => Int.ofNat k + 1) = .ok (some (1, (c, 0))) := by
      show scanMeet _ _ _ _ _ [1, 2, 3, 4] = _
      refine scanMeet_hit rfl rfl (meet_inside ?_ ?_ ?_ ?_)
      · right; coords; constructor <;> norm_num <;> nlinarith
      · left; coords; constructor <;> norm_num <;> nlinarith
      · coords; ring
      · coords; ring
    simp only [cutConvex, List.length_cons, List.length_nil, Nat.zero_add, Nat.reduceAdd, g0, g1, g2, g3, ok_then,
      Bool.not_false, e4, Bool.and_false, Bool.false_eq_true, if_false, g4]
    rfl
  have e6 : realOps.between (0, 0) (a, 0) (0, 0) = false := by
    refine between_no ?_
    have h0 : norm2 (0 : Pt ℝ) = 0 := by simp [norm2]
    simp only [Prod.mk_sub_mk, sub_self, norm2_horizontal, zero_sub, abs_neg, h0]
    rw [abs_of_pos (by linarith : 0 < a)]
    norm_num; linarith
  have e7 : realOps.between (0, 0) (a, 0) (c, 0) = false := by
    refine between_no ?_
    simp only [Prod.mk_sub_mk, sub_self, norm2_horizontal, zero_sub, abs_neg]
    rw [abs_of_pos (by linarith : 0 < a), abs_of_pos (by linarith : 0 < c), abs_of_neg (by linarith : c - a < 0)]
    norm_num; linarith
  have e8 : scanTurn realOps.ccw realOps.stretch [(c, d), (0, d), (0, 0), (c, 0)] (a, 0) 0 (around 3 4) = .ok 0 := by
    show scanTurn _ _ _ _ _ [3, 0, 1, 2] = _
    rw [scanTurn_skip (n := (c, d)) rfl (by simp [kGet]) (turn_ccw_no (by coords; nlinarith)),
      scanTurn_hit rfl rfl (turn_ccw_yes (by coords; norm_num; nlinarith))]
  have g : kGet [(c, d - 300), (c, d), (0, d), (0, b - 300)] 3 = .ok (0, b - 300) := rfl
  simp only [kernelRound, Bool.false_eq_true, if_false, convexRound, g, ok_then, e1, e2, List.length_cons,
    List.length_nil, Nat.zero_add, Nat.reduceAdd, e3, e5, convexF, e6, convexL, e7, e8]

theorem corner_round4 (h : CornerRange a b c d) (delta : Option (List (Pt ℝ))) :
    kernelRound realOps false ⟨[(c, d), (0, d), (0, 0), (c, 0)], 2, 0, true, delta⟩ (a, 0) (a, d) false =
      .ok (some ⟨[(c, d), (0, d), (0, 0), (c, 0)], 3, 1, true, delta⟩) := by
  obtain ⟨hc, hd, hca, hdb, ha, hb⟩ := h
  have e1 : realOps.beyond (a, 0) (a, d) = .ok (a, 300) := by
    rw [beyond_up (by linarith : (0 : ℝ) < d)]; norm_num
  have e2 : realOps.ccw (a, 0) (a, 300) (c, d) = true := ccw_yes (by coords; norm_num; nlinarith)
  have e3 : scanTurn realOps.cw realOps.stretch [(c, d), (0, d), (0, 0), (c, 0)] (a, d) 2 (around 2 4) = .ok 3 := by
    show scanTurn _ _ _ _ _ [2, 3, 0, 1] = _
    rw [scanTurn_skip rfl rfl (turn_cw_no (by coords; nlinarith)),
      scanTurn_hit (n := (c, d)) rfl (by simp [kGet]) (turn_cw_yes (by coords; norm_num; nlinarith))]
  have e4 : scanTurn realOps.ccw realOps.stretch [(c, d), (0, d), (0, 0), (c, 0)] (a, d) 0 (around 0 4) = .ok 1 := by
    show scanTurn _ _ _ _ _ [0, 1, 2, 3] = _
    rw [scanTurn_skip rfl rfl (turn_ccw_no (by coords; nlinarith)),
      scanTurn_hit rfl rfl (turn_ccw_yes (by coords; norm_num; nlinarith))]
  have g : kGet [(c, d), (0, d), (0, 0), (c, 0)] 0 = .ok (c, d) := rfl
  simp only [kernelRound, Bool.false_eq_true, if_false, convexRound, g, ok_then, e1, e2, if_true, List.length_cons,
    List.length_nil, Nat.zero_add, Nat.reduceAdd, e3, e4]

theorem corner_round5 (h : CornerRange a b c d) (delta : Option (List (Pt ℝ))) :
    kernelRound realOps false ⟨[(c, d), (0, d), (0, 0), (c, 0)], 3, 1, true, delta⟩ (a, d) (c, d) false =
      .ok (some ⟨[(c, d), (0, d), (0, d), (0, 0), (c, 0)], 3, 2, true, delta⟩) := by
  obtain ⟨hc, hd, hca, hdb, ha, hb⟩ := h
  have e1 : realOps.beyond (a, d) (c, d) = .ok (a - 300, d) := beyond_left (by linarith)
  have e2 : realOps.ccw (a, d) (a - 300, d) (0, d) = false := ccw_no (by coords; nlinarith)
  have m1 : realOps.meet (0, d) (c, d) (a, d) (a - 300, d) = .ok (some (0, d)) := by
    have i1 : intersect (0, d) (c, d) (a, d) (a - 300, d) = false := by
      unfold intersect
      rw [ccw_no (x := (0, d)) (y := (c, d)) (z := (a, d)) (by coords; norm_num),
        ccw_no (x := (0, d)) (y := (c, d)) (z := (a - 300, d)) (by coords; norm_num)]
      simp
    have b1 : isBetween (a, d) (0, d) (a - 300, d) = true := by
      refine between_yes ?_
      simp only [Prod.mk_sub_mk, sub_self, sub_zero, norm2_horizontal, sub_sub_cancel]
      rw [abs_of_pos (by linarith : 0 < a), abs_of_neg (by linarith : a - 300 < 0), abs_of_pos (by norm_num)]
      ring
    simp only [realOps, kernelOps, i1, b1]
    rfl
  have e3 : scanMeet realOps [(c, d), (0, d), (0, 0), (c, 0)] (fun t => (t, t - 1)) (a, d) (a - 300, d)
      (backTo 1 3 4) = .ok (some (1, (0, d))) := by
    show scanMeet _ _ _ _ _ [1, 0] = _
    exact scanMeet_hit rfl rfl m1
  have e5 : cutConvex realOps ⟨[(c, d), (0, d), (0, 0), (c, 0)], 3, 1, true, delta⟩ (a, d) (a - 300, d) 1 (0, d) =
      .ok (⟨[(c, d), (0, d), (0, d), (0, 0), (c, 0)], 3, 1, true, delta⟩, 1, some ((0, d), 2)) := by
    have g0 : scanMeet realOps [(c, d), (0, d), (0, 0), (c, 0)] (fun s => (s - 1, s)) (a, d) (a - 300, d)
        (ahead 1 4 true) = .ok (some (2, (0, d))) := by
      show scanMeet _ _ _ _ _ [2, 3, 0, 1] = _
      refine scanMeet_hit rfl rfl (meet_inside ?_ ?_ ?_ ?_)
      · right; coords; constructor <;> norm_num <;> nlinarith
      · left; coords; constructor <;> norm_num <;> nlinarith
      · coords; ring
      · coords; ring
    have g1 : (true && decide ((1 : Int) > 2)) = false := by decide
    simp only [cutConvex, List.length_cons, List.length_nil, Nat.zero_add, Nat.reduceAdd, g0, ok_then, g1,
      Bool.false_eq_true, if_false]
    rfl
  have e6 : realOps.between (a, d) (c, d) (0, d) = true := by
    refine between_yes ?_
    simp only [Prod.mk_sub_mk, sub_self, sub_zero, norm2_horizontal, zero_sub, abs_neg]
    rw [abs_of_pos (by linarith : 0 < a), abs_of_pos (by linarith : 0 < c), abs_of_pos (by linarith : 0 < a - c)]
    ring
  have e8 : scanTurn realOps.cw realOps.stretch [(c, d), (0, d), (0, d), (0, 0), (c, 0)] (c, d) 3 (around 3 5) = .ok 3 := by
    show scanTurn _ _ _ _ _ [3, 4, 0, 1, 2] = _
    rw [scanTurn_skip rfl rfl (turn_cw_no (by coords; nlinarith)),
      scanTurn_skip (n := (c, d)) rfl (by simp [kGet]) (turn_cw_no (by coords; nlinarith)),
      scanTurn_skip rfl rfl (turn_cw_no (by coords; nlinarith)),
      scanTurn_skip rfl rfl (turn_cw_no (by coords; nlinarith)),
      scanTurn_skip rfl rfl (turn_cw_no (by coords; nlinarith))]
    rfl
  have g : kGet [(c, d), (0, d), (0, 0), (c, 0)] 1 = .ok (0, d) := rfl
  simp only [kernelRound, Bool.false_eq_true, if_false, convexRound, g, ok_then, e1, e2, List.length_cons,
    List.length_nil, Nat.zero_add, Nat.reduceAdd, e3, e5, convexF, e6, if_true, convexL, e8]


theorem collinear_no {x y z : Pt ℝ} (h : 1 / 10 ^ 9 ≤ |cross (y - x) (z - y)|) : isCollinear x y z = false := by
  refine decide_eq_false (not_lt.mpr ?_)
  have e : orientationVal x y z = -cross (y - x) (z - y) := by
    simp only [orientationVal, cross, Prod.fst_sub, Prod.snd_sub]; ring
  rw [e, abs_neg]
  simp only [collinearThreshold]
  norm_num at h ⊢; linarith

theorem dropInline_keep {P : Type} {ops : KernelOps P} {v : List P} {idcs is : List Int} {i i2 i1 i0 : Int} {x y z : P}
    (h2 : kGet idcs (i - 2) = .ok i2) (h1 : kGet idcs (i - 1) = .ok i1) (h0 : kGet idcs i = .ok i0)
    (hx : kGet v i2 = .ok x) (hy : kGet v i1 = .ok y) (hz : kGet v i0 = .ok z) (h : ops.collinear x y z = false) :
    dropInline ops v idcs (i :: is) = dropInline ops v idcs is := by
  simp only [dropInline, h2, h1, h0, hx, hy, hz, ok_then, h, Bool.false_eq_true, if_false]

theorem corner_reduce (h : CornerRange a b c d) : reduceVertices realOps (cornerShape a b c d) = .ok (cornerShape a b c d) := by
  obtain ⟨hc, hd, hca, hdb, ha, hb⟩ := h
  have k0 : realOps.collinear (c, b) (0, b) (0, 0) = false := collinear_no (by
    coords; rw [abs_of_pos (by nlinarith)]; norm_num; nlinarith)
  have k1 : realOps.collinear (0, b) (0, 0) (a, 0) = false := collinear_no (by
    coords; rw [abs_of_pos (by nlinarith)]; norm_num; nlinarith)
  have k2 : realOps.collinear (0, 0) (a, 0) (a, d) = false := collinear_no (by
    coords; rw [abs_of_pos (by nlinarith)]; norm_num; nlinarith)
  have k3 : realOps.collinear (a, 0) (a, d) (c, d) = false := collinear_no (by
    coords; rw [abs_of_pos (by nlinarith)]; norm_num; nlinarith)
  have k4 : realOps.collinear (a, d) (c, d) (c, b) = false := collinear_no (by
    coords; rw [abs_of_neg (by nlinarith)]; norm_num; nlinarith)
  have k5 : realOps.collinear (c, d) (c, b) (0, b) = false := collinear_no (by
    coords; rw [abs_of_pos (by nlinarith)]; norm_num; nlinarith)
  have g1 : dropInline realOps (cornerShape a b c d) [0, 1, 2, 3, 4, 5] [0, 1, 2, 3, 4, 5] = .ok [0, 1, 2, 3, 4, 5] := by
    rw [dropInline_keep (i2 := 4) (i1 := 5) rfl rfl rfl rfl rfl rfl k0,
      dropInline_keep (i2 := 5) (i1 := 0) rfl rfl rfl rfl rfl rfl k1,
      dropInline_keep rfl rfl rfl rfl rfl rfl k2, dropInline_keep rfl rfl rfl rfl rfl rfl k3,
      dropInline_keep rfl rfl rfl rfl rfl rfl k4, dropInline_keep rfl rfl rfl rfl rfl rfl k5]
    rfl
  have g2 : (List.range (cornerShape a b c d).length).map Int.ofNat = [0, 1, 2, 3, 4, 5] := rfl
  unfold reduceVertices
  simp only [g2, g1, ok_then]
  have g3 : (List.filter (fun i => decide (i ∈ ([0, 1, 2, 3, 4, 5] : List Int))) [0, 1, 2, 3, 4, 5]).mapM
      (kGet (cornerShape a b c d)) = .ok (cornerShape a b c d) := rfl
  have g4 : kGet (cornerShape a b c d) (-2) = .ok (c, b) := rfl
  have g5 : kGet (cornerShape a b c d) (-1) = .ok (0, b) := rfl
  have g6 : kGet (cornerShape a b c d) 0 = .ok (0, 0) := rfl
  simp only [g3, g4, g5, g6, ok_then, k0]
  rfl

theorem corner_start (h : CornerRange a b c d) : startReflex realOps (cornerShape a b c d) (List.range 6) =
    .ok [(c, d), (c, b), (0, b), (0, 0), (a, 0), (a, d)] := by
  obtain ⟨hc, hd, hca, hdb, ha, hb⟩ := h
  have k0 : isReflex realOps (cornerShape a b c d) 0 = .ok false :=
    congrArg Except.ok (cw_no (x := (0, b)) (y := (0, 0)) (z := (a, 0)) (by coords; nlinarith))
  have k1 : isReflex realOps (cornerShape a b c d) 1 = .ok false :=
    congrArg Except.ok (cw_no (x := (0, 0)) (y := (a, 0)) (z := (a, d)) (by coords; nlinarith))
  have k2 : isReflex realOps (cornerShape a b c d) 2 = .ok false :=
    congrArg Except.ok (cw_no (x := (a, 0)) (y := (a, d)) (z := (c, d)) (by coords; nlinarith))
  have k3 : isReflex realOps (cornerShape a b c d) 3 = .ok true :=
    congrArg Except.ok (cw_yes (x := (a, d)) (y := (c, d)) (z := (c, b)) (by coords; norm_num; nlinarith))
  show startReflex realOps _ [0, 1, 2, 3, 4, 5] = _
  simp only [startReflex, k0, k1, k2, k3, ok_then]
  rfl

theorem corner_nonconvex (h : CornerRange a b c d) : checkConvexity (cornerShape a b c d) = .ok false := by
  obtain ⟨hc, hd, hca, hdb, ha, hb⟩ := h
  have k0 : isCollinear ((0, b) : Pt ℝ) (0, 0) (a, 0) = false := collinear_no (by
    coords; rw [abs_of_pos (by nlinarith)]; norm_num; nlinarith)
  have k1 : isCw ((0, b) : Pt ℝ) (0, 0) (a, 0) = false := cw_no (by coords; nlinarith)
  have k2 : isCw ((a, d) : Pt ℝ) (c, d) (c, b) = true := cw_yes (by coords; norm_num; nlinarith)
  simp [checkConvexity, firstBend, cornerShape, ptAt, k0, k1, k2, List.range_succ, ok_then]

theorem corner_orient (h : CornerRange a b c d) : orientRing (cornerShape a b c d) = cornerShape a b c d := by
  obtain ⟨hc, hd, hca, hdb, ha, hb⟩ := h
  refine if_pos ?_
  have : signedArea2 (cornerShape a b c d) = 2 * (a * d + c * (b - d)) := by
    simp [signedArea2, cornerShape, edgesOf, ringOf]; ring
  rw [this]; nlinarith

theorem corner_kernel (h : CornerRange a b c d) :
    constructKernel realOps (cornerShape a b c d) = .ok [(c, d), (0, d), (0, 0), (c, 0)] := by
  have h' := h
  obtain ⟨hc, hd, hca, hdb, ha, hb⟩ := h'
  let w : List (Pt ℝ) := [(c, d), (c, b), (0, b), (0, 0), (a, 0), (a, d)]
  have start : startReflex realOps (cornerShape a b c d) (List.range 6) = .ok w := corner_start h
  have init : kernelInit realOps w = .ok ⟨[(c, d - 300), (c, d), (c - 300, d)], 0, 2, false, none⟩ := by
    have g0 : kGet w 0 = .ok (c, d) := rfl
    have g1 : kGet w 1 = .ok (c, b) := rfl
    have g2 : kGet w (-1) = .ok (a, d) := rfl
    simp only [kernelInit, g0, g1, g2, ok_then, before_up (by linarith : d < b), before_right (by linarith : c < a)]
  have r1 : isReflex realOps w 1 = .ok false :=
    congrArg Except.ok (cw_no (x := (c, d)) (y := (c, b)) (z := (0, b)) (by coords; nlinarith))
  have r2 : isReflex realOps w 2 = .ok false :=
    congrArg Except.ok (cw_no (x := (c, b)) (y := (0, b)) (z := (0, 0)) (by coords; nlinarith))
  have r3 : isReflex realOps w 3 = .ok false :=
    congrArg Except.ok (cw_no (x := (0, b)) (y := (0, 0)) (z := (a, 0)) (by coords; nlinarith))
  have r4 : isReflex realOps w 4 = .ok false :=
    congrArg Except.ok (cw_no (x := (0, 0)) (y := (a, 0)) (z := (a, d)) (by coords; nlinarith))
  have last : kGet w (((5 + 1) % w.length : Nat) : Int) = .ok (c, d) := by simp [kGet, w]
  have r5 : isReflex realOps w 5 = .ok false := by
    have g0 : kGet w (Int.ofNat 5 - 1) = .ok (a, 0) := rfl
    have g1 : kGet w ((5 : Nat) : Int) = .ok (a, d) := rfl
    simp only [isReflex, g0, g1, last, ok_then]
    exact congrArg Except.ok (cw_no (x := (a, 0)) (y := (a, d)) (z := (c, d)) (by coords; nlinarith))
  have step : ∀ (i : Nat) (is : List Nat) (st st' : KernelState (Pt ℝ)) (p q vi vi1 : Pt ℝ),
      kGet st.xk st.l = .ok p → kGet st.xk st.f = .ok q → kGet w i = .ok vi →
      kGet w (((i + 1) % w.length : Nat) : Int) = .ok vi1 → isReflex realOps w i = .ok false →
      kernelRound realOps false st vi vi1 false = .ok (some st') →
      kernelRounds realOps false w (i :: is) st = kernelRounds realOps false w is st' := by
    intro i is st st' p q vi vi1 h1 h2 h3 h4 h5 h6
    simp only [kernelRounds, h1, h2, h3, h4, h5, h6, ok_then]
  have rounds : kernelRounds realOps false w [1, 2, 3, 4, 5] ⟨[(c, d - 300), (c, d), (c - 300, d)], 0, 2, false, none⟩ =
      .ok (some ⟨[(c, d), (0, d), (0, d), (0, 0), (c, 0)], 3, 2, true, some [(c, d), (0, d)]⟩) := by
    rw [step 1 _ _ _ (c - 300, d) (c, d - 300) (c, b) (0, b) rfl rfl rfl rfl r1 (corner_round1 h),
      step 2 _ _ _ (c - 300, d) (c, d) (0, b) (0, 0) rfl rfl rfl rfl r2 (corner_round2 h),
      step 3 _ _ _ (0, b - 300) (0, d) (0, 0) (a, 0) rfl rfl rfl rfl r3 (corner_round3 h),
      step 4 _ _ _ (c, d) (0, 0) (a, 0) (a, d) rfl rfl rfl rfl r4 (corner_round4 h _),
      step 5 _ _ _ (0, d) (c, 0) (a, d) (c, d) rfl rfl rfl last r5 (corner_round5 h _)]
    rfl
  have keep : keepFirst [(c, d), (0, d), (0, d), (0, 0), (c, 0)] = [(c, d), (0, d), (0, 0), (c, 0)] := by
    have hc0 : c ≠ 0 := by linarith
    have hd0 : d ≠ 0 := by linarith
    simp [keepFirst, hc0, hc0.symm, hd0.symm]
  have lens : (List.range (cornerShape a b c d).length) = List.range 6 := rfl
  have lenw : (List.range (w.length - 1)).map (· + 1) = [1, 2, 3, 4, 5] := rfl
  simp only [constructKernel, polygonKernel, corner_nonconvex h, ok_then, Bool.false_eq_true, if_false, corner_orient h,
    kernelVertices, corner_reduce h, lens, start, init, lenw, rounds, keep]
  rfl

end
end Starworlds
