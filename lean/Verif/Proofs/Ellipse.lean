import Verif.Model.Ellipse
import Verif.Spec.Ellipse
import Verif.Props.Obstacle
import Mathlib.Tactic.Linarith
import Mathlib.Tactic.FieldSimp

/-! # Helper lemmas for the ellipse -/

namespace Starworlds

open Real Spec

theorem transform_to_obstacle (mm : Option Pose) (f : Frame) (hf : f.Valid) (p : Pt ℝ) :
    transform mm (inFrame mm f p) f .obstacle = .ok p := by
  rcases hf with rfl | rfl
  · refine (C21_inverse mm p _ .obstacle .global).1 ?_
    cases mm with
    | none => rfl
    | some q => rw [(C21_meaning q p).2.1]; rfl
  · exact (C21_identity mm p _ _ (Or.inl rfl)).1

theorem transform_from_obstacle (mm : Option Pose) (f : Frame) (hf : f.Valid) (p : Pt ℝ) :
    transform mm p .obstacle f = .ok (inFrame mm f p) := by
  rcases hf with rfl | rfl
  · cases mm with
    | none => rfl
    | some q => rw [(C21_meaning q p).2.1]; rfl
  · exact (C21_identity mm p _ _ (Or.inl rfl)).1

/-- Every point is the coordinates of some local point. -/
theorem inFrame_surj (mm : Option Pose) (f : Frame) (hf : f.Valid) (x : Pt ℝ) : ∃ p, x = inFrame mm f p := by
  obtain ⟨p, hp⟩ := (C21_total mm x f .obstacle hf (Or.inr rfl)).1
  refine ⟨p, ?_⟩
  have := (C21_inverse mm x p f .obstacle).1 hp
  rw [transform_from_obstacle mm f hf] at this
  injection this with this
  exact this.symm

theorem inFrame_inj (mm : Option Pose) (f : Frame) (hf : f.Valid) {p q : Pt ℝ}
    (h : inFrame mm f p = inFrame mm f q) : p = q := by
  have h1 := transform_to_obstacle mm f hf p
  rw [h, transform_to_obstacle mm f hf q] at h1
  injection h1 with h1
  exact h1.symm

/-- Changing the frame is affine. -/
theorem inFrame_line (mm : Option Pose) (f : Frame) (p q : Pt ℝ) (t : ℝ) :
    inFrame mm f (p + t • (q - p)) = inFrame mm f p + t • (inFrame mm f q - inFrame mm f p) := by
  cases mm with
  | none => cases f <;> rfl
  | some w =>
    cases f <;> (try rfl) <;> ext <;>
      simp only [inFrame, worldOf, Prod.fst_add, Prod.snd_add, Prod.smul_fst, Prod.smul_snd, Prod.fst_sub,
        Prod.snd_sub, smul_eq_mul] <;> ring

theorem inFrame_segment (mm : Option Pose) (f : Frame) (hf : f.Valid) (p q r : Pt ℝ) :
    OnSegment (inFrame mm f p) (inFrame mm f q) (inFrame mm f r) ↔ OnSegment p q r := by
  constructor
  · rintro ⟨t, h0, h1, h⟩
    rw [← inFrame_line] at h
    exact ⟨t, h0, h1, inFrame_inj mm f hf h⟩
  · rintro ⟨t, h0, h1, h⟩
    exact ⟨t, h0, h1, by rw [h, inFrame_line]⟩

theorem inFrame_ray (mm : Option Pose) (f : Frame) (hf : f.Valid) (p q r : Pt ℝ) :
    OnRay (inFrame mm f p) (inFrame mm f q) (inFrame mm f r) ↔ OnRay p q r := by
  constructor
  · rintro ⟨t, h0, h⟩
    rw [← inFrame_line] at h
    exact ⟨t, h0, inFrame_inj mm f hf h⟩
  · rintro ⟨t, h0, h⟩
    exact ⟨t, h0, by rw [h, inFrame_line]⟩

/-- Changing the frame keeps orientation. -/
theorem inFrame_cross (mm : Option Pose) (f : Frame) (p q r : Pt ℝ) :
    cross (inFrame mm f q - inFrame mm f p) (inFrame mm f r - inFrame mm f p) = cross (q - p) (r - p) := by
  cases mm with
  | none => cases f <;> rfl
  | some w =>
    have e := sin_sq_add_cos_sq w.rot
    cases f <;> (try rfl) <;>
      simp only [inFrame, worldOf, cross, Prod.fst_sub, Prod.snd_sub] <;>
      linear_combination ((q.1 - p.1) * (r.2 - p.2) - (q.2 - p.2) * (r.1 - p.1)) * e

theorem mapM_transform (mm : Option Pose) (f : Frame) (hf : f.Valid) (l : List (Pt ℝ)) :
    (l.mapM fun p => transform mm p .obstacle f) = .ok (l.map (inFrame mm f)) := by
  induction l with
  | nil => rfl
  | cons p l ih =>
    simp only [List.mapM_cons, transform_from_obstacle mm f hf p, ih, bind, Except.bind, pure, Except.pure,
      List.map_cons]

/-! ## Lines and ellipses -/

theorem ellForm_line {a : Pt ℝ} (h0 : 0 < a.1) (h1 : 0 < a.2) (m c x : ℝ) :
    ellForm a (x, m * x + c) = 1 ↔
      (x - -(2 * a.1 ^ 2 * m * c) / (2 * (a.1 ^ 2 * m ^ 2 + a.2 ^ 2))) ^ 2 =
        a.1 ^ 2 * a.2 ^ 2 * (a.1 ^ 2 * m ^ 2 + a.2 ^ 2 - c ^ 2) / (a.1 ^ 2 * m ^ 2 + a.2 ^ 2) ^ 2 := by
  have hk : 0 < a.1 ^ 2 * m ^ 2 + a.2 ^ 2 := by positivity
  unfold ellForm
  simp only
  have e : x ^ 2 / a.1 ^ 2 + (m * x + c) ^ 2 / a.2 ^ 2 - 1 =
      (a.1 ^ 2 * m ^ 2 + a.2 ^ 2) / (a.1 ^ 2 * a.2 ^ 2) *
      ((x - -(2 * a.1 ^ 2 * m * c) / (2 * (a.1 ^ 2 * m ^ 2 + a.2 ^ 2))) ^ 2 -
        a.1 ^ 2 * a.2 ^ 2 * (a.1 ^ 2 * m ^ 2 + a.2 ^ 2 - c ^ 2) / (a.1 ^ 2 * m ^ 2 + a.2 ^ 2) ^ 2) := by
    field_simp
    ring
  have hpos : 0 < (a.1 ^ 2 * m ^ 2 + a.2 ^ 2) / (a.1 ^ 2 * a.2 ^ 2) := by positivity
  rw [← sub_eq_zero, e, mul_eq_zero, or_iff_right hpos.ne', sub_eq_zero]

theorem inSqrt_eq {a : Pt ℝ} (h1 : 0 < a.2) (m c : ℝ) :
    (2 * a.1 ^ 2 * m * c) ^ 2 / (4 * (a.1 ^ 2 * m ^ 2 + a.2 ^ 2) ^ 2) -
      a.1 ^ 2 * (c ^ 2 - a.2 ^ 2) / (a.1 ^ 2 * m ^ 2 + a.2 ^ 2) =
    a.1 ^ 2 * a.2 ^ 2 * (a.1 ^ 2 * m ^ 2 + a.2 ^ 2 - c ^ 2) / (a.1 ^ 2 * m ^ 2 + a.2 ^ 2) ^ 2 := by
  have hk : 0 < a.1 ^ 2 * m ^ 2 + a.2 ^ 2 := by positivity
  field_simp
  ring

/-- A segment that is not vertical, as points between two abscissas on `y = m x + c`. -/
theorem onSegment_iff {l r p : Pt ℝ} (h : l.1 < r.1) {m c : ℝ} (hm : m = (r.2 - l.2) / (r.1 - l.1))
    (hc : c = l.2 - m * l.1) : OnSegment l r p ↔ p.2 = m * p.1 + c ∧ l.1 ≤ p.1 ∧ p.1 ≤ r.1 := by
  have hd : r.1 - l.1 ≠ 0 := by linarith
  have hmd : m * (r.1 - l.1) = r.2 - l.2 := by rw [hm, div_mul_cancel₀ _ hd]
  constructor
  · rintro ⟨t, h0, h1, rfl⟩
    simp only [Prod.fst_add, Prod.snd_add, Prod.smul_fst, Prod.smul_snd, Prod.fst_sub, Prod.snd_sub, smul_eq_mul]
    refine ⟨?_, ?_, ?_⟩
    · rw [hc, ← hmd]; ring
    · nlinarith
    · nlinarith
  · rintro ⟨h1, h2, h3⟩
    refine ⟨(p.1 - l.1) / (r.1 - l.1), ?_, ?_, ?_⟩
    · apply div_nonneg <;> linarith
    · rw [div_le_one (by linarith)]; linarith
    · ext
      · simp only [Prod.fst_add, Prod.smul_fst, Prod.fst_sub, smul_eq_mul, div_mul_cancel₀ _ hd]; ring
      · simp only [Prod.snd_add, Prod.smul_snd, Prod.snd_sub, smul_eq_mul]
        rw [← hmd, div_mul_eq_mul_div, ← mul_assoc, mul_comm _ m, mul_assoc, mul_div_assoc, mul_div_assoc,
          div_self hd, h1, hc]
        ring

theorem onLine_iff {l r p : Pt ℝ} (h : l.1 < r.1) {m c : ℝ} (hm : m = (r.2 - l.2) / (r.1 - l.1))
    (hc : c = l.2 - m * l.1) : OnLine l r p ↔ p.2 = m * p.1 + c := by
  have hd : r.1 - l.1 ≠ 0 := by linarith
  have hmd : m * (r.1 - l.1) = r.2 - l.2 := by rw [hm, div_mul_cancel₀ _ hd]
  constructor
  · rintro ⟨t, rfl⟩
    simp only [Prod.fst_add, Prod.snd_add, Prod.smul_fst, Prod.smul_snd, Prod.fst_sub, Prod.snd_sub, smul_eq_mul]
    rw [hc, ← hmd]; ring
  · intro h1
    refine ⟨(p.1 - l.1) / (r.1 - l.1), ?_⟩
    ext
    · simp only [Prod.fst_add, Prod.smul_fst, Prod.fst_sub, smul_eq_mul, div_mul_cancel₀ _ hd]; ring
    · simp only [Prod.snd_add, Prod.smul_snd, Prod.snd_sub, smul_eq_mul]
      rw [← hmd, div_mul_eq_mul_div, ← mul_assoc, mul_comm _ m, mul_assoc, mul_div_assoc, mul_div_assoc,
        div_self hd, h1, hc]
      ring

theorem onSegment_symm {l r p : Pt ℝ} : OnSegment l r p ↔ OnSegment r l p := by
  have : ∀ l r p : Pt ℝ, OnSegment l r p → OnSegment r l p := by
    rintro l r p ⟨t, h0, h1, rfl⟩
    refine ⟨1 - t, by linarith, by linarith, ?_⟩
    ext <;> simp only [Prod.fst_add, Prod.snd_add, Prod.smul_fst, Prod.smul_snd, Prod.fst_sub, Prod.snd_sub,
      smul_eq_mul] <;> ring
  exact ⟨this l r p, this r l p⟩

theorem onLine_symm {l r p : Pt ℝ} : OnLine l r p ↔ OnLine r l p := by
  have : ∀ l r p : Pt ℝ, OnLine l r p → OnLine r l p := by
    rintro l r p ⟨t, rfl⟩
    refine ⟨1 - t, ?_⟩
    ext <;> simp only [Prod.fst_add, Prod.snd_add, Prod.smul_fst, Prod.smul_snd, Prod.fst_sub, Prod.snd_sub,
      smul_eq_mul] <;> ring
  exact ⟨this l r p, this r l p⟩

/-- The sloped branch returns exactly the crossings of the segment, if the line misses the ellipse or crosses
it in two points whose abscissas are not within the snapping distance. -/
theorem ellSloped_spec {a : Pt ℝ} (ha0 : 0 < a.1) (ha1 : 0 < a.2) {l r : Pt ℝ} (h : l.1 < r.1) {m c : ℝ}
    (hm : m = (r.2 - l.2) / (r.1 - l.1)) (hc : c = l.2 - m * l.1)
    (hch : (∀ p, OnLine l r p → ellForm a p ≠ 1) ∨
      ∃ p q, OnLine l r p ∧ OnLine l r q ∧ ellForm a p = 1 ∧ ellForm a q = 1 ∧ p.1 + 2 / 10 ^ 4 < q.1) :
    ∃ L, ellSloped a l r m c = .ok L ∧ L.Nodup ∧ ∀ p, p ∈ L ↔ OnSegment l r p ∧ ellForm a p = 1 := by
  have hk : 0 < a.1 ^ 2 * m ^ 2 + a.2 ^ 2 := by positivity
  set mid := -(2 * a.1 ^ 2 * m * c) / (2 * (a.1 ^ 2 * m ^ 2 + a.2 ^ 2)) with hmid
  set D := a.1 ^ 2 * a.2 ^ 2 * (a.1 ^ 2 * m ^ 2 + a.2 ^ 2 - c ^ 2) / (a.1 ^ 2 * m ^ 2 + a.2 ^ 2) ^ 2 with hD
  have hform : ∀ p : Pt ℝ, p.2 = m * p.1 + c → (ellForm a p = 1 ↔ (p.1 - mid) ^ 2 = D) := by
    intro p hp
    have : p = (p.1, m * p.1 + c) := Prod.ext rfl hp
    rw [this]
    exact ellForm_line ha0 ha1 m c p.1
  rcases hch with hno | ⟨p, q, hp, hq, hp1, hq1, hpq⟩
  · -- the line misses the ellipse
    have hneg : a.1 ^ 2 * m ^ 2 + a.2 ^ 2 - c ^ 2 < 0 := by
      by_contra hge
      push Not at hge
      have hD0 : 0 ≤ D := by rw [hD]; positivity
      have hx := (hform (mid + √D, m * (mid + √D) + c) rfl).2 (by
        simp only [add_sub_cancel_left]; exact sq_sqrt hD0)
      exact hno _ ((onLine_iff h hm hc).2 rfl) hx
    refine ⟨[], ?_, List.nodup_nil, ?_⟩
    · simp only [ellSloped, if_pos hneg]
    · intro p
      simp only [List.not_mem_nil, false_iff, not_and]
      intro hs
      exact hno p ((onLine_iff h hm hc).2 ((onSegment_iff h hm hc).1 hs).1)
  · rw [onLine_iff h hm hc] at hp hq
    rw [hform p hp] at hp1
    rw [hform q hq] at hq1
    have hDpos : 1 / 10 ^ 8 < D := by
      nlinarith [sq_nonneg (p.1 + q.1 - 2 * mid), sq_nonneg (q.1 - p.1 - 2 / 10 ^ 4)]
    have hdisc : 0 < a.1 ^ 2 * m ^ 2 + a.2 ^ 2 - c ^ 2 := by
      by_contra hle
      push Not at hle
      have : D ≤ 0 := by
        rw [hD]
        apply div_nonpos_of_nonpos_of_nonneg
        · exact mul_nonpos_of_nonneg_of_nonpos (by positivity) hle
        · positivity
      linarith
    have hnc : isClose D 0 (1 / 10 ^ 5) (1 / 10 ^ 8) = false := by
      simp only [isClose, sub_zero, abs_zero, mul_zero, add_zero, decide_eq_false_iff_not, not_le]
      exact lt_of_lt_of_le hDpos (le_abs_self _)
    have hs : 0 < √D := sqrt_pos.2 (by linarith)
    have hsq : √D ^ 2 = D := sq_sqrt (by linarith)
    set pl : Pt ℝ := (mid - √D, m * (mid - √D) + c) with hpl
    set pr : Pt ℝ := (mid + √D, m * (mid + √D) + c) with hpr
    have hplr : pl.1 < pr.1 := by simp only [hpl, hpr]; linarith
    have hne : pl ≠ pr := fun he => by rw [he] at hplr; exact lt_irrefl _ hplr
    have hmem : ∀ p, (OnSegment l r p ∧ ellForm a p = 1) ↔ (p = pl ∨ p = pr) ∧ l.1 ≤ p.1 ∧ p.1 ≤ r.1 := by
      intro w
      rw [onSegment_iff h hm hc]
      constructor
      · rintro ⟨⟨h1, h2, h3⟩, h4⟩
        rw [hform w h1, ← hsq, sq_eq_sq_iff_eq_or_eq_neg] at h4
        refine ⟨?_, h2, h3⟩
        rcases h4 with h4 | h4
        · right
          have : w.1 = mid + √D := by linarith
          exact Prod.ext this (by rw [h1, this])
        · left
          have : w.1 = mid - √D := by linarith
          exact Prod.ext this (by rw [h1, this])
      · rintro ⟨h1, h2, h3⟩
        rcases h1 with rfl | rfl
        · refine ⟨⟨rfl, h2, h3⟩, (hform _ rfl).2 ?_⟩
          simp only [hpl]
          linear_combination hsq
        · refine ⟨⟨rfl, h2, h3⟩, (hform _ rfl).2 ?_⟩
          simp only [hpr]
          linear_combination hsq
    have hcode : ellSloped a l r m c =
        if r.1 < pl.1 ∨ pr.1 < l.1 ∨ (pl.1 < l.1 ∧ l.1 < r.1 ∧ r.1 < pr.1) then .ok []
        else if pl.1 < l.1 then .ok [pr]
        else if r.1 < pr.1 then .ok [pl]
        else .ok [pl, pr] := by
      simp only [ellSloped, if_neg (not_lt.2 hdisc.le), if_neg hk.ne', if_neg hdisc.ne', inSqrt_eq ha1 m c, ← hD, hnc]
      rfl
    rw [hcode]
    split
    · rename_i hcase
      refine ⟨[], rfl, List.nodup_nil, ?_⟩
      intro w
      rw [hmem]
      simp only [List.not_mem_nil, false_iff, not_and]
      rintro (rfl | rfl) h1 h2
      · rcases hcase with h3 | h3 | h3
        · linarith
        · linarith
        · linarith [h3.1]
      · rcases hcase with h3 | h3 | h3
        · linarith
        · linarith
        · linarith [h3.2.2]
    · rename_i hcase
      push Not at hcase
      obtain ⟨hc1, hc2, hc3⟩ := hcase
      split
      · rename_i hlt
        refine ⟨[pr], rfl, by simp, ?_⟩
        intro w
        rw [hmem]
        simp only [List.mem_singleton]
        constructor
        · rintro rfl
          exact ⟨Or.inr rfl, hc2, hc3 hlt h⟩
        · rintro ⟨rfl | rfl, h1, h2⟩
          · linarith
          · rfl
      · rename_i hlt
        push Not at hlt
        split
        · rename_i hgt
          refine ⟨[pl], rfl, by simp, ?_⟩
          intro w
          rw [hmem]
          simp only [List.mem_singleton]
          constructor
          · rintro rfl
            exact ⟨Or.inl rfl, hlt, hc1⟩
          · rintro ⟨rfl | rfl, h1, h2⟩
            · rfl
            · linarith
        · rename_i hgt
          push Not at hgt
          refine ⟨[pl, pr], rfl, by simp [hne], ?_⟩
          intro w
          rw [hmem]
          simp only [List.mem_cons, List.not_mem_nil, or_false]
          constructor
          · intro hw
            refine ⟨hw, ?_⟩
            rcases hw with rfl | rfl
            · exact ⟨hlt, by linarith⟩
            · exact ⟨by linarith, hgt⟩
          · rintro ⟨hw, _⟩
            exact hw

/-- `line_intersection` in the obstacle frame, for lines outside the vertical branch. -/
theorem ellLine_spec {a : Pt ℝ} (ha0 : 0 < a.1) (ha1 : 0 < a.2) {l0 l1 : Pt ℝ}
    (h1 : 1 / 10 ^ 4 ≤ |l1.1 - l0.1|) (h2 : |l1.2 - l0.2| ≤ 100 * |l1.1 - l0.1|)
    (hch : (∀ p, OnLine l0 l1 p → ellForm a p ≠ 1) ∨
      ∃ p q, OnLine l0 l1 p ∧ OnLine l0 l1 q ∧ ellForm a p = 1 ∧ ellForm a q = 1 ∧ p.1 + 2 / 10 ^ 4 < q.1) :
    ∃ L, ellLine a l0 l1 = .ok L ∧ L.Nodup ∧ ∀ p, p ∈ L ↔ OnSegment l0 l1 p ∧ ellForm a p = 1 := by
  have hne : l0.1 ≠ l1.1 := by
    intro h; rw [h, sub_self, abs_zero] at h1; norm_num at h1
  have hpos : 0 < |l1.1 - l0.1| := abs_pos.2 (sub_ne_zero.2 hne.symm)
  rcases lt_or_gt_of_ne hne with hlt | hlt
  · have hv : ¬ |l1.1 - l0.1| < 1 / 10 ^ 4 := not_lt.2 h1
    have hm : ¬ |(l1.2 - l0.2) / (l1.1 - l0.1)| > 100 := by
      rw [abs_div, gt_iff_lt, not_lt, div_le_iff₀ hpos]; exact h2
    simp only [ellLine, if_pos hlt, if_neg hv, if_neg hm]
    exact ellSloped_spec ha0 ha1 hlt rfl rfl hch
  · have hn : ¬ l0.1 < l1.1 := not_lt.2 hlt.le
    have hv : ¬ |l0.1 - l1.1| < 1 / 10 ^ 4 := by rw [abs_sub_comm]; exact not_lt.2 h1
    have hm : ¬ |(l0.2 - l1.2) / (l0.1 - l1.1)| > 100 := by
      rw [abs_div, gt_iff_lt, not_lt, abs_sub_comm l0.1, abs_sub_comm l0.2, div_le_iff₀ hpos]; exact h2
    simp only [ellLine, if_neg hn, if_neg hv, if_neg hm]
    obtain ⟨L, hL1, hL2, hL3⟩ := ellSloped_spec ha0 ha1 hlt rfl rfl (a := a) (l := l1) (r := l0) (by
      rcases hch with hch | ⟨p, q, hp, hq, h⟩
      · exact Or.inl fun p hp => hch p (onLine_symm.1 hp)
      · exact Or.inr ⟨p, q, onLine_symm.1 hp, onLine_symm.1 hq, h⟩)
    refine ⟨L, hL1, hL2, ?_⟩
    intro p
    rw [hL3, onSegment_symm]

end Starworlds
