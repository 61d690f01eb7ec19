import Verif.Spec.EllipseDilation
import Verif.Props.EllipseShape

/-! # C101: the polygon of a dilated ellipse -/

namespace Starworlds

open Real Spec

/-- The exact buffer satisfies the laws. -/
theorem bufferOk_exact : BufferOk fun s r => {x | ∃ y ∈ s, normSq (x - y) ≤ r ^ 2} where
  within := fun _ _ _ _ hx => hx
  contains := fun s r _ x hx => ⟨x, hx, by simp [normSq]; positivity⟩
  edge := by
    intro s r hs _ a ha b hb _ n hn _ _ t h ht0 ht1 hh hhr
    refine ⟨a + t • (b - a), ?_, ?_⟩
    · have := hs ha hb (sub_nonneg.2 ht1) ht0 (by ring)
      convert this using 1
      ext <;> simp <;> ring
    · rw [add_sub_cancel_left]
      simp only [normSq, Prod.smul_fst, Prod.smul_snd, smul_eq_mul] at hn ⊢
      have : h ^ 2 ≤ r ^ 2 := by gcongr
      nlinarith

/-- Distances add up. -/
theorem within_trans {x y z : Pt ℝ} {r s : ℝ} (hr : 0 ≤ r) (hs : 0 ≤ s) (h1 : normSq (x - y) ≤ r ^ 2) (h2 : normSq (y - z) ≤ s ^ 2) :
    normSq (x - z) ≤ (r + s) ^ 2 := by
  simp only [normSq, Prod.fst_sub, Prod.snd_sub] at *
  set a := x.1 - y.1
  set b := x.2 - y.2
  set c := y.1 - z.1
  set d := y.2 - z.2
  have e1 : x.1 - z.1 = a + c := by ring
  have e2 : x.2 - z.2 = b + d := by ring
  rw [e1, e2]
  have hcs : (a * c + b * d) ^ 2 ≤ (r * s) ^ 2 := by
    have : (a * c + b * d) ^ 2 ≤ (a ^ 2 + b ^ 2) * (c ^ 2 + d ^ 2) := by nlinarith [sq_nonneg (a * d - b * c)]
    calc _ ≤ (a ^ 2 + b ^ 2) * (c ^ 2 + d ^ 2) := this
      _ ≤ r ^ 2 * s ^ 2 := by nlinarith [sq_nonneg a, sq_nonneg b, sq_nonneg c, sq_nonneg d, sq_nonneg r, sq_nonneg s]
      _ = _ := by ring
  have := abs_le_of_sq_le_sq hcs (by positivity)
  nlinarith [le_abs_self (a * c + b * d)]

/-- The point of the ellipse with axes `a` that is next to a point of the ellipse with axes `a + r`. -/
theorem ellForm_shrink {a p : Pt ℝ} {r : ℝ} (h0 : 0 < a.1) (h1 : 0 < a.2) (hr : 0 ≤ r)
    (hp : ellForm (a.1 + r, a.2 + r) p ≤ 1) : ∃ q, ellForm a q ≤ 1 ∧ normSq (p - q) ≤ r ^ 2 := by
  have hA0 : (a.1 + r) ≠ 0 := by positivity
  have hA1 : (a.2 + r) ≠ 0 := by positivity
  have hp' : ellForm (a.1 + r, a.2 + r) p - 1 ≤ 0 := by linarith
  have hx := pointLocation_eq ((⟨a, (0, 0), 0, none⟩ : Ell).dilated r) hA0 hA1 .obstacle (Or.inr rfl) p
  obtain ⟨y, w, hy, hw, hd⟩ := C34_within ⟨a, (0, 0), 0, none⟩ h0 h1 r hr .obstacle (Or.inr rfl) _ _ hx hp'
  have := pointLocation_eq (⟨a, (0, 0), 0, none⟩ : Ell) h0.ne' h1.ne' .obstacle (Or.inr rfl) y
  simp only [inFrame] at this hd
  rw [this, Except.ok.injEq] at hy
  exact ⟨y, by linarith, hd⟩

/-- C101, in all histories with paddings that are not negative: no point of the polygon is farther than the sum of the paddings
from the ellipse that has its axes enlarged by `10⁻³`, whether it has been computed before or after the dilations.
Missing: that it is the same polygon in both cases (`C101_false`). -/
theorem C101_within_partial {buffer : Set (Pt ℝ) → ℝ → Set (Pt ℝ)} (hb : BufferOk buffer) (e : Ell) (h0 : 0 < e.a.1)
    (h1 : 0 < e.a.2) (ops : List EllOp) (hops : ∀ r, .dilate r ∈ ops → 0 ≤ r) :
    ∀ x ∈ (EllObj.run buffer ⟨e, none⟩ ops).polygonCall.1,
      ∃ y, ellForm (e.a.1 + 1 / 10 ^ 3, e.a.2 + 1 / 10 ^ 3) y ≤ 1 ∧ normSq (x - y) ≤ totalPadding ops ^ 2 := by
  have hA0 : 0 < e.a.1 + 1 / 10 ^ 3 := by positivity
  have hA1 : 0 < e.a.2 + 1 / 10 ^ 3 := by positivity
  have hfresh : ∀ o : EllObj, ∀ R, 0 ≤ R → o.ell.a = (e.a.1 + R, e.a.2 + R) → ∀ x ∈ o.ell.polygonRegion,
      ∃ y, ellForm (e.a.1 + 1 / 10 ^ 3, e.a.2 + 1 / 10 ^ 3) y ≤ 1 ∧ normSq (x - y) ≤ R ^ 2 := by
    intro o R hR ha x hx
    have := C35_inside o.ell (by rw [ha]; simp only; positivity) (by rw [ha]; simp only; positivity) x hx
    refine ellForm_shrink hA0 hA1 hR ?_
    rw [ha] at this
    simpa only [add_right_comm] using this
  suffices key : ∀ (ops : List EllOp) (o : EllObj) (R : ℝ), 0 ≤ R → (∀ r, .dilate r ∈ ops → 0 ≤ r) →
      o.ell.a = (e.a.1 + R, e.a.2 + R) →
      (∀ s, o.polygon = some s → ∀ x ∈ s,
        ∃ y, ellForm (e.a.1 + 1 / 10 ^ 3, e.a.2 + 1 / 10 ^ 3) y ≤ 1 ∧ normSq (x - y) ≤ R ^ 2) →
      ∀ x ∈ (EllObj.run buffer o ops).polygonCall.1,
        ∃ y, ellForm (e.a.1 + 1 / 10 ^ 3, e.a.2 + 1 / 10 ^ 3) y ≤ 1 ∧ normSq (x - y) ≤ (R + totalPadding ops) ^ 2 by
    simpa using key ops ⟨e, none⟩ 0 le_rfl hops (by simp) (by simp)
  intro ops
  induction ops with
  | nil =>
    intro o R hR _ ha hs x hx
    simp only [EllObj.run, List.foldl_nil, totalPadding, add_zero, EllObj.polygonCall] at hx ⊢
    rcases hp : o.polygon with _ | s
    · rw [hp] at hx; exact hfresh o R hR ha x hx
    · rw [hp] at hx; exact hs s hp x hx
  | cons op ops ih =>
    intro o R hR hops ha hs x hx
    have hops' : ∀ r, .dilate r ∈ ops → 0 ≤ r := fun r m => hops r (by simp [m])
    rcases op with _ | r
    · refine ih o.polygonCall.2 R hR hops' ?_ ?_ x hx
      · rcases hp : o.polygon with _ | s <;> simp [EllObj.polygonCall, hp, ha]
      · intro s e' z hz
        rcases hp : o.polygon with _ | s'
        · simp only [EllObj.polygonCall, hp, Option.some.injEq] at e'
          subst e'
          exact hfresh o R hR ha z hz
        · simp only [EllObj.polygonCall, hp, Option.some.injEq] at e'
          subst e'
          exact hs s' hp z hz
    · have hr := hops r (by simp)
      rw [show R + totalPadding (.dilate r :: ops) = (R + r) + totalPadding ops by simp [totalPadding]; ring]
      refine ih (o.dilated buffer r) (R + r) (by positivity) hops' ?_ ?_ x hx
      · simp only [EllObj.dilated, Ell.dilated, ha, add_assoc]
      · intro s e' z hz
        rcases hp : o.polygon with _ | s'
        · simp [EllObj.dilated, hp] at e'
        · simp only [EllObj.dilated, hp, Option.some.injEq] at e'
          subst e'
          obtain ⟨y, hy, hzy⟩ := hb.within s' r hr z hz
          obtain ⟨w, hw, hyw⟩ := hs s' hp y hy
          exact ⟨w, hw, by rw [add_comm R r]; exact within_trans hr hR hzy hyw⟩

/-- C101: what is stored.  If the polygon has not been computed before the dilation, it is that of the dilated ellipse, the hull of
points on it; if it has, it is the buffered polygon of the original. -/
theorem C101_stored_partial (buffer : Set (Pt ℝ) → ℝ → Set (Pt ℝ)) (e : Ell) (r : ℝ) :
    (EllObj.run buffer ⟨e, none⟩ [.dilate r]).polygonCall.1 = convexHull ℝ {p | p ∈ (e.dilated r).polygonVertices} ∧
    (EllObj.run buffer ⟨e, none⟩ [.polygon, .dilate r]).polygonCall.1 = buffer (convexHull ℝ {p | p ∈ e.polygonVertices}) r := by
  constructor <;> rfl

/-- The line through the first edge of the polygon with 20 vertices of a circle. -/
theorem circle_edge (e : Ell) {R : ℝ} (ha : e.a = (R, R)) (hn : e.nPol = 20) (hR : 0 ≤ R) :
    ∀ q ∈ convexHull ℝ {p | p ∈ e.polygonVertices}, cos (π / 20) * q.1 + sin (π / 20) * q.2 ≤ (R + 1 / 10 ^ 3) * cos (π / 20) := by
  have hconv : Convex ℝ {q : Pt ℝ | cos (π / 20) * q.1 + sin (π / 20) * q.2 ≤ (R + 1 / 10 ^ 3) * cos (π / 20)} := by
    intro p hp q hq s t hs ht hst
    simp only [Set.mem_ofPred_eq, Prod.fst_add, Prod.snd_add, Prod.smul_fst, Prod.smul_snd, smul_eq_mul] at *
    have : t = 1 - s := by linarith
    subst this
    nlinarith
  have hpi := pi_pos
  have hsub : {p | p ∈ e.polygonVertices} ⊆
      {q : Pt ℝ | cos (π / 20) * q.1 + sin (π / 20) * q.2 ≤ (R + 1 / 10 ^ 3) * cos (π / 20)} := by
    intro p hp
    simp only [Set.mem_ofPred_eq, Ell.polygonVertices, List.mem_map, List.mem_range, ha, hn] at hp ⊢
    obtain ⟨k, hk, rfl⟩ := hp
    have hle : cos (k * (2 * π / (20 : ℕ)) - π / 20) ≤ cos (π / 20) := by
      push_cast
      have hk' : (k : ℝ) ≤ 19 := by exact_mod_cast (by omega : k ≤ 19)
      rcases Nat.eq_zero_or_pos k with rfl | hk0
      · simp
      · have hk1 : (1 : ℝ) ≤ k := by exact_mod_cast hk0
        rcases le_total ((k : ℝ) * (2 * π / 20) - π / 20) π with h1 | h1
        · exact cos_le_cos_of_nonneg_of_le_pi (by positivity) h1 (by nlinarith)
        · rw [← cos_two_pi_sub]
          exact cos_le_cos_of_nonneg_of_le_pi (by positivity) (by linarith) (by nlinarith)
    rw [cos_sub] at hle
    have : 0 ≤ R + 1 / 10 ^ 3 := by positivity
    nlinarith [mul_le_mul_of_nonneg_left hle this]
  exact fun q hq => convexHull_min hsub hconv hq

/-- C101 is false: for the unit circle with the default of 20 vertices and padding 1, a point (at distance about 1.98 from the centre)
in the direction of the middle of the first edge is in the polygon of the dilated obstacle exactly if `polygon()` was called
before. -/
theorem C101_false {buffer : Set (Pt ℝ) → ℝ → Set (Pt ℝ)} (hb : BufferOk buffer) :
    let ρ := (1 + 1 / 10 ^ 3) * cos (π / 20) + (1 + cos (π / 20)) / 2
    let x : Pt ℝ := (ρ * cos (π / 20), ρ * sin (π / 20))
    x ∈ (EllObj.run buffer ⟨unitEll, none⟩ [.polygon, .dilate 1]).polygonCall.1 ∧
    x ∉ (EllObj.run buffer ⟨unitEll, none⟩ [.dilate 1]).polygonCall.1 := by
  intro ρ x
  obtain ⟨e1, e2⟩ := C101_stored_partial buffer unitEll 1
  rw [e1, e2]
  have hcs := sin_sq_add_cos_sq (π / 20)
  have hpi := pi_pos
  have hc1 : cos (π / 20) < 1 := by
    have := cos_le_one_sub_mul_cos_sq (x := π / 20) (by rw [abs_of_pos (by positivity)]; linarith)
    have e : 2 / π ^ 2 * (π / 20) ^ 2 = 1 / 200 := by field_simp; norm_num
    linarith
  have hc0 : 0 < cos (π / 20) := cos_pos_of_mem_Ioo ⟨by linarith, by linarith⟩
  set c := cos (π / 20) with hc
  set s := sin (π / 20) with hs
  have d1 : cos (π / 10) = 2 * c ^ 2 - 1 := by rw [show π / 10 = 2 * (π / 20) by ring, cos_two_mul]
  have d2 : sin (π / 10) = 2 * s * c := by rw [show π / 10 = 2 * (π / 20) by ring, sin_two_mul]
  constructor
  · have hv : ∀ k < 20, (((1 + 1 / 10 ^ 3) * cos ((k : ℕ) * (2 * π / 20)), (1 + 1 / 10 ^ 3) * sin ((k : ℕ) * (2 * π / 20))) : Pt ℝ) ∈
        convexHull ℝ {p | p ∈ unitEll.polygonVertices} := by
      intro k hk
      refine subset_convexHull ℝ _ ?_
      simp only [Set.mem_ofPred_eq, Ell.polygonVertices, List.mem_map, List.mem_range, unitEll]
      exact ⟨k, hk, by push_cast; rfl⟩
    have h0 := hv 0 (by norm_num)
    have h1 := hv 1 (by norm_num)
    rw [show ((1 : ℕ) : ℝ) * (2 * π / 20) = π / 10 by push_cast; ring, d1, d2] at h1
    rw [Nat.cast_zero, zero_mul, cos_zero, sin_zero, mul_one, mul_zero] at h0
    have := hb.edge _ 1 (convex_convexHull ℝ _) zero_le_one _ h0 _ h1 ?_ (c, s) ?_ ?_ ?_ (1 / 2) ((1 + c) / 2)
      (by norm_num) (by norm_num) (by linarith) (by linarith)
    · convert this using 1
      ext
      · simp only [x, ρ, Prod.fst_add, Prod.smul_fst, Prod.fst_sub, smul_eq_mul]; ring
      · simp only [x, ρ, Prod.snd_add, Prod.smul_snd, Prod.snd_sub, smul_eq_mul]; ring
    · intro h
      have := congrArg Prod.fst h
      simp only at this
      nlinarith
    · simp only [normSq]; linarith
    · simp only [dot]
      have : s ^ 2 = 1 - c ^ 2 := by linarith
      linear_combination (-2 * (1 + 1 / 10 ^ 3) * c) * this
    · intro z hz
      have := circle_edge unitEll (R := 1) rfl rfl zero_le_one z hz
      simp only [dot]
      linarith
  · intro h
    have := circle_edge (unitEll.dilated 1) (R := 2) (by norm_num [Ell.dilated, unitEll]) rfl (by norm_num) x h
    simp only [x, ρ] at this
    rw [← hc, ← hs] at this
    have e : c * (((1 + 1 / 10 ^ 3) * c + (1 + c) / 2) * c) + s * (((1 + 1 / 10 ^ 3) * c + (1 + c) / 2) * s) =
        (1 + 1 / 10 ^ 3) * c + (1 + c) / 2 := by
      linear_combination ((1 + 1 / 10 ^ 3) * c + (1 + c) / 2) * hcs
    rw [e] at this
    linarith

/-- `C101_within_partial` applied: with the exact buffer, the polygon of a circle of radius 2 that is dilated by 1, asked for its
polygon, and dilated by 3 again, is within 4 of the circle of radius 2.001. -/
example : ∀ x ∈ (EllObj.run (fun s r => {x | ∃ y ∈ s, normSq (x - y) ≤ r ^ 2}) ⟨⟨(2, 2), (0, 0), 20, none⟩, none⟩
    [.dilate 1, .polygon, .dilate 3]).polygonCall.1, ∃ y, ellForm (2 + 1 / 10 ^ 3, 2 + 1 / 10 ^ 3) y ≤ 1 ∧ normSq (x - y) ≤ 4 ^ 2 := by
  have := C101_within_partial bufferOk_exact ⟨(2, 2), (0, 0), 20, none⟩ (by norm_num) (by norm_num) [.dilate 1, .polygon, .dilate 3]
    (by simp)
  rw [show totalPadding [.dilate 1, .polygon, .dilate 3] = 4 by norm_num [totalPadding]] at this
  exact this

end Starworlds
