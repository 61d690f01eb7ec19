import Verif.Proofs.Sweep
import Verif.Props.ConePolygon

/-! # The region of `Cone.polygon` (used by `Verif.Props.ConeRegion`) -/

namespace Starworlds

open Real Spec

/-! ## The four box lines -/

/-- What it means that a ray from `a` along `d` hits a box edge, read as a ray. -/
theorem hit_spec {a d p : Pt ℝ} {i : Fin 4} (ha : InBox a) (h : (⟨a, a + d⟩ : Line ℝ).rayIntersection (bbEdge i) = some p) :
    match i with
    | 0 => d.2 < 0 ∧ 0 ≤ cross (boxCorner 3 - a) d
    | 1 => 0 < d.1 ∧ 0 ≤ cross (boxCorner 0 - a) d
    | 2 => 0 < d.2 ∧ 0 ≤ cross d (boxCorner 2 - a)
    | 3 => d.1 < 0 ∧ 0 ≤ cross (boxCorner 2 - a) d := by
  obtain ⟨⟨t, ht, e⟩, ⟨u, hu, e'⟩⟩ := ray_some h
  rw [e] at e'
  have hx := congrArg Prod.fst e'
  have hy := congrArg Prod.snd e'
  obtain ⟨ha1, ha2⟩ := ha
  rw [abs_lt] at ha1 ha2
  have neg : ∀ t x : ℝ, 0 ≤ t → t * x < 0 → x < 0 := fun t x h1 h2 => by by_contra h; nlinarith [mul_nonneg h1 (not_lt.1 h)]
  have pos : ∀ t x : ℝ, 0 ≤ t → 0 < t * x → 0 < x := fun t x h1 h2 => by
    by_contra h; nlinarith [mul_nonneg h1 (neg_nonneg.2 (not_lt.1 h))]
  fin_cases i <;> simp [bbEdge, bbW] at hx hy <;> simp only [cross, boxCorner, Prod.fst_sub, Prod.snd_sub]
  · have h1 := neg t d.2 ht (by linarith)
    refine ⟨h1, ?_⟩
    have : (-10 ^ 6 - a.1) * d.2 - (-10 ^ 6 - a.2) * d.1 = -d.2 * (2 * 10 ^ 6 * u) := by
      linear_combination (-d.2) * hx + d.1 * hy
    rw [this]
    have := neg_pos.2 h1
    positivity
  · have h1 := pos t d.1 ht (by linarith)
    refine ⟨h1, ?_⟩
    have : (10 ^ 6 - a.1) * d.2 - (-10 ^ 6 - a.2) * d.1 = d.1 * (2 * 10 ^ 6 * u) := by
      linear_combination (-d.2) * hx + d.1 * hy
    rw [this]
    positivity
  · have h1 := pos t d.2 ht (by linarith)
    refine ⟨h1, ?_⟩
    have : d.1 * (10 ^ 6 - a.2) - d.2 * (-10 ^ 6 - a.1) = d.2 * (2 * 10 ^ 6 * u) := by
      linear_combination d.2 * hx - d.1 * hy
    rw [this]
    positivity
  · have h1 := neg t d.1 ht (by linarith)
    refine ⟨h1, ?_⟩
    have : (-10 ^ 6 - a.1) * d.2 - (10 ^ 6 - a.2) * d.1 = -d.1 * (2 * 10 ^ 6 * u) := by
      linear_combination (-d.2) * hx + d.1 * hy
    rw [this]
    have := neg_pos.2 h1
    positivity

/-- What it means that the edge tried first is missed. -/
theorem miss_spec {a d : Pt ℝ} {i : Fin 4} (ha : InBox a) (h : (⟨a, a + d⟩ : Line ℝ).rayIntersection (bbEdge i) = none) :
    match i with
    | 0 => 1 / 10 ^ 10 ≤ -d.2 → cross (boxCorner 3 - a) d < 0
    | 1 => 1 / 10 ^ 10 ≤ d.1 → cross (boxCorner 0 - a) d < 0
    | 2 => 1 / 10 ^ 10 ≤ d.2 → cross d (boxCorner 2 - a) < 0
    | 3 => 1 / 10 ^ 10 ≤ -d.1 → cross (boxCorner 2 - a) d < 0 := by
  obtain ⟨ha1, ha2⟩ := ha
  rw [abs_lt] at ha1 ha2
  have hdc : ∀ i, dirCross ⟨a, a + d⟩ (bbEdge i) =
      -d.1 * ((bbEdge i : Line ℝ).p1.2 - (bbEdge i : Line ℝ).p2.2) + d.2 * ((bbEdge i : Line ℝ).p1.1 - (bbEdge i : Line ℝ).p2.1) := by
    intro i; rw [dirCross_eq]; simp
  have fin : ∀ i t u, 1 / 10 ^ 10 ≤ |dirCross (⟨a, a + d⟩ : Line ℝ) (bbEdge i)| → 0 ≤ t → 0 ≤ u →
      a.1 + t * d.1 = (bbEdge i : Line ℝ).p1.1 + u * ((bbEdge i : Line ℝ).p2.1 - (bbEdge i : Line ℝ).p1.1) →
      a.2 + t * d.2 = (bbEdge i : Line ℝ).p1.2 + u * ((bbEdge i : Line ℝ).p2.2 - (bbEdge i : Line ℝ).p1.2) →
      ∃ p, (⟨a, a + d⟩ : Line ℝ).rayIntersection (bbEdge i) = some p := by
    intro i t u h1 h2 h3 h4 h5
    refine ray_hit h1 h2 h3 ?_
    ext
    · simpa using h4
    · simpa using h5
  fin_cases i <;> intro hd <;> by_contra hc <;> rw [not_lt] at hc <;>
    simp only [cross, boxCorner, Prod.fst_sub, Prod.snd_sub] at hc
  · have hp : 0 < -d.2 := lt_of_lt_of_le (by norm_num) hd
    obtain ⟨p, hpp⟩ := fin 0 ((10 ^ 6 + a.2) / -d.2) (((-10 ^ 6 - a.1) * d.2 - (-10 ^ 6 - a.2) * d.1) / (-d.2 * (2 * 10 ^ 6)))
      (by rw [hdc, le_abs]; left; simp only [bbEdge, bbW]; linarith) (div_nonneg (by linarith) hp.le)
      (div_nonneg hc (by positivity))
      (by have h0 := hp.ne'; rw [neg_ne_zero] at h0; simp only [bbEdge, bbW]; field_simp; ring)
      (by have h0 := hp.ne'; rw [neg_ne_zero] at h0; simp only [bbEdge, bbW]; field_simp; ring)
    exact absurd (hpp.symm.trans h) (by simp)
  · have hp : 0 < d.1 := lt_of_lt_of_le (by norm_num) hd
    obtain ⟨p, hpp⟩ := fin 1 ((10 ^ 6 - a.1) / d.1) (((10 ^ 6 - a.1) * d.2 - (-10 ^ 6 - a.2) * d.1) / (d.1 * (2 * 10 ^ 6)))
      (by rw [hdc, le_abs]; left; simp only [bbEdge, bbW]; linarith) (div_nonneg (by linarith) hp.le)
      (div_nonneg hc (by positivity))
      (by have h0 := hp.ne'; simp only [bbEdge, bbW]; field_simp; ring)
      (by have h0 := hp.ne'; simp only [bbEdge, bbW]; field_simp; ring)
    exact absurd (hpp.symm.trans h) (by simp)
  · have hp : 0 < d.2 := lt_of_lt_of_le (by norm_num) hd
    obtain ⟨p, hpp⟩ := fin 2 ((10 ^ 6 - a.2) / d.2) ((d.1 * (10 ^ 6 - a.2) - d.2 * (-10 ^ 6 - a.1)) / (d.2 * (2 * 10 ^ 6)))
      (by rw [hdc, le_abs]; right; simp only [bbEdge, bbW]; linarith) (div_nonneg (by linarith) hp.le)
      (div_nonneg hc (by positivity))
      (by have h0 := hp.ne'; simp only [bbEdge, bbW]; field_simp; ring)
      (by have h0 := hp.ne'; simp only [bbEdge, bbW]; field_simp; ring)
    exact absurd (hpp.symm.trans h) (by simp)
  · have hp : 0 < -d.1 := lt_of_lt_of_le (by norm_num) hd
    obtain ⟨p, hpp⟩ := fin 3 ((10 ^ 6 + a.1) / -d.1) (((-10 ^ 6 - a.1) * d.2 - (10 ^ 6 - a.2) * d.1) / (-d.1 * (2 * 10 ^ 6)))
      (by rw [hdc, le_abs]; left; simp only [bbEdge, bbW]; linarith) (div_nonneg (by linarith) hp.le)
      (div_nonneg hc (by positivity))
      (by have h0 := hp.ne'; rw [neg_ne_zero] at h0; simp only [bbEdge, bbW]; field_simp; ring)
      (by have h0 := hp.ne'; rw [neg_ne_zero] at h0; simp only [bbEdge, bbW]; field_simp; ring)
    exact absurd (hpp.symm.trans h) (by simp)

/-! ## Angles of the corners and of the border points -/

/-- The angle of the outward direction of each box line. -/
noncomputable def lineAngle : Fin 4 → ℝ
  | 3 => π
  | 0 => 3 * π / 2
  | 1 => 2 * π
  | 2 => 5 * π / 2

theorem lineAngle_dir : (cos (lineAngle 3) = -1 ∧ sin (lineAngle 3) = 0) ∧ (cos (lineAngle 0) = 0 ∧ sin (lineAngle 0) = -1) ∧
    (cos (lineAngle 1) = 1 ∧ sin (lineAngle 1) = 0) ∧ cos (lineAngle 2) = 0 ∧ sin (lineAngle 2) = 1 := by
  have e0 : 3 * π / 2 = π / 2 + π := by ring
  have e2 : 5 * π / 2 = π / 2 + 2 * π := by ring
  refine ⟨⟨?_, ?_⟩, ⟨?_, ?_⟩, ⟨?_, ?_⟩, ?_, ?_⟩ <;> simp only [lineAngle]
  · exact cos_pi
  · exact sin_pi
  · rw [e0, cos_add_pi, cos_pi_div_two, neg_zero]
  · rw [e0, sin_add_pi, sin_pi_div_two]
  · exact cos_two_pi
  · exact sin_two_pi
  · rw [e2, cos_add_two_pi, cos_pi_div_two]
  · rw [e2, sin_add_two_pi, sin_pi_div_two]

/-- A vector that leads to box line `i`. -/
def Leads (i : Fin 4) (d : Pt ℝ) : Prop :=
  match i with
  | 0 => d.2 < 0
  | 1 => 0 < d.1
  | 2 => 0 < d.2
  | 3 => d.1 < 0

theorem leads_angle {i : Fin 4} {d : Pt ℝ} (h : Leads i d) : ∃ r φ : ℝ, 0 < r ∧ |φ - lineAngle i| < π / 2 ∧ d = atAngle r φ := by
  obtain ⟨⟨c3, s3⟩, ⟨c0, s0⟩, ⟨c1, s1⟩, c2, s2⟩ := lineAngle_dir
  refine exists_angle_near (lineAngle i) ?_
  fin_cases i <;> simp only [Leads] at h <;> simp [*]

/-- A vector that leads to line `i` and not yet to line `i + 1`. -/
theorem leads_before {i : Fin 4} {d : Pt ℝ} (h : Leads i d) (h' : Leads (i - 1) d) :
    ∃ r φ : ℝ, 0 < r ∧ lineAngle i - π / 2 < φ ∧ φ < lineAngle i ∧ d = atAngle r φ := by
  obtain ⟨⟨c3, s3⟩, ⟨c0, s0⟩, ⟨c1, s1⟩, c2, s2⟩ := lineAngle_dir
  obtain ⟨r, φ, hr, hφ, e⟩ := leads_angle h
  have hpi := pi_pos
  obtain ⟨h1, h2⟩ := abs_lt.1 hφ
  refine ⟨r, φ, hr, by linarith, ?_, e⟩
  have key : 0 < cross (atAngle r φ) (atAngle 1 (lineAngle i)) := by
    rw [← e]
    fin_cases i
    · have h'' : d.1 < 0 := h'
      change 0 < cross d (atAngle 1 (lineAngle 0))
      simp only [cross, atAngle, c0, s0]; linarith
    · have h'' : d.2 < 0 := h'
      change 0 < cross d (atAngle 1 (lineAngle 1))
      simp only [cross, atAngle, c1, s1]; linarith
    · have h'' : 0 < d.1 := h'
      change 0 < cross d (atAngle 1 (lineAngle 2))
      simp only [cross, atAngle, c2, s2]; linarith
    · have h'' : 0 < d.2 := h'
      change 0 < cross d (atAngle 1 (lineAngle 3))
      simp only [cross, atAngle, c3, s3]; linarith
  exact angle_lt_of_cross hr one_pos (by rw [abs_lt]; constructor <;> linarith) key

theorem diagonals : ((-1, 1) : Pt ℝ) = atAngle (√2) (3 * π / 4) ∧ ((-1, -1) : Pt ℝ) = atAngle (√2) (5 * π / 4) ∧
    ((1, -1) : Pt ℝ) = atAngle (√2) (7 * π / 4) ∧ ((1, 1) : Pt ℝ) = atAngle (√2) (9 * π / 4) := by
  have h2 : √2 * (√2 / 2) = 1 := by
    have := Real.mul_self_sqrt (show (0 : ℝ) ≤ 2 by norm_num); linarith
  have e3 : 3 * π / 4 = π - π / 4 := by ring
  have e5 : 5 * π / 4 = π / 4 + π := by ring
  have e7 : 7 * π / 4 = 2 * π - π / 4 := by ring
  have e9 : 9 * π / 4 = π / 4 + 2 * π := by ring
  refine ⟨?_, ?_, ?_, ?_⟩ <;> simp only [atAngle]
  · rw [e3, cos_pi_sub, sin_pi_sub, cos_pi_div_four, sin_pi_div_four]; ext <;> simp <;> linarith
  · rw [e5, cos_add_pi, sin_add_pi, cos_pi_div_four, sin_pi_div_four]; ext <;> simp <;> linarith
  · rw [e7, cos_two_pi_sub, sin_two_pi_sub, cos_pi_div_four, sin_pi_div_four]; ext <;> simp <;> linarith
  · rw [e9, cos_add_two_pi, sin_add_two_pi, cos_pi_div_four, sin_pi_div_four]; ext <;> simp <;> linarith

/-- Angles of the four box corners as seen from `a`, in the turn that begins at the upper left corner. -/
structure BoxAngles (a : Pt ℝ) (β γ3 γ0 γ1 : ℝ) : Prop where
  c2 : ∃ r, 0 < r ∧ boxCorner 2 - a = atAngle r β
  c3 : ∃ r, 0 < r ∧ boxCorner 3 - a = atAngle r γ3
  c0 : ∃ r, 0 < r ∧ boxCorner 0 - a = atAngle r γ0
  c1 : ∃ r, 0 < r ∧ boxCorner 1 - a = atAngle r γ1
  hβ : π / 2 < β ∧ β < π
  h3 : π < γ3 ∧ γ3 < 3 * π / 2
  h0 : 3 * π / 2 < γ0 ∧ γ0 < 2 * π
  h1 : 2 * π < γ1 ∧ γ1 < 5 * π / 2

theorem box_angles {a : Pt ℝ} (ha : InBox a) : ∃ β γ3 γ0 γ1, BoxAngles a β γ3 γ0 γ1 := by
  obtain ⟨ha1, ha2⟩ := ha
  rw [abs_lt] at ha1 ha2
  obtain ⟨r2, β, hr2, p2, q2, e2⟩ := leads_before (i := 3) (d := boxCorner 2 - a)
    (by simp [Leads, boxCorner]; linarith) (by change 0 < _; simp [boxCorner]; linarith)
  obtain ⟨r3, γ3, hr3, p3, q3, e3⟩ := leads_before (i := 0) (d := boxCorner 3 - a)
    (by simp [Leads, boxCorner]; linarith) (by change _ < 0; simp [boxCorner]; linarith)
  obtain ⟨r0, γ0, hr0, p0, q0, e0⟩ := leads_before (i := 1) (d := boxCorner 0 - a)
    (by simp [Leads, boxCorner]; linarith) (by change _ < 0; simp [boxCorner]; linarith)
  obtain ⟨r1, γ1, hr1, p1, q1, e1⟩ := leads_before (i := 2) (d := boxCorner 1 - a)
    (by simp [Leads, boxCorner]; linarith) (by change 0 < _; simp [boxCorner]; linarith)
  simp only [lineAngle] at p2 q2 p3 q3 p0 q0 p1 q1
  exact ⟨β, γ3, γ0, γ1, ⟨r2, hr2, e2⟩, ⟨r3, hr3, e3⟩, ⟨r0, hr0, e0⟩, ⟨r1, hr1, e1⟩, ⟨by linarith, q2⟩, ⟨by linarith, q3⟩,
    ⟨by linarith, q0⟩, ⟨by linarith, q1⟩⟩

/-- The angles for which box line `i` is chosen. -/
def ChosenAngle (β γ3 γ0 : ℝ) (i : Fin 4) (φ : ℝ) : Prop :=
  match i with
  | 3 => β ≤ φ ∧ φ ≤ max (5 * π / 4) γ3
  | 0 => max (5 * π / 4) γ3 ≤ φ ∧ φ ≤ max (7 * π / 4) γ0
  | 1 => max (7 * π / 4) γ0 ≤ φ ∧ φ ≤ 9 * π / 4
  | 2 => 9 * π / 4 ≤ φ ∧ φ ≤ β + 2 * π

theorem sector_big {d : Pt ℝ} (hd : (1 / 10 ^ 9) ^ 2 ≤ normSq d) {i : Fin 4} (h : SectorOk d i) :
    match i with
    | 0 => 1 / 10 ^ 10 ≤ -d.2
    | 1 => 1 / 10 ^ 10 ≤ d.1
    | 2 => 1 / 10 ^ 10 ≤ d.2
    | 3 => 1 / 10 ^ 10 ≤ -d.1 := by
  have hbig : ∀ u v : ℝ, u ≤ v → -u ≤ v → (1 / 10 ^ 9) ^ 2 ≤ v ^ 2 + u ^ 2 → 1 / 10 ^ 10 ≤ v := by
    intro u v h1 h2 h3
    by_contra hc
    push Not at hc
    have hv : 0 ≤ v := by linarith
    have hu : u ^ 2 ≤ v ^ 2 := by nlinarith
    have : v ^ 2 < (1 / 10 ^ 10) ^ 2 := by gcongr
    norm_num at h3 this
    linarith
  have hnd : normSq d = d.1 ^ 2 + d.2 ^ 2 := rfl
  rw [hnd] at hd
  fin_cases i
  · exact hbig d.1 (-d.2) h.1 h.2 (by linarith)
  · exact hbig d.2 d.1 h.1 h.2 (by linarith)
  · exact hbig d.1 d.2 h.1 h.2 (by linarith)
  · exact hbig d.2 (-d.1) h.1 h.2 (by linarith)

/-- The line chosen for a ray, by the angle of the ray. -/
theorem border_angle {a d p : Pt ℝ} {β γ3 γ0 γ1 : ℝ} (ha : InBox a) (hA : BoxAngles a β γ3 γ0 γ1)
    (hd : (1 / 10 ^ 9) ^ 2 ≤ normSq d) {i : Fin 4} (hb : borderPoint ⟨a, a + d⟩ (sectorIdx d) = (some p, i)) :
    ∃ r φ : ℝ, 0 < r ∧ |φ - lineAngle i| < π / 2 ∧ d = atAngle r φ ∧ ChosenAngle β γ3 γ0 i φ := by
  have hs := sectorIdx_spec d
  have hpi := pi_pos
  obtain ⟨dg2, dg3, dg0, dg1⟩ := diagonals
  have h2p : 0 < √2 := by positivity
  obtain ⟨⟨r2, hr2, e2⟩, ⟨r3, hr3, e3⟩, ⟨r0, hr0, e0⟩, ⟨r1, hr1, e1⟩, hβ, h3, h0, h1⟩ := hA
  have hbig := sector_big hd hs
  have ha' := ha
  obtain ⟨ha1, ha2⟩ := ha'
  rw [abs_lt] at ha1 ha2
  generalize sectorIdx d = k at hs hb hbig
  -- the three attempts
  have final : ∀ j : Fin 4, (⟨a, a + d⟩ : Line ℝ).rayIntersection (bbEdge j) = some p → i = j →
      (∀ r φ : ℝ, 0 < r → |φ - lineAngle j| < π / 2 → d = atAngle r φ → ChosenAngle β γ3 γ0 j φ) →
      ∃ r φ : ℝ, 0 < r ∧ |φ - lineAngle i| < π / 2 ∧ d = atAngle r φ ∧ ChosenAngle β γ3 γ0 i φ := by
    rintro j hj rfl hc
    have hl : Leads i d := by
      have := hit_spec ha hj
      fin_cases i
      · exact this.1
      · exact this.1
      · exact this.1
      · exact this.1
    obtain ⟨r, φ, hr, hφ, e⟩ := leads_angle hl
    exact ⟨r, φ, hr, hφ, e, hc r φ hr hφ e⟩
  have lo : ∀ {v : Pt ℝ} {s ψ r φ : ℝ}, v = atAngle s ψ → 0 < s → 0 < r → d = atAngle r φ → ψ - φ < π → φ - ψ < π →
      0 ≤ cross v d → ψ ≤ φ := by
    intro v s ψ r φ hv hs hr he l1 l2 hc
    rw [hv, he] at hc
    exact angle_le_of_cross hs hr (by rw [abs_lt]; constructor <;> linarith) hc
  have hi : ∀ {v : Pt ℝ} {s ψ r φ : ℝ}, v = atAngle s ψ → 0 < s → 0 < r → d = atAngle r φ → ψ - φ < π → φ - ψ < π →
      0 ≤ cross d v → φ ≤ ψ := by
    intro v s ψ r φ hv hs hr he l1 l2 hc
    rw [hv, he] at hc
    exact angle_le_of_cross hr hs (by rw [abs_lt]; constructor <;> linarith) hc
  have swap : ∀ u v : Pt ℝ, cross u v = -cross v u := by intro u v; simp only [cross]; ring
  have st : ((⟨a, a + d⟩ : Line ℝ).rayIntersection (bbEdge k) = some p ∧ i = k) ∨
      ((⟨a, a + d⟩ : Line ℝ).rayIntersection (bbEdge k) = none ∧
        (⟨a, a + d⟩ : Line ℝ).rayIntersection (bbEdge (k + 1)) = some p ∧ i = k + 1) ∨
      ((⟨a, a + d⟩ : Line ℝ).rayIntersection (bbEdge k) = none ∧
        (⟨a, a + d⟩ : Line ℝ).rayIntersection (bbEdge (k + 1 + 2)) = some p ∧ i = k + 1 + 2) := by
    unfold borderPoint at hb
    cases g0 : (⟨a, a + d⟩ : Line ℝ).rayIntersection (bbEdge k) with
    | some q =>
      simp only [g0, Prod.mk.injEq] at hb
      exact Or.inl ⟨hb.1, hb.2.symm⟩
    | none =>
      simp only [g0] at hb
      cases g1 : (⟨a, a + d⟩ : Line ℝ).rayIntersection (bbEdge (k + 1)) with
      | some q =>
        simp only [g1, Prod.mk.injEq] at hb
        exact Or.inr (Or.inl ⟨rfl, hb.1, hb.2.symm⟩)
      | none =>
        simp only [g1, Prod.mk.injEq] at hb
        exact Or.inr (Or.inr ⟨rfl, hb.1, hb.2.symm⟩)
  fin_cases k
  · -- down
    have hb' : 1 / 10 ^ 10 ≤ -d.2 := hbig
    have hd2 : d.2 < 0 := by have : (0 : ℝ) < 1 / 10 ^ 10 := by norm_num
                             linarith
    obtain ⟨s1, s2⟩ : d.1 ≤ -d.2 ∧ -d.1 ≤ -d.2 := hs
    rcases st with ⟨g, rfl⟩ | ⟨g, g', rfl⟩ | ⟨g, g', rfl⟩
    · obtain ⟨-, t2⟩ : d.2 < 0 ∧ 0 ≤ cross (boxCorner 3 - a) d := hit_spec ha g
      refine final 0 g rfl fun r φ hr hφ e => ?_
      have hφ' : |φ - 3 * π / 2| < π / 2 := hφ
      rw [abs_lt] at hφ'
      refine ⟨max_le (lo dg3 h2p hr e (by linarith) (by linarith) ?_) (lo e3 hr3 hr e (by linarith) (by linarith) t2),
        le_max_of_le_left (hi dg0 h2p hr e (by linarith) (by linarith) ?_)⟩ <;> simp only [cross] <;> linarith
    · have t := miss_spec ha g hb'
      obtain ⟨t1, -⟩ : 0 < d.1 ∧ 0 ≤ cross (boxCorner 0 - a) d := hit_spec ha g'
      exfalso
      have t' : cross (boxCorner 3 - a) d < 0 := t
      simp only [cross, boxCorner, Prod.fst_sub, Prod.snd_sub] at t'
      nlinarith
    · have t : cross (boxCorner 3 - a) d < 0 := miss_spec ha g hb'
      obtain ⟨t1, t2⟩ : d.1 < 0 ∧ 0 ≤ cross (boxCorner 2 - a) d := hit_spec (i := 3) ha g'
      refine final 3 g' rfl fun r φ hr hφ e => ?_
      have hφ' : |φ - π| < π / 2 := hφ
      rw [abs_lt] at hφ'
      refine ⟨lo e2 hr2 hr e (by linarith) (by linarith) t2,
        le_max_of_le_right (hi e3 hr3 hr e (by linarith) (by linarith) (by rw [swap]; linarith))⟩
  · -- right
    have hb' : 1 / 10 ^ 10 ≤ d.1 := hbig
    have hd1 : 0 < d.1 := lt_of_lt_of_le (by norm_num) hb'
    obtain ⟨s1, s2⟩ : d.2 ≤ d.1 ∧ -d.2 ≤ d.1 := hs
    rcases st with ⟨g, rfl⟩ | ⟨g, g', rfl⟩ | ⟨g, g', rfl⟩
    · obtain ⟨-, t2⟩ : 0 < d.1 ∧ 0 ≤ cross (boxCorner 0 - a) d := hit_spec ha g
      refine final 1 g rfl fun r φ hr hφ e => ?_
      have hφ' : |φ - 2 * π| < π / 2 := hφ
      rw [abs_lt] at hφ'
      refine ⟨max_le (lo dg0 h2p hr e (by linarith) (by linarith) ?_) (lo e0 hr0 hr e (by linarith) (by linarith) t2),
        hi dg1 h2p hr e (by linarith) (by linarith) ?_⟩ <;> simp only [cross] <;> linarith
    · have t : cross (boxCorner 0 - a) d < 0 := miss_spec ha g hb'
      obtain ⟨t1, -⟩ : 0 < d.2 ∧ 0 ≤ cross d (boxCorner 2 - a) := hit_spec (i := 2) ha g'
      exfalso
      simp only [cross, boxCorner, Prod.fst_sub, Prod.snd_sub] at t
      nlinarith
    · have t : cross (boxCorner 0 - a) d < 0 := miss_spec ha g hb'
      obtain ⟨t1, t2⟩ : d.2 < 0 ∧ 0 ≤ cross (boxCorner 3 - a) d := hit_spec (i := 0) ha g'
      refine final 0 g' rfl fun r φ hr hφ e => ?_
      have hφ' : |φ - 3 * π / 2| < π / 2 := hφ
      rw [abs_lt] at hφ'
      refine ⟨max_le (lo dg3 h2p hr e (by linarith) (by linarith) ?_) (lo e3 hr3 hr e (by linarith) (by linarith) t2),
        le_max_of_le_right (hi e0 hr0 hr e (by linarith) (by linarith) (by rw [swap]; linarith))⟩
      simp only [cross]; linarith
  · -- up
    have hb' : 1 / 10 ^ 10 ≤ d.2 := hbig
    have hd2 : 0 < d.2 := lt_of_lt_of_le (by norm_num) hb'
    obtain ⟨s1, s2⟩ : d.1 ≤ d.2 ∧ -d.1 ≤ d.2 := hs
    have e2' : boxCorner 2 - a = atAngle r2 (β + 2 * π) := by
      rw [e2, ← atAngle_add_int r2 β 1]; congr 1; push_cast; ring
    rcases st with ⟨g, rfl⟩ | ⟨g, g', rfl⟩ | ⟨g, g', rfl⟩
    · obtain ⟨-, t2⟩ : 0 < d.2 ∧ 0 ≤ cross d (boxCorner 2 - a) := hit_spec ha g
      refine final 2 g rfl fun r φ hr hφ e => ?_
      have hφ' : |φ - 5 * π / 2| < π / 2 := hφ
      rw [abs_lt] at hφ'
      refine ⟨lo dg1 h2p hr e (by linarith) (by linarith) ?_, hi e2' hr2 hr e (by linarith) (by linarith) t2⟩
      simp only [cross]; linarith
    · obtain ⟨t1, t2⟩ : d.1 < 0 ∧ 0 ≤ cross (boxCorner 2 - a) d := hit_spec (i := 3) ha g'
      refine final 3 g' rfl fun r φ hr hφ e => ?_
      have hφ' : |φ - π| < π / 2 := hφ
      rw [abs_lt] at hφ'
      refine ⟨lo e2 hr2 hr e (by linarith) (by linarith) t2, le_max_of_le_left ?_⟩
      have := hi dg2 h2p hr e (by linarith) (by linarith) (by simp only [cross]; linarith)
      linarith
    · have t : cross d (boxCorner 2 - a) < 0 := miss_spec ha g hb'
      obtain ⟨t1, -⟩ : 0 < d.1 ∧ 0 ≤ cross (boxCorner 0 - a) d := hit_spec (i := 1) ha g'
      exfalso
      simp only [cross, boxCorner, Prod.fst_sub, Prod.snd_sub] at t
      nlinarith
  · -- left
    have hb' : 1 / 10 ^ 10 ≤ -d.1 := hbig
    have hd1 : d.1 < 0 := by have : (0 : ℝ) < 1 / 10 ^ 10 := by norm_num
                             linarith
    obtain ⟨s1, s2⟩ : d.2 ≤ -d.1 ∧ -d.2 ≤ -d.1 := hs
    have e2' : boxCorner 2 - a = atAngle r2 (β + 2 * π) := by
      rw [e2, ← atAngle_add_int r2 β 1]; congr 1; push_cast; ring
    rcases st with ⟨g, rfl⟩ | ⟨g, g', rfl⟩ | ⟨g, g', rfl⟩
    · obtain ⟨-, t2⟩ : d.1 < 0 ∧ 0 ≤ cross (boxCorner 2 - a) d := hit_spec ha g
      refine final 3 g rfl fun r φ hr hφ e => ?_
      have hφ' : |φ - π| < π / 2 := hφ
      rw [abs_lt] at hφ'
      refine ⟨lo e2 hr2 hr e (by linarith) (by linarith) t2, le_max_of_le_left (hi dg3 h2p hr e (by linarith) (by linarith) ?_)⟩
      simp only [cross]; linarith
    · have t : cross (boxCorner 2 - a) d < 0 := miss_spec ha g hb'
      obtain ⟨t1, -⟩ : d.2 < 0 ∧ 0 ≤ cross (boxCorner 3 - a) d := hit_spec (i := 0) ha g'
      exfalso
      simp only [cross, boxCorner, Prod.fst_sub, Prod.snd_sub] at t
      nlinarith
    · have t : cross (boxCorner 2 - a) d < 0 := miss_spec ha g hb'
      obtain ⟨t1, t2⟩ : 0 < d.2 ∧ 0 ≤ cross d (boxCorner 2 - a) := hit_spec (i := 2) ha g'
      refine final 2 g' rfl fun r φ hr hφ e => ?_
      have hφ' : |φ - 5 * π / 2| < π / 2 := hφ
      rw [abs_lt] at hφ'
      refine ⟨lo dg1 h2p hr e (by linarith) (by linarith) ?_, hi e2' hr2 hr e (by linarith) (by linarith) t2⟩
      simp only [cross]; linarith

/-! ## The even-odd rule for the fan of triangles from the apex -/

/-- Points inside the box are on the same side of a box line. -/
theorem line_side {j : Fin 4} {x y a p : Pt ℝ} (hx : OnBoxLine j x) (hy : OnBoxLine j y) (ha : InBox a) (hp : InBox p)
    (hD : 0 < cross (x - a) (y - a)) : 0 < cross (y - x) (p - x) := by
  obtain ⟨ha1, ha2⟩ := ha
  obtain ⟨hp1, hp2⟩ := hp
  rw [abs_lt] at ha1 ha2 hp1 hp2
  fin_cases j <;> simp only [OnBoxLine] at hx hy <;> simp only [cross, Prod.fst_sub, Prod.snd_sub, hx, hy] at hD ⊢
  · have : 0 < (y.1 - x.1) * (10 ^ 6 + a.2) := by linarith
    have h := (mul_pos_iff_of_pos_right (by linarith)).1 this
    nlinarith
  · have : 0 < (y.2 - x.2) * (10 ^ 6 - a.1) := by linarith
    have h := (mul_pos_iff_of_pos_right (by linarith)).1 this
    nlinarith
  · have : 0 < (x.1 - y.1) * (10 ^ 6 - a.2) := by linarith
    have h := (mul_pos_iff_of_pos_right (by linarith)).1 this
    nlinarith
  · have : 0 < (x.2 - y.2) * (10 ^ 6 + a.1) := by linarith
    have h := (mul_pos_iff_of_pos_right (by linarith)).1 this
    nlinarith

theorem line_same {j : Fin 4} {x y a : Pt ℝ} (hx : OnBoxLine j x) (hy : OnBoxLine j y) (ha : InBox a)
    (hD : cross (x - a) (y - a) = 0) : x = y := by
  obtain ⟨ha1, ha2⟩ := ha
  rw [abs_lt] at ha1 ha2
  fin_cases j <;> simp only [OnBoxLine] at hx hy <;> simp only [cross, Prod.fst_sub, Prod.snd_sub, hx, hy] at hD
  · have : (y.1 - x.1) * (10 ^ 6 + a.2) = 0 := by linarith
    rcases mul_eq_zero.1 this with h | h
    · ext <;> linarith
    · linarith
  · have : (y.2 - x.2) * (10 ^ 6 - a.1) = 0 := by linarith
    rcases mul_eq_zero.1 this with h | h
    · ext <;> linarith
    · linarith
  · have : (x.1 - y.1) * (10 ^ 6 - a.2) = 0 := by linarith
    rcases mul_eq_zero.1 this with h | h
    · ext <;> linarith
    · linarith
  · have : (x.2 - y.2) * (10 ^ 6 + a.1) = 0 := by linarith
    rcases mul_eq_zero.1 this with h | h
    · ext <;> linarith
    · linarith

open scoped Classical in
/-- One if the ray to the right of `p` crosses the edge. -/
noncomputable def crossBit (p x y : Pt ℝ) : ZMod 2 := if RayCrosses x y p then 1 else 0

open scoped Classical in
/-- One if the angle `φ` is before `θ`. -/
noncomputable def before (θ φ : ℝ) : ZMod 2 := if φ < θ then 1 else 0

theorem crossBit_swap (p x y : Pt ℝ) : crossBit p x y = crossBit p y x := by
  unfold crossBit; rw [rayCrosses_swap]

theorem crossBit_self (p x : Pt ℝ) : crossBit p x x = 0 := by
  unfold crossBit
  rw [if_neg]
  rw [rayCrosses_signs]
  rintro (⟨h1, h2, -⟩ | ⟨h1, h2, -⟩) <;> linarith

theorem zmod_two (x : ZMod 2) : x + x = 0 := by revert x; decide

theorem fan_edge_lt {j : Fin 4} {x y a p : Pt ℝ} {r s t φ ψ θ β : ℝ} (ha : InBox a) (hp : InBox p) (hx : OnBoxLine j x)
    (hy : OnBoxLine j y) (hr : 0 < r) (hs : 0 < s) (ht : 0 < t) (ex : x - a = atAngle r φ) (ey : y - a = atAngle s ψ)
    (ep : p - a = atAngle t θ) (hlt : φ < ψ) (hd : ψ < φ + π) (h1 : β ≤ φ) (h2 : ψ ≤ β + 2 * π) (h3 : β < θ) (h3' : θ < β + 2 * π)
    (gx : cross (x - a) (p - a) ≠ 0) (gy : cross (y - a) (p - a) ≠ 0) :
    crossBit p x y + (crossBit p a x + crossBit p a y) = before θ φ + before θ ψ := by
  have hpi := pi_pos
  have hD : 0 < cross (x - a) (y - a) := by
    rw [ex, ey, cross_atAngle]
    exact mul_pos (mul_pos hr hs) (sin_pos_of_pos_of_lt_pi (by linarith) (by linarith))
  have h4 := line_side hx hy ha hp hD
  have gy' : cross (p - a) (y - a) ≠ 0 := by
    intro h; apply gy; rw [show cross (y - a) (p - a) = -cross (p - a) (y - a) by simp only [cross]; ring, h, neg_zero]
  have key := triangle_parity hD gx gy' (fun h => absurd h h4.ne')
  unfold crossBit
  rw [key]
  have hψ : ψ ≠ θ := by
    rintro rfl
    apply gy
    rw [ey, ep, cross_atAngle, sub_self, sin_zero, mul_zero]
  have e : (0 < cross (x - a) (p - a) ∧ 0 < cross (p - a) (y - a) ∧ 0 < cross (y - x) (p - x)) ↔ φ < θ ∧ θ < ψ := by
    rw [ex, ey, ep, cross_atAngle, cross_atAngle, sin_mul_pos_iff (mul_pos hr ht), sin_mul_pos_iff (mul_pos ht hs)]
    constructor
    · rintro ⟨q1, q2, -⟩
      obtain ⟨k, k1, k2⟩ := sector_angle hlt hd q1 q2
      have b1 : (k : ℝ) < 1 := by
        have : (k : ℝ) * (2 * π) < 1 * (2 * π) := by linarith
        exact lt_of_mul_lt_mul_right this (by linarith)
      have b2 : (-1 : ℝ) < k := by
        have : (-1 : ℝ) * (2 * π) < k * (2 * π) := by linarith
        exact lt_of_mul_lt_mul_right this (by linarith)
      have c1 : k < 1 := by exact_mod_cast b1
      have c2 : -1 < k := by exact_mod_cast b2
      have : k = 0 := by omega
      subst this
      simp at k1 k2
      exact ⟨k1, k2⟩
    · rintro ⟨q1, q2⟩
      exact ⟨sin_pos_of_pos_of_lt_pi (by linarith) (by linarith), sin_pos_of_pos_of_lt_pi (by linarith) (by linarith), h4⟩
  simp only [e, before]
  rcases lt_or_ge φ θ with q | q
  · rcases lt_or_ge θ ψ with q' | q'
    · simp [q, q', not_lt.2 q'.le]
    · have : ψ < θ := lt_of_le_of_ne q' hψ
      simp [q, this, not_lt.2 q']
      exact (zmod_two 1).symm
  · have : ¬ ψ < θ := by linarith
    simp [not_lt.2 q, this]

/-- The triangle of the apex and an edge along a box line. -/
theorem fan_edge {j : Fin 4} {x y a p : Pt ℝ} {r s t φ ψ θ β : ℝ} (ha : InBox a) (hp : InBox p) (hx : OnBoxLine j x)
    (hy : OnBoxLine j y) (hr : 0 < r) (hs : 0 < s) (ht : 0 < t) (ex : x - a = atAngle r φ) (ey : y - a = atAngle s ψ)
    (ep : p - a = atAngle t θ) (hφ : |φ - lineAngle j| < π / 2) (hψ : |ψ - lineAngle j| < π / 2)
    (h1 : β ≤ φ) (h1' : φ ≤ β + 2 * π) (h2 : β ≤ ψ) (h2' : ψ ≤ β + 2 * π) (h3 : β < θ) (h3' : θ < β + 2 * π)
    (gx : cross (x - a) (p - a) ≠ 0) (gy : cross (y - a) (p - a) ≠ 0) :
    crossBit p x y + (crossBit p a x + crossBit p a y) = before θ φ + before θ ψ := by
  rw [abs_lt] at hφ hψ
  rcases lt_trichotomy φ ψ with h | h | h
  · exact fan_edge_lt ha hp hx hy hr hs ht ex ey ep h (by linarith) h1 h2' h3 h3' gx gy
  · have : x = y := line_same hx hy ha (by rw [ex, ey, h, cross_atAngle, sub_self, sin_zero, mul_zero])
    subst this
    rw [crossBit_self, h, zmod_two (crossBit p a x), zmod_two (before θ ψ), zero_add]
  · have := fan_edge_lt ha hp hy hx hs hr ht ey ex ep h (by linarith) h2 h1' h3 h3' gy gx
    rw [crossBit_swap p x y, add_comm (crossBit p a x), this, add_comm]

open scoped Classical in
theorem inside_bits {v : List (Pt ℝ)} {p : Pt ℝ} (hp : ¬ OnRing v p) :
    Inside v p ↔ ∑ i ∈ Finset.range v.length, crossBit p (corner v i) (corner v (i + 1)) = 1 := by
  unfold Inside crossBit
  rw [odd_zmod, count_zmod]
  simp [hp]

theorem corner_line (j : Fin 4) : OnBoxLine j (boxCorner j) ∧ OnBoxLine (j + 1) (boxCorner j) := by
  fin_cases j <;> simp [OnBoxLine, boxCorner]

/-- The angle of corner `j` when it is reached along line `j`, and when it is left along line `j + 1`. -/
noncomputable def angleIn (β γ3 γ0 γ1 : ℝ) : Fin 4 → ℝ
  | 0 => γ0
  | 1 => γ1
  | 2 => β + 2 * π
  | 3 => γ3

def angleOut (β γ3 γ0 γ1 : ℝ) : Fin 4 → ℝ
  | 0 => γ0
  | 1 => γ1
  | 2 => β
  | 3 => γ3

theorem angleIn_spec {a : Pt ℝ} {β γ3 γ0 γ1 : ℝ} (hA : BoxAngles a β γ3 γ0 γ1) (j : Fin 4) :
    (∃ r, 0 < r ∧ boxCorner j - a = atAngle r (angleIn β γ3 γ0 γ1 j)) ∧ |angleIn β γ3 γ0 γ1 j - lineAngle j| < π / 2 ∧
      β ≤ angleIn β γ3 γ0 γ1 j ∧ angleIn β γ3 γ0 γ1 j ≤ β + 2 * π := by
  obtain ⟨⟨r2, hr2, e2⟩, k3, k0, k1, hβ, h3, h0, h1⟩ := hA
  have hpi := pi_pos
  have e2' : boxCorner 2 - a = atAngle r2 (β + 2 * π) := by
    rw [e2, ← atAngle_add_int r2 β 1]; congr 1; push_cast; ring
  fin_cases j
  · exact ⟨k0, by rw [abs_lt]; simp only [angleIn, lineAngle]; constructor <;> linarith, by simp only [angleIn]; linarith, by simp only [angleIn]; linarith⟩
  · exact ⟨k1, by rw [abs_lt]; simp only [angleIn, lineAngle]; constructor <;> linarith, by simp only [angleIn]; linarith, by simp only [angleIn]; linarith⟩
  · exact ⟨⟨r2, hr2, e2'⟩, by rw [abs_lt]; simp only [angleIn, lineAngle]; constructor <;> linarith, by simp only [angleIn]; linarith, by simp only [angleIn]; linarith⟩
  · exact ⟨k3, by rw [abs_lt]; simp only [angleIn, lineAngle]; constructor <;> linarith, by simp only [angleIn]; linarith, by simp only [angleIn]; linarith⟩

theorem angleOut_spec {a : Pt ℝ} {β γ3 γ0 γ1 : ℝ} (hA : BoxAngles a β γ3 γ0 γ1) (j : Fin 4) :
    (∃ r, 0 < r ∧ boxCorner j - a = atAngle r (angleOut β γ3 γ0 γ1 j)) ∧
      |angleOut β γ3 γ0 γ1 j - lineAngle (j + 1)| < π / 2 ∧
      β ≤ angleOut β γ3 γ0 γ1 j ∧ angleOut β γ3 γ0 γ1 j ≤ β + 2 * π := by
  obtain ⟨k2, k3, k0, k1, hβ, h3, h0, h1⟩ := hA
  have hpi := pi_pos
  have l0 : lineAngle (0 + 1) = 2 * π := rfl
  have l1 : lineAngle (1 + 1) = 5 * π / 2 := rfl
  have l2 : lineAngle (2 + 1) = π := rfl
  have l3 : lineAngle (3 + 1) = 3 * π / 2 := rfl
  fin_cases j
  · exact ⟨k0, by rw [abs_lt]; simp only [angleOut]; change _ < γ0 - 2 * π ∧ γ0 - 2 * π < _; constructor <;> linarith, by simp only [angleOut]; linarith, by simp only [angleOut]; linarith⟩
  · exact ⟨k1, by rw [abs_lt]; simp only [angleOut]; change _ < γ1 - 5 * π / 2 ∧ γ1 - 5 * π / 2 < _; constructor <;> linarith, by simp only [angleOut]; linarith, by simp only [angleOut]; linarith⟩
  · exact ⟨k2, by rw [abs_lt]; simp only [angleOut]; change _ < β - π ∧ β - π < _; constructor <;> linarith, by simp only [angleOut]; linarith, by simp only [angleOut]; linarith⟩
  · exact ⟨k3, by rw [abs_lt]; simp only [angleOut]; change _ < γ3 - 3 * π / 2 ∧ γ3 - 3 * π / 2 < _; constructor <;> linarith, by simp only [angleOut]; linarith, by simp only [angleOut]; linarith⟩

/-- The crossings of the ring of a cone polygon, for a point in general position. -/
theorem fan_parity {a p p1 p2 : Pt ℝ} {β γ3 γ0 γ1 : ℝ} (ha : InBox a) (hp : InBox p) (hA : BoxAngles a β γ3 γ0 γ1)
    {i1 i2 : Fin 4} {m : ℕ} (hm : m ≤ 4) (hi : i1 + Fin.ofNat 4 m = i2) (hl1 : OnBoxLine i1 p1) (hl2 : OnBoxLine i2 p2)
    {r1 r2 φ1 φ2 t θ : ℝ} (hr1 : 0 < r1) (hr2 : 0 < r2) (ht : 0 < t) (e1 : p1 - a = atAngle r1 φ1) (e2 : p2 - a = atAngle r2 φ2)
    (ep : p - a = atAngle t θ) (n1 : |φ1 - lineAngle i1| < π / 2) (n2 : |φ2 - lineAngle i2| < π / 2)
    (b1 : β ≤ φ1) (b1' : φ1 ≤ β + 2 * π) (b2 : β ≤ φ2) (b2' : φ2 ≤ β + 2 * π) (h3 : β < θ) (h3' : θ < β + 2 * π)
    (g1 : cross (p1 - a) (p - a) ≠ 0) (g2 : cross (p2 - a) (p - a) ≠ 0) (gc : ∀ j, cross (boxCorner j - a) (p - a) ≠ 0)
    (v : List (Pt ℝ)) (hv : v = [a, p1] ++ ((List.range m).map fun k => boxCorner (i1 + Fin.ofNat 4 k)) ++ [p2]) :
    ∑ i ∈ Finset.range v.length, crossBit p (corner v i) (corner v (i + 1)) =
      before θ φ1 + before θ φ2 + ∑ k ∈ Finset.range m, (if i1 + Fin.ofNat 4 k = 2 then 1 else 0 : ZMod 2) := by
  have two : (2 : ZMod 2) = 0 := by decide
  have hin := angleIn_spec hA
  have hout := angleOut_spec hA
  have succ : ∀ k : ℕ, i1 + Fin.ofNat 4 (k + 1) = i1 + Fin.ofNat 4 k + 1 := by
    intro k; ext; simp only [Fin.val_add, Fin.val_ofNat, Fin.val_one]; omega
  have start : crossBit p p1 (boxCorner i1) + (crossBit p a p1 + crossBit p a (boxCorner i1)) =
      before θ φ1 + before θ (angleIn β γ3 γ0 γ1 i1) := by
    obtain ⟨⟨r, hr, e⟩, q1, q2, q3⟩ := hin i1
    exact fan_edge ha hp hl1 (corner_line i1).1 hr1 hr ht e1 e ep n1 q1 b1 b1' q2 q3 h3 h3' g1 (gc i1)
  have mid : ∀ j, crossBit p (boxCorner j) (boxCorner (j + 1)) + (crossBit p a (boxCorner j) + crossBit p a (boxCorner (j + 1))) =
      before θ (angleOut β γ3 γ0 γ1 j) + before θ (angleIn β γ3 γ0 γ1 (j + 1)) := by
    intro j
    obtain ⟨⟨r, hr, e⟩, q1, q2, q3⟩ := hout j
    obtain ⟨⟨r', hr', e'⟩, q1', q2', q3'⟩ := hin (j + 1)
    exact fan_edge ha hp (corner_line j).2 (corner_line (j + 1)).1 hr hr' ht e e' ep q1 q1' q2 q3 q2' q3' h3 h3' (gc j) (gc _)
  have last : ∀ j, j + 1 = i2 → crossBit p (boxCorner j) p2 + (crossBit p a (boxCorner j) + crossBit p a p2) =
      before θ (angleOut β γ3 γ0 γ1 j) + before θ φ2 := by
    rintro j rfl
    obtain ⟨⟨r, hr, e⟩, q1, q2, q3⟩ := hout j
    exact fan_edge ha hp (corner_line j).2 hl2 hr hr2 ht e e2 ep q1 n2 q2 q3 b2 b2' h3 h3' (gc j) g2
  have dd : ∀ j, before θ (angleIn β γ3 γ0 γ1 j) + before θ (angleOut β γ3 γ0 γ1 j) = if j = 2 then 1 else 0 := by
    intro j
    fin_cases j
    · simp [angleIn, angleOut, zmod_two]
    · simp [angleIn, angleOut, zmod_two]
    · change before θ (β + 2 * π) + before θ β = 1
      simp [before, not_lt.2 h3'.le, h3]
    · simp [angleIn, angleOut, zmod_two]
  have sw := crossBit_swap p p2 a
  subst hv
  interval_cases m
  · have hi' : i1 = i2 := by simpa using hi
    subst hi'
    have direct := fan_edge ha hp hl1 hl2 hr1 hr2 ht e1 e2 ep n1 n2 b1 b1' b2 b2' h3 h3' g1 g2
    simp [Finset.sum_range_succ, corner]
    linear_combination direct + sw
  · have l := last i1 (by rw [← hi]; rfl)
    have d0 := dd i1
    simp [Finset.sum_range_succ, corner, -Finset.sum_boole]
    linear_combination start + l + sw + d0 - crossBit p a (boxCorner i1) * two
  · have l := last (i1 + 1) (by rw [← hi, succ 1]; rfl)
    have d0 := dd i1
    have d1 := dd (i1 + 1)
    have m0 := mid i1
    simp [Finset.sum_range_succ, corner, List.range_succ, -Finset.sum_boole]
    linear_combination start + m0 + l + sw + d0 + d1 - (crossBit p a (boxCorner i1) + crossBit p a (boxCorner (i1 + 1))) * two
  · have l := last (i1 + 2) (by rw [← hi, succ 2]; rfl)
    have d0 := dd i1
    have d1 := dd (i1 + 1)
    have d2 := dd (i1 + 2)
    simp only [add_eq_right] at d2
    have m0 := mid i1
    have m1 := mid (i1 + 1)
    rw [show i1 + 1 + 1 = i1 + 2 by rw [add_assoc]; rfl] at m1
    simp [Finset.sum_range_succ, corner, List.range_succ, -Finset.sum_boole]
    linear_combination start + m0 + m1 + l + sw + d0 + d1 + d2 - (crossBit p a (boxCorner i1) + crossBit p a (boxCorner (i1 + 1)) +
      crossBit p a (boxCorner (i1 + 2))) * two
  · have l := last (i1 + 3) (by rw [← hi, succ 3]; rfl)
    have d0 := dd i1
    have d1 := dd (i1 + 1)
    have d2 := dd (i1 + 2)
    simp only [add_eq_right] at d2
    have d3 := dd (i1 + 3)
    have m0 := mid i1
    have m1 := mid (i1 + 1)
    have m2 := mid (i1 + 2)
    rw [show i1 + 1 + 1 = i1 + 2 by rw [add_assoc]; rfl] at m1
    rw [show i1 + 2 + 1 = i1 + 3 by rw [add_assoc]; rfl] at m2
    simp [Finset.sum_range_succ, corner, List.range_succ, -Finset.sum_boole]
    linear_combination start + m0 + m1 + m2 + l + sw + d0 + d1 + d2 + d3 - (crossBit p a (boxCorner i1) +
      crossBit p a (boxCorner (i1 + 1)) + crossBit p a (boxCorner (i1 + 2)) + crossBit p a (boxCorner (i1 + 3))) * two

/-! ## The ring of a cone polygon -/

theorem not_inBox_of_line {j : Fin 4} {x : Pt ℝ} (h : OnBoxLine j x) : ¬ InBox x := by
  rintro ⟨h1, h2⟩
  rw [abs_lt] at h1 h2
  fin_cases j <;> simp only [OnBoxLine] at h <;> linarith

theorem segment_line {j : Fin 4} {x y p : Pt ℝ} (hx : OnBoxLine j x) (hy : OnBoxLine j y) (h : OnSegment x y p) : OnBoxLine j p := by
  obtain ⟨t, -, -, rfl⟩ := h
  fin_cases j <;> simp only [OnBoxLine] at hx hy ⊢ <;> simp [hx, hy]

/-- Inside the box, the ring of the polygon is its two edges at the apex. -/
theorem cone_ring {a p p1 p2 : Pt ℝ} {i1 i2 : Fin 4} {m : ℕ} (hm : m ≤ 4) (hi : i1 + Fin.ofNat 4 m = i2) (hl1 : OnBoxLine i1 p1)
    (hl2 : OnBoxLine i2 p2) (hp : InBox p) (v : List (Pt ℝ))
    (hv : v = [a, p1] ++ ((List.range m).map fun k => boxCorner (i1 + Fin.ofNat 4 k)) ++ [p2]) :
    OnRing v p ↔ OnSegment a p1 p ∨ OnSegment a p2 p := by
  have succ : ∀ k : ℕ, i1 + Fin.ofNat 4 (k + 1) = i1 + Fin.ofNat 4 k + 1 := by
    intro k; ext; simp only [Fin.val_add, Fin.val_ofNat, Fin.val_one]; omega
  have hlen : v.length = m + 3 := by rw [hv]; simp
  have c0 : corner v 0 = a := by rw [hv]; simp [corner]
  have c1 : corner v 1 = p1 := by rw [hv]; simp [corner]
  have cl : corner v (m + 2) = p2 := by
    rw [corner, hlen, Nat.mod_eq_of_lt (by omega), hv]
    simp [List.getD]
  have cc : ∀ k < m, corner v (k + 2) = boxCorner (i1 + Fin.ofNat 4 k) := by
    intro k hk
    rw [corner, hlen, Nat.mod_eq_of_lt (by omega), hv]
    simp [List.getD, List.getElem?_append, hk]
  have ce : corner v (m + 3) = a := by rw [← hlen, corner_length, c0]
  -- the vertices from the first border point on, with their lines
  have inl : ∀ k, 1 ≤ k → k ≤ m + 1 → OnBoxLine (i1 + Fin.ofNat 4 (k - 1)) (corner v k) := by
    intro k hk hk'
    rcases Nat.eq_or_lt_of_le hk with rfl | h2
    · rw [c1]; simpa using hl1
    · obtain ⟨k, rfl⟩ : ∃ j, k = j + 2 := ⟨k - 2, by omega⟩
      rw [cc k (by omega), show k + 2 - 1 = k + 1 by omega, succ]
      exact (corner_line _).2
  have out : ∀ k, 1 ≤ k → k ≤ m + 1 → OnBoxLine (i1 + Fin.ofNat 4 (k - 1)) (corner v (k + 1)) := by
    intro k hk hk'
    rcases Nat.eq_or_lt_of_le hk' with rfl | h2
    · rw [show m + 1 + 1 = m + 2 by omega, cl]
      rw [show m + 1 - 1 = m by omega, hi]
      exact hl2
    · rw [show k + 1 = (k - 1) + 2 by omega, cc (k - 1) (by omega)]
      exact (corner_line _).1
  constructor
  · rintro ⟨k, hk, hs⟩
    rw [hlen] at hk
    rcases Nat.eq_zero_or_pos k with rfl | h1
    · rw [c0, c1] at hs; exact Or.inl hs
    · rcases Nat.eq_or_lt_of_le (show k ≤ m + 2 by omega) with rfl | h2
      · rw [cl, show m + 2 + 1 = m + 3 by omega, ce] at hs
        exact Or.inr (onSegment_swap.1 hs)
      · exact absurd hp (not_inBox_of_line (segment_line (inl k h1 (by omega)) (out k h1 (by omega)) hs))
  · rintro (hs | hs)
    · exact ⟨0, by omega, by rw [c0, c1]; exact hs⟩
    · exact ⟨m + 2, by omega, by rw [cl, show m + 2 + 1 = m + 3 by omega, ce]; exact onSegment_swap.1 hs⟩

theorem parallel_of_cross {u v : Pt ℝ} (hu : u ≠ 0) (h : cross u v = 0) : ∃ μ : ℝ, v = μ • u := by
  have hn : u.1 ^ 2 + u.2 ^ 2 ≠ 0 := by
    intro h0
    apply hu
    ext
    · simp; nlinarith [sq_nonneg u.1, sq_nonneg u.2]
    · simp; nlinarith [sq_nonneg u.1, sq_nonneg u.2]
  simp only [cross] at h
  refine ⟨(u.1 * v.1 + u.2 * v.2) / (u.1 ^ 2 + u.2 ^ 2), ?_⟩
  ext
  · simp only [Prod.smul_fst, smul_eq_mul]; field_simp; linear_combination (-u.2) * h
  · simp only [Prod.smul_snd, smul_eq_mul]; field_simp; linear_combination u.1 * h

theorem sweep_smul_left {d1 d2 : Pt ℝ} (hc : 0 < cross d1 d2 ∨ cross d1 d2 < 0 ∨ (cross d1 d2 = 0 ∧ dot d1 d2 < 0)) {s : ℝ} (hs : 0 ≤ s) :
    s • d1 ∈ sweep d1 d2 ∧ s • d2 ∈ sweep d1 d2 := by
  have z : ∀ u : Pt ℝ, cross u (s • u) = 0 := by intro u; simp [cross]; ring
  have z' : ∀ u : Pt ℝ, cross (s • u) u = 0 := by intro u; simp [cross]; ring
  have l : ∀ u v : Pt ℝ, cross (s • u) v = s * cross u v := by intro u v; simp [cross]; ring
  have r : ∀ u v : Pt ℝ, cross u (s • v) = s * cross u v := by intro u v; simp [cross]; ring
  rcases hc with h | h | ⟨h, h'⟩
  · rw [sweep_convex h, sweep_convex h, z, z', l, r]
    have := mul_nonneg hs h.le
    exact ⟨⟨le_rfl, this⟩, ⟨this, le_rfl⟩⟩
  · rw [sweep_reflex h, sweep_reflex h, z, z']
    exact ⟨fun h => lt_irrefl _ h.2, fun h => lt_irrefl _ h.1⟩
  · rw [sweep_half h h', sweep_half h h', z, r, h]
    simp

open Filter Topology

/-- Off the two border rays, a small step does not change whether a vector is swept. -/
theorem ev_sweep {d1 d2 : Pt ℝ} (hc : 0 < cross d1 d2 ∨ cross d1 d2 < 0 ∨ (cross d1 d2 = 0 ∧ dot d1 d2 < 0)) {w : Pt ℝ}
    (h1 : ∀ s : ℝ, 0 ≤ s → w ≠ s • d1) (h2 : ∀ s : ℝ, 0 ≤ s → w ≠ s • d2) (d : Pt ℝ) :
    ∀ᶠ ε in 𝓝[>] (0 : ℝ), (w + ε • d ∈ sweep d1 d2 ↔ w ∈ sweep d1 d2) := by
  have z1 : d1 ≠ 0 := by rintro rfl; rcases hc with h | h | ⟨h, h'⟩ <;> simp [cross, dot] at *
  have z2 : d2 ≠ 0 := by rintro rfl; rcases hc with h | h | ⟨h, h'⟩ <;> simp [cross, dot] at *
  have mv : ∀ (u : Pt ℝ) (ε : ℝ), cross u (w + ε • d) = cross u w + ε * cross u d := by intro u ε; simp [cross]; ring
  have sw : ∀ u v : Pt ℝ, cross u v = -cross v u := by intro u v; simp only [cross]; ring
  have para : ∀ u : Pt ℝ, u ≠ 0 → (∀ s : ℝ, 0 ≤ s → w ≠ s • u) → cross u w = 0 → ∃ μ : ℝ, 0 < μ ∧ w = (-μ) • u := by
    intro u hu hn h0
    obtain ⟨μ, hμ⟩ := parallel_of_cross hu h0
    rcases lt_or_ge μ 0 with h | h
    · exact ⟨-μ, by linarith, by rw [neg_neg]; exact hμ⟩
    · exact absurd hμ (hn μ h)
  filter_upwards [ev_sign (cross d1 w) (cross d1 d), ev_sign (cross d2 w) (cross d2 d)] with ε s1 s2
  rcases hc with h | h | ⟨h, h'⟩
  · rw [sweep_convex h, sweep_convex h, sw _ d2, sw _ d2, mv, mv]
    rcases lt_trichotomy (cross d1 w) 0 with q | q | q
    · have := s1.2 q
      constructor <;> rintro ⟨g, -⟩ <;> linarith
    · obtain ⟨μ, hμ, e⟩ := para d1 z1 h1 q
      have q2 : 0 < cross d2 w := by
        rw [e, show cross d2 (-μ • d1) = μ * cross d1 d2 by simp [cross]; ring]; positivity
      have := s2.1 q2
      constructor <;> rintro ⟨-, g⟩ <;> linarith
    · have k1 := s1.1 q
      rcases lt_trichotomy (cross d2 w) 0 with q' | q' | q'
      · have := s2.2 q'
        constructor <;> intro _ <;> constructor <;> linarith
      · obtain ⟨μ, hμ, e⟩ := para d2 z2 h2 q'
        rw [e, show cross d1 (-μ • d2) = -(μ * cross d1 d2) by simp [cross]; ring] at q
        have := mul_pos hμ h
        linarith
      · have := s2.1 q'
        constructor <;> rintro ⟨-, g⟩ <;> linarith
  · rw [sweep_reflex h, sweep_reflex h, sw _ d1, sw _ d1, mv, mv]
    apply not_congr
    rcases lt_trichotomy (cross d2 w) 0 with q | q | q
    · have := s2.2 q
      constructor <;> rintro ⟨g, -⟩ <;> linarith
    · obtain ⟨μ, hμ, e⟩ := para d2 z2 h2 q
      have q2 : 0 < cross d1 w := by
        rw [e, show cross d1 (-μ • d2) = μ * -cross d1 d2 by simp [cross]; ring]
        have := neg_pos.2 h
        positivity
      have := s1.1 q2
      constructor <;> rintro ⟨-, g⟩ <;> linarith
    · have k1 := s2.1 q
      rcases lt_trichotomy (cross d1 w) 0 with q' | q' | q'
      · have := s1.2 q'
        constructor <;> intro _ <;> constructor <;> linarith
      · obtain ⟨μ, hμ, e⟩ := para d1 z1 h1 q'
        rw [e, show cross d2 (-μ • d1) = μ * cross d1 d2 by simp [cross]; ring] at q
        have := mul_neg_of_pos_of_neg hμ h
        linarith
      · have := s1.1 q'
        constructor <;> rintro ⟨-, g⟩ <;> linarith
  · rw [sweep_half h h', sweep_half h h', mv]
    have q : cross d1 w ≠ 0 := by
      intro q
      obtain ⟨μ, hμ, e⟩ := para d1 z1 h1 q
      obtain ⟨ν, hν⟩ := parallel_of_cross z1 h
      have hneg : ν < 0 := by
        rw [hν, show dot d1 (ν • d1) = ν * (d1.1 ^ 2 + d1.2 ^ 2) by simp [dot]; ring] at h'
        by_contra hc
        have := mul_nonneg (not_lt.1 hc) (by positivity : 0 ≤ d1.1 ^ 2 + d1.2 ^ 2)
        linarith
      refine h2 (μ / -ν) (div_nonneg hμ.le (by linarith)) ?_
      rw [e, hν, smul_smul]
      congr 1
      have := hneg.ne
      field_simp
    rcases lt_or_gt_of_ne q with q | q
    · have := s1.2 q
      constructor <;> intro g <;> linarith
    · have := s1.1 q
      constructor <;> intro g <;> linarith

end Starworlds
