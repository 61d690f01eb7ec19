import Verif.Proofs.CgLemmas

/-! Lemmas about line intersections (used by `Verif.Props.Lines`). -/

namespace Starworlds

open Spec

variable {K : Type*} [Field K] [LinearOrder K] [IsStrictOrderedRing K]

set_option linter.unusedSectionVars false

theorem div_help {A D x B y : K} (hD : D ≠ 0) (h : A = x * D + B * y) : A / D = x + B / D * y := by
  rw [h]; field_simp

theorem div_help2 {D x y T a U b : K} (hD : D ≠ 0) (h : (x - y) * D = T * a + U * b) :
    x - T / D * a = y + U / D * b := by
  have : x - y = (T * a + U * b) / D := by rw [eq_div_iff hD, h]
  rw [sub_eq_iff_eq_add.mp this]; field_simp; ring

/-- Cross product of the two direction vectors, the quantity the code compares with `1e-10`. -/
def dirCross (l m : Line K) : K := cross (l.p1 - l.p2) (m.p1 - m.p2)

theorem dirCross_eq (l m : Line K) : dirCross l m =
    (l.p1.1 - l.p2.1) * (m.p1.2 - m.p2.2) - (l.p1.2 - l.p2.2) * (m.p1.1 - m.p2.1) := rfl

theorem ne_zero_of_thr {d : K} (h : ¬ |d| < 1 / 10 ^ 10) : d ≠ 0 := by
  rintro rfl; apply h; rw [abs_zero]; positivity

/-- Two non-parallel lines share at most one point. -/
theorem common_unique {l m : Line K} (h : dirCross l m ≠ 0) {p q : Pt K}
    (hp1 : OnLine l.p1 l.p2 p) (hp2 : OnLine m.p1 m.p2 p)
    (hq1 : OnLine l.p1 l.p2 q) (hq2 : OnLine m.p1 m.p2 q) : p = q := by
  obtain ⟨t1, rfl⟩ := hp1
  obtain ⟨u1, e1⟩ := hp2
  obtain ⟨t2, rfl⟩ := hq1
  obtain ⟨u2, e2⟩ := hq2
  have : t1 = t2 := by
    rw [dirCross_eq] at h
    simp only [Prod.ext_iff, Prod.fst_add, Prod.snd_add, Prod.smul_fst, Prod.smul_snd, smul_eq_mul,
      Prod.fst_sub, Prod.snd_sub] at e1 e2
    obtain ⟨e1x, e1y⟩ := e1
    obtain ⟨e2x, e2y⟩ := e2
    have : (t1 - t2) * ((l.p1.1 - l.p2.1) * (m.p1.2 - m.p2.2) - (l.p1.2 - l.p2.2) * (m.p1.1 - m.p2.1)) = 0 := by
      linear_combination (m.p2.2 - m.p1.2) * (e1x - e2x) - (m.p2.1 - m.p1.1) * (e1y - e2y)
    rcases mul_eq_zero.mp this with h' | h'
    · linarith
    · exact absurd h' h
  rw [this]

/-- The parameters `t`, `u` computed by the code are the ones of the common point. -/
theorem params {l m : Line K} (hd : dirCross l m ≠ 0) {t u : K}
    (e : l.p1 + t • (l.p2 - l.p1) = m.p1 + u • (m.p2 - m.p1)) :
    t = ((l.p1.1 - m.p1.1) * (m.p1.2 - m.p2.2) - (l.p1.2 - m.p1.2) * (m.p1.1 - m.p2.1)) /
        ((l.p1.1 - l.p2.1) * (m.p1.2 - m.p2.2) - (l.p1.2 - l.p2.2) * (m.p1.1 - m.p2.1)) ∧
    u = ((l.p1.1 - m.p1.1) * (l.p1.2 - l.p2.2) - (l.p1.2 - m.p1.2) * (l.p1.1 - l.p2.1)) /
        ((l.p1.1 - l.p2.1) * (m.p1.2 - m.p2.2) - (l.p1.2 - l.p2.2) * (m.p1.1 - m.p2.1)) := by
  rw [dirCross_eq] at hd
  simp only [Prod.ext_iff, Prod.fst_add, Prod.snd_add, Prod.smul_fst, Prod.smul_snd, smul_eq_mul,
      Prod.fst_sub, Prod.snd_sub] at e
  obtain ⟨ex, ey⟩ := e
  constructor
  · rw [eq_div_iff hd]
    linear_combination (m.p2.2 - m.p1.2) * ex - (m.p2.1 - m.p1.1) * ey
  · rw [eq_div_iff hd]
    linear_combination (l.p2.2 - l.p1.2) * ex - (l.p2.1 - l.p1.1) * ey

/-- The computed parameters give a common point. -/
theorem params_point {l m : Line K} (hd : dirCross l m ≠ 0) :
    let t := ((l.p1.1 - m.p1.1) * (m.p1.2 - m.p2.2) - (l.p1.2 - m.p1.2) * (m.p1.1 - m.p2.1)) /
        ((l.p1.1 - l.p2.1) * (m.p1.2 - m.p2.2) - (l.p1.2 - l.p2.2) * (m.p1.1 - m.p2.1))
    let u := ((l.p1.1 - m.p1.1) * (l.p1.2 - l.p2.2) - (l.p1.2 - m.p1.2) * (l.p1.1 - l.p2.1)) /
        ((l.p1.1 - l.p2.1) * (m.p1.2 - m.p2.2) - (l.p1.2 - l.p2.2) * (m.p1.1 - m.p2.1))
    (l.p1.1 - t * (l.p1.1 - l.p2.1), l.p1.2 - t * (l.p1.2 - l.p2.2)) = l.p1 + t • (l.p2 - l.p1) ∧
    (l.p1.1 - t * (l.p1.1 - l.p2.1), l.p1.2 - t * (l.p1.2 - l.p2.2)) = m.p1 + u • (m.p2 - m.p1) := by
  intro t u
  rw [dirCross_eq] at hd
  constructor
  · ext
    · simp only [Prod.fst_add, Prod.smul_fst, smul_eq_mul, Prod.fst_sub]; ring
    · simp only [Prod.snd_add, Prod.smul_snd, smul_eq_mul, Prod.snd_sub]; ring
  · ext
    · simp only [Prod.fst_add, Prod.smul_fst, smul_eq_mul, Prod.fst_sub, t, u]
      exact div_help2 hd (by ring)
    · simp only [Prod.snd_add, Prod.smul_snd, smul_eq_mul, Prod.snd_sub, t, u]
      exact div_help2 hd (by ring)

end Starworlds
