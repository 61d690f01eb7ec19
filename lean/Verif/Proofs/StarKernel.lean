import Verif.Proofs.StarInside
import Mathlib.Topology.Order.Compact
import Mathlib.Topology.Algebra.Module.Basic

/-! # The kernel of a star-shaped polygon is the intersection of the half planes of its edges -/

namespace Starworlds

open Real Spec

theorem star_centre_off {c : Pt ℝ} {v : List (Pt ℝ)} (h : StarAbout c v) : ¬ OnRing v c := by
  obtain ⟨φ, ρ, h1, h2, _, _⟩ := starAbout_polar h
  rintro hc
  rw [show OnRing v c = OnRing v (polar c 0 0) by rw [polar_zero]] at hc
  exact lt_irrefl _ (star_point h1 h2 le_rfl hc).1

/-- A ray from the centre meets the ring at most once. -/
theorem star_ray_unique {c : Pt ℝ} {v : List (Pt ℝ)} (h : StarAbout c v) {q : Pt ℝ} {s : ℝ} (hs : 0 ≤ s) (hq : OnRing v q)
    (hq' : OnRing v (c + s • (q - c))) : s = 1 := by
  obtain ⟨r, hr, e⟩ := seenAt_rawAngle c q
  change q = polar c r (rawAngle c q) at e
  have hr0 : 0 < r := by
    rcases hr.eq_or_lt with h0 | h0
    · rw [← h0, polar_zero] at e
      rw [e] at hq
      exact absurd hq (star_centre_off h)
    · exact h0
  have e' : c + s • (q - c) = polar c (s * r) (rawAngle c q) := by
    conv_lhs => rw [e]
    ext
    · simp only [Prod.fst_add, Prod.smul_fst, Prod.fst_sub, polar_fst, smul_eq_mul]; ring
    · simp only [Prod.snd_add, Prod.smul_snd, Prod.snd_sub, polar_snd, smul_eq_mul]; ring
  rw [e'] at hq'
  rw [e] at hq
  have := star_unique h (mul_nonneg hs hr) hr hq' (by
    have e2 : rawAngle c (polar c r (rawAngle c q)) = rawAngle c q := by rw [← e]
    simpa [e2] using hq)
  exact (mul_eq_right₀ hr0.ne').1 this

/-- In the sector of edge `j` a point other than the centre is on the ray through a point of the edge. -/
theorem sector_scale {a b c p : Pt ℝ} (hD : 0 < cross (a - c) (b - c)) (h1 : 0 ≤ cross (a - c) (p - c))
    (h2 : 0 ≤ cross (p - c) (b - c)) (hp : p ≠ c) :
    ∃ q t, OnSegment a b q ∧ 0 < t ∧ p = c + t • (q - c) ∧
      cross (b - a) (p - a) = (1 - t) * cross (a - c) (b - c) := by
  have hs := areas_add a b c p
  have hc := sector_coords (p := p) hD
  set D := cross (a - c) (b - c) with hDe
  set o1 := cross (a - c) (p - c)
  set o2 := cross (p - c) (b - c)
  have hT : 0 < o1 + o2 := by
    rcases (add_nonneg h1 h2).eq_or_lt with h0 | h0
    · have z1 : o1 = 0 := by linarith
      have z2 : o2 = 0 := by linarith
      rw [z1, z2] at hc
      simp at hc
      exact absurd hc hp
    · exact h0
  refine ⟨a + (o1 / (o1 + o2)) • (b - a), (o1 + o2) / D, ⟨_, div_nonneg h1 hT.le, ?_, rfl⟩, div_pos hT hD, ?_, ?_⟩
  · rw [div_le_one hT]; linarith
  · have e1 : (o1 + o2) / D = o2 / D + o1 / D := by field_simp; ring
    have e2 : (o1 + o2) / D * (o1 / (o1 + o2)) = o1 / D := by field_simp
    conv_lhs => rw [hc]
    rw [show c + ((o1 + o2) / D) • (a + (o1 / (o1 + o2)) • (b - a) - c) =
      c + ((o1 + o2) / D) • (a - c) + ((o1 + o2) / D * (o1 / (o1 + o2))) • (b - a) by module, e2, e1]
    module
  · have hD' := hD.ne'
    have : (1 - (o1 + o2) / D) * D = D - (o1 + o2) := by field_simp
    rw [this]; linarith

/-- The polygon consists of the segments from the centre to its boundary. -/
theorem star_filled {c : Pt ℝ} {v : List (Pt ℝ)} (h : StarAbout c v) (p : Pt ℝ) :
    p ∈ filled v ↔ ∃ q, OnRing v q ∧ ∃ t : ℝ, 0 ≤ t ∧ t ≤ 1 ∧ p = c + t • (q - c) := by
  have hS := star_sectors h
  constructor
  · rintro (hin | hon)
    · obtain ⟨j, hj, h1, h2, h3⟩ := star_sector_inside h hin.1
      by_cases hpc : p = c
      · exact ⟨corner v j, ⟨j, hj, 0, le_rfl, zero_le_one, by simp⟩, 0, le_rfl, zero_le_one, by simp [hpc]⟩
      · obtain ⟨q, t, hq, ht, e, hf⟩ := sector_scale (hS.pos j hj) h1 h2 hpc
        have := h3.1 hin
        rw [hf] at this
        have := pos_of_mul_pos_left this (hS.pos j hj).le
        exact ⟨q, ⟨j, hj, hq⟩, t, ht.le, by linarith, e⟩
    · exact ⟨p, hon, 1, zero_le_one, le_rfl, by simp⟩
  · rintro ⟨q, hq, t, t0, t1, e⟩
    by_cases hon : OnRing v p
    · exact Or.inr hon
    left
    obtain ⟨j, hj, h1, h2, h3⟩ := star_sector_inside h hon
    rw [h3]
    by_cases hpc : p = c
    · have hs := areas_add (corner v j) (corner v (j + 1)) c p
      have hD := hS.pos j hj
      have z1 : cross (corner v j - c) (p - c) = 0 := by rw [hpc]; simp [cross]
      have z2 : cross (p - c) (corner v (j + 1) - c) = 0 := by rw [hpc]; simp [cross]
      linarith
    · obtain ⟨q', t', hq', ht', e', hf⟩ := sector_scale (hS.pos j hj) h1 h2 hpc
      rw [hf]
      refine mul_pos ?_ (hS.pos j hj)
      have hqq : q' = c + (t / t') • (q - c) := by
        have h5 : t' • (q' - c) = t • (q - c) := by
          have := e'.symm.trans e
          exact add_left_cancel this
        have h6 : q' - c = (t / t') • (q - c) := by
          rw [div_eq_inv_mul, mul_smul, ← h5, smul_smul, inv_mul_cancel₀ ht'.ne', one_smul]
        rw [← h6]; abel
      have hr : OnRing v (c + (t / t') • (q - c)) := by rw [← hqq]; exact ⟨j, hj, hq'⟩
      have h7 := star_ray_unique h (div_nonneg t0 ht'.le) hq hr
      rw [div_eq_one_iff_eq ht'.ne'] at h7
      rcases t1.eq_or_lt with h8 | h8
      · rw [h8, one_smul, add_sub_cancel] at e
        rw [e] at hon
        exact absurd hq hon
      · linarith

/-- In the sector of edge `j` the polygon consists of the points to the left of that edge. -/
theorem star_filled_sector {c : Pt ℝ} {v : List (Pt ℝ)} (h : StarAbout c v) {p : Pt ℝ} {j : ℕ} (hj : j < v.length)
    (h1 : 0 ≤ cross (corner v j - c) (p - c)) (h2 : 0 ≤ cross (p - c) (corner v (j + 1) - c)) :
    p ∈ filled v ↔ 0 ≤ cross (corner v (j + 1) - corner v j) (p - corner v j) := by
  have hS := star_sectors h
  by_cases hpc : p = c
  · have hs := areas_add (corner v j) (corner v (j + 1)) c p
    have hD := hS.pos j hj
    have z1 : cross (corner v j - c) (p - c) = 0 := by rw [hpc]; simp [cross]
    have z2 : cross (p - c) (corner v (j + 1) - c) = 0 := by rw [hpc]; simp [cross]
    refine ⟨fun _ => by linarith, fun _ => ?_⟩
    rw [star_filled h]
    exact ⟨corner v j, ⟨j, hj, 0, le_rfl, zero_le_one, by simp⟩, 0, le_rfl, zero_le_one, by simp [hpc]⟩
  · obtain ⟨q, t, hq, ht, e, hf⟩ := sector_scale (hS.pos j hj) h1 h2 hpc
    have hq' : OnRing v q := ⟨j, hj, hq⟩
    rw [hf]
    have hD := hS.pos j hj
    constructor
    · intro hfill
      obtain ⟨q', hq2, t', t0, t1, e'⟩ := (star_filled h p).1 hfill
      refine mul_nonneg ?_ hD.le
      have hqq : q = c + (t' / t) • (q' - c) := by
        have h5 : t • (q - c) = t' • (q' - c) := add_left_cancel (e.symm.trans e')
        have h6 : q - c = (t' / t) • (q' - c) := by
          rw [div_eq_inv_mul, mul_smul, ← h5, smul_smul, inv_mul_cancel₀ ht.ne', one_smul]
        rw [← h6]; abel
      rw [hqq] at hq'
      have h7 := star_ray_unique h (div_nonneg t0 ht.le) hq2 hq'
      rw [div_eq_one_iff_eq ht.ne'] at h7
      linarith
    · intro hge
      have : 0 ≤ 1 - t := nonneg_of_mul_nonneg_left hge hD
      rw [star_filled h]
      exact ⟨q, hq', t, ht.le, by linarith, e⟩

theorem continuous_cross_left (u x : Pt ℝ) : Continuous fun p : Pt ℝ => cross u (p - x) := by
  simp only [cross]
  fun_prop

theorem continuous_cross_right (u x : Pt ℝ) : Continuous fun p : Pt ℝ => cross (p - x) u := by
  simp only [cross]
  fun_prop

theorem star_filled_closed {c : Pt ℝ} {v : List (Pt ℝ)} (h : StarAbout c v) : IsClosed (filled v) := by
  have hS := star_sectors h
  have e : filled v = ⋃ j ∈ Finset.range v.length, {p : Pt ℝ | 0 ≤ cross (corner v j - c) (p - c) ∧
      0 ≤ cross (p - c) (corner v (j + 1) - c) ∧ 0 ≤ cross (corner v (j + 1) - corner v j) (p - corner v j)} := by
    ext p
    simp only [Set.mem_iUnion, Finset.mem_range, exists_prop, Set.mem_ofPred_eq]
    constructor
    · intro hp
      obtain ⟨j, hj, h1, h2⟩ := hS.cover p
      exact ⟨j, hj, h1, h2, (star_filled_sector h hj h1 h2).1 hp⟩
    · rintro ⟨j, hj, h1, h2, h3⟩
      exact (star_filled_sector h hj h1 h2).2 h3
  rw [e]
  refine isClosed_biUnion_finset fun j _ => ?_
  exact (isClosed_le continuous_const (continuous_cross_left _ _)).inter
    ((isClosed_le continuous_const (continuous_cross_right _ _)).inter
      (isClosed_le continuous_const (continuous_cross_left _ _)))

open Filter Topology

/-- The points from which a star-shaped polygon is visible are those that are to the left of all edges. -/
theorem star_kernel {c : Pt ℝ} {v : List (Pt ℝ)} (h : StarAbout c v) : visKernel (filled v) = leftKernel v := by
  have hS := star_sectors h
  ext p
  constructor
  · rintro ⟨hp, hvis⟩ i hi
    by_contra hneg
    rw [not_le] at hneg
    set a := corner v i with ha
    set b := corner v (i + 1) with hb
    set m := a + (1 / 2 : ℝ) • (b - a) with hm
    have hD := hS.pos i hi
    have hmr : OnRing v m := ⟨i, hi, 1 / 2, by norm_num, by norm_num, rfl⟩
    have m1 : cross (a - c) (m - c) = cross (a - c) (b - c) / 2 := by simp [hm, cross]; ring
    have m2 : cross (m - c) (b - c) = cross (a - c) (b - c) / 2 := by simp [hm, cross]; ring
    have E := ((ev_pos (cross (a - c) (p - m)) (show 0 < cross (a - c) (m - c) by rw [m1]; exact half_pos hD)).and
      (ev_pos (cross (p - m) (b - c)) (show 0 < cross (m - c) (b - c) by rw [m2]; exact half_pos hD))).and
      ((ev_pos (A := 1) (-1) one_pos).and self_mem_nhdsWithin)
    obtain ⟨ε, ⟨e1, e2⟩, e3, e4⟩ := E.exists
    have e4' : 0 < ε := e4
    have r1 : cross (a - c) (m + ε • (p - m) - c) = cross (a - c) (m - c) + ε * cross (a - c) (p - m) := cross_move _ _ _ _ _
    have r2 : cross (m + ε • (p - m) - c) (b - c) = cross (m - c) (b - c) + ε * cross (p - m) (b - c) := by
      simp [cross]; ring
    have r3 : cross (b - a) (m + ε • (p - m) - a) = ε * cross (b - a) (p - a) := by simp [hm, cross]; ring
    have hr : m + ε • (p - m) ∈ filled v := by
      refine hvis m (Or.inr hmr) _ ⟨1 - ε, by linarith, by linarith, ?_⟩
      module
    rw [star_filled_sector h hi (by rw [r1]; exact e1.le) (by rw [r2]; exact e2.le), r3] at hr
    nlinarith
  · intro hp
    have hpf : p ∈ filled v := by
      obtain ⟨j, hj, h1, h2⟩ := hS.cover p
      exact (star_filled_sector h hj h1 h2).2 (hp j hj)
    refine ⟨hpf, ?_⟩
    rintro q hq r ⟨t0, h0, h1, rfl⟩
    by_contra hout
    set R : ℝ → Pt ℝ := fun t => p + t • (q - p) with hR
    have hRc : Continuous R := by
      simp only [hR]
      fun_prop
    -- the first return after t0
    have hcomp : IsCompact (R ⁻¹' filled v ∩ Set.Icc t0 1) :=
      isCompact_Icc.inter_left ((star_filled_closed h).preimage hRc)
    have hne : (R ⁻¹' filled v ∩ Set.Icc t0 1).Nonempty := ⟨1, by simpa [hR] using hq, h1, le_rfl⟩
    obtain ⟨s, ⟨hs1, hs2⟩, hs3⟩ := hcomp.exists_isLeast hne
    have hlt : t0 < s := by
      rcases hs2.1.eq_or_lt with e | e
      · rw [← e] at hs1; exact absurd hs1 hout
      · exact e
    have hcov : Set.Ico t0 s ⊆ ⋃ j ∈ Finset.range v.length, {t | t ∈ Set.Ico t0 s ∧ 0 ≤ cross (corner v j - c) (R t - c) ∧
        0 ≤ cross (R t - c) (corner v (j + 1) - c) ∧ cross (corner v (j + 1) - corner v j) (R t - corner v j) < 0} := by
      intro t ht
      obtain ⟨j, hj, g1, g2⟩ := hS.cover (R t)
      simp only [Set.mem_iUnion, Finset.mem_range, exists_prop]
      refine ⟨j, hj, ht, g1, g2, ?_⟩
      by_contra hge
      have hin := (star_filled_sector h hj g1 g2).2 (not_lt.1 hge)
      have := hs3 ⟨hin, ht.1, ht.2.le.trans hs2.2⟩
      exact absurd ht.2 (not_lt.2 this)
    have hmem : s ∈ closure (Set.Ico t0 s) := by
      rw [closure_Ico hlt.ne]
      exact Set.right_mem_Icc.2 hlt.le
    have hmem' := closure_mono hcov hmem
    rw [Finset.closure_biUnion] at hmem'
    simp only [Set.mem_iUnion, Finset.mem_range, exists_prop] at hmem'
    obtain ⟨j, hj, hcl⟩ := hmem'
    have hcl2 : s ∈ {t | 0 ≤ cross (corner v j - c) (R t - c) ∧ 0 ≤ cross (R t - c) (corner v (j + 1) - c)} := by
      have hclosed : IsClosed {t | 0 ≤ cross (corner v j - c) (R t - c) ∧ 0 ≤ cross (R t - c) (corner v (j + 1) - c)} :=
        (isClosed_le continuous_const ((continuous_cross_left _ _).comp hRc)).inter
          (isClosed_le continuous_const ((continuous_cross_right _ _).comp hRc))
      refine closure_minimal ?_ hclosed hcl
      rintro t ⟨-, g1, g2, -⟩
      exact ⟨g1, g2⟩
    obtain ⟨t1, ht1⟩ : ∃ t1, t1 ∈ {t | t ∈ Set.Ico t0 s ∧ 0 ≤ cross (corner v j - c) (R t - c) ∧
        0 ≤ cross (R t - c) (corner v (j + 1) - c) ∧ cross (corner v (j + 1) - corner v j) (R t - corner v j) < 0} :=
      closure_nonempty_iff.1 ⟨s, hcl⟩
    obtain ⟨⟨i1, i2⟩, -, -, i3⟩ := ht1
    have lin : ∀ t, cross (corner v (j + 1) - corner v j) (R t - corner v j) =
        cross (corner v (j + 1) - corner v j) (p - corner v j) + t * cross (corner v (j + 1) - corner v j) (q - p) :=
      fun t => cross_move _ _ _ _ _
    have hp0 := hp j hj
    have hsf := (star_filled_sector h hj hcl2.1 hcl2.2).1 hs1
    rw [lin] at i3 hsf
    have hslope : cross (corner v (j + 1) - corner v j) (q - p) < 0 := by
      by_contra hh
      have : 0 ≤ t1 * cross (corner v (j + 1) - corner v j) (q - p) := mul_nonneg (by linarith) (not_lt.1 hh)
      linarith
    nlinarith

end Starworlds
