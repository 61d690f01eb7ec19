import Verif.Proofs.StarMove
import Verif.Proofs.KernelCertificate

/-!
# Convex polygons

A polygon that is star-shaped about some point and turns left at all corners is the convex hull of its corners.
-/

namespace Starworlds

open Real Spec

theorem centre_mem_region {c : Pt ℝ} {v : List (Pt ℝ)} (h : StarAbout c v) : c ∈ region v := by
  have hs := star_sectors h
  have hv : v ≠ [] := by
    obtain ⟨i, hi, _⟩ := hs.cover c
    rintro rfl; simp at hi
  have hn : 0 < v.length := List.length_pos_iff.mpr hv
  obtain ⟨i, hi, h1, h2⟩ := hs.cover (c - (corner v 0 - c))
  have h0 : c - (corner v 0 - c) ≠ c := by
    intro e
    have h3 := hs.pos 0 hn
    rw [sub_eq_self.mp e] at h3
    simp [cross] at h3
  obtain ⟨q, t, ⟨s, s0, s1, rfl⟩, ht, e, _⟩ := sector_scale (hs.pos i hi) h1 h2 h0
  have hr := convex_convexHull ℝ {p | p ∈ v}
  have hc : ∀ j, corner v j ∈ region v := fun j => subset_convexHull ℝ _ (corner_mem hv j)
  have hq := hr.add_smul_sub_mem (hc i) (hc (i + 1)) ⟨s0, s1⟩
  obtain ⟨q, hqe⟩ : ∃ q, corner v i + s • (corner v (i + 1) - corner v i) = q := ⟨_, rfl⟩
  rw [hqe] at e hq
  have hm := hr (hc 0) hq (show 0 ≤ 1 / (1 + t) by positivity) (show 0 ≤ t / (1 + t) by positivity) (by field_simp)
  have : (1 / (1 + t)) • corner v 0 + (t / (1 + t)) • q = c := by
    have e1 := congrArg Prod.fst e
    have e2 := congrArg Prod.snd e
    simp only [Prod.fst_sub, Prod.snd_sub, Prod.fst_add, Prod.snd_add, Prod.smul_fst, Prod.smul_snd, smul_eq_mul] at e1 e2
    apply Prod.ext
    · simp only [Prod.fst_add, Prod.smul_fst, smul_eq_mul]; field_simp; linarith
    · simp only [Prod.snd_add, Prod.smul_snd, smul_eq_mul]; field_simp; linarith
  rw [this] at hm
  exact hm

theorem filled_subset_region {c : Pt ℝ} {v : List (Pt ℝ)} (h : StarAbout c v) : filled v ⊆ region v :=
  filled_sub_region h (centre_mem_region h)

theorem corner_add_length (v : List (Pt ℝ)) (i : ℕ) : corner v (i + v.length) = corner v i := by
  simp [corner]

/-- The directions of the edges, if the polygon turns left at all corners. -/
theorem edge_directions {c : Pt ℝ} {v : List (Pt ℝ)} (h : StarAbout c v)
    (ht : ∀ j, 0 < cross (corner v (j + 1) - corner v j) (corner v (j + 2) - corner v (j + 1))) :
    ∃ ψ L : ℕ → ℝ, (∀ j, 0 < L j ∧ corner v (j + 1) - corner v j = polar 0 (L j) (ψ j)) ∧ (∀ j, ψ j < ψ (j + 1)) ∧
      ∀ j, ψ (j + v.length) = ψ j + 2 * π := by
  obtain ⟨φ, r, h1, h2, h3, hn⟩ := starAbout_polar h
  have hpi := pi_pos
  have hs := star_sectors h
  set n := v.length with hnn
  let Φ : ℕ → ℝ := fun j => φ (j % n) + (j / n : ℕ) * (2 * π)
  have hmod : ∀ j, corner v (j % n) = corner v j := by intro j; simp [corner, hnn]
  have hΦ : ∀ j, corner v j = polar c (r (j % n)) (Φ j) := by
    intro j
    have := (h1 (j % n) (Nat.mod_lt _ hn).le).2
    rw [hmod] at this
    rw [this]
    simp only [polar, Φ]
    rw [cos_add_nat_mul_two_pi, sin_add_nat_mul_two_pi]
  have hr : ∀ j, 0 < r (j % n) := fun j => (h1 _ (Nat.mod_lt _ hn).le).1
  have hstep : ∀ j, Φ j < Φ (j + 1) ∧ Φ (j + 1) < Φ j + π := by
    intro j
    have hj := h2 (j % n) (Nat.mod_lt _ hn)
    have hlt := Nat.mod_lt j hn
    have e : Φ (j + 1) = φ (j % n + 1) + (j / n : ℕ) * (2 * π) := by
      simp only [Φ]
      rcases Nat.lt_or_ge (j % n + 1) n with hl | hl
      · have q : (j + 1) / n = j / n := by
          conv_lhs => rw [show j + 1 = (j % n + 1) + n * (j / n) by have := Nat.div_add_mod j n; omega]
          rw [Nat.add_mul_div_left _ _ hn, Nat.div_eq_of_lt hl, zero_add]
        have m : (j + 1) % n = j % n + 1 := by
          have a := Nat.div_add_mod j n
          have b := Nat.div_add_mod (j + 1) n
          rw [q] at b
          omega
        rw [q, m]
      · have hl' : j % n + 1 = n := by omega
        have a := Nat.div_add_mod j n
        have b : j + 1 = n * (j / n + 1) := by rw [mul_add, mul_one]; omega
        have m : (j + 1) % n = 0 := by rw [b]; simp
        have q : (j + 1) / n = j / n + 1 := by rw [b]; exact Nat.mul_div_cancel_left _ hn
        rw [m, q, hl', h3]; push_cast; ring
    rw [e]
    simp only [Φ]
    constructor <;> linarith [hj.1, hj.2]
  have hper : ∀ j, Φ (j + n) = Φ j + 2 * π := by
    intro j
    simp only [Φ, Nat.add_mod_right, Nat.add_div_right _ hn]
    push_cast; ring
  let E : ℕ → Pt ℝ := fun j => corner v (j + 1) - corner v j
  have hcr : ∀ j, 0 < cross (corner v j - c) (E j) := by
    intro j
    have hp := hs.pos (j % n) (Nat.mod_lt _ hn)
    rw [hmod] at hp
    have : corner v (j % n + 1) = corner v (j + 1) := by simp [corner, hnn, Nat.add_mod]
    rw [this] at hp
    have e : cross (corner v j - c) (E j) = cross (corner v j - c) (corner v (j + 1) - c) := by
      simp only [E, cross, Prod.fst_sub, Prod.snd_sub]; ring
    rw [e]; exact hp
  have hcr' : ∀ j, 0 < cross (corner v (j + 1) - c) (E j) := by
    intro j
    have e : cross (corner v (j + 1) - c) (E j) = cross (corner v j - c) (E j) := by
      simp only [E, cross, Prod.fst_sub, Prod.snd_sub]; ring
    rw [e]; exact hcr j
  let ψ : ℕ → ℝ := fun j => Φ j + stepAngle (corner v j - c) (E j)
  have hl : ∀ j, 0 < len (E j) := fun j => (len_pos_of_cross (hcr j)).2
  have hE : ∀ j, E j = polar 0 (len (E j)) (ψ j) := by
    intro j
    refine polar_step (hcr j) ?_
    have hlen : len (corner v j - c) = r (j % n) := by rw [hΦ j]; exact len_polar c (hr j).le _
    rw [hlen, hΦ j]
    simp [polar]
  have crossE : ∀ i j, cross (E i) (E j) = len (E i) * len (E j) * sin (ψ j - ψ i) := by
    intro i j
    have := cross_polar_about 0 (len (E i)) (len (E j)) (ψ i) (ψ j)
    rw [sub_zero, sub_zero, ← hE, ← hE] at this
    exact this
  have hψ1 : ∀ j, Φ j < ψ j ∧ ψ j < Φ j + π := by
    intro j
    obtain ⟨a, b, _⟩ := stepAngle_spec (hcr j)
    simp only [ψ]; constructor <;> linarith
  have hψ2 : ∀ j, Φ (j + 1) < ψ j := by
    intro j
    by_contra hh
    have e : cross (corner v (j + 1) - c) (E j) = r ((j + 1) % n) * len (E j) * sin (ψ j - Φ (j + 1)) := by
      have := cross_polar_about 0 (r ((j + 1) % n)) (len (E j)) (Φ (j + 1)) (ψ j)
      rw [sub_zero, sub_zero, ← hE] at this
      rw [← this]
      rw [hΦ (j + 1)]
      simp [polar]
    have hp := hcr' j
    rw [e] at hp
    have hsin := pos_of_mul_pos_right hp (mul_pos (hr _) (hl j)).le
    have := sin_nonpos_of_nonpos_of_neg_pi_le (x := ψ j - Φ (j + 1)) (by linarith)
      (by linarith [(hψ1 j).1, (hstep j).2])
    linarith
  refine ⟨ψ, fun j => len (E j), fun j => ⟨hl j, hE j⟩, ?_, ?_⟩
  · intro j
    have hp : 0 < cross (E j) (E (j + 1)) := ht j
    rw [crossE] at hp
    have hsin := pos_of_mul_pos_right hp (mul_pos (hl _) (hl _)).le
    by_contra hh
    have := sin_nonpos_of_nonpos_of_neg_pi_le (x := ψ (j + 1) - ψ j) (by linarith)
      (by linarith [(hψ1 j).2, (hψ1 (j + 1)).1, (hstep j).1])
    linarith
  · intro j
    simp only [ψ, E]
    rw [hper, show j + n + 1 = (j + 1) + v.length by omega, show j + n = j + v.length from rfl, corner_add_length, corner_add_length]
    ring

/-- No corner of a convex polygon is to the right of an edge. -/
theorem convex_corners {c : Pt ℝ} {v : List (Pt ℝ)} (h : StarAbout c v)
    (ht : ∀ j, 0 < cross (corner v (j + 1) - corner v j) (corner v (j + 2) - corner v (j + 1))) (i : ℕ) (p : Pt ℝ) (hp : p ∈ v) :
    0 ≤ cross (corner v (i + 1) - corner v i) (p - corner v i) := by
  obtain ⟨ψ, L, hE, hmono, hper⟩ := edge_directions h ht
  have hpi := pi_pos
  set n := v.length with hn
  have hm : StrictMono ψ := strictMono_nat_of_lt_succ hmono
  let f : ℕ → ℝ := fun k => cross (corner v (i + 1) - corner v i) (corner v (i + 1 + k) - corner v i)
  have hinc : ∀ k, f (k + 1) = f k + L i * L (i + 1 + k) * sin (ψ (i + 1 + k) - ψ i) := by
    intro k
    have e := cross_polar_about 0 (L i) (L (i + 1 + k)) (ψ i) (ψ (i + 1 + k))
    rw [sub_zero, sub_zero, ← (hE i).2, ← (hE (i + 1 + k)).2] at e
    rw [← e]
    simp only [f, cross, Prod.fst_sub, Prod.snd_sub, ← add_assoc]
    ring
  have f0 : f 0 = 0 := by simp only [f, cross, add_zero]; ring
  have hv : v ≠ [] := List.ne_nil_of_mem hp
  have hn0 : 0 < n := List.length_pos_iff.mpr hv
  have fn : f (n - 1) = 0 := by
    simp only [f]
    rw [show i + 1 + (n - 1) = i + v.length by omega, corner_add_length]
    simp [cross]
  have key : ∀ k ≤ n - 1, 0 ≤ f k := by
    intro k hk
    rcases Nat.eq_zero_or_pos k with rfl | hk0
    · exact f0.ge
    by_cases hd : ψ (i + k) - ψ i ≤ π
    · have up : ∀ m ≤ k, 0 ≤ f m := by
        intro m
        induction m with
        | zero => intro _; exact f0.ge
        | succ m ih =>
          intro hmk
          rw [hinc]
          have h1 : 0 ≤ sin (ψ (i + 1 + m) - ψ i) := by
            refine sin_nonneg_of_nonneg_of_le_pi ?_ ?_
            · linarith [hm.monotone (show i ≤ i + 1 + m by omega)]
            · linarith [hm.monotone (show i + 1 + m ≤ i + k by omega)]
          have h2 := mul_nonneg (mul_pos (hE i).1 (hE (i + 1 + m)).1).le h1
          linarith [ih (by omega)]
      exact up k le_rfl
    · have down : ∀ m, k + m ≤ n - 1 → f (k + m) ≤ f k := by
        intro m
        induction m with
        | zero => intro _; exact le_rfl
        | succ m ih =>
          intro hmk
          rw [← add_assoc, hinc]
          have h1 : sin (ψ (i + 1 + (k + m)) - ψ i) ≤ 0 := by
            have a := hm.monotone (show i + k ≤ i + 1 + (k + m) by omega)
            have b := hm.monotone (show i + 1 + (k + m) ≤ i + n by omega)
            rw [hper] at b
            have := sin_nonneg_of_nonneg_of_le_pi (x := ψ (i + 1 + (k + m)) - ψ i - π) (by linarith) (by linarith)
            rw [sin_sub_pi] at this
            linarith
          have h2 := mul_nonneg (mul_pos (hE i).1 (hE (i + 1 + (k + m))).1).le (neg_nonneg.mpr h1)
          linarith [ih (by omega)]
      have := down (n - 1 - k) (by omega)
      rw [show k + (n - 1 - k) = n - 1 by omega, fn] at this
      exact this
  obtain ⟨j, hj, rfl⟩ := List.getElem_of_mem hp
  have hcj : v[j] = corner v j := by
    simp only [corner]
    rw [Nat.mod_eq_of_lt hj, List.getD_eq_getElem _ _ hj]
  rw [hcj]
  -- some k ≤ n - 1 has i + 1 + k ≡ j
  set k := (j + n * (i + 1) - (i + 1)) % n with hk
  have hle : i + 1 ≤ j + n * (i + 1) := by nlinarith
  have := key k (by have := Nat.mod_lt (j + n * (i + 1) - (i + 1)) hn0; omega)
  simp only [f] at this
  have e : corner v (i + 1 + k) = corner v j := by
    have : (i + 1 + k) % n = j % n := by
      rw [hk, Nat.add_mod_mod, show i + 1 + (j + n * (i + 1) - (i + 1)) = j + n * (i + 1) by omega, Nat.add_mul_mod_self_left]
    simp only [corner]
    rw [this]
  rw [e] at this
  exact this

/-- A convex polygon is the convex hull of its corners. -/
theorem convex_filled {c : Pt ℝ} {v : List (Pt ℝ)} (h : StarAbout c v) (ht : ∀ j < v.length, 0 < turn v j) :
    filled v = region v ∧ leftKernel v = region v := by
  have hv : 0 < v.length := by
    obtain ⟨i, hi, _⟩ := (star_sectors h).cover c; omega
  have ht' : ∀ j, 0 < cross (corner v (j + 1) - corner v j) (corner v (j + 2) - corner v (j + 1)) := by
    intro j
    have := ht ((j + 1) % v.length) (Nat.mod_lt _ hv)
    unfold turn at this
    have e1 : corner v ((j + 1) % v.length) = corner v (j + 1) := by simp [corner]
    have e2 : corner v ((j + 1) % v.length + 1) = corner v (j + 2) := by
      simp only [corner]; rw [Nat.mod_add_mod]
    have e3 : corner v ((j + 1) % v.length + v.length - 1) = corner v j := by
      have : ((j + 1) % v.length + v.length - 1) % v.length = j % v.length := by
        have h1 : (j + 1) % v.length + v.length - 1 = (j + 1) % v.length + (v.length - 1) := by omega
        rw [h1, Nat.mod_add_mod, show j + 1 + (v.length - 1) = j + v.length by omega, Nat.add_mod_right]
      simp only [corner]
      rw [this]
    rw [e1, e2, e3] at this
    exact this
  have a : region v ⊆ leftKernel v := by
    refine convexHull_min ?_ (leftKernel_convex v)
    intro p hp i hi
    exact convex_corners h ht' i p hp
  have b : leftKernel v ⊆ filled v := by
    rw [← star_kernel h]; exact fun p hp => hp.1
  have d := filled_subset_region h
  exact ⟨Set.Subset.antisymm d (a.trans b), Set.Subset.antisymm (b.trans d) a⟩

end Starworlds
