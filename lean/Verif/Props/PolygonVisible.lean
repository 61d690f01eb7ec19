import Verif.Props.PolygonTangent
import Verif.Proofs.StarRing

/-! # C38: when tangent points are returned -/

namespace Starworlds

open Real Spec

theorem seenAt_self (x : Pt ℝ) (t : ℝ) : SeenAt x x t := ⟨0, le_rfl, by simp⟩

/-- An edge whose ends are seen under angles at most `π` apart is met by every ray in between. -/
theorem edge_sweeps {x a b : Pt ℝ} {α β θ : ℝ} (ha : SeenAt x a α) (hb : SeenAt x b β) (hax : a ≠ x) (hbx : b ≠ x)
    (h1 : α ≤ θ) (h2 : θ ≤ β) (h3 : β ≤ α + π) : ∃ q, OnSegment a b q ∧ SeenAt x q θ := by
  obtain ⟨ra, hra, rfl⟩ := seenAt_pos ha hax
  obtain ⟨rb, hrb, rfl⟩ := seenAt_pos hb hbx
  rcases (h1.trans h2).eq_or_lt with h | h
  · have : θ = α := le_antisymm (h ▸ h2) h1
    subst this
    exact ⟨_, ⟨0, le_rfl, zero_le_one, by rw [zero_smul, add_zero]⟩, ha⟩
  · rcases h3.eq_or_lt with h4 | h4
    · refine ⟨x, ⟨ra / (ra + rb), by positivity, (div_le_one (by positivity)).2 (by linarith), ?_⟩, seenAt_self x θ⟩
      have h5 : ra + rb ≠ 0 := by positivity
      subst h4
      ext
      · simp only [polar_fst, Prod.fst_add, Prod.smul_fst, Prod.fst_sub, smul_eq_mul, cos_add_pi]
        field_simp; ring
      · simp only [polar_snd, Prod.snd_add, Prod.smul_snd, Prod.snd_sub, smul_eq_mul, sin_add_pi]
        field_simp; ring
    · obtain ⟨r, hr, hs⟩ := ray_hits_edge (c := x) hra hrb h1 h2 h h4
      exact ⟨_, hs, r, hr.le, rfl⟩

/-- A corner is on the ring. -/
theorem corner_onRing {v : List (Pt ℝ)} {i : ℕ} (hi : i < v.length) : OnRing v (corner v i) :=
  ⟨i, hi, 0, le_rfl, zero_le_one, by rw [zero_smul, add_zero]⟩

/-- With a free direction, all unwrapped angles stay within one turn. -/
theorem angles_within {v : List (Pt ℝ)} (hv : v ≠ []) {x : Pt ℝ} {θ : ℝ} (hfree : ∀ q, OnRing v q → ¬ SeenAt x q θ)
    {phi : List ℝ} (hchain : AngleChain x (ringOf v) phi) :
    ∃ θ' : ℝ, ∀ i, i < v.length + 1 → θ' < phi.getD i 0 ∧ phi.getD i 0 < θ' + 2 * π := by
  have hpi := pi_pos
  have hpos : 0 < v.length := List.length_pos_iff.2 hv
  have hring : ∀ i, OnRing v (corner v i) := by
    intro i
    have : corner v i = corner v (i % v.length) := by simp [corner]
    rw [this]
    exact corner_onRing (Nat.mod_lt _ hpos)
  have hne : ∀ i, corner v i ≠ x := fun i h => hfree _ (hring i) (h ▸ seenAt_self _ _)
  have hseen : ∀ i, i < v.length + 1 → SeenAt x (corner v i) (phi.getD i 0) := by
    intro i hi
    have := hchain.seen i (by rw [ringOf_length v hv]; omega)
    rwa [ringOf_getD v hv (by omega)] at this
  set k := ⌊(phi.getD 0 0 - θ) / (2 * π)⌋ with hk
  have hk1 : (k : ℝ) * (2 * π) ≤ phi.getD 0 0 - θ := by
    have := Int.floor_le ((phi.getD 0 0 - θ) / (2 * π))
    rwa [le_div_iff₀ (by linarith)] at this
  have hk2 : phi.getD 0 0 - θ < (k + 1) * (2 * π) := by
    have := Int.lt_floor_add_one ((phi.getD 0 0 - θ) / (2 * π))
    rwa [div_lt_iff₀ (by linarith)] at this
  have hfree' : ∀ (m : ℤ) q, OnRing v q → ¬ SeenAt x q (θ + m * (2 * π)) := by
    intro m q hq h
    have := seenAt_add_two_pi h (-m)
    refine hfree q hq ?_
    rwa [show θ + m * (2 * π) + ((-m : ℤ) : ℝ) * (2 * π) = θ by push_cast; ring] at this
  have f1 := hfree' k
  have f2 := hfree' (k + 1)
  rw [show θ + ((k + 1 : ℤ) : ℝ) * (2 * π) = θ + k * (2 * π) + 2 * π by push_cast; ring] at f2
  refine ⟨θ + k * (2 * π), fun i => ?_⟩
  induction i with
  | zero =>
    intro hi
    refine ⟨lt_of_le_of_ne (by linarith) fun h => f1 _ (hring 0) ?_, by linarith⟩
    rw [h]
    exact hseen 0 hi
  | succ i ih =>
    intro hi
    obtain ⟨h1, h2⟩ := ih (by omega)
    have hs := abs_le.1 (hchain.step i (by rw [ringOf_length v hv]; omega))
    have sa := hseen i (by omega)
    have sb := hseen (i + 1) hi
    have hedge : ∀ q, OnSegment (corner v i) (corner v (i + 1)) q → OnRing v q := fun q hq => ⟨i, by omega, hq⟩
    constructor
    · by_contra hc
      push Not at hc
      obtain ⟨q, hq, hq'⟩ := edge_sweeps sb sa (hne _) (hne _) hc h1.le (by linarith)
      exact f1 q (hedge q (onSegment_symm.1 hq)) hq'
    · by_contra hc
      push Not at hc
      obtain ⟨q, hq, hq'⟩ := edge_sweeps sa sb (hne _) (hne _) h2.le hc (by linarith)
      exact f2 q (hedge q hq) hq'

/-- C38: for a point that is not on the boundary, points are returned exactly when some ray from the point does not meet
the boundary. -/
theorem C38_visible (mm : Option Pose) (v : List (Pt ℝ)) (hv : v ≠ []) (f g : Frame) (hf : f.Valid) (hg : g.Valid)
    (x : Pt ℝ) (hx : ¬ OnRing v x) :
    ((∃ t s, polygonTangentPoints mm v (inFrame mm f x) f g = .ok [t, s]) ↔ ∃ θ, ∀ q, OnRing v q → ¬ SeenAt x q θ) ∧
    ((∀ θ, ∃ q, OnRing v q ∧ SeenAt x q θ) → polygonTangentPoints mm v (inFrame mm f x) f g = .ok []) := by
  have hcases : polygonTangentPoints mm v (inFrame mm f x) f g = .ok [] ∨
      ∃ t s, polygonTangentPoints mm v (inFrame mm f x) f g = .ok [t, s] := by
    simp only [polygonTangentPoints, transform_to_obstacle _ _ hf, bind, Except.bind, mapM_transform _ _ hg]
    rcases polyTangents_shape v x with h | ⟨t, s, h⟩
    · exact Or.inl (by rw [h]; rfl)
    · exact Or.inr ⟨_, _, by rw [h]; rfl⟩
  have key : (∃ t s, polygonTangentPoints mm v (inFrame mm f x) f g = .ok [t, s]) ↔
      ∃ θ, ∀ q, OnRing v q → ¬ SeenAt x q θ := by
    constructor
    · rintro ⟨t, s, h⟩
      obtain ⟨t', s', _, _, _, α, β, _, _, h1, h2, hall⟩ := C38_window mm v hv f g hf hg x _ h (by simp)
      refine ⟨(β + (α + 2 * π)) / 2, fun q hq hs => ?_⟩
      have hqx : q ≠ x := fun e => hx (e ▸ hq)
      obtain ⟨θ, h3, h4, h5⟩ := hall q hq
      obtain ⟨r1, hr1, e1⟩ := seenAt_pos hs hqx
      obtain ⟨r2, hr2, e2⟩ := seenAt_pos h5 hqx
      obtain ⟨_, k, hk⟩ := polar_inj hr1 hr2 (e1.symm.trans e2)
      have hpi := pi_pos
      have l1 : (0 : ℝ) < k * (2 * π) := by linarith
      have l2 : (k : ℝ) * (2 * π) < 1 * (2 * π) := by linarith
      have l3 : (0 : ℝ) < k := by
        by_contra hc
        push Not at hc
        have := mul_nonpos_of_nonpos_of_nonneg hc (show (0 : ℝ) ≤ 2 * π by linarith)
        linarith
      have l4 : (k : ℝ) < 1 := lt_of_mul_lt_mul_right l2 (by linarith)
      have l5 : (0 : ℤ) < k := by exact_mod_cast l3
      have l6 : k < (1 : ℤ) := by exact_mod_cast l4
      omega
    · rintro ⟨θ, hfree⟩
      rcases hcases with h | h
      · exfalso
        simp only [polygonTangentPoints, transform_to_obstacle _ _ hf, bind, Except.bind, mapM_transform _ _ hg,
          Except.ok.injEq, List.map_eq_nil_iff] at h
        have hchain := unwrap_chain x (ringOf v)
        obtain ⟨θ', hin⟩ := angles_within hv hfree hchain
        simp only [polyTangents] at h
        set phi := unwrapAngles ((ringOf v).map (rawAngle x)) with hphi
        have hlen := hchain.length_eq
        rw [ringOf_length v hv] at hlen
        have hne : phi ≠ [] := by
          intro h0; rw [h0] at hlen; simp at hlen
        obtain ⟨hmin1, _⟩ := argminIdx_spec phi hne
        obtain ⟨hmax1, _⟩ := argmaxIdx_spec phi hne
        have hends : phi.getD 0 0 = phi.getD (phi.length - 1) 0 := by
          have s1 := hchain.seen 0 (by rw [ringOf_length v hv]; omega)
          have s2 := hchain.seen (phi.length - 1) (by rw [ringOf_length v hv]; omega)
          rw [ringOf_getD v hv (by omega)] at s1 s2
          have hc : corner v (phi.length - 1) = corner v 0 := by
            rw [← hlen]
            simp [corner]
          rw [hc] at s2
          have hcx : corner v 0 ≠ x := by
            intro e
            exact hx (e ▸ corner_onRing (List.length_pos_iff.2 hv))
          obtain ⟨r1, hr1, e1⟩ := seenAt_pos s1 hcx
          obtain ⟨r2, hr2, e2⟩ := seenAt_pos s2 hcx
          obtain ⟨_, k, hk⟩ := polar_inj hr1 hr2 (e1.symm.trans e2)
          have b1 := hin 0 (by omega)
          have b2 := hin (phi.length - 1) (by omega)
          have hpi := pi_pos
          have l1 : (k : ℝ) * (2 * π) < 1 * (2 * π) := by linarith [b1.1, b1.2, b2.1, b2.2]
          have l2 : (-1 : ℝ) * (2 * π) < k * (2 * π) := by linarith [b1.1, b1.2, b2.1, b2.2]
          have l3 : (k : ℝ) < 1 := lt_of_mul_lt_mul_right l1 (by linarith)
          have l4 : (-1 : ℝ) < k := lt_of_mul_lt_mul_right l2 (by linarith)
          have l5 : k < (1 : ℤ) := by exact_mod_cast l3
          have l6 : (-1 : ℤ) < k := by exact_mod_cast l4
          have : k = 0 := by omega
          subst this
          simpa using hk
        rw [if_neg, if_neg] at h
        · simp at h
        · have h1 := hin _ (by omega : argmaxIdx phi < v.length + 1)
          have h2 := hin _ (by omega : argminIdx phi < v.length + 1)
          push Not
          linarith [h1.2, h2.1]
        · rw [hends]; norm_num
      · exact h
  refine ⟨key, fun hall => ?_⟩
  rcases hcases with h | h
  · exact h
  · obtain ⟨θ, hθ⟩ := key.1 h
    obtain ⟨q, hq, hs⟩ := hall θ
    exact absurd hs (hθ q hq)

/-- C38: no tangent points from a point about which the polygon is star-shaped, such as an inner point of a convex polygon. -/
theorem C38_inside (mm : Option Pose) (v : List (Pt ℝ)) (hv : v ≠ []) (f g : Frame) (hf : f.Valid) (hg : g.Valid)
    (x : Pt ℝ) (h : StarAbout x v) : polygonTangentPoints mm v (inFrame mm f x) f g = .ok [] := by
  have hx : ¬ OnRing v x := by
    intro hr
    obtain ⟨φ, ρ, h1, h2, h3, hpos⟩ := starAbout_polar h
    have := (star_point (c := x) h1 h2 (r := 0) (θ := 0) le_rfl (by rwa [polar_zero])).1
    exact lt_irrefl _ this
  refine (C38_visible mm v hv f g hf hg x hx).2 fun θ => ?_
  obtain ⟨r, hr, hq⟩ := star_exists h θ
  exact ⟨_, hq, r, hr.le, rfl⟩

end Starworlds
