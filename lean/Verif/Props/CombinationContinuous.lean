import Verif.Props.StarContinuous
import Verif.Props.CombinationNormal
import Verif.Props.DistanceFunction
import Verif.Proofs.StarFrontier

/-! # C137: boundary_mapping and distance_function of a StarshapedPrimitiveCombination -/

namespace Starworlds

open Real Spec Filter Topology

theorem onRay_iff {c x p : Pt ℝ} (hx : x ≠ c) : OnRay c x p ↔ cross (x - c) (p - c) = 0 ∧ 0 ≤ dot (x - c) (p - c) := by
  have hN : 0 < (x.1 - c.1) ^ 2 + (x.2 - c.2) ^ 2 := by
    by_contra h
    apply hx
    have a1 : x.1 - c.1 = 0 := by nlinarith [sq_nonneg (x.1 - c.1), sq_nonneg (x.2 - c.2)]
    have a2 : x.2 - c.2 = 0 := by nlinarith [sq_nonneg (x.1 - c.1), sq_nonneg (x.2 - c.2)]
    exact Prod.ext (by linarith) (by linarith)
  constructor
  · rintro ⟨t, ht, rfl⟩
    constructor
    · simp only [cross, Prod.fst_sub, Prod.snd_sub, Prod.fst_add, Prod.snd_add, Prod.smul_fst, Prod.smul_snd, smul_eq_mul]; ring
    · have : dot (x - c) (c + t • (x - c) - c) = t * ((x.1 - c.1) ^ 2 + (x.2 - c.2) ^ 2) := by
        simp only [dot, Prod.fst_sub, Prod.snd_sub, Prod.fst_add, Prod.snd_add, Prod.smul_fst, Prod.smul_snd, smul_eq_mul]; ring
      rw [this]; positivity
  · rintro ⟨h1, h2⟩
    refine ⟨dot (x - c) (p - c) / ((x.1 - c.1) ^ 2 + (x.2 - c.2) ^ 2), div_nonneg h2 hN.le, ?_⟩
    simp only [cross, dot, Prod.fst_sub, Prod.snd_sub] at h1 h2 ⊢
    ext
    · simp only [Prod.fst_add, Prod.smul_fst, Prod.fst_sub, smul_eq_mul]
      field_simp
      linear_combination (x.2 - c.2) * (-h1)
    · simp only [Prod.snd_add, Prod.smul_snd, Prod.snd_sub, smul_eq_mul]
      field_simp
      linear_combination (x.1 - c.1) * h1

/-- A compact set that is star-shaped about a neighbourhood of `c` is left once by every ray from `c`. -/
theorem star_body_ray {S : Set (Pt ℝ)} (hS : IsCompact S) {c : Pt ℝ} (hc : c ∈ interior (visKernel S)) {x : Pt ℝ} (hx : x ≠ c) :
    ∃ q, q ∈ frontier S ∧ OnRay c x q ∧ q ≠ c ∧ (∀ p ∈ S, OnRay c x p → OnSegment c q p) ∧
      ∀ p, OnSegment c q p → p ≠ q → p ∈ interior S := by
  have hcS : visKernel S ⊆ S := fun p hp => hp.1
  let Q : Set (Pt ℝ) := S ∩ {p | cross (x - c) (p - c) = 0 ∧ 0 ≤ dot (x - c) (p - c)}
  have hcl : IsClosed {p : Pt ℝ | cross (x - c) (p - c) = 0 ∧ 0 ≤ dot (x - c) (p - c)} := by
    have c1 : Continuous fun p : Pt ℝ => cross (x - c) (p - c) := by unfold cross; fun_prop
    have c2 : Continuous fun p : Pt ℝ => dot (x - c) (p - c) := by unfold dot; fun_prop
    exact (isClosed_eq c1 continuous_const).inter (isClosed_le continuous_const c2)
  have hQ : IsCompact Q := hS.inter_right hcl
  have hcQ : c ∈ Q := ⟨hcS (interior_subset hc), by simp [cross], by simp [dot]⟩
  have hN : 0 < dot (x - c) (x - c) := by
    have : 0 ≤ dot (x - c) (x - c) := by simp only [dot]; nlinarith [sq_nonneg (x - c).1, sq_nonneg (x - c).2]
    refine lt_of_le_of_ne this fun h => hx ?_
    simp only [dot, Prod.fst_sub, Prod.snd_sub] at h
    have a1 : x.1 - c.1 = 0 := by nlinarith [sq_nonneg (x.1 - c.1), sq_nonneg (x.2 - c.2)]
    have a2 : x.2 - c.2 = 0 := by nlinarith [sq_nonneg (x.1 - c.1), sq_nonneg (x.2 - c.2)]
    exact Prod.ext (by linarith) (by linarith)
  have hdot : ∀ t : ℝ, dot (x - c) (c + t • (x - c) - c) = t * dot (x - c) (x - c) := by
    intro t
    simp only [dot, Prod.fst_sub, Prod.snd_sub, Prod.fst_add, Prod.snd_add, Prod.smul_fst, Prod.smul_snd, smul_eq_mul]; ring
  obtain ⟨q, hq, hmax⟩ := hQ.exists_isMaxOn ⟨c, hcQ⟩ (f := fun p => dot (x - c) (p - c)) (by unfold dot; fun_prop)
  have hqray : OnRay c x q := (onRay_iff hx).2 hq.2
  obtain ⟨t, ht, hqt⟩ := hqray
  -- the set goes on beyond inner points
  have beyond : ∀ s : ℝ, 0 ≤ s → c + s • (x - c) ∈ interior S → s < t := by
    intro s hs hint
    let g : ℝ → Pt ℝ := fun r => c + r • (x - c)
    have hg : Continuous g := by fun_prop
    have hev : ∀ᶠ r in 𝓝[>] s, g r ∈ S := nhdsWithin_le_nhds
      (Filter.mem_of_superset ((isOpen_interior.preimage hg).mem_nhds hint) fun r (hr : g r ∈ interior S) => (interior_subset hr : g r ∈ S))
    obtain ⟨r, hr, hsr⟩ := (hev.and self_mem_nhdsWithin).exists
    have hsr : s < r := hsr
    have hrQ : g r ∈ Q := ⟨hr, (onRay_iff hx).1 ⟨r, by linarith, rfl⟩⟩
    have := hmax hrQ
    simp only [g, Set.mem_ofPred_eq] at this
    rw [hqt, hdot, hdot] at this
    have := le_of_mul_le_mul_right this hN
    linarith
  have ht0 : 0 < t := beyond 0 le_rfl (by rw [zero_smul, add_zero]; exact interior_mono hcS hc)
  have hqc : q ≠ c := by
    intro h
    rw [h] at hqt
    have : t • (x - c) = 0 := by
      have := congrArg (· - c) hqt
      simpa using this.symm
    rcases smul_eq_zero.1 this with h' | h'
    · exact ht0.ne' h'
    · exact hx (sub_eq_zero.1 h')
  refine ⟨q, ?_, ⟨t, ht, hqt⟩, hqc, ?_, ?_⟩
  · rw [hS.isClosed.frontier_eq]
    refine ⟨hq.1, fun h => ?_⟩
    rw [hqt] at h
    exact lt_irrefl _ (beyond t ht h)
  · intro p hp hray
    have hpQ : p ∈ Q := ⟨hp, (onRay_iff hx).1 hray⟩
    obtain ⟨s, hs, rfl⟩ := hray
    have := hmax hpQ
    simp only [Set.mem_ofPred_eq] at this
    rw [hqt, hdot, hdot] at this
    have := le_of_mul_le_mul_right this hN
    refine ⟨s / t, by positivity, (div_le_one ht0).2 this, ?_⟩
    rw [hqt, add_sub_cancel_left, smul_smul, div_mul_cancel₀ _ ht0.ne']
  · rintro p ⟨l, l0, l1, rfl⟩ hne
    have hl : l < 1 := by
      refine lt_of_le_of_ne l1 fun h => hne ?_
      rw [h, one_smul, add_sub_cancel]
    let g : Pt ℝ → Pt ℝ := fun z => (1 / (1 - l)) • (z - l • q)
    have hg : Continuous g := by fun_prop
    have h1l : 1 - l ≠ 0 := by linarith
    refine mem_interior.2 ⟨g ⁻¹' interior (visKernel S), ?_, isOpen_interior.preimage hg, ?_⟩
    · intro z hz
      refine (interior_subset hz).2 q hq.1 z ⟨l, l0, l1, ?_⟩
      have : g z + l • (q - g z) = (1 - l) • g z + l • q := by module
      rw [this]
      simp only [g]
      rw [smul_smul, mul_one_div_cancel h1l, one_smul, sub_add_cancel]
    · rw [Set.mem_preimage]
      have : g (c + l • (q - c)) = c := by
        simp only [g]
        rw [show c + l • (q - c) - l • q = (1 - l) • c by module, smul_smul, one_div_mul_cancel h1l, one_smul]
      rw [this]; exact hc

/-- What the parts cover. -/
def covered (c : Combination) (R : Member → Set (Pt ℝ)) (HR : Set (Pt ℝ)) : Set (Pt ℝ) := {p | (∃ o ∈ c.members, p ∈ R o) ∨ p ∈ HR}

theorem covered_compact {c : Combination} {R : Member → Set (Pt ℝ)} {HR : Set (Pt ℝ)} (hR : ∀ o ∈ c.members, IsCompact (R o))
    (hH : IsCompact HR) : IsCompact (covered c R HR) := by
  have e : covered c R HR = (⋃ o ∈ {o | o ∈ c.members}, R o) ∪ HR := by
    ext p; simp [covered]
  rw [e]
  exact ((List.finite_toSet c.members).isCompact_biUnion hR).union hH

/-- The border of what the parts cover consists of border points of the parts. -/
theorem covered_frontier {c : Combination} {R B : Member → Set (Pt ℝ)} {HR H : Set (Pt ℝ)} (hcl : IsClosed (covered c R HR))
    (hB : ∀ o ∈ c.members, frontier (R o) ⊆ B o) (hH : frontier HR ⊆ H) : frontier (covered c R HR) ⊆ allOf c B H := by
  intro p hp
  rw [hcl.frontier_eq] at hp
  have inner : ∀ T : Set (Pt ℝ), T ⊆ covered c R HR → p ∈ T → p ∈ frontier T := fun T hT hpT =>
    ⟨subset_closure hpT, fun h => hp.2 (interior_mono hT h)⟩
  rcases hp.1 with ⟨o, ho, h⟩ | h
  · exact Or.inl ⟨o, ho, hB o ho (inner (R o) (fun q hq => Or.inl ⟨o, ho, hq⟩) h)⟩
  · exact Or.inr (hH (inner HR (fun q hq => Or.inr hq) h))

theorem segment_len {c q p : Pt ℝ} (h : OnSegment c q p) (hq : q ≠ c) : len (p - c) ≤ len (q - c) ∧ (len (p - c) = len (q - c) ↔ p = q) := by
  obtain ⟨t, t0, t1, rfl⟩ := h
  have hl := len_pos_of_ne (sub_ne_zero.2 hq)
  rw [add_sub_cancel_left, len_smul_nonneg t0]
  refine ⟨by nlinarith, fun h => ?_, fun h => ?_⟩
  · have : t = 1 := by
      have : (t - 1) * len (q - c) = 0 := by linarith
      rcases mul_eq_zero.1 this with h' | h'
      · linarith
      · exact absurd h' hl.ne'
    rw [this, one_smul, add_sub_cancel]
  · rw [← len_smul_nonneg t0]
    congr 1
    rw [← add_sub_cancel_left c (t • (q - c)), h]

/-- C137, partial: `R o` is the region of the member `o`, with boundary `B o`, and `HR` that of the hull. If all points near the reference
point see all that the parts cover, then for all points that are not closer to the reference point than a tenth of the border,
`boundary_mapping` returns the only border point on the ray, `distance_function` is smaller than 1 exactly at the inner points and 1 exactly
at the border points, and both depend continuously on the point. Missing: points near the reference point, see `C137_near_false`. -/
theorem C137_partial (c : Combination) (R B : Member → Set (Pt ℝ)) (HR H : Set (Pt ℝ))
    (hR : ∀ o ∈ c.members, IsCompact (R o) ∧ B o ⊆ R o ∧ frontier (R o) ⊆ B o)
    (hH : IsCompact HR ∧ H ⊆ HR ∧ frontier HR ⊆ H) (hk : c.xr ∈ interior (visKernel (covered c R HR))) :
    ∃ (b : Pt ℝ → Pt ℝ) (D : Pt ℝ → ℝ), ContinuousOn b {x | x ≠ c.xr} ∧ ContinuousOn D {x | x ≠ c.xr} ∧
      ∀ x, x ≠ c.xr → c.xr + (10 : ℝ) • (x - c.xr) ∉ interior (covered c R HR) → Parts c B H (c.xr + (10 : ℝ) • (x - c.xr)) →
        c.boundaryMapping x = .ok (some (b x)) ∧ b x ∈ frontier (covered c R HR) ∧ OnRay c.xr x (b x) ∧
        (∀ q ∈ frontier (covered c R HR), OnRay c.xr x q → q = b x) ∧ c.distanceFunction x = .ok (D x) ∧
        (D x < 1 ↔ x ∈ interior (covered c R HR)) ∧ (D x = 1 ↔ x ∈ frontier (covered c R HR)) := by
  have hS := covered_compact (fun o ho => (hR o ho).1) hH.1
  have hfr := covered_frontier (B := B) (H := H) hS.isClosed (fun o ho => (hR o ho).2.2) hH.2.2
  have hsub : allOf c B H ⊆ covered c R HR := by
    rintro p (⟨o, ho, h⟩ | h)
    · exact Or.inl ⟨o, ho, (hR o ho).2.1 h⟩
    · exact Or.inr (hH.2.1 h)
  generalize covered c R HR = S at *
  have hex : ∀ x, ∃ q, x ≠ c.xr → q ∈ frontier S ∧ OnRay c.xr x q ∧ q ≠ c.xr ∧ (∀ p ∈ S, OnRay c.xr x p → OnSegment c.xr q p) ∧
      ∀ p, OnSegment c.xr q p → p ≠ q → p ∈ interior S := by
    intro x
    by_cases hx : x = c.xr
    · exact ⟨0, fun h => absurd hx h⟩
    · obtain ⟨q, h⟩ := star_body_ray hS hk hx
      exact ⟨q, fun _ => h⟩
  choose b hb using hex
  have huniq : ∀ x, x ≠ c.xr → ∀ q ∈ frontier S, OnRay c.xr x q → q = b x := by
    intro x hx q hq hray
    obtain ⟨-, -, -, h4, h5⟩ := hb x hx
    by_contra hne
    rw [hS.isClosed.frontier_eq] at hq
    exact hq.2 (h5 q (h4 q hq.1 hray) hne)
  have hcont : ContinuousOn b {x | x ≠ c.xr} :=
    ray_point_continuous (K := frontier S) (hS.of_isClosed_subset isClosed_frontier hS.isClosed.frontier_subset)
      fun x hx => ⟨(hb x hx).1, (hb x hx).2.1, huniq x hx⟩
  refine ⟨b, fun x => (len (x - c.xr) / len (b x - c.xr)) ^ 2, hcont, ?_, ?_⟩
  · have hlen : Continuous len := norm2_continuous
    refine ContinuousOn.pow (ContinuousOn.div ?_ ?_ fun x hx => (len_pos_of_ne (sub_ne_zero.2 (hb x hx).2.2.1)).ne') 2
    · exact (hlen.comp (by fun_prop)).continuousOn
    · exact hlen.comp_continuousOn (hcont.sub continuousOn_const)
  intro x hx hfar hparts
  simp only
  obtain ⟨h1, h2, h3, h4, h5⟩ := hb x hx
  obtain ⟨t, ht, et⟩ := h2
  have hseg : OnSegment c.xr (c.xr + (10 : ℝ) • (x - c.xr)) (b x) := by
    have ht10 : t ≤ 10 := by
      by_contra h
      push Not at h
      refine hfar (h5 _ ⟨10 / t, by positivity, (div_le_one (by linarith)).2 h.le, ?_⟩ ?_)
      · rw [et, add_sub_cancel_left, smul_smul, div_mul_cancel₀ _ (by linarith)]
      · rw [et]
        intro e
        have e' : ((10 : ℝ) - t) • (x - c.xr) = 0 := by
          have := congrArg (· - (c.xr + t • (x - c.xr))) e
          simp only [sub_self] at this
          rw [← this]; module
        rcases smul_eq_zero.1 e' with h' | h'
        · linarith
        · exact hx (sub_eq_zero.1 h')
    refine ⟨t / 10, by positivity, by linarith, ?_⟩
    rw [et, add_sub_cancel_left, smul_smul, div_mul_cancel₀ _ (by norm_num)]
  have hmap : c.boundaryMapping x = .ok (some (b x)) := by
    obtain ⟨r, hr, hnone, hsome⟩ := C43_farthest c B H x hparts
    cases r with
    | none => exact absurd hseg (hnone.1 rfl _ (hfr h1))
    | some p =>
      obtain ⟨p1, -, p3, p4⟩ := hsome p rfl
      have hps := h4 p (hsub p1) p3
      have hl := segment_len hps h3
      rw [hr, hl.2.1 (le_antisymm hl.1 (p4 _ (hfr h1) hseg))]
  have hlb := len_pos_of_ne (sub_ne_zero.2 h3)
  have hlx := len_pos_of_ne (sub_ne_zero.2 hx)
  have hray : OnRay c.xr x x := ⟨1, by norm_num, by rw [one_smul, add_sub_cancel]⟩
  -- the point on the segment
  have hxseg : len (x - c.xr) ≤ len (b x - c.xr) → OnSegment c.xr (b x) x := by
    intro hle
    have hlt : len (b x - c.xr) = t * len (x - c.xr) := by rw [et, add_sub_cancel_left, len_smul_nonneg ht]
    have ht1 : 1 ≤ t := by
      rw [hlt] at hle
      by_contra h
      push Not at h
      nlinarith
    refine ⟨1 / t, by positivity, (div_le_one (by linarith)).2 ht1, ?_⟩
    rw [et, add_sub_cancel_left, smul_smul, one_div_mul_cancel (by linarith), one_smul, add_sub_cancel]
  refine ⟨hmap, h1, ⟨t, ht, et⟩, huniq x hx, ?_, ?_, ?_⟩
  · simp only [Combination.distanceFunction, hmap, Bind.bind, Except.bind]
    rw [norm2_eq_len, norm2_eq_len, if_neg hlb.ne']
  · rw [sq_lt_one_iff₀ (by positivity), div_lt_one hlb]
    constructor
    · intro hlt
      refine h5 x (hxseg hlt.le) fun e => ?_
      rw [← e] at hlt
      exact lt_irrefl _ hlt
    · intro hint
      have hl := segment_len (h4 x (interior_subset hint) hray) h3
      refine lt_of_le_of_ne hl.1 fun e => ?_
      rw [hS.isClosed.frontier_eq, ← hl.2.1 e] at h1
      exact h1.2 hint
  · rw [pow_eq_one_iff_of_nonneg (by positivity) two_ne_zero, div_eq_one_iff_eq hlb.ne']
    constructor
    · intro e
      rw [(segment_len (hxseg e.le) h3).2.1 e]
      exact h1
    · intro hf
      exact congrArg (fun z => len (z - c.xr)) (huniq x hx x hf hray)

/-- If all points near `c` see all of each part, they see all that the parts cover. -/
theorem covered_kernel {c : Combination} {R : Member → Set (Pt ℝ)} {HR : Set (Pt ℝ)} {x : Pt ℝ} (hne : c.members ≠ [])
    (hR : ∀ o ∈ c.members, x ∈ interior (visKernel (R o))) (hH : HR = ∅ ∨ x ∈ interior (visKernel HR)) :
    x ∈ interior (visKernel (covered c R HR)) := by
  have h1 : ∀ᶠ p in 𝓝 x, ∀ o ∈ {o | o ∈ c.members}, p ∈ visKernel (R o) :=
    (Filter.eventually_all_finite (List.finite_toSet c.members)).2 fun o ho => mem_interior_iff_mem_nhds.1 (hR o ho)
  have h2 : ∀ᶠ p in 𝓝 x, HR = ∅ ∨ p ∈ visKernel HR := by
    rcases hH with h | h
    · exact Filter.Eventually.of_forall fun _ => Or.inl h
    · filter_upwards [mem_interior_iff_mem_nhds.1 h] with p hp using Or.inr hp
  rw [mem_interior_iff_mem_nhds]
  filter_upwards [h1, h2] with p hp hp'
  obtain ⟨o, l, e⟩ := List.exists_cons_of_ne_nil hne
  refine ⟨Or.inl ⟨o, by rw [e]; simp, (hp o (by rw [e]; simp)).1⟩, ?_⟩
  rintro q (⟨o', ho', hq⟩ | hq) r hr
  · exact Or.inl ⟨o', ho', (hp o' ho').2 q hq r hr⟩
  · rcases hp' with h | h
    · rw [h] at hq; exact absurd hq (Set.notMem_empty _)
    · exact Or.inr (h.2 q hq r hr)

theorem frontier_ring (v : List (Pt ℝ)) : frontier (filled v) ⊆ {p | OnRing v p} := by
  intro p hp
  rw [(filled_closed v).frontier_eq] at hp
  rcases hp.1 with h | h
  · exact absurd (mem_interior.2 ⟨_, fun q hq => Or.inl hq, inside_open v, h⟩) hp.2
  · exact h

/-- C137 is false near the reference point: (1/20, 0) is an inner point of the square about the origin, all of which is visible from
near the origin, but `boundary_mapping` returns None and `distance_function` raises TypeError. -/
theorem C137_near_false : (0 : Pt ℝ) ∈ interior (visKernel (filled bigSquare)) ∧ ((1 / 20, 0) : Pt ℝ) ∈ interior (filled bigSquare) ∧
    oneSquare.boundaryMapping (1 / 20, 0) = .ok none ∧ oneSquare.distanceFunction (1 / 20, 0) = .error .typeError := by
  have hk := star_kernel_interior bigSquare_star
  refine ⟨hk, ?_, C43_near_false.1, C71_near_false⟩
  have hstar : StarAbout (1 / 20, 0) bigSquare := by
    refine left_star (star_simple bigSquare_star) fun i hi => ?_
    simp only [bigSquare, List.length_cons, List.length_nil] at hi
    interval_cases i <;> norm_num [bigSquare, corner, cross]
  exact interior_mono (fun p hp => hp.1) (star_kernel_interior hstar)

/-- A diamond that reaches out of the square. -/
noncomputable def bigDiamond : List (Pt ℝ) := [(3 / 2, 0), (0, 3 / 2), (-3 / 2, 0), (0, -3 / 2)]

theorem bigDiamond_star : StarAbout 0 bigDiamond := by
  have := starAbout_rat (c := 0) (v := [(3 / 2, 0), (0, 3 / 2), (-3 / 2, 0), (0, -3 / 2)]) (by decide +kernel)
  rw [show toReal 0 = (0 : Pt ℝ) by simp [toReal]] at this
  simpa [toReal, bigDiamond] using this

theorem bigDiamond_inner : ((1, 0) : Pt ℝ) ∈ interior (filled bigDiamond) := by
  have hstar : StarAbout (1, 0) bigDiamond := by
    refine left_star (star_simple bigDiamond_star) fun i hi => ?_
    simp only [bigDiamond, List.length_cons, List.length_nil] at hi
    interval_cases i <;> norm_num [bigDiamond, corner, cross]
  exact interior_mono (fun p hp => hp.1) (star_kernel_interior hstar)

theorem bigDiamond_ne_square : starMember bigSquare ≠ starMember bigDiamond := by
  intro h
  obtain ⟨L, h1, -, h3⟩ := starMember_crossings bigDiamond_star (10, 0)
  obtain ⟨L', k1, k2, -⟩ := starMember_crossings bigSquare_star (10, 0)
  rw [h, h1] at k1
  injection k1 with k1
  subst k1
  obtain ⟨p, hp, hl⟩ := h3 (3 / 2, 0) ⟨0, by simp [bigDiamond], 0, le_rfl, by norm_num, by simp [bigDiamond, corner]⟩
    ⟨3 / 20, by norm_num, by norm_num, by ext <;> simp; norm_num⟩
  obtain ⟨⟨t, t0, t1, e⟩, hr⟩ := k2 p hp
  have e1 : p = (t * 10, 0) := by rw [e]; ext <;> simp
  have ht : t * 10 = 1 := by
    rcases bigSquare_ring p hr with h | h
    · rw [e1, abs_of_nonneg (by positivity)] at h; exact h
    · rw [e1] at h; simp at h
  rw [e1, ht, sub_zero, sub_zero] at hl
  have l1 : len ((3 / 2, 0) : Pt ℝ) = 3 / 2 := by
    rw [len, normSq, show ((3 / 2 : ℝ)) ^ 2 + 0 ^ 2 = (3 / 2) ^ 2 by norm_num, sqrt_sq (by norm_num)]
  have l2 : len ((1, 0) : Pt ℝ) = 1 := by simp [len, normSq]
  rw [l1, l2] at hl
  norm_num at hl

/-- The diamond and the square together, a star with eight points: the hypotheses hold, and at (1, 0), on the side of the square and
inside of the diamond, the value is smaller than 1. -/
example : ∃ d, (⟨[starMember bigDiamond, starMember bigSquare], none, 0⟩ : Combination).distanceFunction (1, 0) = .ok d ∧ d < 1 := by
  classical
  set c : Combination := ⟨[starMember bigDiamond, starMember bigSquare], none, 0⟩ with hc
  let w : Member → List (Pt ℝ) := fun o => if o = starMember bigDiamond then bigDiamond else bigSquare
  have w1 : w (starMember bigDiamond) = bigDiamond := if_pos rfl
  have w2 : w (starMember bigSquare) = bigSquare := if_neg bigDiamond_ne_square
  have hmem : ∀ o ∈ c.members, StarAbout 0 (w o) ∧ o = starMember (w o) := by
    intro o ho
    simp only [hc, List.mem_cons, List.not_mem_nil, or_false] at ho
    rcases ho with rfl | rfl
    · rw [w1]; exact ⟨bigDiamond_star, rfl⟩
    · rw [w2]; exact ⟨bigSquare_star, rfl⟩
  have hin : ((1, 0) : Pt ℝ) ∈ interior (covered c (fun o => filled (w o)) ∅) := by
    refine interior_mono ?_ bigDiamond_inner
    intro p hp
    exact Or.inl ⟨starMember bigDiamond, by simp [hc], by simp only [w1]; exact hp⟩
  obtain ⟨b, D, -, -, h⟩ := C137_partial c (fun o => filled (w o)) (fun o => {p | OnRing (w o) p}) ∅ ∅
    (fun o ho => ⟨star_compact (hmem o ho).1, fun p hp => Or.inr hp, frontier_ring _⟩)
    ⟨isCompact_empty, subset_rfl, by simp⟩
    (covered_kernel (by simp [hc]) (fun o ho => star_kernel_interior (hmem o ho).1) (Or.inl rfl))
  have hout : c.xr + (10 : ℝ) • (((1, 0) : Pt ℝ) - c.xr) ∉ interior (covered c (fun o => filled (w o)) ∅) := by
    intro hint
    have hs : ∀ v : List (Pt ℝ), (∀ p ∈ v, |p.1| ≤ 3 / 2) → v ≠ [] → StarAbout 0 v → ((10, 0) : Pt ℝ) ∉ filled v := by
      intro v hv hne hst hf
      obtain ⟨q, hq, -, hqr, hseg⟩ := (star_body_ray (star_compact hst) (star_kernel_interior hst) (x := (10, 0)) (by simp)).imp
        fun q h => (⟨frontier_ring v h.1, h.2.1, h.2.2.1, h.2.2.2.1⟩ :
          OnRing v q ∧ OnRay 0 (10, 0) q ∧ q ≠ 0 ∧ ∀ p ∈ filled v, OnRay 0 (10, 0) p → OnSegment 0 q p)
      obtain ⟨s, s0, s1, es⟩ := hseg (10, 0) hf ⟨1, by norm_num, by simp⟩
      have hq1 : |q.1| ≤ 3 / 2 := by
        obtain ⟨i, hi, t, t0, t1, e⟩ := hq
        have hc1 : ∀ j, |(corner v j).1| ≤ 3 / 2 := by
          intro j
          have hj : j % v.length < v.length := Nat.mod_lt _ (by omega)
          have : corner v j = v[j % v.length] := by simp [corner, List.getElem?_eq_getElem hj]
          rw [this]; exact hv _ (List.getElem_mem hj)
        have a := abs_le.1 (hc1 i)
        have b := abs_le.1 (hc1 (i + 1))
        have e' : q.1 = (1 - t) * (corner v i).1 + t * (corner v (i + 1)).1 := by
          rw [e]; simp only [Prod.fst_add, Prod.smul_fst, Prod.fst_sub, smul_eq_mul]; ring
        rw [abs_le, e']
        constructor <;> nlinarith
      have := congrArg Prod.fst es
      simp only [Prod.smul_fst, smul_eq_mul, zero_add, sub_zero] at this
      have := abs_le.1 hq1
      nlinarith
    have e10 : c.xr + (10 : ℝ) • (((1, 0) : Pt ℝ) - c.xr) = (10, 0) := by simp [hc]
    rw [e10] at hint
    rcases interior_subset hint with ⟨o, ho, hp⟩ | hp
    · simp only [hc, List.mem_cons, List.not_mem_nil, or_false] at ho
      rcases ho with rfl | rfl
      · simp only [w1] at hp
        refine hs _ ?_ (by simp [bigDiamond]) bigDiamond_star hp
        intro p hp
        simp only [bigDiamond, List.mem_cons, List.not_mem_nil, or_false] at hp
        rcases hp with rfl | rfl | rfl | rfl <;> norm_num [abs_of_pos, abs_of_neg]
      · simp only [w2] at hp
        refine hs _ ?_ (by simp [bigSquare]) bigSquare_star hp
        intro p hp
        simp only [bigSquare, List.mem_cons, List.not_mem_nil, or_false] at hp
        rcases hp with rfl | rfl | rfl | rfl <;> norm_num [abs_of_pos, abs_of_neg]
    · exact hp
  have hparts : Parts c (fun o => {p | OnRing (w o) p}) ∅ (c.xr + (10 : ℝ) • (((1, 0) : Pt ℝ) - c.xr)) := by
    refine ⟨fun o ho => ?_, Or.inl ⟨rfl, rfl⟩⟩
    obtain ⟨h1, h2⟩ := hmem o ho
    obtain ⟨L, hL⟩ := starMember_crossings h1 (c.xr + (10 : ℝ) • (((1, 0) : Pt ℝ) - c.xr))
    rw [← h2] at hL
    exact ⟨L, hL⟩
  obtain ⟨-, -, -, -, h5, h6, -⟩ := h (1, 0) (by simp [hc]) hout hparts
  exact ⟨_, h5, h6.2 hin⟩

end Starworlds
