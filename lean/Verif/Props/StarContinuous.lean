import Verif.Props.KernelReference
import Mathlib.Topology.Order.IntermediateValue

/-! # C134: boundary_mapping and distance_function of a StarshapedPolygon are continuous -/

namespace Starworlds

open Real Spec Filter Topology

/-- A point of a compact set that is the only one on the ray through `x` depends continuously on `x`. -/
theorem ray_point_continuous {K : Set (Pt ℝ)} (hK : IsCompact K) {c : Pt ℝ} {B : Pt ℝ → Pt ℝ}
    (hB : ∀ x, x ≠ c → B x ∈ K ∧ OnRay c x (B x) ∧ ∀ q ∈ K, OnRay c x q → q = B x) : ContinuousOn B {x | x ≠ c} := by
  intro x0 hx0
  refine ContinuousAt.continuousWithinAt ?_
  have hopen : ∀ᶠ x in 𝓝 x0, x ≠ c := isOpen_ne.mem_nhds hx0
  rw [continuousAt_iff_ultrafilter]
  intro g hg
  have hev : ∀ᶠ x in (g : Filter (Pt ℝ)), x ≠ c := hg hopen
  have hKg : (Ultrafilter.map B g : Filter (Pt ℝ)) ≤ 𝓟 K := by
    rw [le_principal_iff]
    exact hev.mono fun x hx => (hB x hx).1
  obtain ⟨q, hq, hlim⟩ := hK.ultrafilter_le_nhds _ hKg
  have hlim' : Tendsto B g (𝓝 q) := hlim
  have hid : Tendsto (fun x => x) (g : Filter (Pt ℝ)) (𝓝 x0) := hg
  -- the limit is on the ray
  have h1 : cross (x0 - c) (q - c) = 0 := by
    have ht : Tendsto (fun x => cross (x - c) (B x - c)) g (𝓝 (cross (x0 - c) (q - c))) := by
      have : Continuous fun p : Pt ℝ × Pt ℝ => cross (p.1 - c) (p.2 - c) := by unfold cross; fun_prop
      exact (this.tendsto (x0, q)).comp (hid.prodMk_nhds hlim')
    refine tendsto_nhds_unique ht (tendsto_const_nhds.congr' ?_)
    filter_upwards [hev] with x hx
    obtain ⟨t, -, e⟩ := (hB x hx).2.1
    rw [e]; simp only [cross, Prod.fst_sub, Prod.snd_sub, Prod.fst_add, Prod.snd_add, Prod.smul_fst, Prod.smul_snd, smul_eq_mul]; ring
  have h2 : 0 ≤ dot (x0 - c) (q - c) := by
    have ht : Tendsto (fun x => dot (x - c) (B x - c)) g (𝓝 (dot (x0 - c) (q - c))) := by
      have : Continuous fun p : Pt ℝ × Pt ℝ => dot (p.1 - c) (p.2 - c) := by unfold dot; fun_prop
      exact (this.tendsto (x0, q)).comp (hid.prodMk_nhds hlim')
    refine ge_of_tendsto ht ?_
    filter_upwards [hev] with x hx
    obtain ⟨t, ht0, e⟩ := (hB x hx).2.1
    have : dot (x - c) (B x - c) = t * ((x.1 - c.1) ^ 2 + (x.2 - c.2) ^ 2) := by
      rw [e]; simp only [dot, Prod.fst_sub, Prod.snd_sub, Prod.fst_add, Prod.snd_add, Prod.smul_fst, Prod.smul_snd, smul_eq_mul]; ring
    rw [this]; positivity
  have hN : 0 < (x0.1 - c.1) ^ 2 + (x0.2 - c.2) ^ 2 := by
    by_contra h
    apply hx0
    have a1 : x0.1 - c.1 = 0 := by nlinarith [sq_nonneg (x0.1 - c.1), sq_nonneg (x0.2 - c.2)]
    have a2 : x0.2 - c.2 = 0 := by nlinarith [sq_nonneg (x0.1 - c.1), sq_nonneg (x0.2 - c.2)]
    exact Prod.ext (by linarith) (by linarith)
  have hray : OnRay c x0 q := by
    refine ⟨dot (x0 - c) (q - c) / ((x0.1 - c.1) ^ 2 + (x0.2 - c.2) ^ 2), div_nonneg h2 hN.le, ?_⟩
    simp only [cross, dot, Prod.fst_sub, Prod.snd_sub] at h1 h2 ⊢
    ext
    · simp only [Prod.fst_add, Prod.smul_fst, Prod.fst_sub, smul_eq_mul]
      field_simp
      linear_combination (x0.2 - c.2) * (-h1)
    · simp only [Prod.snd_add, Prod.smul_snd, Prod.snd_sub, smul_eq_mul]
      field_simp
      linear_combination (x0.1 - c.1) * h1
  rw [← (hB x0 hx0).2.2 q hq hray]
  exact hlim'

theorem norm2_continuous : Continuous norm2 := by
  unfold norm2; fun_prop

/-- C134, partial: for a polygon whose ring does not cross itself and a reference point inside its kernel, `boundary_mapping` and
`distance_function` are continuous functions of the point, except at the reference point, where the distance function has the limit 0.
Missing: reference points on the border of the kernel, see `C134_false`. -/
theorem C134_partial (argsort : List ℝ → List Nat) (ha : IsArgsort argsort) (mm : Option Pose) {v : List (Pt ℝ)} (hv : SimpleRing v)
    (xr : Pt ℝ) (ops : List StarOp) (s : StarPoly) (hs : s = (StarPoly.make argsort mm (orientRing v) xr).run argsort ops)
    (hk : s.xr ∈ interior (visKernel (filled v))) (ix : Pt ℝ → Pt ℝ → Geom) (hix : ∀ b, GeomIs (ix s.xr b) (hits s.ring s.xr b)) :
    ∃ (B : Pt ℝ → Pt ℝ) (D : Pt ℝ → ℝ), ContinuousOn B {x | x ≠ s.xr} ∧ ContinuousOn D {x | x ≠ s.xr} ∧
      Tendsto D (𝓝[≠] s.xr) (𝓝 0) ∧ ∀ x, x ≠ s.xr → ∀ f g : Frame, f.Valid → g.Valid →
        s.boundaryMapping ix (inFrame s.mm f x) f g = .ok (some (inFrame s.mm g (B x))) ∧
        s.distanceFunction ix (inFrame s.mm f x) f = .ok (D x) := by
  have main : ∀ x, x ≠ s.xr → ∃ q, OnRing v q ∧ OnRay s.xr x q ∧ (∀ q', OnRing v q' → OnRay s.xr x q' → q' = q) ∧
      ∀ f g : Frame, f.Valid → g.Valid → s.boundaryMapping ix (inFrame s.mm f x) f g = .ok (some (inFrame s.mm g q)) := by
    intro x hx
    obtain ⟨-, ⟨q, h1, h2, h3, -⟩, -⟩ := C133_partial argsort ha mm hv xr ops s hs hk ix hix .global .global (.inl rfl) (.inl rfl) x hx
    refine ⟨q, h1, h2, h3, fun f g hf hg => ?_⟩
    obtain ⟨-, ⟨q', h1', h2', -, h4'⟩, -⟩ := C133_partial argsort ha mm hv xr ops s hs hk ix hix f g hf hg x hx
    rw [← h3 q' h1' h2']
    exact h4'
  choose! B hB using main
  have hBc : ContinuousOn B {x | x ≠ s.xr} :=
    ray_point_continuous (ring_compact v) fun x hx => ⟨(hB x hx).1, (hB x hx).2.1, fun q h1 h2 => (hB x hx).2.2.1 q h1 h2⟩
  have hoff : ¬ OnRing v s.xr := by
    intro h
    have := star_orient hv hk
    obtain ⟨r, hr, hq⟩ := star_exists this 0
    have h0 : OnRing (orientRing v) (polar s.xr 0 0) := by
      rw [onRing_orient]; simpa [polar] using h
    have := star_unique this le_rfl hr.le h0 hq
    linarith
  -- the ring is not near to the reference point
  obtain ⟨δ, hδ, hfar⟩ : ∃ δ > 0, ∀ q, OnRing v q → δ ≤ norm2 (q - s.xr) := by
    obtain ⟨q0, hq0⟩ : ({p | OnRing v p} : Set (Pt ℝ)).Nonempty := by
      obtain ⟨r, hr, hq⟩ := star_exists (star_orient hv hk) 0
      exact ⟨_, (onRing_orient v _).1 hq⟩
    obtain ⟨q1, hq1, hmin⟩ := (ring_compact v).exists_isMinOn ⟨q0, hq0⟩
      ((norm2_continuous.comp (continuous_id.sub continuous_const)).continuousOn (s := {p | OnRing v p}) (f := fun q => norm2 (q - s.xr)))
    refine ⟨norm2 (q1 - s.xr), ?_, fun q hq => hmin hq⟩
    have h0 : 0 ≤ norm2 (q1 - s.xr) := by rw [norm2]; positivity
    refine lt_of_le_of_ne h0 fun h => hoff ?_
    have hz : q1 = s.xr := by
      have h' : (q1 - s.xr).1 ^ 2 + (q1 - s.xr).2 ^ 2 = 0 := by
        rw [norm2] at h
        exact (sqrt_eq_zero (by positivity)).1 h.symm
      simp only [Prod.fst_sub, Prod.snd_sub] at h'
      have a1 : q1.1 - s.xr.1 = 0 := by nlinarith [sq_nonneg (q1.1 - s.xr.1), sq_nonneg (q1.2 - s.xr.2)]
      have a2 : q1.2 - s.xr.2 = 0 := by nlinarith [sq_nonneg (q1.1 - s.xr.1), sq_nonneg (q1.2 - s.xr.2)]
      exact Prod.ext (by linarith) (by linarith)
    rw [← hz]; exact hq1
  set ρ : Pt ℝ → ℝ := fun x => norm2 (x - s.xr) with hρ
  set R : Pt ℝ → ℝ := fun x => norm2 (B x - s.xr) with hR
  have hRpos : ∀ x, x ≠ s.xr → δ ≤ R x := fun x hx => hfar _ (hB x hx).1
  have hρc : Continuous ρ := norm2_continuous.comp (continuous_id.sub continuous_const)
  have hRc : ContinuousOn R {x | x ≠ s.xr} :=
    norm2_continuous.comp_continuousOn (hBc.sub continuousOn_const)
  have hρ0 : ∀ x, 0 ≤ ρ x := fun x => by simp only [hρ, norm2]; positivity
  refine ⟨B, fun x => (min (ρ x / R x) 1 + max (ρ x - R x) 0) ^ 2, hBc, ?_, ?_, ?_⟩
  · refine ContinuousOn.pow (ContinuousOn.add ?_ ?_) 2
    · exact (hρc.continuousOn.div hRc fun x hx => by have := hRpos x hx; linarith).inf continuousOn_const
    · exact (hρc.continuousOn.sub hRc).sup continuousOn_const
  · -- near the reference point
    have hz : ρ s.xr = 0 := by simp [hρ, norm2]
    have hlim : Tendsto (fun x => (ρ x / δ) ^ 2) (𝓝[≠] s.xr) (𝓝 0) := by
      have : Continuous fun x => (ρ x / δ) ^ 2 := by fun_prop
      have := this.tendsto s.xr
      simp only [hz, zero_div] at this
      rw [show ((0 : ℝ) ^ 2) = 0 by norm_num] at this
      exact this.mono_left nhdsWithin_le_nhds
    refine tendsto_of_tendsto_of_tendsto_of_le_of_le' tendsto_const_nhds hlim (Eventually.of_forall fun x => by positivity) ?_
    have hsmall : ∀ᶠ x in 𝓝[≠] s.xr, ρ x < δ := by
      refine nhdsWithin_le_nhds (hρc.continuousAt.eventually (gt_mem_nhds ?_))
      rw [hz]; exact hδ
    filter_upwards [hsmall, self_mem_nhdsWithin] with x h1 hx
    have h2 := hRpos x hx
    have h3 : ρ x / R x ≤ ρ x / δ := div_le_div_of_nonneg_left (hρ0 x) hδ h2
    have h4 : 0 ≤ ρ x / R x := div_nonneg (hρ0 x) (by linarith)
    rw [max_eq_right (by linarith), add_zero]
    have h5 : min (ρ x / R x) 1 ≤ ρ x / δ := (min_le_left _ _).trans h3
    have h6 : 0 ≤ min (ρ x / R x) 1 := le_min h4 zero_le_one
    exact pow_le_pow_left₀ h6 h5 2
  · intro x hx f g hf hg
    obtain ⟨-, -, -, hb⟩ := hB x hx
    refine ⟨hb f g hf hg, ?_⟩
    have hbo := hb .obstacle .obstacle (.inr rfl) (.inr rfl)
    have e0 : ∀ p : Pt ℝ, inFrame s.mm .obstacle p = p := fun p => rfl
    rw [e0, e0] at hbo
    simp only [StarPoly.distanceFunction, transform_to_obstacle _ _ hf, Bind.bind, Except.bind, hbo]
    have hr := hRpos x hx
    change (if ρ x < R x then _ else _) = _
    split
    · rename_i hlt
      rw [min_eq_left ((div_lt_one (by linarith)).2 hlt).le, max_eq_right (by linarith), add_zero]
    · rename_i hge
      push Not at hge
      rw [min_eq_right ((one_le_div (by linarith)).2 hge), max_eq_left (by linarith)]
      congr 1; ring

/-- C134, partial, moving obstacles: while the obstacle moves and turns continuously and the point does too, without being at the
reference point, the value of `distance_function` changes continuously; if the point is inside of the polygon at the beginning and
outside at the end, it is on the boundary at some time, and the value is 1 then. -/
theorem C134_motion_partial (argsort : List ℝ → List Nat) (ha : IsArgsort argsort) (mm : Option Pose) {v : List (Pt ℝ)} (hv : SimpleRing v)
    (xr : Pt ℝ) (ops : List StarOp) (s : StarPoly) (hs : s = (StarPoly.make argsort mm (orientRing v) xr).run argsort ops)
    (hk : s.xr ∈ interior (visKernel (filled v))) (ix : Pt ℝ → Pt ℝ → Geom) (hix : ∀ b, GeomIs (ix s.xr b) (hits s.ring s.xr b))
    (P : ℝ → Pose) (hpos : Continuous fun t => (P t).pos) (hrot : Continuous fun t => (P t).rot) (y : ℝ → Pt ℝ) (hy : Continuous y)
    (hne : ∀ t, 0 ≤ t → t ≤ 1 → y t ≠ worldOf (some (P t)) s.xr) :
    ∃ d : ℝ → ℝ, ContinuousOn d (Set.Icc 0 1) ∧
      (∀ t, 0 ≤ t → t ≤ 1 → ({ s with mm := some (P t) } : StarPoly).distanceFunction ix (y t) .global = .ok (d t)) ∧
      ∀ p q, y 0 = worldOf (some (P 0)) p → y 1 = worldOf (some (P 1)) q → Inside v p → ¬ Inside v q →
        ∃ t, 0 ≤ t ∧ t ≤ 1 ∧ d t = 1 ∧ ∃ r, OnRing v r ∧ y t = worldOf (some (P t)) r := by
  obtain ⟨B, D, -, hD, -, hval⟩ := C134_partial argsort ha mm hv xr ops s hs hk ix hix
  -- the point as seen from the obstacle
  set x : ℝ → Pt ℝ := fun t => (cos (P t).rot * ((y t).1 - (P t).pos.1) + sin (P t).rot * ((y t).2 - (P t).pos.2),
    -sin (P t).rot * ((y t).1 - (P t).pos.1) + cos (P t).rot * ((y t).2 - (P t).pos.2)) with hx
  have hxc : Continuous x := by fun_prop
  have hw : ∀ t, worldOf (some (P t)) (x t) = y t := by
    intro t
    have := sin_sq_add_cos_sq (P t).rot
    ext
    · simp only [worldOf, hx]; linear_combination ((y t).1 - (P t).pos.1) * this
    · simp only [worldOf, hx]; linear_combination ((y t).2 - (P t).pos.2) * this
  have hxr : ∀ t, 0 ≤ t → t ≤ 1 → x t ≠ s.xr := fun t h0 h1 h => hne t h0 h1 (by rw [← h, hw])
  have hinj : ∀ t p, y t = worldOf (some (P t)) p → p = x t := by
    intro t p hp
    have := sin_sq_add_cos_sq (P t).rot
    ext
    · simp only [hx, hp, worldOf]; linear_combination -p.1 * this
    · simp only [hx, hp, worldOf]; linear_combination -p.2 * this
  have hDx : ContinuousOn (fun t => D (x t)) (Set.Icc 0 1) :=
    hD.comp hxc.continuousOn fun t ht => hxr t ht.1 ht.2
  refine ⟨fun t => D (x t), hDx, fun t h0 h1 => ?_, ?_⟩
  · have e1 := (C116_star { s with mm := some (P t) } ix (f := .global) (g := .global) (.inl rfl) (.inl rfl) (x t)).2.2.1
    have e2 := (C116_star s ix (f := .global) (g := .global) (.inl rfl) (.inl rfl) (x t)).2.2.1
    rw [(hval (x t) (hxr t h0 h1) .global .global (.inl rfl) (.inl rfl)).2] at e2
    have e3 : inFrame (some (P t)) .global (x t) = y t := hw t
    simp only [e3] at e1
    rw [e1]
    exact e2.symm
  · intro p q hp hq hin hout
    have cl : ∀ t, 0 ≤ t → t ≤ 1 → (D (x t) < 1 ↔ Inside v (x t)) ∧ (D (x t) = 1 ↔ OnRing v (x t)) := by
      intro t h0 h1
      obtain ⟨⟨d, a1, a2, a3⟩, -⟩ := C133_partial argsort ha mm hv xr ops s hs hk ix hix .global .global (.inl rfl) (.inl rfl) (x t)
        (hxr t h0 h1)
      rw [(hval (x t) (hxr t h0 h1) .global .global (.inl rfl) (.inl rfl)).2] at a1
      rw [Except.ok.inj a1]
      exact ⟨a2, a3⟩
    rw [hinj 0 p hp, ← (cl 0 le_rfl zero_le_one).1] at hin
    rw [hinj 1 q hq, ← (cl 1 zero_le_one le_rfl).1, not_lt] at hout
    obtain ⟨t, ht, e⟩ := intermediate_value_Icc zero_le_one hDx ⟨hin.le, hout⟩
    exact ⟨t, ht.1, ht.2, e, x t, (cl t ht.1 ht.2).2.1 e, (hw t).symm⟩

/-- C134 is false for reference points on the border of the kernel: with the reference point in the middle of the left side of the unit
square the value jumps from 9/4 to 1/4 at the centre of the square. -/
theorem C134_false (argsort : List ℝ → List Nat) (ix : Pt ℝ → Pt ℝ → Geom)
    (hix : ∀ b, GeomIs (ix (0, 1 / 2) b) (hits unitSquare (0, 1 / 2) b)) :
    ((0, 1 / 2) : Pt ℝ) ∈ visKernel (filled unitSquare) ∧
      ¬ ∃ D : Pt ℝ → ℝ, ContinuousAt D (1 / 2, 1 / 2) ∧ ∀ c : ℝ, 0 < c → c < 1 →
        (StarPoly.make argsort none unitSquare (0, 1 / 2)).distanceFunction ix (c, 1 / 2) .global = .ok (D (c, 1 / 2)) := by
  refine ⟨(C133_border_false argsort ix hix).2.1, ?_⟩
  rintro ⟨D, hD, hval⟩
  set s := StarPoly.make argsort none unitSquare (0, 1 / 2) with hs
  have hs1 : s.mm = none := rfl
  have hs2 : s.xr = (0, 1 / 2) := rfl
  have nrm : ∀ c : ℝ, 0 ≤ c → norm2 ((c, 1 / 2) - (0, 1 / 2) : Pt ℝ) = c := by
    intro c hc
    rw [norm2, show ((c, 1 / 2) - (0, 1 / 2) : Pt ℝ).1 ^ 2 + ((c, 1 / 2) - (0, 1 / 2) : Pt ℝ).2 ^ 2 = c ^ 2 by simp, sqrt_sq hc]
  have left : ∀ c : ℝ, 0 < c → c < 1 / 2 → D (c, 1 / 2) = (c + 1) ^ 2 := by
    intro c h0 h1
    have h := hval c h0 (by linarith)
    have call := square_call argsort ix hix h0 h1.ne
    rw [if_pos h1, ← hs] at call
    simp only [StarPoly.distanceFunction, hs1, hs2, transform, Bind.bind, Except.bind, call, nrm c h0.le, nrm 0 le_rfl] at h
    rw [if_neg (by linarith)] at h
    rw [← Except.ok.inj h]; ring
  have right : ∀ c : ℝ, 1 / 2 < c → c < 1 → D (c, 1 / 2) = c ^ 2 := by
    intro c h0 h1
    have h := hval c (by linarith) h1
    have call := square_call argsort ix hix (by linarith) h0.ne'
    rw [if_neg (by linarith), ← hs] at call
    simp only [StarPoly.distanceFunction, hs1, hs2, transform, Bind.bind, Except.bind, call, nrm c (by linarith), nrm 1 zero_le_one] at h
    rw [if_pos h1] at h
    rw [← Except.ok.inj h]; ring
  have hg : ContinuousAt (fun c : ℝ => D (c, 1 / 2)) (1 / 2) :=
    ContinuousAt.comp (f := fun c : ℝ => ((c, 1 / 2) : Pt ℝ)) hD (by fun_prop)
  obtain ⟨ε, hε, hclose⟩ := Metric.continuousAt_iff.1 hg (1 / 2) (by norm_num)
  set η := min (ε / 2) (1 / 4) with hη
  have hη0 : 0 < η := lt_min (by linarith) (by norm_num)
  have hη1 : η ≤ 1 / 4 := min_le_right _ _
  have hη2 : η < ε := lt_of_le_of_lt (min_le_left _ _) (by linarith)
  have a1 := hclose (x := 1 / 2 - η) (by rw [Real.dist_eq, show 1 / 2 - η - 1 / 2 = -η by ring, abs_neg, abs_of_pos hη0]; exact hη2)
  have a2 := hclose (x := 1 / 2 + η) (by rw [Real.dist_eq, show 1 / 2 + η - 1 / 2 = η by ring, abs_of_pos hη0]; exact hη2)
  rw [left _ (by linarith) (by linarith), Real.dist_eq, abs_lt] at a1
  rw [right _ (by linarith) (by linarith), Real.dist_eq, abs_lt] at a2
  nlinarith

/-- A robot that is at (1/2, 3/4) in the L, and at (3, 3) a while later, has been on its boundary, however the L has moved, as long as
it has not been at the reference point. -/
example (argsort : List ℝ → List Nat) (ha : IsArgsort argsort) (s : StarPoly)
    (hs : s = StarPoly.make argsort none (orientRing (lQ.map toReal)) (1 / 2, 1 / 2)) (ix : Pt ℝ → Pt ℝ → Geom)
    (hix : ∀ b, GeomIs (ix s.xr b) (hits s.ring s.xr b)) (P : ℝ → Pose) (hpos : Continuous fun t => (P t).pos)
    (hrot : Continuous fun t => (P t).rot) (y : ℝ → Pt ℝ) (hy : Continuous y)
    (hne : ∀ t, 0 ≤ t → t ≤ 1 → y t ≠ worldOf (some (P t)) (1 / 2, 1 / 2)) (h0 : y 0 = worldOf (some (P 0)) (1 / 2, 3 / 4))
    (h1 : y 1 = worldOf (some (P 1)) (3, 3)) :
    ∃ t, 0 ≤ t ∧ t ≤ 1 ∧ ({ s with mm := some (P t) } : StarPoly).distanceFunction ix (y t) .global = .ok 1 := by
  have hxr : s.xr = (1 / 2, 1 / 2) := by rw [hs]; rfl
  obtain ⟨d, -, h2, h3⟩ := C134_motion_partial argsort ha none lQ_simple (1 / 2, 1 / 2) [] s hs
    (by rw [hxr]; exact star_kernel_interior lQ_star) ix hix P hpos hrot y hy (by rw [hxr]; exact hne)
  have hoff : ∀ p : Pt ℝ, p = (1 / 2, 3 / 4) ∨ p = (3, 3) → ¬ OnRing (lQ.map toReal) p := by
    rintro p hp ⟨i, hi, t, h0, h1, h⟩
    rw [lQ_corners] at hi h
    simp only [List.length_cons, List.length_nil] at hi
    rcases hp with rfl | rfl <;> interval_cases i <;> norm_num [corner, Prod.ext_iff] at h
  have hin : Inside (lQ.map toReal) (1 / 2, 3 / 4) := by
    rw [inside_filled]
    refine ⟨?_, hoff _ (.inl rfl)⟩
    have := (filledB_iff lQ (1 / 2, 3 / 4)).1 (by decide +kernel)
    norm_num [toReal] at this
    norm_num [toReal]
    exact this
  have hout : ¬ Inside (lQ.map toReal) (3, 3) := by
    rw [inside_filled]
    rintro ⟨h, -⟩
    have e : toReal (3, 3) = (3, 3) := by norm_num [toReal]
    rw [← e, ← filledB_iff] at h
    revert h
    decide +kernel
  obtain ⟨t, t0, t1, e, -⟩ := h3 _ _ h0 h1 hin hout
  exact ⟨t, t0, t1, by rw [h2 t t0 t1, e]⟩

end Starworlds
