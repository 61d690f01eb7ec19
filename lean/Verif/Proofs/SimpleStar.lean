import Verif.Proofs.WindingSimple
import Verif.Proofs.Winding
import Verif.Proofs.StarMove
import Verif.Proofs.SimpleRing
import Verif.Proofs.FilledRing

/-! # Simple polygons with a point that sees all of them -/

namespace Starworlds

open Spec MeasureTheory Topology

/-! ## Points to the left of all edges -/

theorem list_sum_range (f : ℕ → ℤ) (n : ℕ) : ((List.range n).map f).sum = ∑ i ∈ Finset.range n, f i := by
  induction n with
  | zero => simp
  | succ n ih => rw [List.sum_range_succ, Finset.sum_range_succ, ih]

theorem windOf_winding (v : List (Pt ℝ)) (p : Pt ℝ) : windOf (edgesOf (ringOf v)) p = windingNumber v p := by
  rw [edges_ring, windOf, List.map_map, windingNumber, ← list_sum_range]
  congr 2
  funext i
  simp only [Function.comp, crossing, signedCross, sub_nonpos, sub_pos]

theorem turnAt_step {a b c : Pt ℝ} (h : 0 < cross (a - c) (b - c)) : turnAt c a b = stepAngle (a - c) (b - c) := by
  obtain ⟨ha, hb⟩ := len_pos_of_cross h
  have hn : 0 < (a - c).1 ^ 2 + (a - c).2 ^ 2 := by
    have := len_sq (a - c)
    have h2 := pow_pos ha 2
    rw [this] at h2
    simp only [dot] at h2
    nlinarith
  unfold turnAt stepAngle
  have him : 0 < (cz (b - c) / cz (a - c)).im := by rw [cz_div_im]; exact div_pos h hn
  rw [Complex.arg_of_im_pos him, cz_div_re, norm_div]
  have hnorm : ∀ u : Pt ℝ, ‖cz u‖ = len u := by
    intro u
    rw [Complex.norm_def, Complex.normSq_apply]
    unfold len normSq cz
    congr 1
    ring
  rw [hnorm, hnorm]
  congr 1
  have h1 : (a - c).1 ^ 2 + (a - c).2 ^ 2 = len (a - c) ^ 2 := by rw [len_sq]; simp only [dot]; ring
  rw [h1]
  simp only [dot]
  field_simp

/-- A simple ring is star-shaped about every point to the left of all edges. -/
theorem left_star {v : List (Pt ℝ)} (h : SimpleRing v) {c : Pt ℝ}
    (hpos : ∀ i < v.length, 0 < cross (corner v i - c) (corner v (i + 1) - c)) : StarAbout c v := by
  have hv : 0 < v.length := by have := h.1; omega
  have hoff : ¬ OnRing v c := by
    rintro ⟨i, hi, hs⟩
    have := hpos i hi
    have h0 := line_of_segment hs
    have e : cross (corner v i - c) (corner v (i + 1) - c) = - cross (corner v (i + 1) - c) (corner v i - c) := by
      simp only [cross]; ring
    rw [e, h0] at this
    simp at this
  have hsum : ∀ n ≤ v.length, turning c v n = ∑ i ∈ Finset.range n, turnAt c (corner v i) (corner v (i + 1)) := by
    intro n hn
    induction n with
    | zero => simp [turning]
    | succ n ih => rw [turning, Finset.sum_range_succ, ih (by omega), turnAt_step (hpos n (by omega))]
  have hturn : turning c v v.length = 2 * Real.pi * windingNumber v c := by
    rw [hsum _ le_rfl, ← ringTurn_eq hoff, ringTurn]
  have hpos' : 0 < turning c v v.length := by
    rw [hsum _ le_rfl]
    refine Finset.sum_pos (fun i hi => ?_) ⟨0, Finset.mem_range.2 hv⟩
    have hc := hpos i (Finset.mem_range.1 hi)
    rw [turnAt_step hc]
    exact (stepAngle_spec hc).1
  obtain ⟨s, hs, hval⟩ := wind_simple h
  have hw := hval c hoff
  rw [windOf_winding] at hw
  have hw0 : 0 < windingNumber v c := by
    rw [hturn] at hpos'
    by_contra hle
    push Not at hle
    have : (windingNumber v c : ℝ) ≤ 0 := by exact_mod_cast hle
    nlinarith [Real.pi_pos]
  refine starAbout_of_turning hv hpos ?_
  have : windingNumber v c = 1 := by omega
  rw [hturn, this]; simp

/-! ## Reversed rings -/

theorem simple_of_cyclic {v : List (Pt ℝ)} (h3 : 3 ≤ v.length) (h : ∀ i < v.length, ∀ j < v.length, i ≠ j → ∀ p,
    OnSegment (corner v i) (corner v (i + 1)) p → OnSegment (corner v j) (corner v (j + 1)) p →
    (Nx v.length i j ∧ p = corner v j) ∨ (Nx v.length j i ∧ p = corner v i)) : SimpleRing v := by
  refine ⟨h3, fun i j hij hj p h1 h2 => ?_⟩
  rcases h i (by omega) j hj (by omega) p h1 h2 with ⟨a, b⟩ | ⟨a, b⟩
  · exact Or.inl ⟨by unfold Nx at a; omega, b⟩
  · have : i = 0 ∧ j + 1 = v.length := by unfold Nx at a; omega
    exact Or.inr ⟨this.1, this.2, by rw [b, this.1]⟩

/-- Edge `i` of the reversed ring is an edge of the ring, read backwards. -/
theorem edge_reverse (v : List (Pt ℝ)) {i : ℕ} (hi : i < v.length) : ∃ m < v.length, (m + i + 2 = v.length ∨ m + i + 2 = 2 * v.length) ∧
    corner v.reverse i = corner v (m + 1) ∧ corner v.reverse (i + 1) = corner v m := by
  have hpos : 0 < v.length := by omega
  have hmod : ∀ i, corner v (i + v.length) = corner v i := by intro i; simp [corner]
  rw [corner_reverse v hi.le hpos, corner_reverse v (by omega) hpos]
  by_cases hl : i + 1 = v.length
  · refine ⟨v.length - 1, by omega, by omega, ?_, ?_⟩
    · congr 1; omega
    · congr 1; omega
  · refine ⟨v.length - 2 - i, by omega, by omega, ?_, ?_⟩
    · rw [← hmod (v.length - 2 - i + 1)]; congr 1; omega
    · rw [← hmod (v.length - 2 - i)]; congr 1; omega

theorem simple_reverse {v : List (Pt ℝ)} (h : SimpleRing v) : SimpleRing v.reverse := by
  refine simple_of_cyclic (by simpa using h.1) fun i hi j hj hij p h1 h2 => ?_
  rw [List.length_reverse] at *
  obtain ⟨m, hm, em, a1, a2⟩ := edge_reverse v hi
  obtain ⟨l, hl, el, b1, b2⟩ := edge_reverse v hj
  have h3 := h.1
  rw [a1, a2] at h1
  rw [b1, b2] at h2
  rcases simple_cyclic h hm hl (by omega) (onSegment_swap.1 h1) (onSegment_swap.1 h2) with ⟨c1, c2⟩ | ⟨c1, c2⟩
  · right
    refine ⟨by unfold Nx at *; omega, ?_⟩
    rw [a1, corner_nx c1]; exact c2
  · left
    refine ⟨by unfold Nx at *; omega, ?_⟩
    rw [b1, corner_nx c1]; exact c2

theorem right_star {v : List (Pt ℝ)} (h : SimpleRing v) {c : Pt ℝ}
    (hneg : ∀ i < v.length, cross (corner v i - c) (corner v (i + 1) - c) < 0) : StarAbout c v.reverse := by
  refine left_star (simple_reverse h) fun i hi => ?_
  rw [List.length_reverse] at hi
  obtain ⟨m, hm, -, a1, a2⟩ := edge_reverse v hi
  rw [a1, a2]
  have := hneg m hm
  simp only [cross] at this ⊢
  linarith

/-! ## The sides of an edge -/

theorem corner_ne {v : List (Pt ℝ)} (h : SimpleRing v) (hne : ¬ ∀ i < v.length, ∀ j < v.length, corner v i = corner v j)
    {i : ℕ} (hi : i < v.length) : corner v i ≠ corner v (i + 1) := by
  have h3 := h.1
  obtain ⟨j, hj, hnj⟩ : ∃ j < v.length, Nx v.length i j := by
    by_cases hl : i + 1 = v.length
    · exact ⟨0, by omega, Or.inr ⟨rfl, hl⟩⟩
    · exact ⟨i + 1, by omega, Or.inl rfl⟩
  obtain ⟨i', hi', hn'⟩ := nx_exists hi
  rw [corner_nx hnj]
  intro heq
  refine corner_edges h hne hi' hi hj hn' ?_ ?_ (heq ▸ seg_start _ _)
  · unfold Nx at *; omega
  · unfold Nx at *; omega

theorem seg_closed (a b : Pt ℝ) : IsClosed {p | OnSegment a b p} := by
  rw [seg_eq, segment_eq_image']
  exact (isCompact_Icc.image (by fun_prop)).isClosed

/-- Close to an inner point of an edge the ring is the edge, with values that differ by 1 on the two sides. -/
theorem edge_side {v : List (Pt ℝ)} (h : SimpleRing v) (hne : ¬ ∀ i < v.length, ∀ j < v.length, corner v i = corner v j)
    {i : ℕ} (hi : i < v.length) {t : ℝ} (ht0 : 0 < t) (ht1 : t < 1) : ∃ k : ℤ, ∀ᶠ p in 𝓝 (corner v i + t • (corner v (i + 1) - corner v i)),
      (0 < cross (corner v (i + 1) - corner v i) (p - corner v i) → ¬ OnRing v p ∧ windOf (edgesOf (ringOf v)) p = k + 1) ∧
      (cross (corner v (i + 1) - corner v i) (p - corner v i) < 0 → ¬ OnRing v p ∧ windOf (edgesOf (ringOf v)) p = k) := by
  have hab := corner_ne h hne hi
  obtain ⟨F, hF, hFe⟩ := edges_out v hi
  set x := corner v i + t • (corner v (i + 1) - corner v i) with hx
  have hxs : OnSegment (corner v i) (corner v (i + 1)) x := ⟨t, ht0.le, ht1.le, rfl⟩
  have hxa : x ≠ corner v i := by
    intro e
    have : t • (corner v (i + 1) - corner v i) = 0 := by simpa [hx] using e
    rcases smul_eq_zero.1 this with h' | h'
    · exact ht0.ne' h'
    · exact hab (sub_eq_zero.1 h').symm
  have hxb : x ≠ corner v (i + 1) := by
    intro e
    have : (1 - t) • (corner v (i + 1) - corner v i) = 0 := by
      have e2 : (1 - t) • (corner v (i + 1) - corner v i) = corner v (i + 1) - x := by rw [hx]; module
      rw [e2, e, sub_self]
    rcases smul_eq_zero.1 this with h' | h'
    · linarith
    · exact hab (sub_eq_zero.1 h').symm
  have hother : ∀ j < v.length, j ≠ i → ¬ OnSegment (corner v j) (corner v (j + 1)) x := by
    intro j hj hji hs
    rcases simple_cyclic h hi hj hji.symm hxs hs with ⟨hn, hp⟩ | ⟨_, hp⟩
    · exact hxb (by rw [corner_nx hn]; exact hp)
    · exact hxa hp
  have hcl := closed_perm hF (ring_closed v)
  have hw : ∀ p, windOf (edgesOf (ringOf v)) p = crossing (corner v i) (corner v (i + 1)) p + windOf F p := fun p => by
    rw [windOf_perm hF, windOf_cons]
  have hoff : ∀ᶠ p in 𝓝 x, ∀ j < v.length, j ≠ i → ¬ OnSegment (corner v j) (corner v (j + 1)) p := by
    have : ∀ᶠ p in 𝓝 x, ∀ j ∈ Finset.range v.length, j ≠ i → ¬ OnSegment (corner v j) (corner v (j + 1)) p := by
      rw [Filter.eventually_all_finset]
      intro j hj
      by_cases hji : j = i
      · exact Filter.Eventually.of_forall fun p h' => absurd hji h'
      · filter_upwards [(seg_closed (corner v j) (corner v (j + 1))).isOpen_compl.mem_nhds (hother j (Finset.mem_range.1 hj) hji)] with p hp _
        exact hp
    filter_upwards [this] with p hp j hj
    exact hp j (Finset.mem_range.2 hj)
  have hring : ∀ᶠ p in 𝓝 x, cross (corner v (i + 1) - corner v i) (p - corner v i) ≠ 0 → ¬ OnRing v p := by
    filter_upwards [hoff] with p hp hc
    rintro ⟨j, hj, hs⟩
    by_cases hji : j = i
    · subst hji
      obtain ⟨r, _, _, rfl⟩ := hs
      refine hc ?_
      simp only [cross, Prod.fst_sub, Prod.snd_sub, Prod.fst_add, Prod.snd_add, Prod.smul_fst, Prod.smul_snd, smul_eq_mul]; ring
    · exact hp j hj hji hs
  have hxF : ∀ e ∈ F, ¬ OnSegment e.1 e.2 x := by
    intro e he
    obtain ⟨j, hj, hji, rfl⟩ := hFe e he
    exact hother j hj hji
  clear_value x
  generalize corner v i = a at *
  generalize corner v (i + 1) = b at *
  have ht1' : 0 < 1 - t := by linarith
  -- the triangle
  set q : Pt ℝ := (a.1 - (b.2 - a.2), a.2 + (b.1 - a.1)) with hq
  have eD : cross (b - a) (q - a) = (b.1 - a.1) ^ 2 + (b.2 - a.2) ^ 2 := by
    simp only [hq, cross, Prod.fst_sub, Prod.snd_sub]; ring
  have hD : 0 < cross (b - a) (q - a) := by
    rw [eD]
    rcases eq_or_ne a.1 b.1 with h' | h'
    · have : b.2 - a.2 ≠ 0 := fun h'' => hab (Prod.ext h' (by linarith))
      positivity
    · have : b.1 - a.1 ≠ 0 := fun h'' => h' (by linarith)
      positivity
  have hxq1 : cross (q - b) (x - b) = (1 - t) * cross (b - a) (q - a) := by
    rw [hx]
    simp only [cross, Prod.fst_sub, Prod.snd_sub, Prod.fst_add, Prod.snd_add, Prod.smul_fst, Prod.smul_snd, smul_eq_mul]; ring
  have hxq2 : cross (a - q) (x - q) = t * cross (b - a) (q - a) := by
    rw [hx]
    simp only [cross, Prod.fst_sub, Prod.snd_sub, Prod.fst_add, Prod.snd_add, Prod.smul_fst, Prod.smul_snd, smul_eq_mul]; ring
  have hFoff : ∀ e ∈ (a, q) :: (q, b) :: F, ¬ OnSegment e.1 e.2 x := by
    intro e he
    rcases List.mem_cons.1 he with rfl | he
    · rintro ⟨r, _, _, e⟩
      have : cross (a - q) (x - q) = 0 := by
        rw [e]
        simp only [cross, Prod.fst_sub, Prod.snd_sub, Prod.fst_add, Prod.snd_add, Prod.smul_fst, Prod.smul_snd, smul_eq_mul]; ring
      rw [hxq2] at this
      exact (mul_pos ht0 hD).ne' this
    · rcases List.mem_cons.1 he with rfl | he
      · rintro ⟨r, _, _, e⟩
        have : cross (q - b) (x - b) = 0 := by
          rw [e]
          simp only [cross, Prod.fst_sub, Prod.snd_sub, Prod.fst_add, Prod.snd_add, Prod.smul_fst, Prod.smul_snd, smul_eq_mul]; ring
        rw [hxq1] at this
        exact (mul_pos ht1' hD).ne' this
      · exact hxF e he
  have hloc := wind_locally (closed_split q hcl) hFoff
  have hc1 : ∀ᶠ p in 𝓝 x, 0 < cross (q - b) (p - b) :=
    (continuous_crossWith (q - b) b).continuousAt.eventually_const_lt (by simp only [hxq1]; positivity)
  have hc2 : ∀ᶠ p in 𝓝 x, 0 < cross (a - q) (p - q) :=
    (continuous_crossWith (a - q) q).continuousAt.eventually_const_lt (by simp only [hxq2]; positivity)
  have hw' : ∀ p, windOf (edgesOf (ringOf v)) p = triWind a b q p + windOf ((a, q) :: (q, b) :: F) p := by
    intro p
    rw [hw, windOf_cons, windOf_cons, triWind, crossing_swap a q, crossing_swap q b]
    ring
  refine ⟨windOf ((a, q) :: (q, b) :: F) x, ?_⟩
  filter_upwards [hloc, hc1, hc2, hring] with p h1 h2 h3 h4
  refine ⟨fun hp => ⟨h4 hp.ne', ?_⟩, fun hp => ⟨h4 hp.ne, ?_⟩⟩
  · rw [hw', h1, (tri_good hD p).2.1 hp h2 h3]; ring
  · rw [hw', h1, (tri_good hD p).2.2 (Or.inl hp)]; ring

/-- Points on the wrong side of an edge do not see the middle of it. -/
theorem unseen {S : Set (Pt ℝ)} {x p : Pt ℝ} {f : Pt ℝ → ℝ} (hf : ∀ t : ℝ, f (p + t • (x - p)) = (1 - t) * f p)
    (hx : x ∈ S) (hp : f p < 0) (hS : ∀ᶠ q in 𝓝 x, f q < 0 → q ∉ S) : p ∉ visKernel S := by
  rintro ⟨-, hv⟩
  let g : ℝ → Pt ℝ := fun t => p + t • (x - p)
  have hg : Continuous g := by fun_prop
  have ht : Filter.Tendsto g (𝓝[<] 1) (𝓝 x) := by
    have := hg.tendsto 1
    simp only [g, one_smul, add_sub_cancel] at this
    exact this.mono_left nhdsWithin_le_nhds
  obtain ⟨t, h1, h2⟩ := ((ht.eventually hS).and (Ico_mem_nhdsLT (zero_lt_one (α := ℝ)))).exists
  refine h1 ?_ (hv x hx _ ⟨t, h2.1, h2.2.le, rfl⟩)
  change f (p + t • (x - p)) < 0
  rw [hf]
  exact mul_neg_of_pos_of_neg (by linarith [h2.2]) hp

/-- The points that see all of a simple polygon are on the same side of all edges. -/
theorem kernel_sides {v : List (Pt ℝ)} (h : SimpleRing v) (hne : ¬ ∀ i < v.length, ∀ j < v.length, corner v i = corner v j) :
    (∀ p ∈ visKernel (filled v), ∀ i < v.length, 0 ≤ cross (corner v (i + 1) - corner v i) (p - corner v i)) ∨
      ∀ p ∈ visKernel (filled v), ∀ i < v.length, cross (corner v (i + 1) - corner v i) (p - corner v i) ≤ 0 := by
  obtain ⟨s, hs, hval⟩ := wind_simple h
  -- on one side of each edge the value is 0
  have hside : ∀ i < v.length, ∀ᶠ p in 𝓝 (corner v i + (1 / 2 : ℝ) • (corner v (i + 1) - corner v i)),
      s * cross (corner v (i + 1) - corner v i) (p - corner v i) < 0 → p ∉ filled v := by
    intro i hi
    obtain ⟨k, hk⟩ := edge_side h hne hi (t := 1 / 2) (by norm_num) (by norm_num)
    have hab := corner_ne h hne hi
    set a := corner v i
    set b := corner v (i + 1)
    set x := a + (1 / 2 : ℝ) • (b - a) with hx
    let g : ℝ → Pt ℝ := fun t => (x.1 - t * (b.2 - a.2), x.2 + t * (b.1 - a.1))
    have hD : 0 < (b.1 - a.1) ^ 2 + (b.2 - a.2) ^ 2 := by
      rcases eq_or_ne a.1 b.1 with h' | h'
      · have : b.2 - a.2 ≠ 0 := fun h'' => hab (Prod.ext h' (by linarith))
        positivity
      · have : b.1 - a.1 ≠ 0 := fun h'' => h' (by linarith)
        positivity
    have hgc : ∀ t, cross (b - a) (g t - a) = t * ((b.1 - a.1) ^ 2 + (b.2 - a.2) ^ 2) := by
      intro t
      simp only [g, hx, cross, Prod.fst_sub, Prod.snd_sub, Prod.fst_add, Prod.snd_add, Prod.smul_fst, Prod.smul_snd, smul_eq_mul]; ring
    have hg : Continuous g := by fun_prop
    have hg0 : Filter.Tendsto g (𝓝 0) (𝓝 x) := by
      have := hg.tendsto 0
      simpa [g] using this
    have k1 : k + 1 = 0 ∨ k + 1 = s := by
      obtain ⟨t, h1, h2⟩ := (((hg0.mono_left nhdsWithin_le_nhds).eventually hk).and (self_mem_nhdsWithin : Set.Ioi (0 : ℝ) ∈ 𝓝[>] 0)).exists
      have h3 := h1.1 (by rw [hgc]; exact mul_pos h2 hD)
      rw [← h3.2]; exact hval _ h3.1
    have k2 : k = 0 ∨ k = s := by
      obtain ⟨t, h1, h2⟩ := (((hg0.mono_left nhdsWithin_le_nhds).eventually hk).and (self_mem_nhdsWithin : Set.Iio (0 : ℝ) ∈ 𝓝[<] 0)).exists
      have h3 := h1.2 (by rw [hgc]; exact mul_neg_of_neg_of_pos h2 hD)
      rw [← h3.2]; exact hval _ h3.1
    filter_upwards [hk] with p hp hc hf
    have hz : ¬ OnRing v p ∧ windOf (edgesOf (ringOf v)) p = 0 := by
      rcases hs with rfl | rfl
      · have h3 := hp.2 (by simpa using hc)
        exact ⟨h3.1, by rw [h3.2]; omega⟩
      · have h3 := hp.1 (by simpa using hc)
        exact ⟨h3.1, by rw [h3.2]; omega⟩
    rcases hf with hf | hf
    · rw [inside_wind hz.1, hz.2] at hf
      exact hf (dvd_zero _)
    · exact hz.1 hf
  have hkey : ∀ p ∈ visKernel (filled v), ∀ i < v.length, 0 ≤ s * cross (corner v (i + 1) - corner v i) (p - corner v i) := by
    intro p hp i hi
    by_contra hc
    push Not at hc
    refine unseen (f := fun p => s * cross (corner v (i + 1) - corner v i) (p - corner v i)) ?_ ?_ hc (hside i hi) hp
    · intro t
      simp only [cross, Prod.fst_sub, Prod.snd_sub, Prod.fst_add, Prod.snd_add, Prod.smul_fst, Prod.smul_snd, smul_eq_mul]; ring
    · exact Or.inr ⟨i, hi, 1 / 2, by norm_num, by norm_num, rfl⟩
  rcases hs with rfl | rfl
  · left
    intro p hp i hi
    simpa using hkey p hp i hi
  · right
    intro p hp i hi
    simpa using hkey p hp i hi

/-- A linear function that is not negative near a point and not constant is positive there. -/
theorem side_interior {S : Set (Pt ℝ)} {a b c : Pt ℝ} (hab : a ≠ b) (hS : ∀ p ∈ S, 0 ≤ cross (b - a) (p - a)) (hc : c ∈ interior S) :
    0 < cross (b - a) (c - a) := by
  refine lt_of_le_of_ne (hS c (interior_subset hc)) fun h0 => ?_
  let g : ℝ → Pt ℝ := fun t => (c.1 - t * (b.2 - a.2), c.2 + t * (b.1 - a.1))
  have hD : 0 < (b.1 - a.1) ^ 2 + (b.2 - a.2) ^ 2 := by
    rcases eq_or_ne a.1 b.1 with h' | h'
    · have : b.2 - a.2 ≠ 0 := fun h'' => hab (Prod.ext h' (by linarith))
      positivity
    · have : b.1 - a.1 ≠ 0 := fun h'' => h' (by linarith)
      positivity
  have hgc : ∀ t, cross (b - a) (g t - a) = cross (b - a) (c - a) + t * ((b.1 - a.1) ^ 2 + (b.2 - a.2) ^ 2) := by
    intro t
    simp only [g, cross, Prod.fst_sub, Prod.snd_sub]; ring
  have hg : Continuous g := by fun_prop
  have hg0 : Filter.Tendsto g (𝓝 0) (𝓝 c) := by
    have := hg.tendsto 0
    simpa [g] using this
  obtain ⟨t, h1, h2⟩ := (((hg0.mono_left nhdsWithin_le_nhds).eventually (mem_interior_iff_mem_nhds.1 hc)).and
    (self_mem_nhdsWithin : Set.Iio (0 : ℝ) ∈ 𝓝[<] 0)).exists
  have := hS _ h1
  rw [hgc, ← h0, zero_add] at this
  nlinarith [mul_neg_of_neg_of_pos (show t < 0 from h2) hD]

/-- A ring that does not cross itself is star-shaped, in one of the two directions, about every point in the interior of its
visibility kernel. -/
theorem simple_star {v : List (Pt ℝ)} (h : SimpleRing v) {c : Pt ℝ} (hc : c ∈ interior (visKernel (filled v))) :
    StarAbout c v ∨ StarAbout c v.reverse := by
  have hne : ¬ ∀ i < v.length, ∀ j < v.length, corner v i = corner v j := by
    intro hall
    have hv : 0 < v.length := by have := h.1; omega
    have hvol : 0 < volume (interior (visKernel (filled v))) := isOpen_interior.measure_pos _ ⟨c, hc⟩
    have hle : volume (interior (visKernel (filled v))) ≤ volume (filled v) :=
      measure_mono (interior_subset.trans fun p hp => hp.1)
    have hz : signedArea2 v = 0 := by
      unfold signedArea2
      rw [edges_ring]
      refine List.sum_eq_zero fun y hy => ?_
      obtain ⟨e, he, rfl⟩ := List.mem_map.1 hy
      obtain ⟨i, hi, rfl⟩ := List.mem_map.1 he
      have : corner v i = corner v (i + 1) := by
        rw [← corner_mod v (i + 1)]
        exact hall i (List.mem_range.1 hi) _ (Nat.mod_lt _ hv)
      simp only [this]; ring
    rw [volume_simple h, shapelyArea, hz] at hle
    simp at hle
    exact hvol.ne' hle
  have hturn : ∀ i, cross (corner v i - c) (corner v (i + 1) - c) = cross (corner v (i + 1) - corner v i) (c - corner v i) := by
    intro i; simp only [cross, Prod.fst_sub, Prod.snd_sub]; ring
  rcases kernel_sides h hne with hk | hk
  · left
    refine left_star h fun i hi => ?_
    rw [hturn]
    exact side_interior (corner_ne h hne hi) (fun p hp => hk p hp i hi) hc
  · right
    refine right_star h fun i hi => ?_
    have := side_interior (corner_ne h hne hi).symm (fun p hp => by
      have := hk p hp i hi
      rw [cross_turn]; linarith) hc
    rw [cross_turn] at this
    rw [hturn]
    linarith

end Starworlds
