import Verif.Proofs.SimpleStar
import Verif.Proofs.LocalConvex

/-! # Simple polygons that only turn to the left -/

namespace Starworlds

open Spec Topology

/-! ## Half-planes -/

theorem cross_linear (u : Pt ℝ) : IsLinearMap ℝ (fun q : Pt ℝ => cross u q) where
  map_add x y := by simp only [cross, Prod.fst_add, Prod.snd_add]; ring
  map_smul t x := by simp only [cross, Prod.smul_fst, Prod.smul_snd, smul_eq_mul]; ring

theorem cross_sub_eq (u p q : Pt ℝ) : cross u (q - p) = cross u q - cross u p := by
  simp only [cross, Prod.fst_sub, Prod.snd_sub]; ring

theorem halfplane_pos (u p : Pt ℝ) : Convex ℝ {q : Pt ℝ | 0 < cross u (q - p)} := by
  have := convex_halfSpace_gt (cross_linear u) (cross u p)
  simpa only [cross_sub_eq, sub_pos] using this

theorem halfplane_neg (u p : Pt ℝ) : Convex ℝ {q : Pt ℝ | cross u (q - p) < 0} := by
  have := convex_halfSpace_lt (cross_linear u) (cross u p)
  simpa only [cross_sub_eq, sub_neg] using this

theorem halfplane_nonneg (u p : Pt ℝ) : Convex ℝ {q : Pt ℝ | 0 ≤ cross u (q - p)} := by
  have := convex_halfSpace_ge (cross_linear u) (cross u p)
  simpa only [cross_sub_eq, sub_nonneg] using this

theorem cross_along (u p q d : Pt ℝ) (t : ℝ) : cross u (q + t • d - p) = cross u (q - p) + t * cross u d := by
  simp only [cross, Prod.fst_sub, Prod.snd_sub, Prod.fst_add, Prod.snd_add, Prod.smul_fst, Prod.smul_snd, smul_eq_mul]; ring

/-- Close to a point of a line there are points on both sides of it. -/
theorem side_points {u p x : Pt ℝ} (hu : u ≠ 0) (hx : cross u (x - p) = 0) {P : Pt ℝ → Prop} (hP : ∀ᶠ q in 𝓝 x, P q) :
    (∃ q, 0 < cross u (q - p) ∧ P q) ∧ ∃ q, cross u (q - p) < 0 ∧ P q := by
  have hD : 0 < cross u (-u.2, u.1) := by
    have : 0 < u.1 ^ 2 + u.2 ^ 2 := by
      rcases eq_or_ne u.1 0 with h' | h'
      · have : u.2 ≠ 0 := fun h'' => hu (Prod.ext h' h'')
        positivity
      · positivity
    simp only [cross]; nlinarith
  let g : ℝ → Pt ℝ := fun t => x + t • ((-u.2, u.1) : Pt ℝ)
  have hg : Continuous g := by fun_prop
  have hg0 : Filter.Tendsto g (𝓝 0) (𝓝 x) := by
    have := hg.tendsto 0
    simpa only [g, zero_smul, add_zero] using this
  have hgc : ∀ t, cross u (g t - p) = t * cross u (-u.2, u.1) := by
    intro t; simp only [g]; rw [cross_along, hx, zero_add]
  constructor
  · obtain ⟨t, h1, h2⟩ := (((hg0.mono_left nhdsWithin_le_nhds).eventually hP).and (self_mem_nhdsWithin : Set.Ioi (0 : ℝ) ∈ 𝓝[>] 0)).exists
    exact ⟨g t, by rw [hgc]; exact mul_pos h2 hD, h1⟩
  · obtain ⟨t, h1, h2⟩ := (((hg0.mono_left nhdsWithin_le_nhds).eventually hP).and (self_mem_nhdsWithin : Set.Iio (0 : ℝ) ∈ 𝓝[<] 0)).exists
    exact ⟨g t, by rw [hgc]; exact mul_neg_of_neg_of_pos h2 hD, h1⟩

theorem closed_limit {S : Set (Pt ℝ)} (hS : IsClosed S) {q d : Pt ℝ} (h : ∀ᶠ t in 𝓝[>] (0 : ℝ), q + t • d ∈ S) : q ∈ S := by
  have hg : Continuous fun t : ℝ => q + t • d := by fun_prop
  have ht : Filter.Tendsto (fun t : ℝ => q + t • d) (𝓝[>] 0) (𝓝 q) := by
    have := (hg.tendsto 0).mono_left (nhdsWithin_le_nhds (s := Set.Ioi 0))
    simpa only [zero_smul, add_zero] using this
  exact hS.mem_of_tendsto ht h

/-! ## Inner points and the ring -/

/-- To the right of an inner point there is a point of the ring. -/
theorem inside_right {v : List (Pt ℝ)} {p : Pt ℝ} (h : Inside v p) : ∃ q, OnRing v q ∧ q.2 = p.2 ∧ p.1 < q.1 := by
  classical
  obtain ⟨-, hodd⟩ := h
  obtain ⟨i, hi⟩ := List.exists_mem_of_length_pos (Nat.pos_of_ne_zero fun h0 => by rw [h0] at hodd; simp at hodd)
  rw [List.mem_filter, List.mem_range, decide_eq_true_eq] at hi
  obtain ⟨hi, hs, q, ⟨t, rfl⟩, hq2, hq1⟩ := hi
  refine ⟨_, ⟨i, hi, t, ?_, ?_, rfl⟩, hq2, hq1⟩
  · simp only [Prod.snd_add, Prod.smul_snd, Prod.snd_sub, smul_eq_mul] at hq2
    by_contra ht
    push Not at ht
    rcases hs with ⟨h1, h2⟩ | ⟨h1, h2⟩ <;> nlinarith
  · simp only [Prod.snd_add, Prod.smul_snd, Prod.snd_sub, smul_eq_mul] at hq2
    by_contra ht
    push Not at ht
    rcases hs with ⟨h1, h2⟩ | ⟨h1, h2⟩ <;> nlinarith

theorem filled_preconnected {v : List (Pt ℝ)} (hv : 0 < v.length) : IsPreconnected (filled v) := by
  have hr := ring_preconnected hv
  refine isPreconnected_of_forall (corner v 0) fun y hy => ?_
  have h0 : OnRing v (corner v 0) := ⟨0, hv, seg_start _ _⟩
  rcases hy with hy | hy
  · obtain ⟨q, hq, -, -⟩ := inside_right hy
    let g : ℝ → Pt ℝ := fun t => y + t • (q - y)
    have hg : Continuous g := by fun_prop
    have hcomp : IsCompact (g ⁻¹' {p | OnRing v p} ∩ Set.Icc (0 : ℝ) 1) := isCompact_Icc.inter_left ((onRing_closed v).preimage hg)
    obtain ⟨t0, ⟨hs1, hs2⟩, hs3⟩ := hcomp.exists_isLeast ⟨1, by simpa [g] using hq, zero_le_one, le_rfl⟩
    have hoff : ∀ t, 0 ≤ t → t < t0 → ¬ OnRing v (g t) := by
      intro t h1 h2 h3
      exact absurd (hs3 ⟨h3, h1, h2.le.trans hs2.2⟩) (not_le.2 h2)
    have hpos : 0 < t0 := by
      rcases hs2.1.eq_or_lt with e | e
      · exact absurd (by simpa [g, ← e] using hs1) hy.1
      · exact e
    have hin : ∀ t, 0 ≤ t → t < t0 → Inside v (g t) := by
      intro t h1 h2
      refine (inside_connected (S := g '' Set.Ico 0 t0) (isPreconnected_Ico.image _ hg.continuousOn) ?_ (p := y) (q := g t)
        ⟨0, ⟨le_rfl, hpos⟩, by simp [g]⟩ ⟨t, ⟨h1, h2⟩, rfl⟩).1 hy
      rintro _ ⟨r, hr, rfl⟩
      exact hoff r hr.1 hr.2
    refine ⟨g '' Set.Icc 0 t0 ∪ {p | OnRing v p}, ?_, Or.inr h0, Or.inl ⟨0, ⟨le_rfl, hpos.le⟩, by simp [g]⟩,
      IsPreconnected.union (g t0) ⟨t0, ⟨hpos.le, le_rfl⟩, rfl⟩ hs1 (isPreconnected_Icc.image _ hg.continuousOn) hr⟩
    rintro _ (⟨t, ht, rfl⟩ | hp)
    · rcases ht.2.eq_or_lt with e | e
      · subst e; exact Or.inr hs1
      · exact Or.inl (hin t ht.1 e)
    · exact Or.inr hp
  · exact ⟨{p | OnRing v p}, fun p hp => Or.inr hp, h0, hy, hr⟩

/-- The inside is on the same side of all edges. -/
theorem edge_inside {v : List (Pt ℝ)} (h : SimpleRing v) (hne : ¬ ∀ i < v.length, ∀ j < v.length, corner v i = corner v j) :
    (∀ i < v.length, ∀ t : ℝ, 0 < t → t < 1 → ∀ᶠ p in 𝓝 (corner v i + t • (corner v (i + 1) - corner v i)),
      (0 < cross (corner v (i + 1) - corner v i) (p - corner v i) → Inside v p) ∧
      (cross (corner v (i + 1) - corner v i) (p - corner v i) < 0 → p ∉ filled v)) ∨
    ∀ i < v.length, ∀ t : ℝ, 0 < t → t < 1 → ∀ᶠ p in 𝓝 (corner v i + t • (corner v (i + 1) - corner v i)),
      (cross (corner v (i + 1) - corner v i) (p - corner v i) < 0 → Inside v p) ∧
      (0 < cross (corner v (i + 1) - corner v i) (p - corner v i) → p ∉ filled v) := by
  obtain ⟨s, hs, hval⟩ := wind_simple h
  have hk : ∀ i < v.length, ∀ t : ℝ, 0 < t → t < 1 → ∃ k : ℤ, (k = 0 ∨ k = s) ∧ (k + 1 = 0 ∨ k + 1 = s) ∧
      ∀ᶠ p in 𝓝 (corner v i + t • (corner v (i + 1) - corner v i)),
      (0 < cross (corner v (i + 1) - corner v i) (p - corner v i) → ¬ OnRing v p ∧ windOf (edgesOf (ringOf v)) p = k + 1) ∧
      (cross (corner v (i + 1) - corner v i) (p - corner v i) < 0 → ¬ OnRing v p ∧ windOf (edgesOf (ringOf v)) p = k) := by
    intro i hi t h0 h1
    obtain ⟨k, hk⟩ := edge_side h hne hi h0 h1
    have hu : corner v (i + 1) - corner v i ≠ 0 := sub_ne_zero.2 (corner_ne h hne hi).symm
    have hx : cross (corner v (i + 1) - corner v i) (corner v i + t • (corner v (i + 1) - corner v i) - corner v i) = 0 := by
      rw [cross_along]; simp only [cross, sub_self, Prod.fst_zero, Prod.snd_zero]; ring
    obtain ⟨⟨q, q1, q2⟩, r, r1, r2⟩ := side_points hu hx hk
    refine ⟨k, ?_, ?_, hk⟩
    · have := r2.2 r1
      rw [← this.2]; exact hval _ this.1
    · have := q2.1 q1
      rw [← this.2]; exact hval _ this.1
  have hnot : ∀ p, ¬ OnRing v p → windOf (edgesOf (ringOf v)) p = 0 → p ∉ filled v := by
    rintro p hp hw (hf | hf)
    · rw [inside_wind hp, hw] at hf
      exact hf (dvd_zero _)
    · exact hp hf
  rcases hs with rfl | rfl
  · left
    intro i hi t h0 h1
    obtain ⟨k, k1, k2, hev⟩ := hk i hi t h0 h1
    obtain rfl : k = 0 := by omega
    filter_upwards [hev] with p hp
    refine ⟨fun hc => ?_, fun hc => hnot p (hp.2 hc).1 (hp.2 hc).2⟩
    rw [inside_wind (hp.1 hc).1, (hp.1 hc).2]; decide
  · right
    intro i hi t h0 h1
    obtain ⟨k, k1, k2, hev⟩ := hk i hi t h0 h1
    obtain rfl : k = -1 := by omega
    filter_upwards [hev] with p hp
    refine ⟨fun hc => ?_, fun hc => hnot p (hp.1 hc).1 (hp.1 hc).2⟩
    rw [inside_wind (hp.2 hc).1, (hp.2 hc).2]; decide

/-! ## Corners -/

/-- A corner of a simple ring where the ring does not turn continues in the same direction. -/
theorem straight_on {v : List (Pt ℝ)} (h : SimpleRing v) (hne : ¬ ∀ i < v.length, ∀ j < v.length, corner v i = corner v j)
    {i j : ℕ} (hi : i < v.length) (hj : j < v.length) (hn : Nx v.length i j)
    (h0 : cross (corner v j - corner v i) (corner v (j + 1) - corner v j) = 0) :
    ∃ l : ℝ, 0 < l ∧ corner v (j + 1) - corner v j = l • (corner v j - corner v i) := by
  have h3 := h.1
  have ha := corner_ne h hne hi
  have hb := corner_ne h hne hj
  have hcn := corner_nx hn
  rw [hcn] at ha
  have hij : i ≠ j := by unfold Nx at hn; omega
  have hnn : ¬ Nx v.length j i := by unfold Nx at *; omega
  have hcyc := fun p => simple_cyclic h hi hj hij (p := p)
  rw [hcn] at hcyc
  generalize corner v i = a at *
  generalize corner v j = p at *
  generalize corner v (j + 1) = b at *
  have hD : 0 < (p.1 - a.1) ^ 2 + (p.2 - a.2) ^ 2 := by
    rcases eq_or_ne a.1 p.1 with h' | h'
    · have : p.2 - a.2 ≠ 0 := fun h'' => ha (Prod.ext h' (by linarith))
      positivity
    · have : p.1 - a.1 ≠ 0 := fun h'' => h' (by linarith)
      positivity
  obtain ⟨l, hl⟩ : ∃ l : ℝ, b - p = l • (p - a) := by
    refine ⟨((b.1 - p.1) * (p.1 - a.1) + (b.2 - p.2) * (p.2 - a.2)) / ((p.1 - a.1) ^ 2 + (p.2 - a.2) ^ 2), ?_⟩
    simp only [cross, Prod.fst_sub, Prod.snd_sub] at h0
    ext
    · simp only [Prod.fst_sub, Prod.smul_fst, smul_eq_mul]; field_simp; linear_combination -(p.2 - a.2) * h0
    · simp only [Prod.snd_sub, Prod.smul_snd, smul_eq_mul]; field_simp; linear_combination (p.1 - a.1) * h0
  refine ⟨l, ?_, hl⟩
  by_contra hle
  push Not at hle
  rcases hle.eq_or_lt with rfl | hlt
  · rw [zero_smul, sub_eq_zero] at hl
    exact hb hl.symm
  · have hq : p + (1 / (1 - l)) • (b - p) = a + (1 / (1 - l)) • (p - a) := by
      have hl1 : (1 - l) ≠ 0 := by linarith
      rw [hl]
      have : (1 / (1 - l)) * l = 1 / (1 - l) - 1 := by field_simp; ring
      rw [smul_smul, this]; module
    have hl1 : 0 < 1 - l := by linarith
    have hr0 : 0 ≤ 1 / (1 - l) := by positivity
    have hr1 : 1 / (1 - l) ≤ 1 := by rw [div_le_one hl1]; linarith
    rcases hcyc _ ⟨_, hr0, hr1, hq⟩ ⟨_, hr0, hr1, rfl⟩ with ⟨_, e⟩ | ⟨e, _⟩
    · have : (1 / (1 - l)) • (b - p) = 0 := by simpa using e
      rcases smul_eq_zero.1 this with h' | h'
      · have : 0 < 1 / (1 - l) := by positivity
        linarith
      · exact hb (sub_eq_zero.1 h').symm
    · exact hnn e

/-- Close to a corner the ring consists of the two edges of the corner. -/
theorem corner_ball {v : List (Pt ℝ)} (h : SimpleRing v) (hne : ¬ ∀ i < v.length, ∀ j < v.length, corner v i = corner v j)
    {i j : ℕ} (hi : i < v.length) (hj : j < v.length) (hn : Nx v.length i j) :
    ∃ ε > 0, ∀ q ∈ Metric.ball (corner v j) ε, OnRing v q →
      OnSegment (corner v i) (corner v j) q ∨ OnSegment (corner v j) (corner v (j + 1)) q := by
  have hoff : ∀ᶠ q in 𝓝 (corner v j), ∀ k ∈ Finset.range v.length, k ≠ j → k ≠ i → ¬ OnSegment (corner v k) (corner v (k + 1)) q := by
    rw [Filter.eventually_all_finset]
    intro k hk
    by_cases hkj : k = j
    · exact Filter.Eventually.of_forall fun _ h' => absurd hkj h'
    by_cases hki : k = i
    · exact Filter.Eventually.of_forall fun _ _ h' => absurd hki h'
    filter_upwards [(seg_closed (corner v k) (corner v (k + 1))).isOpen_compl.mem_nhds
      (corner_edges h hne hi hj (Finset.mem_range.1 hk) hn hkj hki)] with q hq _ _
    exact hq
  obtain ⟨ε, hε, hb⟩ := Metric.eventually_nhds_iff_ball.1 hoff
  refine ⟨ε, hε, fun q hq => ?_⟩
  rintro ⟨k, hk, hs⟩
  by_cases hkj : k = j
  · subst hkj; exact Or.inr hs
  by_cases hki : k = i
  · subst hki; rw [corner_nx hn] at hs; exact Or.inl hs
  exact absurd hs (hb q hq k (Finset.mem_range.2 hk) hkj hki)

theorem seg_cross {a b q : Pt ℝ} (h : OnSegment a b q) : cross (b - a) (q - a) = 0 := by
  obtain ⟨t, _, _, rfl⟩ := h
  rw [cross_along]; simp only [cross, sub_self, Prod.fst_zero, Prod.snd_zero]; ring

theorem cross_end (a p q : Pt ℝ) : cross (p - a) (q - p) = cross (p - a) (q - a) := by
  simp only [cross, Prod.fst_sub, Prod.snd_sub]; ring

/-- Which points close to a left turn are not on the ring. -/
theorem corner_free {v : List (Pt ℝ)} {a p b : Pt ℝ} {ε : ℝ}
    (hring : ∀ q ∈ Metric.ball p ε, OnRing v q → OnSegment a p q ∨ OnSegment p b q) (ht : 0 ≤ cross (p - a) (b - p)) {q : Pt ℝ}
    (hq : q ∈ Metric.ball p ε)
    (hs : cross (p - a) (q - p) < 0 ∨ cross (b - p) (q - p) < 0 ∨ (0 < cross (p - a) (q - p) ∧ 0 < cross (b - p) (q - p))) :
    ¬ OnRing v q := by
  intro hr
  rcases hring q hq hr with h | h
  · have h0 := seg_cross h
    rw [← cross_end] at h0
    obtain ⟨t, t0, t1, rfl⟩ := h
    have e : cross (b - p) (a + t • (p - a) - p) = (1 - t) * cross (p - a) (b - p) := by
      simp only [cross, Prod.fst_sub, Prod.snd_sub, Prod.fst_add, Prod.snd_add, Prod.smul_fst, Prod.smul_snd, smul_eq_mul]; ring
    have : 0 ≤ (1 - t) * cross (p - a) (b - p) := mul_nonneg (by linarith) ht
    rcases hs with hs | hs | hs
    · linarith
    · rw [e] at hs; linarith
    · linarith [hs.1]
  · have h0 := seg_cross h
    obtain ⟨t, t0, t1, rfl⟩ := h
    have e : cross (p - a) (p + t • (b - p) - p) = t * cross (p - a) (b - p) := by
      simp only [cross, Prod.fst_sub, Prod.snd_sub, Prod.fst_add, Prod.snd_add, Prod.smul_fst, Prod.smul_snd, smul_eq_mul]; ring
    have : 0 ≤ t * cross (p - a) (b - p) := mul_nonneg t0 ht
    rcases hs with hs | hs | hs
    · rw [e] at hs; linarith
    · linarith
    · linarith [hs.2]

/-- Some inner point of an edge is close to its end. -/
theorem near_end (a p : Pt ℝ) {ε : ℝ} (hε : 0 < ε) : ∃ t : ℝ, 0 < t ∧ t < 1 ∧ a + t • (p - a) ∈ Metric.ball p ε := by
  have hg : Continuous fun t : ℝ => a + t • (p - a) := by fun_prop
  have h1 : (fun t : ℝ => a + t • (p - a)) ⁻¹' Metric.ball p ε ∈ 𝓝 1 :=
    (Metric.isOpen_ball.preimage hg).mem_nhds (by simpa using hε)
  obtain ⟨t, h2, h3⟩ := Filter.nonempty_of_mem (Filter.inter_mem (nhdsWithin_le_nhds h1 : _ ∈ 𝓝[<] (1 : ℝ)) (Ioo_mem_nhdsLT zero_lt_one))
  exact ⟨t, h3.1, h3.2, h2⟩

/-- The side to the right of the edge before a left turn has the inside of the edge. -/
theorem corner_before {v : List (Pt ℝ)} {a p b : Pt ℝ} {ε : ℝ} (hε : 0 < ε) (hap : a ≠ p)
    (hring : ∀ q ∈ Metric.ball p ε, OnRing v q → OnSegment a p q ∨ OnSegment p b q) (ht : 0 ≤ cross (p - a) (b - p)) {I : Prop}
    (he : ∀ t : ℝ, 0 < t → t < 1 → ∀ᶠ q in 𝓝 (a + t • (p - a)), cross (p - a) (q - a) < 0 → (Inside v q ↔ I)) {q : Pt ℝ}
    (hq : q ∈ Metric.ball p ε) (hs : cross (p - a) (q - p) < 0) : Inside v q ↔ I := by
  obtain ⟨t, t0, t1, hx⟩ := near_end a p hε
  have hx0 : cross (p - a) (a + t • (p - a) - a) = 0 := seg_cross ⟨t, t0.le, t1.le, rfl⟩
  obtain ⟨-, r, r1, r2, r3⟩ := side_points (sub_ne_zero.2 hap.symm) hx0 ((he t t0 t1).and (Metric.isOpen_ball.mem_nhds hx))
  rw [← r2 r1]
  refine inside_connected (S := Metric.ball p ε ∩ {q | cross (p - a) (q - p) < 0})
    ((convex_ball _ _).inter (halfplane_neg _ _)).isPreconnected ?_ ⟨hq, hs⟩ ⟨r3, ?_⟩
  · rintro y ⟨y1, y2⟩
    exact corner_free hring ht y1 (Or.inl y2)
  · change cross (p - a) (r - p) < 0
    rw [cross_end]; exact r1

/-- The side to the right of the edge after a left turn has the inside of the edge. -/
theorem corner_after {v : List (Pt ℝ)} {a p b : Pt ℝ} {ε : ℝ} (hε : 0 < ε) (hpb : p ≠ b)
    (hring : ∀ q ∈ Metric.ball p ε, OnRing v q → OnSegment a p q ∨ OnSegment p b q) (ht : 0 ≤ cross (p - a) (b - p)) {I : Prop}
    (he : ∀ t : ℝ, 0 < t → t < 1 → ∀ᶠ q in 𝓝 (p + t • (b - p)), cross (b - p) (q - p) < 0 → (Inside v q ↔ I)) {q : Pt ℝ}
    (hq : q ∈ Metric.ball p ε) (hs : cross (b - p) (q - p) < 0) : Inside v q ↔ I := by
  obtain ⟨t, t0, t1, hx⟩ := near_end b p hε
  have ex : b + t • (p - b) = p + (1 - t) • (b - p) := by module
  rw [ex] at hx
  have hx0 : cross (b - p) (p + (1 - t) • (b - p) - p) = 0 := seg_cross ⟨1 - t, by linarith, by linarith, rfl⟩
  obtain ⟨-, r, r1, r2, r3⟩ := side_points (sub_ne_zero.2 hpb.symm) hx0
    ((he (1 - t) (by linarith) (by linarith)).and (Metric.isOpen_ball.mem_nhds hx))
  rw [← r2 r1]
  refine inside_connected (S := Metric.ball p ε ∩ {q | cross (b - p) (q - p) < 0})
    ((convex_ball _ _).inter (halfplane_neg _ _)).isPreconnected ?_ ⟨hq, hs⟩ ⟨r3, r1⟩
  rintro y ⟨y1, y2⟩
  exact corner_free hring ht y1 (Or.inr (Or.inl y2))

/-- The corner that is farthest to the right, and the highest of these. -/
theorem lex_corner {v : List (Pt ℝ)} (hv : 0 < v.length) : ∃ j < v.length, ∀ k < v.length,
    (corner v k).1 < (corner v j).1 ∨ ((corner v k).1 = (corner v j).1 ∧ (corner v k).2 ≤ (corner v j).2) := by
  obtain ⟨j, hj, hm⟩ := Finset.exists_max_image (Finset.range v.length) (fun k => toLex (corner v k)) ⟨0, Finset.mem_range.2 hv⟩
  refine ⟨j, Finset.mem_range.1 hj, fun k hk => ?_⟩
  have := hm k (Finset.mem_range.2 hk)
  rwa [Prod.Lex.le_iff] at this

/-- A simple ring without turns to the right has its inside to the left of its edges. -/
theorem left_inside {v : List (Pt ℝ)} (h : SimpleRing v) (hne : ¬ ∀ i < v.length, ∀ j < v.length, corner v i = corner v j)
    (ht : ∀ i < v.length, ∀ j < v.length, Nx v.length i j → 0 ≤ cross (corner v j - corner v i) (corner v (j + 1) - corner v j)) :
    ∀ i < v.length, ∀ t : ℝ, 0 < t → t < 1 → ∀ᶠ p in 𝓝 (corner v i + t • (corner v (i + 1) - corner v i)),
      (0 < cross (corner v (i + 1) - corner v i) (p - corner v i) → Inside v p) ∧
      (cross (corner v (i + 1) - corner v i) (p - corner v i) < 0 → p ∉ filled v) := by
  rcases edge_inside h hne with he | he
  · exact he
  exfalso
  have hv : 0 < v.length := by have := h.1; omega
  obtain ⟨j, hj, hmax⟩ := lex_corner hv
  obtain ⟨i, hi, hn⟩ := nx_exists hj
  obtain ⟨ε, hε, hring⟩ := corner_ball h hne hi hj hn
  have hap := corner_ne h hne hi
  have hei := he i hi
  rw [corner_nx hn] at hap hei
  have hin : ∀ q ∈ Metric.ball (corner v j) ε, cross (corner v j - corner v i) (q - corner v j) < 0 → q.1 < (corner v j).1 := by
    intro q hq hs
    have := (corner_before hε hap hring (ht i hi j hj hn) (I := True) (fun t t0 t1 => by
      filter_upwards [hei t t0 t1] with y hy hc
      exact iff_true_intro (hy.1 hc)) hq hs).2 trivial
    obtain ⟨y, ⟨k, hk, r, r0, r1, rfl⟩, -, hlt⟩ := inside_right this
    refine lt_of_lt_of_le hlt ?_
    have h1 : (corner v k).1 ≤ (corner v j).1 := by
      rcases hmax k hk with h' | h'
      · exact h'.le
      · exact h'.1.le
    have h2 : (corner v (k + 1)).1 ≤ (corner v j).1 := by
      rw [← corner_mod v (k + 1)]
      rcases hmax _ (Nat.mod_lt (k + 1) hv) with h' | h'
      · exact h'.le
      · exact h'.1.le
    simp only [Prod.fst_add, Prod.smul_fst, smul_eq_mul, Prod.fst_sub]
    nlinarith
  rcases hmax i hi with hx | ⟨hx, hy⟩
  · have := hin ((corner v j).1, (corner v j).2 - ε / 2) (by
      rw [Metric.mem_ball, Prod.dist_eq]
      simp only [dist_self, Real.dist_eq]
      rw [show (corner v j).2 - ε / 2 - (corner v j).2 = -(ε / 2) by ring, abs_neg, abs_of_pos (by linarith), max_lt_iff]
      constructor <;> linarith) (by
      simp only [cross, Prod.fst_sub, Prod.snd_sub]; nlinarith)
    simp at this
  · have hy' : (corner v i).2 < (corner v j).2 := lt_of_le_of_ne hy fun e => hap (Prod.ext hx e)
    have := hin ((corner v j).1 + ε / 2, (corner v j).2) (by
      rw [Metric.mem_ball, Prod.dist_eq]
      simp only [dist_self, Real.dist_eq]
      rw [show (corner v j).1 + ε / 2 - (corner v j).1 = (ε / 2) by ring, abs_of_pos (by linarith), max_lt_iff]
      constructor <;> linarith) (by
      simp only [cross, Prod.fst_sub, Prod.snd_sub]; nlinarith)
    simp only at this
    linarith

/-! ## Convexity -/

theorem left_local {v : List (Pt ℝ)} (h : SimpleRing v) (hne : ¬ ∀ i < v.length, ∀ j < v.length, corner v i = corner v j)
    (ht : ∀ i < v.length, ∀ j < v.length, Nx v.length i j → 0 ≤ cross (corner v j - corner v i) (corner v (j + 1) - corner v j)) :
    LocallyConvex (filled v) := by
  have hv : 0 < v.length := by have := h.1; omega
  have he := left_inside h hne ht
  have hcl := filled_closed v
  have hcorner : ∀ j < v.length, ∃ U ∈ 𝓝 (corner v j), Convex ℝ (filled v ∩ U) := by
    intro j hj
    obtain ⟨i, hi, hn⟩ := nx_exists hj
    obtain ⟨ε, hε, hring⟩ := corner_ball h hne hi hj hn
    have hap := corner_ne h hne hi
    have hpb := corner_ne h hne hj
    have hei := he i hi
    have hej := he j hj
    have hturn := ht i hi j hj hn
    have hstr := straight_on h hne hi hj hn
    rw [corner_nx hn] at hap hei
    generalize corner v i = a at *
    generalize corner v (j + 1) = b at *
    generalize corner v j = p at *
    have hno : ∀ q, q ∈ filled v → ¬ OnRing v q → Inside v q := fun q hq hr => hq.resolve_right hr
    have h1 : ∀ q ∈ Metric.ball p ε, cross (p - a) (q - p) < 0 → q ∉ filled v := by
      intro q hq hs hf
      refine (corner_before hε hap hring hturn (I := False) (fun t t0 t1 => ?_) hq hs).1
        (hno q hf (corner_free hring hturn hq (Or.inl hs)))
      filter_upwards [hei t t0 t1] with y hy hc
      exact iff_false_intro fun hin => hy.2 hc (Or.inl hin)
    have h2 : ∀ q ∈ Metric.ball p ε, cross (b - p) (q - p) < 0 → q ∉ filled v := by
      intro q hq hs hf
      refine (corner_after hε hpb hring hturn (I := False) (fun t t0 t1 => ?_) hq hs).1
        (hno q hf (corner_free hring hturn hq (Or.inr (Or.inl hs))))
      filter_upwards [hej t t0 t1] with y hy hc
      exact iff_false_intro fun hin => hy.2 hc (Or.inl hin)
    -- a point between the edges
    obtain ⟨m, m1, m2, m3, m4⟩ : ∃ m, 0 < cross (p - a) (m - p) ∧ 0 < cross (b - p) (m - p) ∧ m ∈ Metric.ball p ε ∧ Inside v m := by
      obtain ⟨t, t0, t1, hx⟩ := near_end a p hε
      have hx0 : cross (p - a) (a + t • (p - a) - a) = 0 := seg_cross ⟨t, t0.le, t1.le, rfl⟩
      have hj : ∀ᶠ q in 𝓝 (a + t • (p - a)), 0 < cross (p - a) (q - a) → 0 < cross (b - p) (q - p) := by
        rcases hturn.eq_or_lt with e | e
        · obtain ⟨l, l0, hl⟩ := hstr e.symm
          refine Filter.Eventually.of_forall fun q hq => ?_
          have : cross (b - p) (q - p) = l * cross (p - a) (q - a) := by
            rw [hl]; simp only [cross, Prod.fst_sub, Prod.snd_sub, Prod.smul_fst, Prod.smul_snd, smul_eq_mul]; ring
          rw [this]; exact mul_pos l0 hq
        · have e' : cross (b - p) (a + t • (p - a) - p) = (1 - t) * cross (p - a) (b - p) := by
            simp only [cross, Prod.fst_sub, Prod.snd_sub, Prod.fst_add, Prod.snd_add, Prod.smul_fst, Prod.smul_snd, smul_eq_mul]; ring
          have : ∀ᶠ q in 𝓝 (a + t • (p - a)), 0 < cross (b - p) (q - p) :=
            (continuous_crossWith (b - p) p).continuousAt.eventually_const_lt (by
              simp only [e']; exact mul_pos (by linarith) e)
          filter_upwards [this] with q hq _
          exact hq
      obtain ⟨⟨m, m1, m2, m3, m4⟩, -⟩ := side_points (sub_ne_zero.2 hap.symm) hx0
        (hj.and ((hei t t0 t1).and (Metric.isOpen_ball.mem_nhds hx)))
      exact ⟨m, by rw [cross_end]; exact m1, m2 m1, m4, m3.1 m1⟩
    have h3 : ∀ q ∈ Metric.ball p ε, 0 < cross (p - a) (q - p) → 0 < cross (b - p) (q - p) → Inside v q := by
      intro q hq q1 q2
      refine (inside_connected (S := Metric.ball p ε ∩ ({q | 0 < cross (p - a) (q - p)} ∩ {q | 0 < cross (b - p) (q - p)}))
        ((convex_ball _ _).inter ((halfplane_pos _ _).inter (halfplane_pos _ _))).isPreconnected ?_
        (p := m) (q := q) ⟨m3, m1, m2⟩ ⟨hq, q1, q2⟩).1 m4
      rintro y ⟨y1, y2, y3⟩
      exact corner_free hring hturn y1 (Or.inr (Or.inr ⟨y2, y3⟩))
    refine ⟨Metric.ball p ε, Metric.ball_mem_nhds p hε, ?_⟩
    have hset : filled v ∩ Metric.ball p ε =
        Metric.ball p ε ∩ ({q | 0 ≤ cross (p - a) (q - p)} ∩ {q | 0 ≤ cross (b - p) (q - p)}) := by
      ext q
      constructor
      · rintro ⟨hf, hq⟩
        refine ⟨hq, ?_, ?_⟩
        · by_contra hc; exact h1 q hq (not_le.1 hc) hf
        · by_contra hc; exact h2 q hq (not_le.1 hc) hf
      · rintro ⟨hq, q1, q2⟩
        refine ⟨closed_limit hcl (d := m - p) ?_, hq⟩
        have hg : Continuous fun t : ℝ => q + t • (m - p) := by fun_prop
        have hb : (fun t : ℝ => q + t • (m - p)) ⁻¹' Metric.ball p ε ∈ 𝓝 0 :=
          (Metric.isOpen_ball.preimage hg).mem_nhds (by simpa using hq)
        filter_upwards [nhdsWithin_le_nhds hb, self_mem_nhdsWithin] with t t1 t2
        refine Or.inl (h3 _ t1 ?_ ?_)
        · rw [cross_along]; exact add_pos_of_nonneg_of_pos q1 (mul_pos t2 m1)
        · rw [cross_along]; exact add_pos_of_nonneg_of_pos q2 (mul_pos t2 m2)
    rw [hset]
    exact (convex_ball _ _).inter ((halfplane_nonneg _ _).inter (halfplane_nonneg _ _))
  rintro x (hx | ⟨i, hi, t, t0, t1, rfl⟩)
  · obtain ⟨ε, hε, hb⟩ := Metric.isOpen_iff.1 (inside_open v) x hx
    refine ⟨Metric.ball x ε, Metric.ball_mem_nhds x hε, ?_⟩
    have hsub : Metric.ball x ε ⊆ filled v := fun q hq => Or.inl (hb hq)
    rw [Set.inter_eq_right.2 hsub]
    exact convex_ball _ _
  · rcases t0.eq_or_lt with rfl | t0
    · rw [zero_smul, add_zero]; exact hcorner i hi
    rcases t1.eq_or_lt with rfl | t1
    · have : corner v i + (1 : ℝ) • (corner v (i + 1) - corner v i) = corner v ((i + 1) % v.length) := by
        rw [corner_mod]; module
      rw [this]; exact hcorner _ (Nat.mod_lt _ hv)
    obtain ⟨ε, hε, hb⟩ := Metric.eventually_nhds_iff_ball.1 (he i hi t t0 t1)
    have hab := corner_ne h hne hi
    have hx0 : cross (corner v (i + 1) - corner v i) (corner v i + t • (corner v (i + 1) - corner v i) - corner v i) = 0 :=
      seg_cross ⟨t, t0.le, t1.le, rfl⟩
    generalize corner v i + t • (corner v (i + 1) - corner v i) = x at *
    refine ⟨Metric.ball x ε, Metric.ball_mem_nhds x hε, ?_⟩
    obtain ⟨⟨m, m1, -⟩, -⟩ := side_points (sub_ne_zero.2 hab.symm) hx0 (P := fun _ => True) (Filter.Eventually.of_forall fun _ => trivial)
    have hset : filled v ∩ Metric.ball x ε = Metric.ball x ε ∩ {q | 0 ≤ cross (corner v (i + 1) - corner v i) (q - corner v i)} := by
      ext q
      constructor
      · rintro ⟨hf, hq⟩
        refine ⟨hq, ?_⟩
        by_contra hc; exact (hb q hq).2 (not_le.1 hc) hf
      · rintro ⟨hq, q1⟩
        refine ⟨closed_limit hcl (d := m - corner v i) ?_, hq⟩
        have hg : Continuous fun t : ℝ => q + t • (m - corner v i) := by fun_prop
        have hb' : (fun t : ℝ => q + t • (m - corner v i)) ⁻¹' Metric.ball x ε ∈ 𝓝 0 :=
          (Metric.isOpen_ball.preimage hg).mem_nhds (by simpa using hq)
        filter_upwards [nhdsWithin_le_nhds hb', self_mem_nhdsWithin] with t t1 t2
        refine Or.inl ((hb _ t1).1 ?_)
        rw [cross_along]; exact add_pos_of_nonneg_of_pos q1 (mul_pos t2 m1)
    rw [hset]
    exact (convex_ball _ _).inter (halfplane_nonneg _ _)

/-- The inside of a simple ring is not empty. -/
theorem simple_inside {v : List (Pt ℝ)} (h : SimpleRing v) (hne : ¬ ∀ i < v.length, ∀ j < v.length, corner v i = corner v j) :
    ∃ c, Inside v c := by
  have hv : 0 < v.length := by have := h.1; omega
  have hu : corner v (0 + 1) - corner v 0 ≠ 0 := sub_ne_zero.2 (corner_ne h hne hv).symm
  have hx : cross (corner v (0 + 1) - corner v 0) (corner v 0 + (1 / 2 : ℝ) • (corner v (0 + 1) - corner v 0) - corner v 0) = 0 :=
    seg_cross ⟨1 / 2, by norm_num, by norm_num, rfl⟩
  rcases edge_inside h hne with he | he
  · obtain ⟨⟨q, q1, q2⟩, -⟩ := side_points hu hx (he 0 hv (1 / 2) (by norm_num) (by norm_num))
    exact ⟨q, q2.1 q1⟩
  · obtain ⟨-, q, q1, q2⟩ := side_points hu hx (he 0 hv (1 / 2) (by norm_num) (by norm_num))
    exact ⟨q, q2.1 q1⟩

/-- A simple ring without turns to the right bounds a convex region. -/
theorem left_convex {v : List (Pt ℝ)} (h : SimpleRing v) (hne : ¬ ∀ i < v.length, ∀ j < v.length, corner v i = corner v j)
    (ht : ∀ i < v.length, ∀ j < v.length, Nx v.length i j → 0 ≤ cross (corner v j - corner v i) (corner v (j + 1) - corner v j)) :
    Convex ℝ (filled v) := by
  have hv : 0 < v.length := by have := h.1; omega
  obtain ⟨c, hc⟩ := simple_inside h hne
  exact local_convex (filled_closed v) (filled_preconnected hv) (left_local h hne ht)
    ⟨c, mem_interior.2 ⟨_, fun _ hp => Or.inl hp, inside_open v, hc⟩⟩

end Starworlds
