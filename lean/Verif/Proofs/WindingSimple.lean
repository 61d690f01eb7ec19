import Verif.Proofs.WindingRing
import Verif.Spec.Intersects
import Mathlib.Topology.Connected.Basic
import Mathlib.Topology.Connected.Clopen
import Mathlib.Topology.MetricSpace.HausdorffDistance

/-! # The winding number of a ring that does not cross itself has two values -/

namespace Starworlds

open Spec MeasureTheory Topology

/-- Near `x` the function `w` has exactly the values `k` and `k + 1`. -/
def TwoNear (w : Pt ℝ → ℤ) (x : Pt ℝ) (k : ℤ) : Prop :=
  (∀ᶠ p in 𝓝 x, w p = k ∨ w p = k + 1) ∧ (∃ᶠ p in 𝓝 x, w p = k) ∧ ∃ᶠ p in 𝓝 x, w p = k + 1

theorem twoNear_same {w : Pt ℝ → ℤ} {x : Pt ℝ} {k : ℤ} (h : TwoNear w x k) :
    ∀ᶠ y in 𝓝 x, ∀ k', TwoNear w y k' → k' = k := by
  filter_upwards [eventually_eventually_nhds.2 h.1] with y hy k' h'
  obtain ⟨p, h1, h2⟩ := (h'.2.1.and_eventually hy).exists
  obtain ⟨q, h3, h4⟩ := (h'.2.2.and_eventually hy).exists
  rw [h1] at h2
  rw [h3] at h4
  omega

/-- Close to a point of the first edge of a triangle there are points inside and points outside. -/
theorem tri_near {a b c x : Pt ℝ} (hD : 0 < cross (b - a) (c - a)) (hx : OnSegment a b x) :
    (∃ᶠ p in 𝓝 x, triWind a b c p = 1) ∧ ∃ᶠ p in 𝓝 x, triWind a b c p = 0 := by
  obtain ⟨t, h0, h1, rfl⟩ := hx
  set x := a + t • (b - a) with hx
  set D := cross (b - a) (c - a) with hDdef
  -- the way to the mean of the corners
  let f : ℝ → Pt ℝ := fun ε => x + ε • ((1 / 3 : ℝ) • (a + b + c) - x)
  have c1 : ∀ ε, cross (b - a) (f ε - a) = ε * (D / 3) := by
    intro ε
    simp only [f, hx, hDdef, cross, Prod.fst_sub, Prod.snd_sub, Prod.fst_add, Prod.snd_add, Prod.smul_fst, Prod.smul_snd, smul_eq_mul]
    ring
  have c2 : ∀ ε, cross (c - b) (f ε - b) = (1 - ε) * ((1 - t) * D) + ε * (D / 3) := by
    intro ε
    simp only [f, hx, hDdef, cross, Prod.fst_sub, Prod.snd_sub, Prod.fst_add, Prod.snd_add, Prod.smul_fst, Prod.smul_snd, smul_eq_mul]
    ring
  have c3 : ∀ ε, cross (a - c) (f ε - c) = (1 - ε) * (t * D) + ε * (D / 3) := by
    intro ε
    simp only [f, hx, hDdef, cross, Prod.fst_sub, Prod.snd_sub, Prod.fst_add, Prod.snd_add, Prod.smul_fst, Prod.smul_snd, smul_eq_mul]
    ring
  have hcont : Continuous f := by fun_prop
  have hf0 : f 0 = x := by simp [f]
  have ht : Filter.Tendsto f (𝓝 0) (𝓝 x) := by
    have := hcont.tendsto 0
    rwa [hf0] at this
  constructor
  · have : ∀ᶠ ε in 𝓝[>] (0 : ℝ), triWind a b c (f ε) = 1 := by
      filter_upwards [Ioo_mem_nhdsGT (zero_lt_one (α := ℝ))] with ε hε
      have e0 : 0 < ε := hε.1
      have e1 : 0 ≤ 1 - ε := by linarith [hε.2]
      have d3 : 0 < ε * (D / 3) := by positivity
      refine (tri_good hD _).2.1 ?_ ?_ ?_
      · rw [c1]; exact d3
      · rw [c2]; exact add_pos_of_nonneg_of_pos (mul_nonneg e1 (mul_nonneg (by linarith) hD.le)) d3
      · rw [c3]; exact add_pos_of_nonneg_of_pos (mul_nonneg e1 (mul_nonneg h0 hD.le)) d3
    exact (ht.mono_left nhdsWithin_le_nhds).frequently this.frequently
  · have : ∀ᶠ ε in 𝓝[<] (0 : ℝ), triWind a b c (f ε) = 0 := by
      filter_upwards [self_mem_nhdsWithin] with ε hε
      refine (tri_good hD _).2.2 (Or.inl ?_)
      rw [c1]
      have : ε < 0 := hε
      exact mul_neg_of_neg_of_pos this (by positivity)
    exact (ht.mono_left nhdsWithin_le_nhds).frequently this.frequently

/-- A triangle and edges elsewhere. -/
theorem two_near {E F : List (Pt ℝ × Pt ℝ)} {a b c x : Pt ℝ} (hD : 0 < cross (b - a) (c - a)) (hx : OnSegment a b x)
    (hF : ClosedEdges F) (hxF : ∀ e ∈ F, ¬ OnSegment e.1 e.2 x) {s : ℤ} (hs : s = 1 ∨ s = -1)
    (hw : ∀ p, windOf E p = s * triWind a b c p + windOf F p) : ∃ k, TwoNear (windOf E) x k := by
  have hloc := wind_locally hF hxF
  obtain ⟨hin, hout⟩ := tri_near hD hx
  have good : ∀ p, triWind a b c p = 0 ∨ triWind a b c p = 1 := fun p => (tri_good hD p).1
  rcases hs with rfl | rfl
  · refine ⟨windOf F x, ?_, ?_, ?_⟩
    · filter_upwards [hloc] with p hp
      have := hw p
      rcases good p with h | h <;> rw [h] at this <;> omega
    · refine (hout.and_eventually hloc).mono fun p hp => ?_
      rw [hw, hp.1, hp.2]; ring
    · refine (hin.and_eventually hloc).mono fun p hp => ?_
      rw [hw, hp.1, hp.2]; ring
  · refine ⟨windOf F x - 1, ?_, ?_, ?_⟩
    · filter_upwards [hloc] with p hp
      have := hw p
      rcases good p with h | h <;> rw [h] at this <;> omega
    · refine (hin.and_eventually hloc).mono fun p hp => ?_
      rw [hw, hp.1, hp.2]; ring
    · refine (hout.and_eventually hloc).mono fun p hp => ?_
      rw [hw, hp.1, hp.2]; ring

theorem windOf_cons (e : Pt ℝ × Pt ℝ) (E : List (Pt ℝ × Pt ℝ)) (p : Pt ℝ) :
    windOf (e :: E) p = crossing e.1 e.2 p + windOf E p := by simp [windOf]

theorem windOf_perm {E F : List (Pt ℝ × Pt ℝ)} (h : E.Perm F) (p : Pt ℝ) : windOf E p = windOf F p :=
  (h.map fun e : Pt ℝ × Pt ℝ => crossing e.1 e.2 p).sum_eq

theorem closed_perm {E F : List (Pt ℝ × Pt ℝ)} (h : E.Perm F) (hE : ClosedEdges E) : ClosedEdges F :=
  ((h.map Prod.fst).symm.trans hE).trans (h.map Prod.snd)

theorem closed_split {a c : Pt ℝ} (q : Pt ℝ) {E : List (Pt ℝ × Pt ℝ)} (h : ClosedEdges ((a, c) :: E)) :
    ClosedEdges ((a, q) :: (q, c) :: E) := by
  have h' : (a :: E.map Prod.fst).Perm (c :: E.map Prod.snd) := h
  have : (a :: q :: E.map Prod.fst).Perm (q :: c :: E.map Prod.snd) := (List.Perm.swap _ _ _).trans (h'.cons q)
  exact this

theorem closed_join {a b c : Pt ℝ} {E : List (Pt ℝ × Pt ℝ)} (h : ClosedEdges ((a, b) :: (b, c) :: E)) :
    ClosedEdges ((a, c) :: E) := by
  have h' : (a :: b :: E.map Prod.fst).Perm (b :: c :: E.map Prod.snd) := h
  exact ((List.Perm.swap a b _).trans h').cons_inv

/-- Near a point between the ends of an edge. -/
theorem edge_two {E F : List (Pt ℝ × Pt ℝ)} {a c : Pt ℝ} {t : ℝ} (hac : a ≠ c) (h0 : 0 < t) (h1 : t < 1)
    (hF : ClosedEdges ((a, c) :: F)) (hxF : ∀ e ∈ F, ¬ OnSegment e.1 e.2 (a + t • (c - a)))
    (hw : ∀ p, windOf E p = crossing a c p + windOf F p) : ∃ k, TwoNear (windOf E) (a + t • (c - a)) k := by
  set q : Pt ℝ := (a.1 - (c.2 - a.2), a.2 + (c.1 - a.1)) with hq
  have eD : cross (c - a) (q - a) = (c.1 - a.1) ^ 2 + (c.2 - a.2) ^ 2 := by
    simp only [hq, cross, Prod.fst_sub, Prod.snd_sub]; ring
  have hD : 0 < cross (c - a) (q - a) := by
    rw [eD]
    rcases eq_or_ne a.1 c.1 with h | h
    · have : c.2 - a.2 ≠ 0 := fun h' => hac (Prod.ext h (by linarith))
      positivity
    · have : c.1 - a.1 ≠ 0 := fun h' => h (by linarith)
      positivity
  refine two_near hD (F := (a, q) :: (q, c) :: F) ⟨t, h0.le, h1.le, rfl⟩ (closed_split q hF) ?_ (s := 1) (Or.inl rfl) ?_
  · intro e he
    rcases List.mem_cons.1 he with rfl | he
    · intro h
      have := line_of_segment h
      have e2 : cross (q - (a + t • (c - a))) (a - (a + t • (c - a))) = t * cross (c - a) (q - a) := by
        simp only [cross, Prod.fst_sub, Prod.snd_sub, Prod.fst_add, Prod.snd_add, Prod.smul_fst, Prod.smul_snd, smul_eq_mul]; ring
      rw [e2] at this
      exact (mul_pos h0 hD).ne' this
    · rcases List.mem_cons.1 he with rfl | he
      · intro h
        have := line_of_segment h
        have e2 : cross (c - (a + t • (c - a))) (q - (a + t • (c - a))) = (1 - t) * cross (c - a) (q - a) := by
          simp only [cross, Prod.fst_sub, Prod.snd_sub, Prod.fst_add, Prod.snd_add, Prod.smul_fst, Prod.smul_snd, smul_eq_mul]; ring
        rw [e2] at this
        exact (mul_pos (by linarith : 0 < 1 - t) hD).ne' this
      · exact hxF e he
  · intro p
    rw [hw, windOf_cons, windOf_cons, triWind, crossing_swap a q, crossing_swap q c]
    ring

/-! ## Rings -/

/-- `j` is the index after `i` on a ring with `n` corners. -/
def Nx (n i j : ℕ) : Prop := j = i + 1 ∨ (j = 0 ∧ i + 1 = n)

theorem corner_nx {v : List (Pt ℝ)} {i j : ℕ} (h : Nx v.length i j) : corner v (i + 1) = corner v j := by
  rcases h with rfl | ⟨rfl, h⟩
  · rfl
  · unfold corner; rw [h]; simp

theorem simple_cyclic {v : List (Pt ℝ)} (h : SimpleRing v) {i j : ℕ} (hi : i < v.length) (hj : j < v.length) (hij : i ≠ j) {p : Pt ℝ}
    (h1 : OnSegment (corner v i) (corner v (i + 1)) p) (h2 : OnSegment (corner v j) (corner v (j + 1)) p) :
    (Nx v.length i j ∧ p = corner v j) ∨ (Nx v.length j i ∧ p = corner v i) := by
  have key : ∀ i j, i < j → j < v.length → OnSegment (corner v i) (corner v (i + 1)) p → OnSegment (corner v j) (corner v (j + 1)) p →
      (Nx v.length i j ∧ p = corner v j) ∨ (Nx v.length j i ∧ p = corner v i) := by
    intro i j hij hj h1 h2
    rcases h.2 i j hij hj p h1 h2 with ⟨h3, h4⟩ | ⟨h3, h4, h5⟩
    · exact Or.inl ⟨Or.inl h3, h4⟩
    · exact Or.inr ⟨Or.inr ⟨h3, h4⟩, by rw [h5, h3]⟩
  rcases lt_or_gt_of_ne hij with h' | h'
  · exact key i j h' hj h1 h2
  · exact (key j i h' hi h2 h1).symm

theorem seg_start (a b : Pt ℝ) : OnSegment a b a := ⟨0, le_rfl, zero_le_one, by rw [zero_smul, add_zero]⟩

theorem seg_end (a b : Pt ℝ) : OnSegment a b b := ⟨1, zero_le_one, le_rfl, by rw [one_smul]; abel⟩

/-- A corner is on its two edges only, unless all corners are the same. -/
theorem corner_edges {v : List (Pt ℝ)} (h : SimpleRing v) (hne : ¬ ∀ i < v.length, ∀ j < v.length, corner v i = corner v j)
    {i' i j : ℕ} (hi' : i' < v.length) (hi : i < v.length) (hj : j < v.length) (hn : Nx v.length i' i) (h1 : j ≠ i) (h2 : j ≠ i') :
    ¬ OnSegment (corner v j) (corner v (j + 1)) (corner v i) := by
  intro hs
  have h3 := h.1
  rcases simple_cyclic h hi hj h1.symm (seg_start _ _) hs with ⟨a1, a2⟩ | ⟨a1, _⟩
  · have hend : OnSegment (corner v i') (corner v (i' + 1)) (corner v i) := by rw [corner_nx hn]; exact seg_end _ _
    rcases simple_cyclic h hi' hj h2.symm hend hs with ⟨b1, _⟩ | ⟨b1, b2⟩
    · unfold Nx at *; omega
    · refine hne fun k hk l hl => ?_
      have : ∀ k < v.length, corner v k = corner v i := by
        intro k hk
        have : k = i ∨ k = i' ∨ k = j := by unfold Nx at *; omega
        rcases this with rfl | rfl | rfl
        · rfl
        · exact b2.symm
        · exact a2.symm
      rw [this k hk, this l hl]
  · unfold Nx at *; omega

theorem nx_exists {n i : ℕ} (hi : i < n) : ∃ i' < n, Nx n i' i := by
  rcases Nat.eq_zero_or_pos i with rfl | h
  · exact ⟨n - 1, by omega, Or.inr ⟨rfl, by omega⟩⟩
  · exact ⟨i - 1, by omega, Or.inl (by omega)⟩

theorem ring_closed (v : List (Pt ℝ)) : ClosedEdges (edgesOf (ringOf v)) := by
  rw [edges_ring]
  unfold ClosedEdges
  rw [List.map_map, List.map_map]
  rcases hv : v.length with _ | m
  · simp
  · have e1 : (List.range (m + 1)).map (Prod.fst ∘ fun i => (corner v i, corner v (i + 1))) =
        corner v 0 :: (List.range m).map fun i => corner v (i + 1) := by
      rw [List.range_succ_eq_map]; simp [Function.comp_def]
    have e2 : (List.range (m + 1)).map (Prod.snd ∘ fun i => (corner v i, corner v (i + 1))) =
        (List.range m).map (fun i => corner v (i + 1)) ++ [corner v 0] := by
      rw [List.range_succ]
      have : corner v (m + 1) = corner v 0 := by rw [corner_nx (j := 0) (Or.inr ⟨rfl, hv.symm⟩)]
      simp [Function.comp_def, this]
    rw [e1, e2]
    exact (List.perm_append_singleton _ _).symm

theorem edges_out (v : List (Pt ℝ)) {i : ℕ} (hi : i < v.length) :
    ∃ F, (edgesOf (ringOf v)).Perm ((corner v i, corner v (i + 1)) :: F) ∧
      ∀ e ∈ F, ∃ j < v.length, j ≠ i ∧ e = (corner v j, corner v (j + 1)) := by
  rw [edges_ring]
  refine ⟨((List.range v.length).erase i).map fun i => (corner v i, corner v (i + 1)), ?_, ?_⟩
  · have := (List.perm_cons_erase (List.mem_range.2 hi)).map fun i => (corner v i, corner v (i + 1))
    simpa using this
  · intro e he
    obtain ⟨j, hj, rfl⟩ := List.mem_map.1 he
    have := (List.nodup_range.mem_erase_iff).1 hj
    exact ⟨j, List.mem_range.1 this.2, this.1, rfl⟩

theorem edges_out2 (v : List (Pt ℝ)) {i i' : ℕ} (hi : i < v.length) (hi' : i' < v.length) (hne : i ≠ i') :
    ∃ F, (edgesOf (ringOf v)).Perm ((corner v i', corner v (i' + 1)) :: (corner v i, corner v (i + 1)) :: F) ∧
      ∀ e ∈ F, ∃ j < v.length, j ≠ i ∧ j ≠ i' ∧ e = (corner v j, corner v (j + 1)) := by
  rw [edges_ring]
  refine ⟨(((List.range v.length).erase i').erase i).map fun i => (corner v i, corner v (i + 1)), ?_, ?_⟩
  · have h1 := List.perm_cons_erase (List.mem_range.2 hi')
    have h2 := List.perm_cons_erase ((List.nodup_range.mem_erase_iff).2 ⟨hne, List.mem_range.2 hi⟩)
    have := (h1.trans (h2.cons i')).map fun i => (corner v i, corner v (i + 1))
    simpa using this
  · intro e he
    obtain ⟨j, hj, rfl⟩ := List.mem_map.1 he
    have h1 := ((List.nodup_range.erase i').mem_erase_iff).1 hj
    have h2 := (List.nodup_range.mem_erase_iff).1 h1.2
    exact ⟨j, List.mem_range.1 h2.2, h1.1, h2.1, rfl⟩

/-- Near each point of the ring there are two values. -/
theorem ring_two {v : List (Pt ℝ)} (h : SimpleRing v) (hne : ¬ ∀ i < v.length, ∀ j < v.length, corner v i = corner v j) {x : Pt ℝ}
    (hx : OnRing v x) : ∃ k, TwoNear (windOf (edgesOf (ringOf v))) x k := by
  have h3 := h.1
  have hdist : ∀ i' < v.length, ∀ i < v.length, Nx v.length i' i → corner v i' ≠ corner v i := by
    intro i' hi' i hi hn heq
    obtain ⟨i'', hi'', hn'⟩ := nx_exists hi'
    refine corner_edges h hne hi'' hi' hi hn' ?_ ?_ (heq ▸ seg_start _ _)
    · unfold Nx at *; omega
    · unfold Nx at *; omega
  by_cases hc : ∃ i < v.length, x = corner v i
  · obtain ⟨i, hi, rfl⟩ := hc
    obtain ⟨i', hi', hn⟩ := nx_exists hi
    have hii : i ≠ i' := by unfold Nx at *; omega
    obtain ⟨F, hF, hFe⟩ := edges_out2 v hi hi' hii
    have hFx : ∀ e ∈ F, ¬ OnSegment e.1 e.2 (corner v i) := by
      intro e he
      obtain ⟨j, hj, j1, j2, rfl⟩ := hFe e he
      exact corner_edges h hne hi' hi hj hn j1 j2
    rw [corner_nx hn] at hF
    have hcl := closed_perm hF (ring_closed v)
    have hab := hdist i' hi' i hi hn
    obtain ⟨j, hj, hnj⟩ : ∃ j < v.length, Nx v.length i j := by
      by_cases hl : i + 1 = v.length
      · exact ⟨0, by omega, Or.inr ⟨rfl, hl⟩⟩
      · exact ⟨i + 1, by omega, Or.inl rfl⟩
    have hbc := hdist i hi j hj hnj
    rw [← corner_nx hnj] at hbc
    have hedges : ∀ y, OnSegment (corner v i') (corner v i) y → OnSegment (corner v i) (corner v (i + 1)) y → y = corner v i := by
      intro y y1 y2
      rw [← corner_nx hn] at y1
      rcases simple_cyclic h hi' hi hii.symm y1 y2 with ⟨_, hy⟩ | ⟨hb, _⟩
      · exact hy
      · unfold Nx at *; omega
    have hw : ∀ p, windOf (edgesOf (ringOf v)) p = crossing (corner v i') (corner v i) p +
        (crossing (corner v i) (corner v (i + 1)) p + windOf F p) := by
      intro p
      rw [windOf_perm hF, windOf_cons, windOf_cons]
    generalize corner v i' = a at *
    generalize corner v (i + 1) = c at *
    generalize corner v i = b at *
    have hjoin : ClosedEdges ((a, c) :: F) := closed_join hcl
    rcases eq_or_ne (cross (b - a) (c - a)) 0 with hD | hD
    · -- a straight corner
      have hflat := triWind_flat hD
      obtain ⟨l, hl⟩ : ∃ l : ℝ, c = b + l • (b - a) := by
        have hn0 : (b.1 - a.1) ^ 2 + (b.2 - a.2) ^ 2 ≠ 0 := by
          intro h0
          have e1 : b.1 - a.1 = 0 := by nlinarith [sq_nonneg (b.1 - a.1), sq_nonneg (b.2 - a.2)]
          have e2 : b.2 - a.2 = 0 := by nlinarith [sq_nonneg (b.1 - a.1), sq_nonneg (b.2 - a.2)]
          exact hab (Prod.ext (by linarith) (by linarith))
        refine ⟨((b.1 - a.1) * (c.1 - b.1) + (b.2 - a.2) * (c.2 - b.2)) / ((b.1 - a.1) ^ 2 + (b.2 - a.2) ^ 2), ?_⟩
        simp only [cross, Prod.fst_sub, Prod.snd_sub] at hD
        ext
        · simp only [Prod.fst_add, Prod.smul_fst, smul_eq_mul, Prod.fst_sub]
          field_simp
          linear_combination (-(b.2 - a.2)) * hD
        · simp only [Prod.snd_add, Prod.smul_snd, smul_eq_mul, Prod.snd_sub]
          field_simp
          linear_combination (b.1 - a.1) * hD
      rcases lt_trichotomy l 0 with hl0 | hl0 | hl0
      · exfalso
        set m := min 1 (-l) with hm
        have hm0 : 0 < m := lt_min one_pos (by linarith)
        have hm1 : m ≤ 1 := min_le_left _ _
        have hm2 : m ≤ -l := min_le_right _ _
        have hy := hedges (b + (-m) • (b - a)) ⟨1 - m, by linarith, by linarith, by module⟩
          ⟨m / (-l), div_nonneg hm0.le (by linarith), (div_le_one (by linarith)).2 hm2, by
            rw [hl, add_sub_cancel_left, smul_smul, show m / -l * l = -m by rw [div_neg, neg_mul, div_mul_cancel₀ _ hl0.ne]]⟩
        have : (-m) • (b - a) = 0 := by simpa using hy
        rcases smul_eq_zero.1 this with h' | h'
        · linarith
        · exact hab (sub_eq_zero.1 h').symm
      · rw [hl0, zero_smul, add_zero] at hl
        exact absurd hl.symm hbc
      · have hb : b = a + (1 / (1 + l)) • (c - a) := by
          have e : c - a = (1 + l) • (b - a) := by rw [hl]; module
          rw [e, smul_smul, one_div_mul_cancel (by linarith), one_smul]; abel
        have hac : a ≠ c := by
          intro hac
          rw [← hac, sub_self, smul_zero, add_zero] at hb
          exact hab hb.symm
        rw [hb] at hFx ⊢
        refine edge_two hac (by positivity) ((div_lt_one (by linarith)).2 (by linarith)) hjoin hFx fun p => ?_
        rw [hw]
        have := hflat p
        rw [triWind, crossing_swap a c] at this
        linarith
    · have hbs : ¬ OnSegment a c b := fun hs => hD (by
        obtain ⟨t, _, _, rfl⟩ := hs
        simp only [cross, Prod.fst_sub, Prod.snd_sub, Prod.fst_add, Prod.snd_add, Prod.smul_fst, Prod.smul_snd, smul_eq_mul]; ring)
      have hout : ∀ e ∈ (a, c) :: F, ¬ OnSegment e.1 e.2 b := by
        intro e he
        rcases List.mem_cons.1 he with rfl | he
        · exact hbs
        · exact hFx e he
      rcases lt_or_gt_of_ne hD with hD | hD
      · have hD' : 0 < cross (a - b) (c - b) := by
          have : cross (a - b) (c - b) = - cross (b - a) (c - a) := by simp only [cross, Prod.fst_sub, Prod.snd_sub]; ring
          linarith
        refine two_near hD' (seg_start _ _) hjoin hout (s := -1) (Or.inr rfl) fun p => ?_
        rw [hw, windOf_cons, triWind, crossing_swap a b, crossing_swap b c]; ring
      · refine two_near hD (seg_end _ _) hjoin hout (s := 1) (Or.inl rfl) fun p => ?_
        rw [hw, windOf_cons, triWind, crossing_swap a c]; ring
  · push Not at hc
    obtain ⟨i, hi, hs⟩ := hx
    obtain ⟨F, hF, hFe⟩ := edges_out v hi
    have hFx : ∀ e ∈ F, ¬ OnSegment e.1 e.2 x := by
      intro e he hs'
      obtain ⟨j, hj, j1, rfl⟩ := hFe e he
      rcases simple_cyclic h hi hj j1.symm hs hs' with ⟨_, hp⟩ | ⟨_, hp⟩
      · exact hc j hj hp
      · exact hc i hi hp
    have hcl := closed_perm hF (ring_closed v)
    obtain ⟨j, hj, hnj⟩ : ∃ j < v.length, Nx v.length i j := by
      by_cases hl : i + 1 = v.length
      · exact ⟨0, by omega, Or.inr ⟨rfl, hl⟩⟩
      · exact ⟨i + 1, by omega, Or.inl rfl⟩
    have hne' := hdist i hi j hj hnj
    have hxj := hc j hj
    have hxi := hc i hi
    rw [corner_nx hnj] at hF hcl hs
    obtain ⟨t, h0, h1, rfl⟩ := hs
    refine edge_two hne' (h0.lt_of_ne ?_) (h1.lt_of_ne ?_) hcl hFx fun p => ?_
    · rintro rfl; exact hxi (by rw [zero_smul, add_zero])
    · rintro rfl; exact hxj (by rw [one_smul]; abel)
    · rw [windOf_perm hF, windOf_cons]

theorem corner_mod (v : List (Pt ℝ)) (i : ℕ) : corner v (i % v.length) = corner v i := by
  unfold corner; rw [Nat.mod_mod]

theorem ring_seg {v : List (Pt ℝ)} (hv : 0 < v.length) (p : Pt ℝ) :
    OnRing v p ↔ ∃ i : ℕ, OnSegment (corner v i) (corner v (i + 1)) p := by
  constructor
  · rintro ⟨i, _, h⟩; exact ⟨i, h⟩
  · rintro ⟨i, h⟩
    refine ⟨i % v.length, Nat.mod_lt _ hv, ?_⟩
    have : corner v (i % v.length + 1) = corner v (i + 1) := by
      unfold corner; rw [Nat.mod_add_mod]
    rw [this, corner_mod]; exact h

theorem seg_eq (a b : Pt ℝ) : {p | OnSegment a b p} = segment ℝ a b := by
  ext p
  rw [segment_eq_image']
  constructor
  · rintro ⟨t, h0, h1, rfl⟩; exact ⟨t, ⟨h0, h1⟩, rfl⟩
  · rintro ⟨t, ⟨h0, h1⟩, rfl⟩; exact ⟨t, h0, h1, rfl⟩

theorem ring_preconnected {v : List (Pt ℝ)} (hv : 0 < v.length) : IsPreconnected {p | OnRing v p} := by
  have : {p | OnRing v p} = ⋃ i : ℕ, {p | OnSegment (corner v i) (corner v (i + 1)) p} := by
    ext p; simp [ring_seg hv]
  rw [this]
  refine IsPreconnected.iUnion_of_chain (fun i => ?_) fun i => ⟨corner v (i + 1), seg_end _ _, ?_⟩
  · rw [seg_eq]; exact (convex_segment _ _).isPreconnected
  · exact seg_start _ _

theorem ring_compact (v : List (Pt ℝ)) : IsCompact {p | OnRing v p} := by
  have : {p | OnRing v p} = ⋃ i ∈ Finset.range v.length, {p | OnSegment (corner v i) (corner v (i + 1)) p} := by
    ext p; simp [OnRing]
  rw [this]
  refine (Finset.range v.length).isCompact_biUnion fun i _ => ?_
  rw [seg_eq, segment_eq_image']
  exact isCompact_Icc.image (by fun_prop)

theorem wind_off {v : List (Pt ℝ)} {p : Pt ℝ} (hp : ¬ OnRing v p) : ∀ e ∈ edgesOf (ringOf v), ¬ OnSegment e.1 e.2 p := by
  rw [edges_ring]
  intro e he hs
  obtain ⟨i, hi, rfl⟩ := List.mem_map.1 he
  exact hp ⟨i, List.mem_range.1 hi, hs⟩

/-- Off a ring that does not cross itself the winding number is 0 or `s`, with one `s` out of 1 and -1. -/
theorem wind_simple {v : List (Pt ℝ)} (h : SimpleRing v) :
    ∃ s : ℤ, (s = 1 ∨ s = -1) ∧ ∀ p, ¬ OnRing v p → windOf (edgesOf (ringOf v)) p = 0 ∨ windOf (edgesOf (ringOf v)) p = s := by
  have hv : 0 < v.length := by have := h.1; omega
  by_cases hne : ∀ i < v.length, ∀ j < v.length, corner v i = corner v j
  · refine ⟨1, Or.inl rfl, fun p _ => Or.inl ?_⟩
    have : ∀ e ∈ edgesOf (ringOf v), crossing e.1 e.2 p = 0 := by
      rw [edges_ring]
      intro e he
      obtain ⟨i, hi, rfl⟩ := List.mem_map.1 he
      have : corner v i = corner v (i + 1) := by
        rw [← corner_mod v (i + 1)]
        exact hne i (List.mem_range.1 hi) _ (Nat.mod_lt _ hv)
      simp only [this]
      rcases lt_or_ge p.2 (corner v (i + 1)).2 with h' | h'
      · exact crossing_high h' h'
      · exact crossing_low h' h'
    unfold windOf
    exact List.sum_eq_zero fun y hy => by
      obtain ⟨e, he, rfl⟩ := List.mem_map.1 hy
      exact this e he
  · set w := windOf (edgesOf (ringOf v)) with hw
    set C := {p | OnRing v p} with hC
    have htwo : ∀ x ∈ C, ∃ k, TwoNear w x k := fun x hx => ring_two h hne hx
    choose! K hK using htwo
    have hcont : ContinuousOn K C := by
      intro x hx
      have : ∀ᶠ y in 𝓝[C] x, K y = K x := by
        filter_upwards [nhdsWithin_le_nhds (twoNear_same (hK x hx)), self_mem_nhdsWithin] with y hy hyC
        exact hy _ (hK y hyC)
      exact (continuousWithinAt_const (b := K x)).congr_of_eventuallyEq this rfl
    have hconst : ∀ x ∈ C, ∀ y ∈ C, K x = K y := fun x hx y hy => (ring_preconnected hv).constant hcont hx hy
    have hx0 : corner v 0 ∈ C := ⟨0, hv, seg_start _ _⟩
    have hval : ∀ p, p ∉ C → w p = K (corner v 0) ∨ w p = K (corner v 0) + 1 := by
      intro p hp
      obtain ⟨x, hxC, hdist⟩ := (ring_compact v).exists_infDist_eq_dist ⟨_, hx0⟩ p
      let f : ℝ → Pt ℝ := fun t => p + t • (x - p)
      have hf : Continuous f := by fun_prop
      have hoff : ∀ t ∈ Set.Ico (0 : ℝ) 1, f t ∉ C := by
        intro t ht hm
        have h1 := Metric.infDist_le_dist_of_mem (x := p) hm
        rw [hdist] at h1
        have h2 : dist p (f t) = t * dist p x := by
          rw [dist_comm p (f t), dist_comm p x, dist_eq_norm, dist_eq_norm]
          simp only [f, add_sub_cancel_left]
          rw [norm_smul, Real.norm_of_nonneg ht.1]
        have h3 : 0 < dist p x := dist_pos.2 fun e => hp (e ▸ hxC)
        rw [h2] at h1
        nlinarith [ht.2]
      have hwc : ContinuousOn (fun t => w (f t)) (Set.Ico 0 1) := by
        intro t ht
        have := hf.continuousAt.eventually (wind_locally (ring_closed v) (wind_off (hoff t ht)))
        exact ((continuousAt_const (y := w (f t))).congr (Filter.EventuallyEq.symm this)).continuousWithinAt
      have hsame : ∀ t ∈ Set.Ico (0 : ℝ) 1, w (f t) = w p := by
        intro t ht
        have := (isPreconnected_Ico (a := (0 : ℝ)) (b := 1)).constant hwc ht ⟨le_rfl, one_pos⟩
        simpa [f] using this
      have ht : Filter.Tendsto f (𝓝[<] 1) (𝓝 x) := by
        have := hf.tendsto 1
        simp only [f, one_smul, add_sub_cancel] at this
        exact this.mono_left nhdsWithin_le_nhds
      have hnear := ht.eventually (hK x hxC).1
      obtain ⟨t, h1, h2⟩ := (hnear.and (Ico_mem_nhdsLT (zero_lt_one (α := ℝ)))).exists
      rw [hsame t h2, hconst x hxC _ hx0] at h1
      exact h1
    -- far above the ring
    obtain ⟨M, hM⟩ : ∃ M : ℝ, ∀ p ∈ C, p.2 < M := by
      obtain ⟨M, hM⟩ := ((ring_compact v).image continuous_snd).bddAbove
      exact ⟨M + 1, fun p hp => by linarith [hM ⟨p, hp, rfl⟩]⟩
    have hfar : ((0, M) : Pt ℝ) ∉ C := fun hm => lt_irrefl _ (hM _ hm)
    have hz : w (0, M) = 0 := by
      have : ∀ e ∈ edgesOf (ringOf v), crossing e.1 e.2 (0, M) = 0 := by
        rw [edges_ring]
        intro e he
        obtain ⟨i, hi, rfl⟩ := List.mem_map.1 he
        refine crossing_low (hM _ ?_).le (hM _ ?_).le
        · exact ⟨i, List.mem_range.1 hi, seg_start _ _⟩
        · exact ⟨i, List.mem_range.1 hi, seg_end _ _⟩
      rw [hw]
      unfold windOf
      exact List.sum_eq_zero fun y hy => by
        obtain ⟨e, he, rfl⟩ := List.mem_map.1 hy
        exact this e he
    rcases hval _ hfar with hk | hk
    · rw [hz] at hk
      exact ⟨1, Or.inl rfl, fun p hp => by have := hval p hp; omega⟩
    · rw [hz] at hk
      exact ⟨-1, Or.inr rfl, fun p hp => by have := hval p hp; omega⟩

/-- The number of crossed edges and the winding number are both odd or both even. -/
theorem wind_parity (E : List (Pt ℝ × Pt ℝ)) (p : Pt ℝ) : (2 : ℤ) ∣ windOf E p - (E.countP (rayCrosses p) : ℤ) := by
  induction E with
  | nil => simp [windOf]
  | cons e E ih =>
    rw [windOf_cons, List.countP_cons]
    have hiff : rayCrosses p e = true ↔ _ := (rayCrosses_iff e.1 e.2 p).trans rayCrosses_signs
    have : (2 : ℤ) ∣ crossing e.1 e.2 p - (if rayCrosses p e = true then 1 else 0 : ℕ) := by
      unfold crossing
      by_cases h1 : e.1.2 ≤ p.2 ∧ p.2 < e.2.2 ∧ 0 < cross (e.2 - e.1) (p - e.1)
      · rw [if_pos h1, if_pos (hiff.2 (Or.inl ⟨by linarith [h1.1], by linarith [h1.2.1], h1.2.2⟩))]
        simp
      · rw [if_neg h1]
        by_cases h2 : e.2.2 ≤ p.2 ∧ p.2 < e.1.2 ∧ cross (e.2 - e.1) (p - e.1) < 0
        · rw [if_pos h2, if_pos (hiff.2 (Or.inr ⟨by linarith [h2.1], by linarith [h2.2.1], h2.2.2⟩))]
          norm_num
        · rw [if_neg h2, if_neg]
          · simp
          · intro h
            rcases hiff.1 h with ⟨a1, a2, a3⟩ | ⟨a1, a2, a3⟩
            · exact h1 ⟨by linarith, by linarith, a3⟩
            · exact h2 ⟨by linarith, by linarith, a3⟩
    rw [Nat.cast_add]
    omega

/-- The points inside are those with a winding number that is odd. -/
theorem inside_wind {v : List (Pt ℝ)} {p : Pt ℝ} (hp : ¬ OnRing v p) : Inside v p ↔ ¬ (2 : ℤ) ∣ windOf (edgesOf (ringOf v)) p := by
  have h1 := wind_parity (edgesOf (ringOf v)) p
  have hr : ringContains v p = false := by
    rw [Bool.eq_false_iff]; exact fun h => hp ((ringContains_iff v p).1 h)
  rw [← polyContains_iff, polyContains, hr]
  simp only [Bool.not_false, Bool.true_and, decide_eq_true_eq]
  omega

/-- The measure of a polygon that does not cross itself. -/
theorem volume_simple {v : List (Pt ℝ)} (h : SimpleRing v) : volume (filled v) = ENNReal.ofReal (shapelyArea v) := by
  obtain ⟨s, hs, hval⟩ := wind_simple h
  obtain ⟨hint, hI⟩ := integral_wind (ring_closed v)
  set w := windOf (edgesOf (ringOf v)) with hw
  have hoff : ∀ᵐ p, ¬ OnRing v p := by
    rw [ae_iff]; simpa using ring_null v
  have hin : ∀ p, ¬ OnRing v p → (Inside v p ↔ w p = s) := by
    intro p hp
    rw [inside_wind hp, ← hw]
    have := hval p hp
    omega
  have hae : (fun p => (s : ℝ) * (w p : ℝ)) =ᵐ[volume] (filled v).indicator fun _ => (1 : ℝ) := by
    filter_upwards [hoff] with p hp
    by_cases hi : Inside v p
    · rw [Set.indicator_of_mem (show p ∈ filled v from Or.inl hi), (hin p hp).1 hi]
      rcases hs with rfl | rfl <;> norm_num
    · have : p ∉ filled v := fun hf => hf.elim hi hp
      rw [Set.indicator_of_notMem this]
      have : w p = 0 := (hval p hp).resolve_right fun e => hi ((hin p hp).2 e)
      rw [this]; simp
  have hint' : Integrable (fun p => (s : ℝ) * (w p : ℝ)) := hint.const_mul _
  have hnm : NullMeasurableSet (filled v) := by
    have : filled v =ᵐ[volume] {p | (0 : ℝ) < s * w p} := by
      filter_upwards [hae] with p hp
      have hp' : (s : ℝ) * (w p : ℝ) = (filled v).indicator (fun _ => (1 : ℝ)) p := hp
      refine propext ?_
      change p ∈ filled v ↔ 0 < (s : ℝ) * (w p : ℝ)
      by_cases hf : p ∈ filled v
      · rw [hp', Set.indicator_of_mem hf]; simp [hf]
      · rw [hp', Set.indicator_of_notMem hf]; simp [hf]
    refine NullMeasurableSet.congr ?_ this.symm
    exact nullMeasurableSet_lt aemeasurable_const hint'.aemeasurable
  have hvol : ∫ p, (s : ℝ) * (w p : ℝ) = (volume (filled v)).toReal := by
    rw [integral_congr_ae hae, integral_indicator₀ hnm]
    simp [Measure.real]
  have hfin : volume (filled v) ≠ ⊤ := by
    have hi : Integrable ((filled v).indicator fun _ => (1 : ℝ)) := hint'.congr hae
    have h1 := hi.measure_norm_ge_lt_top one_pos
    refine ne_top_of_le_ne_top h1.ne (measure_mono fun p hp => ?_)
    change 1 ≤ ‖(filled v).indicator (fun _ => (1 : ℝ)) p‖
    rw [Set.indicator_of_mem hp]; simp
  rw [integral_const_mul, hI] at hvol
  rw [← ENNReal.ofReal_toReal hfin, ← hvol]
  congr 1
  have e : ((edgesOf (ringOf v)).map fun e => e.1.1 * e.2.2 - e.2.1 * e.1.2).sum = signedArea2 v := rfl
  rw [e] at hvol ⊢
  have hnn : 0 ≤ (s : ℝ) * (signedArea2 v / 2) := by rw [hvol]; exact ENNReal.toReal_nonneg
  rw [shapelyArea, ← abs_of_nonneg hnn, abs_mul, abs_div]
  rcases hs with rfl | rfl <;> norm_num

end Starworlds
