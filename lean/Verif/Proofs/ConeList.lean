import Verif.Props.Cones
import Verif.Props.ConeRegion

/-! # Helper lemmas: intersections of the regions of cones with the same apex -/

namespace Starworlds

open Real Spec Filter Topology

/-- Membership in a cone does not depend on the length. -/
theorem sweep_scale {d1 d2 v : Pt ℝ} {l : ℝ} (hl : 0 < l) : l • v ∈ sweep d1 d2 ↔ v ∈ sweep d1 d2 := by
  have key : ∀ (w : Pt ℝ) (m : ℝ), 0 < m → w ∈ sweep d1 d2 → m • w ∈ sweep d1 d2 := by
    rintro w m hm ⟨r, s, t, φ, β, α, hr, hs, ht, h1, h2, h3, h4, e1, e2, e3⟩
    refine ⟨r, s, m * t, φ, β, α, hr, hs, by positivity, h1, h2, h3, h4, e1, e2, ?_⟩
    rw [e3]
    ext <;> simp [atAngle] <;> ring
  refine ⟨fun h => ?_, key v l hl⟩
  have := key _ l⁻¹ (inv_pos.2 hl) h
  rwa [smul_smul, inv_mul_cancel₀ hl.ne', one_smul] at this

/-- The hypothesis on the directions used for the region of a cone. -/
theorem genDir_cases {d1 d2 : Pt ℝ} (h : GenDir d1 d2) :
    1 / 10 ^ 10 < cross d1 d2 ∨ cross d1 d2 < 0 ∨ (cross d1 d2 = 0 ∧ dot d1 d2 < 0) := by
  have h' : (1 / 10 ^ 10 : ℝ) < |cross d1 d2| := h
  rcases le_or_gt 0 (cross d1 d2) with h0 | h0
  · rw [abs_of_nonneg h0] at h'; exact Or.inl h'
  · exact Or.inr (Or.inl h0)

theorem genDir_cases' {d1 d2 : Pt ℝ} (h : GenDir d1 d2) :
    0 < cross d1 d2 ∨ cross d1 d2 < 0 ∨ (cross d1 d2 = 0 ∧ dot d1 d2 < 0) :=
  (genDir_cases h).imp (fun h => lt_trans (by norm_num) h) id

/-- The test of the program and the region of the cone, beyond the threshold. -/
theorem pointInCone_sweep {c : Cone ℝ} {v : Pt ℝ} (hd : GenDir c.dir1 c.dir2) (h1 : GenDir c.dir1 v) (h2 : GenDir c.dir2 v) :
    c.pointInCone (c.apex + v) = true ↔ v ∈ sweep c.dir1 c.dir2 := by
  have t0 : (0 : ℝ) < 1 / 10 ^ 10 := by norm_num
  have g1 : (1 / 10 ^ 10 : ℝ) < |cross c.dir1 v| := h1
  have g2 : (1 / 10 ^ 10 : ℝ) < |cross c.dir2 v| := h2
  have s2 : cross v c.dir2 = -cross c.dir2 v := cross_swap _ _
  have s1 : cross v c.dir1 = -cross c.dir1 v := cross_swap _ _
  rw [pointInCone_eq]
  rcases genDir_cases hd with h | h | ⟨h, -⟩
  · have hc : ccwDir c.dir1 c.dir2 = true := by simpa [ccwDir, collinearThreshold] using h
    rw [sweep_convex (t0.trans h), if_pos hc, Bool.and_eq_true]
    constructor
    · rintro ⟨a1, a2⟩; exact ⟨(ccwDir_pos a1).le, (ccwDir_pos a2).le⟩
    · rintro ⟨a1, a2⟩
      refine ⟨ccwDir_of_pos h1 (lt_of_le_of_ne a1 fun e => ?_), ccwDir_of_pos h2.symm (lt_of_le_of_ne a2 fun e => ?_)⟩
      · rw [← e, abs_zero] at g1; linarith
      · rw [s2] at e; rw [neg_eq_zero.1 e.symm, abs_zero] at g2; linarith
  · have hc : ccwDir c.dir1 c.dir2 = false := by
      by_contra hh
      have := ccwDir_pos (by simpa using hh : ccwDir c.dir1 c.dir2 = true)
      linarith
    rw [sweep_reflex h, hc]
    simp only [Bool.false_eq_true, if_false, Bool.not_eq_true']
    rw [← not_iff_not, not_not, Bool.not_eq_false, Bool.and_eq_true]
    constructor
    · rintro ⟨a1, a2⟩; exact ⟨ccwDir_pos a1, ccwDir_pos a2⟩
    · rintro ⟨a1, a2⟩; exact ⟨ccwDir_of_pos h2 a1, ccwDir_of_pos h1.symm a2⟩
  · have : (1 / 10 ^ 10 : ℝ) < |cross c.dir1 c.dir2| := hd
    rw [h, abs_zero] at this; linarith

/-- The cones that result come from the directions of the given cones. -/
theorem loop_fromDirs (a : Pt ℝ) : ∀ (cs : List (Cone ℝ)) (D : List (Pt ℝ)) (cur : List (Cone ℝ)),
    (∀ c ∈ cs, c.apex = a) → List.Pairwise GenDir (D ++ coneDirs cs) → (∀ c ∈ cur, FromDirs a D c) →
    ∀ c ∈ Cone.listIntersectionLoop cur cs, FromDirs a (D ++ coneDirs cs) c := by
  intro cs
  induction cs with
  | nil => intro D cur _ _ h c hc; simpa [coneDirs] using h c hc
  | cons o cs ih =>
    intro D cur ha hg hcur
    have e : D ++ coneDirs (o :: cs) = (D ++ [o.dir1, o.dir2]) ++ coneDirs cs := by
      simp [coneDirs]
    rw [e] at hg ⊢
    have hgD := List.pairwise_append.mp (List.pairwise_append.mp hg).1
    have hoo : GenDir o.dir1 o.dir2 := by
      have := hgD.2.1
      simp only [List.pairwise_cons, List.mem_cons, List.not_mem_nil, or_false, forall_eq] at this
      exact this.1
    refine ih _ _ (fun c hc => ha c (by simp [hc])) hg ?_
    intro c hc
    obtain ⟨s, hs, hcs⟩ := List.mem_flatMap.mp hc
    exact fromDirs_inter (hcur s hs) (ha o (by simp)) hoo (fun d hd => hgD.2.2 d hd _ (by simp))
      (fun d hd => hgD.2.2 d hd _ (by simp)) c hcs

theorem coneDirs_mem {cs : List (Cone ℝ)} {c : Cone ℝ} (h : c ∈ cs) : c.dir1 ∈ coneDirs cs ∧ c.dir2 ∈ coneDirs cs := by
  constructor <;> exact List.mem_flatMap.2 ⟨c, h, by simp⟩

theorem coneDirs_gen {cs : List (Cone ℝ)} (hg : List.Pairwise GenDir (coneDirs cs)) {c : Cone ℝ} (h : c ∈ cs) :
    GenDir c.dir1 c.dir2 := by
  have := (List.pairwise_flatMap.1 hg).1 c h
  simpa using this

/-- The resulting cones of a list of cones with the same apex. -/
theorem list_fromDirs {cs res : List (Cone ℝ)} {a : Pt ℝ} (ha : ∀ c ∈ cs, c.apex = a) (hg : List.Pairwise GenDir (coneDirs cs))
    (h : Cone.listIntersection cs = .ok res) : ∀ c ∈ res, FromDirs a (coneDirs cs) c := by
  cases cs with
  | nil => simp [Cone.listIntersection] at h
  | cons o cs =>
    simp only [Cone.listIntersection, Except.ok.injEq] at h
    subst h
    have hoo := coneDirs_gen hg (c := o) (by simp)
    exact loop_fromDirs a cs [o.dir1, o.dir2] [o] (fun c hc => ha c (by simp [hc])) hg
      (by intro c hc; rw [List.mem_singleton.1 hc]; exact ⟨ha o (by simp), by simp, by simp, hoo⟩)

/-- Vectors that are not parallel to any of the directions. -/
theorem list_generic {cs res : List (Cone ℝ)} {a v : Pt ℝ} (ha : ∀ c ∈ cs, c.apex = a) (hg : List.Pairwise GenDir (coneDirs cs))
    (h : Cone.listIntersection cs = .ok res) (hv : ∀ d ∈ coneDirs cs, cross d v ≠ 0) :
    (∃ c ∈ res, v ∈ sweep c.dir1 c.dir2) ↔ ∀ c ∈ cs, v ∈ sweep c.dir1 c.dir2 := by
  have hne : cs ≠ [] := by rintro rfl; simp [Cone.listIntersection] at h
  obtain ⟨l, hl, hbig⟩ : ∃ l : ℝ, 0 < l ∧ ∀ d ∈ coneDirs cs, GenDir d (l • v) := by
    have : ∀ D : List (Pt ℝ), (∀ d ∈ D, cross d v ≠ 0) → ∃ l0 : ℝ, 0 < l0 ∧ ∀ l, l0 ≤ l → ∀ d ∈ D, GenDir d (l • v) := by
      intro D
      induction D with
      | nil => intro _; exact ⟨1, one_pos, by simp⟩
      | cons d D ih =>
        intro hD
        obtain ⟨l0, h0, h1⟩ := ih fun d hd => hD d (by simp [hd])
        have hp : 0 < |cross d v| := abs_pos.2 (hD d (by simp))
        refine ⟨max l0 (1 / |cross d v|), lt_max_of_lt_left h0, fun l hl d' hd' => ?_⟩
        rcases List.mem_cons.1 hd' with rfl | hd'
        · have e : cross d' (l • v) = l * cross d' v := by simp [cross]; ring
          have hl' : 1 / |cross d' v| ≤ l := le_trans (le_max_right _ _) hl
          have hl0 : 0 < l := lt_of_lt_of_le (lt_max_of_lt_left h0) hl
          change (1 / 10 ^ 10 : ℝ) < |cross d' (l • v)|
          rw [e, abs_mul, abs_of_pos hl0]
          rw [div_le_iff₀ hp] at hl'
          exact lt_of_lt_of_le (by norm_num) hl'
        · exact h1 l (le_trans (le_max_left _ _) hl) d' hd'
    obtain ⟨l0, h0, h1⟩ := this _ hv
    exact ⟨l0, h0, h1 l0 le_rfl⟩
  obtain ⟨res', h1, h2⟩ := C15_list_partial cs a (l • v) hne ha hg hbig
  rw [h] at h1
  simp only [Except.ok.injEq] at h1
  subst h1
  have hfd := list_fromDirs ha hg h
  have L : (∃ c ∈ res, v ∈ sweep c.dir1 c.dir2) ↔ ∃ c ∈ res, c.pointInCone (a + l • v) = true := by
    refine exists_congr fun c => and_congr_right fun hc => ?_
    obtain ⟨e, m1, m2, g⟩ := hfd c hc
    rw [← e, pointInCone_sweep g (hbig _ m1) (hbig _ m2), sweep_scale hl]
  have R : (∀ c ∈ cs, v ∈ sweep c.dir1 c.dir2) ↔ ∀ c ∈ cs, c.pointInCone (a + l • v) = true := by
    refine forall₂_congr fun c hc => ?_
    obtain ⟨m1, m2⟩ := coneDirs_mem hc
    rw [← ha c hc, pointInCone_sweep (coneDirs_gen hg hc) (hbig _ m1) (hbig _ m2), sweep_scale hl]
  rw [L, R, h2]

/-- A vector of the cone can be moved a little, to one side or the other, without leaving the cone. -/
theorem sweep_side {d1 d2 v g : Pt ℝ} (hd : GenDir d1 d2) (hv : v ≠ 0) (h : v ∈ sweep d1 d2) (g1 : cross d1 g ≠ 0) (g2 : cross d2 g ≠ 0) :
    (∀ᶠ ε in 𝓝[>] (0 : ℝ), v + ε • g ∈ sweep d1 d2) ∨ ∀ᶠ ε in 𝓝[>] (0 : ℝ), v + ε • (-g) ∈ sweep d1 d2 := by
  have t0 : (0 : ℝ) < 1 / 10 ^ 10 := by norm_num
  have mv : ∀ (u w : Pt ℝ) (ε : ℝ), cross u (v + ε • w) = cross u v + ε * cross u w := by intro u w ε; simp [cross]; ring
  have sw : ∀ u v : Pt ℝ, cross u v = -cross v u := by intro u v; simp only [cross]; ring
  have ng : ∀ u : Pt ℝ, cross u (-g) = -cross u g := by intro u; simp [cross]; ring
  by_cases o1 : ∃ s : ℝ, 0 ≤ s ∧ v = s • d1
  · obtain ⟨s, hs, e⟩ := o1
    have hs' : 0 < s := lt_of_le_of_ne hs fun h0 => hv (by rw [e, ← h0, zero_smul])
    have c1 : cross d1 v = 0 := by rw [e]; simp [cross]; ring
    have c2 : cross v d2 = s * cross d1 d2 := by rw [e]; simp [cross]; ring
    have key : ∀ w : Pt ℝ, 0 < cross d1 w → ∀ᶠ ε in 𝓝[>] (0 : ℝ), v + ε • w ∈ sweep d1 d2 := by
      intro w hw
      rcases genDir_cases' hd with hc | hc | ⟨hc, -⟩
      · filter_upwards [ev_sign (cross v d2) (cross w d2), self_mem_nhdsWithin] with ε hε hp
        have hp : 0 < ε := hp
        rw [sweep_convex hc]
        have := hε.1 (by rw [c2]; positivity)
        refine ⟨by rw [mv, c1]; positivity, ?_⟩
        rw [sw, mv, sw d2 v, sw d2 w]; linarith
      · filter_upwards [self_mem_nhdsWithin] with ε hp
        have hp : 0 < ε := hp
        rw [sweep_reflex hc]
        rintro ⟨-, h2⟩
        rw [sw, mv, c1] at h2
        have := mul_pos hp hw
        linarith
      · have : (1 / 10 ^ 10 : ℝ) < |cross d1 d2| := hd
        rw [hc, abs_zero] at this; linarith
    rcases lt_or_gt_of_ne g1 with q | q
    · exact Or.inr (key _ (by rw [ng]; linarith))
    · exact Or.inl (key _ q)
  by_cases o2 : ∃ s : ℝ, 0 ≤ s ∧ v = s • d2
  · obtain ⟨s, hs, e⟩ := o2
    have hs' : 0 < s := lt_of_le_of_ne hs fun h0 => hv (by rw [e, ← h0, zero_smul])
    have c1 : cross d2 v = 0 := by rw [e]; simp [cross]; ring
    have c2 : cross d1 v = s * cross d1 d2 := by rw [e]; simp [cross]; ring
    have key : ∀ w : Pt ℝ, cross d2 w < 0 → ∀ᶠ ε in 𝓝[>] (0 : ℝ), v + ε • w ∈ sweep d1 d2 := by
      intro w hw
      rcases genDir_cases' hd with hc | hc | ⟨hc, -⟩
      · filter_upwards [ev_sign (cross d1 v) (cross d1 w), self_mem_nhdsWithin] with ε hε hp
        have hp : 0 < ε := hp
        rw [sweep_convex hc]
        have := hε.1 (by rw [c2]; positivity)
        refine ⟨by rw [mv]; exact this.le, ?_⟩
        rw [sw, mv, c1]
        have := mul_neg_of_pos_of_neg hp hw
        linarith
      · filter_upwards [self_mem_nhdsWithin] with ε hp
        have hp : 0 < ε := hp
        rw [sweep_reflex hc]
        rintro ⟨h2, -⟩
        rw [mv, c1] at h2
        have := mul_neg_of_pos_of_neg hp hw
        linarith
      · have : (1 / 10 ^ 10 : ℝ) < |cross d1 d2| := hd
        rw [hc, abs_zero] at this; linarith
    rcases lt_or_gt_of_ne g2 with q | q
    · exact Or.inl (key _ q)
    · exact Or.inr (key _ (by rw [ng]; linarith))
  · push Not at o1 o2
    left
    filter_upwards [ev_sweep (genDir_cases' hd) o1 o2 g] with ε hε
    exact hε.2 h

/-- The cone is closed. -/
theorem sweep_limit {d1 d2 v g : Pt ℝ} (hd : GenDir d1 d2) (h : ∃ᶠ ε in 𝓝[>] (0 : ℝ), v + ε • g ∈ sweep d1 d2) : v ∈ sweep d1 d2 := by
  by_cases o1 : ∃ s : ℝ, 0 ≤ s ∧ v = s • d1
  · obtain ⟨s, hs, e⟩ := o1
    rw [e]; exact (sweep_smul_left (genDir_cases' hd) hs).1
  by_cases o2 : ∃ s : ℝ, 0 ≤ s ∧ v = s • d2
  · obtain ⟨s, hs, e⟩ := o2
    rw [e]; exact (sweep_smul_left (genDir_cases' hd) hs).2
  push Not at o1 o2
  obtain ⟨ε, h1, h2⟩ := (h.and_eventually (ev_sweep (genDir_cases' hd) o1 o2 g)).exists
  exact h2.1 h1

/-- The regions of the resulting cones together are the intersection of the regions of the given cones. -/
theorem list_sweep {cs res : List (Cone ℝ)} {a v : Pt ℝ} (ha : ∀ c ∈ cs, c.apex = a) (hg : List.Pairwise GenDir (coneDirs cs))
    (h : Cone.listIntersection cs = .ok res) (hv : v ≠ 0) :
    (∃ c ∈ res, v ∈ sweep c.dir1 c.dir2) ↔ ∀ c ∈ cs, v ∈ sweep c.dir1 c.dir2 := by
  have t0 : (0 : ℝ) < 1 / 10 ^ 10 := by norm_num
  have hfd := list_fromDirs ha hg h
  have hd0 : ∀ c ∈ cs, c.dir1 ≠ 0 ∧ c.dir2 ≠ 0 := by
    intro c hc
    have : (1 / 10 ^ 10 : ℝ) < |cross c.dir1 c.dir2| := coneDirs_gen hg hc
    constructor <;> intro h0 <;> rw [h0] at this <;> simp [cross] at this <;> linarith
  have hD0 : ∀ d ∈ coneDirs cs, d ≠ 0 := by
    intro d hd
    obtain ⟨c, hc, hm⟩ := List.mem_flatMap.1 hd
    simp only [List.mem_cons, List.not_mem_nil, or_false] at hm
    rcases hm with rfl | rfl
    · exact (hd0 c hc).1
    · exact (hd0 c hc).2
  obtain ⟨g, -, hgen⟩ := generic_direction (coneDirs cs).length (fun i => (coneDirs cs).getD i 0) (by
    intro i hi
    simp only [List.getD_eq_getElem _ _ hi]
    exact hD0 _ (List.getElem_mem hi))
  have hgen' : ∀ d ∈ coneDirs cs, cross d g ≠ 0 := by
    intro d hd
    obtain ⟨i, hi, e⟩ := List.getElem_of_mem hd
    have := hgen i hi
    simpa only [List.getD_eq_getElem _ _ hi, e] using this
  have ng : ∀ u : Pt ℝ, cross u (-g) = -cross u g := by intro u; simp [cross]; ring
  have mv : ∀ (u w : Pt ℝ) (ε : ℝ), cross u (v + ε • w) = cross u v + ε * cross u w := by intro u w ε; simp [cross]; ring
  have evgen : ∀ w : Pt ℝ, (∀ d ∈ coneDirs cs, cross d w ≠ 0) → ∀ᶠ ε in 𝓝[>] (0 : ℝ), ∀ d ∈ coneDirs cs, cross d (v + ε • w) ≠ 0 := by
    intro w hw
    have : ∀ᶠ ε in 𝓝[>] (0 : ℝ), ∀ d ∈ (coneDirs cs).toFinset, cross d (v + ε • w) ≠ 0 := by
      rw [Filter.eventually_all_finset]
      intro d hd
      simp only [mv]
      exact ev_ne (hw d (List.mem_toFinset.1 hd))
    filter_upwards [this] with ε hε d hd
    exact hε d (List.mem_toFinset.2 hd)
  have hneg : ∀ d ∈ coneDirs cs, cross d (-g) ≠ 0 := by
    intro d hd; rw [ng]; exact neg_ne_zero.2 (hgen' d hd)
  constructor
  · rintro ⟨c, hc, hm⟩
    obtain ⟨-, m1, m2, hcc⟩ := hfd c hc
    have key : ∀ w : Pt ℝ, (∀ d ∈ coneDirs cs, cross d w ≠ 0) → (∀ᶠ ε in 𝓝[>] (0 : ℝ), v + ε • w ∈ sweep c.dir1 c.dir2) →
        ∀ c ∈ cs, v ∈ sweep c.dir1 c.dir2 := by
      intro w hw hev c' hc'
      refine sweep_limit (g := w) (coneDirs_gen hg hc') (Eventually.frequently ?_)
      filter_upwards [hev, evgen w hw] with ε h1 h2
      exact (list_generic ha hg h h2).1 ⟨c, hc, h1⟩ c' hc'
    rcases sweep_side hcc hv hm (hgen' _ m1) (hgen' _ m2) with q | q
    · exact key g hgen' q
    · exact key (-g) hneg q
  · intro hall
    have key : ∀ w : Pt ℝ, (∀ d ∈ coneDirs cs, cross d w ≠ 0) → (∀ c ∈ cs, ∀ᶠ ε in 𝓝[>] (0 : ℝ), v + ε • w ∈ sweep c.dir1 c.dir2) →
        ∃ c ∈ res, v ∈ sweep c.dir1 c.dir2 := by
      intro w hw hev
      by_contra hno
      push Not at hno
      have e1 : ∀ᶠ ε in 𝓝[>] (0 : ℝ), ∀ c ∈ {c | c ∈ cs}, v + ε • w ∈ sweep c.dir1 c.dir2 := by
        rw [Filter.eventually_all_finite (List.finite_toSet cs)]
        exact hev
      have e2 : ∀ᶠ ε in 𝓝[>] (0 : ℝ), ∀ c ∈ {c | c ∈ res}, v + ε • w ∉ sweep c.dir1 c.dir2 := by
        rw [Filter.eventually_all_finite (List.finite_toSet res)]
        intro c hc
        by_contra hf
        exact hno c hc (sweep_limit (g := w) (hfd c hc).2.2.2 (fun hn => hf hn))
      obtain ⟨ε, ⟨h1, h2⟩, h3⟩ := ((e1.and e2).and (evgen w hw)).exists
      obtain ⟨c, hc, hm⟩ := (list_generic ha hg h h3).2 h1
      exact h2 c hc hm
    have const : ∀ c ∈ cs, (∀ s : ℝ, 0 ≤ s → v ≠ s • c.dir1) → (∀ s : ℝ, 0 ≤ s → v ≠ s • c.dir2) → ∀ w : Pt ℝ,
        ∀ᶠ ε in 𝓝[>] (0 : ℝ), v + ε • w ∈ sweep c.dir1 c.dir2 := by
      intro c hc o1 o2 w
      filter_upwards [ev_sweep (genDir_cases' (coneDirs_gen hg hc)) o1 o2 w] with ε hε
      exact hε.2 (hall c hc)
    by_cases hon : ∃ c ∈ cs, (∃ s : ℝ, 0 ≤ s ∧ v = s • c.dir1) ∨ ∃ s : ℝ, 0 ≤ s ∧ v = s • c.dir2
    · obtain ⟨c0, hc0, hr⟩ := hon
      have others : ∀ c ∈ cs, c ≠ c0 → ∀ w : Pt ℝ, ∀ᶠ ε in 𝓝[>] (0 : ℝ), v + ε • w ∈ sweep c.dir1 c.dir2 := by
        intro c hc hcc w
        have pw : ∀ x ∈ [c.dir1, c.dir2], ∀ y ∈ [c0.dir1, c0.dir2], GenDir x y := by
          have hpw := (List.pairwise_flatMap.1 hg).2
          haveI : Std.Symm fun a b : Cone ℝ => ∀ x ∈ [a.dir1, a.dir2], ∀ y ∈ [b.dir1, b.dir2], GenDir x y :=
            ⟨fun a b hab x hx y hy => (hab y hy x hx).symm⟩
          exact hpw.forall hc hc0 hcc
        have no : ∀ x ∈ [c.dir1, c.dir2], ∀ s : ℝ, 0 ≤ s → v ≠ s • x := by
          intro x hx s hs e
          have hs' : s ≠ 0 := fun h0 => hv (by rw [e, h0, zero_smul])
          have fin : ∀ y ∈ [c0.dir1, c0.dir2], ∀ r : ℝ, v = r • y → False := by
            intro y hy r er
            have := pw x hx y hy
            have h1 : cross (s • x) (r • y) = s * r * cross x y := by simp [cross]; ring
            have hr' : r ≠ 0 := fun h0 => hv (by rw [er, h0, zero_smul])
            rw [← e, ← er] at h1
            have h2 : cross v v = 0 := by simp [cross]; ring
            rw [h2] at h1
            have h3 : cross x y = 0 := by
              rcases mul_eq_zero.1 h1.symm with h | h
              · exact absurd h (mul_ne_zero hs' hr')
              · exact h
            have : (1 / 10 ^ 10 : ℝ) < |cross x y| := this
            rw [h3, abs_zero] at this
            linarith
          rcases hr with ⟨r, -, er⟩ | ⟨r, -, er⟩
          · exact fin _ (by simp) r er
          · exact fin _ (by simp) r er
        exact const c hc (no _ (by simp)) (no _ (by simp)) w
      obtain ⟨m1, m2⟩ := coneDirs_mem hc0
      have fin : ∀ w : Pt ℝ, (∀ d ∈ coneDirs cs, cross d w ≠ 0) → (∀ᶠ ε in 𝓝[>] (0 : ℝ), v + ε • w ∈ sweep c0.dir1 c0.dir2) →
          ∃ c ∈ res, v ∈ sweep c.dir1 c.dir2 := by
        intro w hw hev
        refine key w hw fun c hc => ?_
        by_cases e : c = c0
        · rw [e]; exact hev
        · exact others c hc e w
      rcases sweep_side (coneDirs_gen hg hc0) hv (hall c0 hc0) (hgen' _ m1) (hgen' _ m2) with q | q
      · exact fin g hgen' q
      · exact fin (-g) hneg q
    · push Not at hon
      exact key g hgen' fun c hc => const c hc (hon c hc).1 (hon c hc).2 g

end Starworlds
