import Verif.Proofs.StarTangent
import Verif.Props.StarPolygonLocation

/-! # C108: the tangent points of a StarshapedPolygon and its reference point -/

namespace Starworlds

open Real Spec

/-- What the tangent points of two vertex lists with the same boundary have in common. -/
theorem C108_ring_partial (mm mm' : Option Pose) {v w : List (Pt ℝ)} (hv : v ≠ []) (hw : w ≠ []) (hvw : ∀ q, OnRing v q ↔ OnRing w q)
    (f g f' g' : Frame) (hf : f.Valid) (hg : g.Valid) (hf' : f'.Valid) (hg' : g'.Valid) (x : Pt ℝ) (hx : ¬ OnRing v x) :
    (polygonTangentPoints mm v (inFrame mm f x) f g = .ok [] ∧ polygonTangentPoints mm' w (inFrame mm' f' x) f' g' = .ok []) ∨
      ∃ t u t' u', polygonTangentPoints mm v (inFrame mm f x) f g = .ok [inFrame mm g t, inFrame mm g u] ∧
        polygonTangentPoints mm' w (inFrame mm' f' x) f' g' = .ok [inFrame mm' g' t', inFrame mm' g' u'] ∧
        t ∈ v ∧ u ∈ v ∧ t' ∈ w ∧ u' ∈ w ∧
        (∃ θ, SeenAt x t θ ∧ SeenAt x t' θ) ∧ ∃ θ, SeenAt x u θ ∧ SeenAt x u' θ := by
  have hx' : ¬ OnRing w x := by rwa [← hvw]
  have e1 : ∀ (mm : Option Pose) (v : List (Pt ℝ)) (f g : Frame), f.Valid → g.Valid →
      polygonTangentPoints mm v (inFrame mm f x) f g = .ok ((polyTangents v x).map (inFrame mm g)) := by
    intro mm v f g hf hg
    simp only [polygonTangentPoints, transform_to_obstacle _ _ hf, bind, Except.bind, mapM_transform _ _ hg]
  have hiff : ((∃ t s, polyTangents v x = [t, s]) ↔ ∃ t s, polyTangents w x = [t, s]) := by
    have h1 := (C38_visible none v hv .obstacle .obstacle (by simp [Frame.Valid]) (by simp [Frame.Valid]) x hx).1
    have h2 := (C38_visible none w hw .obstacle .obstacle (by simp [Frame.Valid]) (by simp [Frame.Valid]) x hx').1
    rw [e1 _ _ _ _ (by simp [Frame.Valid]) (by simp [Frame.Valid])] at h1 h2
    have h3 : (∃ θ, ∀ q, OnRing v q → ¬ SeenAt x q θ) ↔ ∃ θ, ∀ q, OnRing w q → ¬ SeenAt x q θ := by
      simp only [hvw]
    have shape : ∀ l : List (Pt ℝ), (∃ t s, (Except.ok (l.map (inFrame none .obstacle)) : Except PyErr _) = .ok [t, s]) ↔ ∃ t s, l = [t, s] := by
      intro l
      constructor
      · rintro ⟨t, s, h⟩
        have h' := Except.ok.inj h
        rcases l with _ | ⟨a, _ | ⟨b, _ | _⟩⟩ <;> simp at h'
        exact ⟨a, b, rfl⟩
      · rintro ⟨t, s, rfl⟩
        exact ⟨_, _, rfl⟩
    rw [shape] at h1 h2
    rw [h1, h2, h3]
  rw [e1 _ _ _ _ hf hg, e1 _ _ _ _ hf' hg']
  rcases polyTangents_shape v x with h | h
  · rcases polyTangents_shape w x with h' | h'
    · left; rw [h, h']; exact ⟨rfl, rfl⟩
    · obtain ⟨t, s, h''⟩ := hiff.2 h'
      rw [h] at h''; simp at h''
  · obtain ⟨t', s', h'⟩ := hiff.1 h
    obtain ⟨t, s, h⟩ := h
    right
    obtain ⟨a1, a2, -⟩ := tangents_swept v hv x t s hx h
    obtain ⟨b1, b2, -⟩ := tangents_swept w hw x t' s' hx' h'
    exact ⟨t, s, t', s', by rw [h]; rfl, by rw [h']; rfl, a1, a2, b1, b2, tangents_same hv hw hvw hx h h'⟩

/-- C108: if the polygon is star-shaped about the current reference point, sorting the vertices has only changed which of them is the
first. -/
theorem C108_rotation (argsort : List ℝ → List Nat) (ha : IsArgsort argsort) (mm : Option Pose) (ring : List (Pt ℝ)) (hr : ring ≠ [])
    (xr : Pt ℝ) (ops : List StarOp) (s : StarPoly) (hs : s = (StarPoly.make argsort mm ring xr).run argsort ops)
    (hstar : StarAbout s.xr ring) : ∃ k, s.vertices = ring.rotate k := by
  subst hs
  exact sorted_rotate hr (run_sorted ha ops (update_sorted ha _ rfl (List.Perm.refl _))) hstar

/-- C108: two histories of the same polygon, with any poses and reference points, lead to the same tangent points of a point that is not
on the boundary: none in both, or two that are seen from the point under the same two angles, if the polygon is star-shaped about both
reference points. -/
theorem C108_partial (argsort : List ℝ → List Nat) (ha : IsArgsort argsort) (mm mm' : Option Pose) (ring : List (Pt ℝ)) (hr : ring ≠ [])
    (xr xr' : Pt ℝ) (ops ops' : List StarOp) (s s' : StarPoly) (hs : s = (StarPoly.make argsort mm ring xr).run argsort ops)
    (hs' : s' = (StarPoly.make argsort mm' ring xr').run argsort ops') (hstar : StarAbout s.xr ring) (hstar' : StarAbout s'.xr ring)
    (f g f' g' : Frame) (hf : f.Valid) (hg : g.Valid) (hf' : f'.Valid) (hg' : g'.Valid) (x : Pt ℝ) (hx : ¬ OnRing ring x) :
    (s.tangentPoints (inFrame s.mm f x) f g = .ok [] ∧ s'.tangentPoints (inFrame s'.mm f' x) f' g' = .ok []) ∨
      ∃ t u t' u', s.tangentPoints (inFrame s.mm f x) f g = .ok [inFrame s.mm g t, inFrame s.mm g u] ∧
        s'.tangentPoints (inFrame s'.mm f' x) f' g' = .ok [inFrame s'.mm g' t', inFrame s'.mm g' u'] ∧
        t ∈ ring ∧ u ∈ ring ∧ t' ∈ ring ∧ u' ∈ ring ∧
        (∃ θ, SeenAt x t θ ∧ SeenAt x t' θ) ∧ ∃ θ, SeenAt x u θ ∧ SeenAt x u' θ := by
  obtain ⟨k, hk⟩ := C108_rotation argsort ha mm ring hr xr ops s hs hstar
  obtain ⟨k', hk'⟩ := C108_rotation argsort ha mm' ring hr xr' ops' s' hs' hstar'
  have := C108_ring_partial s.mm s'.mm (v := s.vertices) (w := s'.vertices) (by rw [hk]; simpa using hr) (by rw [hk']; simpa using hr)
    (fun q => by rw [hk, hk', onRing_rotate, onRing_rotate]) f g f' g' hf hg hf' hg' x (by rwa [hk, onRing_rotate])
  have hm : ∀ p, p ∈ s.vertices ↔ p ∈ ring := fun p => by rw [hk, List.mem_rotate]
  have hm' : ∀ p, p ∈ s'.vertices ↔ p ∈ ring := fun p => by rw [hk', List.mem_rotate]
  simpa only [StarPoly.tangentPoints, hm, hm'] using this

theorem cross_of_same {x p q : Pt ℝ} (h : ∃ θ, SeenAt x p θ ∧ SeenAt x q θ) : cross (p - x) (q - x) = 0 := by
  obtain ⟨θ, ⟨r, _, rfl⟩, ⟨r', _, rfl⟩⟩ := h
  simp [cross]; ring

/-- C108: they are the same points if the point is not in line with two corners. -/
theorem C108_equal_partial (argsort : List ℝ → List Nat) (ha : IsArgsort argsort) (mm mm' : Option Pose) (ring : List (Pt ℝ)) (hr : ring ≠ [])
    (xr xr' : Pt ℝ) (ops ops' : List StarOp) (s s' : StarPoly) (hs : s = (StarPoly.make argsort mm ring xr).run argsort ops)
    (hs' : s' = (StarPoly.make argsort mm' ring xr').run argsort ops') (hstar : StarAbout s.xr ring) (hstar' : StarAbout s'.xr ring)
    (hmm : s.mm = s'.mm) (f g : Frame) (hf : f.Valid) (hg : g.Valid) (x : Pt ℝ) (hx : ¬ OnRing ring x)
    (hline : ∀ p ∈ ring, ∀ q ∈ ring, cross (p - x) (q - x) = 0 → p = q) :
    s.tangentPoints (inFrame s.mm f x) f g = s'.tangentPoints (inFrame s.mm f x) f g := by
  rcases C108_partial argsort ha mm mm' ring hr xr xr' ops ops' s s' hs hs' hstar hstar' f g f g hf hg hf hg x hx with
    ⟨h1, h2⟩ | ⟨t, u, t', u', h1, h2, ht, hu, ht', hu', e, e'⟩
  · rw [h1, hmm, h2]
  · rw [h1, hmm, h2, hline t ht t' ht' (cross_of_same e), hline u hu u' hu' (cross_of_same e')]

/-- An L-shape with two reference points of its kernel, seen from (5, 4). -/
example (argsort : List ℝ → List Nat) (ha : IsArgsort argsort) (s : StarPoly)
    (hs : s = StarPoly.make argsort none [(0, 0), (2, 0), (2, 1), (1, 1), (1, 2), (0, 2)] (1 / 2, 1 / 2)) :
    s.tangentPoints (5, 4) .global .global = (s.setXr argsort (3 / 4, 1 / 4) .global false).2.tangentPoints (5, 4) .global .global := by
  have hxr : s.xr = (1 / 2, 1 / 2) := by rw [hs]; rfl
  have hmm : s.mm = none := by rw [hs]; rfl
  set s' := (s.setXr argsort (3 / 4, 1 / 4) .global false).2 with hs'
  have hv : Frame.Valid .global := by simp [Frame.Valid]
  have hmm' : s'.mm = none := by rw [hs', hs]; rfl
  have hxr' : s'.xr = (3 / 4, 1 / 4) := by
    have := (C40_xr argsort s .global hv (3 / 4, 1 / 4)).2
    rw [hmm] at this
    exact this
  have h1 : StarAbout s.xr [(0, 0), (2, 0), (2, 1), (1, 1), (1, 2), (0, 2)] := by
    rw [hxr]
    have := starAbout_rat (c := (1 / 2, 1 / 2)) (v := [(0, 0), (2, 0), (2, 1), (1, 1), (1, 2), (0, 2)]) (by decide +kernel)
    simpa [toReal] using this
  have h2 : StarAbout s'.xr [(0, 0), (2, 0), (2, 1), (1, 1), (1, 2), (0, 2)] := by
    rw [hxr']
    have := starAbout_rat (c := (3 / 4, 1 / 4)) (v := [(0, 0), (2, 0), (2, 1), (1, 1), (1, 2), (0, 2)]) (by decide +kernel)
    simpa [toReal] using this
  have := C108_equal_partial argsort ha none none [(0, 0), (2, 0), (2, 1), (1, 1), (1, 2), (0, 2)] (by simp) (1 / 2, 1 / 2) (1 / 2, 1 / 2) []
    [.setXr (3 / 4, 1 / 4) .global false] s s' hs (by rw [hs', hs]; rfl) h1 h2 (by rw [hmm, hmm']) .global .global hv hv (5, 4)
    (by
      rintro ⟨i, hi, τ, h0, h1, e⟩
      simp only [List.length_cons, List.length_nil] at hi
      interval_cases i <;> simp [corner, Prod.ext_iff] at e)
    (by
      intro p hp q hq
      simp only [List.mem_cons, List.not_mem_nil, or_false] at hp hq
      rcases hp with rfl | rfl | rfl | rfl | rfl | rfl <;> rcases hq with rfl | rfl | rfl | rfl | rfl | rfl <;> norm_num [cross])
  rw [hmm] at this
  exact this

/-- C108: for any two reference points, also outside of the polygon, if a line separates the point from the polygon. -/
theorem C108_separated_partial (argsort : List ℝ → List Nat) (ha : IsArgsort argsort) (mm mm' : Option Pose) (ring : List (Pt ℝ)) (hr : ring ≠ [])
    (xr xr' : Pt ℝ) (ops ops' : List StarOp) (s s' : StarPoly) (hs : s = (StarPoly.make argsort mm ring xr).run argsort ops)
    (hs' : s' = (StarPoly.make argsort mm' ring xr').run argsort ops')
    (f g f' g' : Frame) (hf : f.Valid) (hg : g.Valid) (hf' : f'.Valid) (hg' : g'.Valid)
    (x d : Pt ℝ) (hd : ∀ p ∈ ring, 0 < dot d (p - x)) :
    ∃ t u t' u', s.tangentPoints (inFrame s.mm f x) f g = .ok [inFrame s.mm g t, inFrame s.mm g u] ∧
        s'.tangentPoints (inFrame s'.mm f' x) f' g' = .ok [inFrame s'.mm g' t', inFrame s'.mm g' u'] ∧
        t ∈ ring ∧ u ∈ ring ∧ t' ∈ ring ∧ u' ∈ ring ∧
        (∃ θ, SeenAt x t θ ∧ SeenAt x t' θ) ∧ ∃ θ, SeenAt x u θ ∧ SeenAt x u' θ := by
  have p1 : s.vertices.Perm ring := by rw [hs]; exact (C40_history argsort ha mm ring hr xr ops).1
  have p2 : s'.vertices.Perm ring := by rw [hs']; exact (C40_history argsort ha mm' ring hr xr' ops').1
  have n1 : s.vertices ≠ [] := fun h => hr (by have := p1.length_eq; rw [h] at this; exact List.eq_nil_of_length_eq_zero this.symm)
  have n2 : s'.vertices ≠ [] := fun h => hr (by have := p2.length_eq; rw [h] at this; exact List.eq_nil_of_length_eq_zero this.symm)
  have hring : ∀ {v : List (Pt ℝ)} {p : Pt ℝ}, p ∈ v → OnRing v p := by
    intro v p hp
    obtain ⟨i, hi, e⟩ := List.mem_iff_getElem.1 hp
    have : corner v i = p := by rw [corner, Nat.mod_eq_of_lt hi, List.getD_eq_getElem _ _ hi, e]
    rw [← this]
    exact corner_onRing hi
  obtain ⟨t, u, e1, t1, u1, -, a1⟩ := C38_separated s.mm s.vertices n1 f g hf hg x d
    (fun p hp => by have := hd p (p1.mem_iff.1 hp); simpa [dot] using this)
  obtain ⟨t', u', e2, t2, u2, -, a2⟩ := C38_separated s'.mm s'.vertices n2 f' g' hf' hg' x d
    (fun p hp => by have := hd p (p2.mem_iff.1 hp); simpa [dot] using this)
  -- points in the same half plane that are on the same line through `x` are seen under the same angle
  have same : ∀ p ∈ ring, ∀ q ∈ ring, cross (p - x) (q - x) = 0 → ∃ θ, SeenAt x p θ ∧ SeenAt x q θ := by
    intro p hp q hq hc
    obtain ⟨r, hr0, e⟩ := seenAt_arctan2 x p
    set θ := arctan2 (p.2 - x.2) (p.1 - x.1) with hθ
    refine ⟨θ, ⟨r, hr0, e⟩, r * (dot d (q - x) / dot d (p - x)), mul_nonneg hr0 (div_nonneg (hd q hq).le (hd p hp).le), ?_⟩
    have hp0 := hd p hp
    have k1 : dot d (p - x) * (q - x).1 = dot d (q - x) * (p - x).1 := by
      simp only [cross, dot] at hc ⊢; linear_combination (-d.2) * hc
    have k2 : dot d (p - x) * (q - x).2 = dot d (q - x) * (p - x).2 := by
      simp only [cross, dot] at hc ⊢; linear_combination d.1 * hc
    have q1 : (p - x).1 = r * cos θ := by rw [e]; simp
    have q2 : (p - x).2 = r * sin θ := by rw [e]; simp
    rw [q1] at k1
    rw [q2] at k2
    ext
    · have : (q - x).1 = r * (dot d (q - x) / dot d (p - x)) * cos θ := by field_simp; linarith
      rw [Prod.fst_sub] at this
      simp; linarith
    · have : (q - x).2 = r * (dot d (q - x) / dot d (p - x)) * sin θ := by field_simp; linarith
      rw [Prod.snd_sub] at this
      simp; linarith
  have m1 := fun p => p1.mem_iff (a := p)
  have m2 := fun p => p2.mem_iff (a := p)
  rw [m1] at t1 u1
  rw [m2] at t2 u2
  refine ⟨t, u, t', u', e1, e2, t1, u1, t2, u2, same t t1 t' t2 ?_, same u u1 u' u2 ?_⟩
  · have b1 := (a1 t' (hring ((m1 t').2 t2))).2
    have b2 := (a2 t (hring ((m2 t).2 t1))).2
    simp only [cross] at b1 b2 ⊢; linarith
  · have b1 := (a1 u' (hring ((m1 u').2 u2))).1
    have b2 := (a2 u (hring ((m2 u).2 u1))).1
    simp only [cross] at b1 b2 ⊢; linarith

/-- A square with its centre and then a point outside as reference point: tangent points of (-3, 1) are found in both cases. -/
example (argsort : List ℝ → List Nat) (ha : IsArgsort argsort) :
    ∃ t u t' u' : Pt ℝ,
      (StarPoly.make argsort none [(0, 0), (4, 0), (4, 4), (0, 4)] (2, 2)).tangentPoints (-3, 1) .global .global = .ok [t, u] ∧
      (StarPoly.make argsort none [(0, 0), (4, 0), (4, 4), (0, 4)] (10, -1)).tangentPoints (-3, 1) .global .global = .ok [t', u'] ∧
      (∃ θ, SeenAt (-3, 1) t θ ∧ SeenAt (-3, 1) t' θ) ∧ ∃ θ, SeenAt (-3, 1) u θ ∧ SeenAt (-3, 1) u' θ := by
  obtain ⟨t, u, t', u', h1, h2, -, -, -, -, h3⟩ := C108_separated_partial argsort ha none none [(0, 0), (4, 0), (4, 4), (0, 4)] (by simp)
    (2, 2) (10, -1) [] [] _ _ rfl rfl .global .global .global .global (by simp [Frame.Valid]) (by simp [Frame.Valid]) (by simp [Frame.Valid])
    (by simp [Frame.Valid]) (-3, 1) (1, 0) (by
      intro p hp
      simp only [List.mem_cons, List.not_mem_nil, or_false] at hp
      rcases hp with rfl | rfl | rfl | rfl <;> norm_num [dot])
  exact ⟨t, u, t', u', h1, h2, h3⟩

/-- Of two points above `c`, the one to the right of the other has the smaller angle. -/
theorem angleAbout_lt_of_cross {c p q : Pt ℝ} (hp : 0 < p.2 - c.2) (hq : 0 < q.2 - c.2) (h : 0 < cross (p - c) (q - c)) :
    angleAbout c p < angleAbout c q := by
  have bound : ∀ {p : Pt ℝ}, 0 < p.2 - c.2 → 0 < angleAbout c p ∧ angleAbout c p < π := by
    intro p hp
    obtain ⟨r, hr, e⟩ := seenAt_arctan2 c p
    have e2 : p.2 - c.2 = r * sin (angleAbout c p) := by
      have := congrArg Prod.snd e
      simp only [Prod.snd_add, Prod.smul_snd, smul_eq_mul] at this
      rw [angleAbout]; linarith
    have hs : 0 < sin (angleAbout c p) := by
      rw [e2] at hp
      exact pos_of_mul_pos_right hp hr
    obtain ⟨h1, h2⟩ := angleAbout_bounds c p
    constructor
    · by_contra h
      push Not at h
      exact absurd (sin_nonpos_of_nonpos_of_neg_pi_le h h1.le) (by push Not; exact hs)
    · refine lt_of_le_of_ne h2 fun h => ?_
      rw [h, sin_pi] at hs
      exact lt_irrefl _ hs
  obtain ⟨r, hr, e⟩ := seenAt_arctan2 c p
  obtain ⟨r', hr', e'⟩ := seenAt_arctan2 c q
  have hc : cross (p - c) (q - c) = r * r' * sin (angleAbout c q - angleAbout c p) := by
    rw [sin_sub]
    nth_rewrite 1 [e, e']
    simp [cross, angleAbout]; ring
  have b1 := bound hp
  have b2 := bound hq
  by_contra hle
  push Not at hle
  have := sin_nonpos_of_nonpos_of_neg_pi_le (x := angleAbout c q - angleAbout c p) (by linarith) (by linarith)
  have h3 := mul_nonneg hr hr'
  rw [hc] at h
  nlinarith

/-- The vertices of the square of `C108_false` in the order of their angles about (10, -1). -/
theorem bow_tie {s : StarPoly} (hS : Sorted [(0, 0), (4, 0), (4, 4), (0, 4)] s) (hxr : s.xr = (10, -1)) :
    s.vertices = [(4, 4), (0, 4), (4, 0), (0, 0)] := by
  have h1 : angleAbout (10, -1) (4, 4) < angleAbout (10, -1) ((0, 4) : Pt ℝ) := angleAbout_lt_of_cross (by norm_num) (by norm_num) (by norm_num [cross])
  have h2 : angleAbout (10, -1) (0, 4) < angleAbout (10, -1) ((4, 0) : Pt ℝ) := angleAbout_lt_of_cross (by norm_num) (by norm_num) (by norm_num [cross])
  have h3 : angleAbout (10, -1) (4, 0) < angleAbout (10, -1) ((0, 0) : Pt ℝ) := angleAbout_lt_of_cross (by norm_num) (by norm_num) (by norm_num [cross])
  have hs := hS.sorted
  rw [hxr, List.pairwise_map] at hs
  have hp : s.vertices.Perm [(4, 4), (0, 4), (4, 0), (0, 0)] :=
    hS.perm.trans (by
      rw [List.perm_iff_count]
      intro a
      simp only [List.count_cons, List.count_nil]
      ring)
  generalize s.vertices = l at *
  refine hp.eq_of_pairwise (le := fun p q => angleAbout (10, -1) p ≤ angleAbout (10, -1) q) ?_ hs ?_
  · intro a b ha hb hab hba
    have e := le_antisymm hab hba
    have ha' := hp.mem_iff.1 ha
    simp only [List.mem_cons, List.not_mem_nil, or_false] at ha' hb
    rcases ha' with rfl | rfl | rfl | rfl <;> rcases hb with rfl | rfl | rfl | rfl <;> first | rfl | (exfalso; linarith)
  · simp only [List.pairwise_cons, List.mem_cons, List.not_mem_nil, or_false, forall_eq_or_imp, forall_eq, List.Pairwise.nil, and_true]
    refine ⟨⟨?_, ?_, ?_⟩, ⟨?_, ?_⟩, ?_, ?_⟩ <;> first | linarith | simp

/-- **C108 is false** for reference points outside of the kernel: (1, 2) is inside of the square, and there are no tangent points for the
reference point (2, 2). After set_xr with (10, -1) the vertices are in the order of a bow tie and two tangent points are returned. -/
theorem C108_false (argsort : List ℝ → List Nat) (ha : IsArgsort argsort) (s : StarPoly)
    (hs : s = StarPoly.make argsort none [(0, 0), (4, 0), (4, 4), (0, 4)] (2, 2)) :
    s.tangentPoints (1, 2) .global .global = .ok [] ∧
      ∃ t u, (s.setXr argsort (10, -1) .global false).2.tangentPoints (1, 2) .global .global = .ok [t, u] := by
  have hv : Frame.Valid .global := by simp [Frame.Valid]
  have hS : Sorted [(0, 0), (4, 0), (4, 4), (0, 4)] s := by rw [hs]; exact update_sorted ha _ rfl (List.Perm.refl _)
  have hmm : s.mm = none := by rw [hs]; rfl
  have hxr : s.xr = (2, 2) := by rw [hs]; rfl
  have hsquare : ∀ c ∈ [((2, 2) : Pt ℚ), (1, 2)], StarAbout (toReal c) [(0, 0), (4, 0), (4, 4), (0, 4)] := by
    intro c hc
    have := starAbout_rat (c := c) (v := [(0, 0), (4, 0), (4, 4), (0, 4)])
      ((by decide +kernel : ∀ c ∈ [((2, 2) : Pt ℚ), (1, 2)], goesAround c [(0, 0), (4, 0), (4, 4), (0, 4)] = true) c hc)
    simpa [toReal] using this
  constructor
  · obtain ⟨k, hk⟩ := sorted_rotate (by simp) hS (by rw [hxr]; simpa [toReal] using hsquare (2, 2) (by simp))
    have hin := hsquare (1, 2) (by simp)
    have e : toReal ((1, 2) : Pt ℚ) = (1, 2) := by simp [toReal]
    rw [e] at hin
    have h := (C38_visible none s.vertices (by rw [hk]; simp) .global .global hv hv (1, 2)
      (by rw [hk, onRing_rotate]; exact star_centre_off hin)).2 fun θ => by
        obtain ⟨r, hr, hq⟩ := star_exists hin θ
        exact ⟨_, by rw [hk, onRing_rotate]; exact hq, r, hr.le, rfl⟩
    rw [StarPoly.tangentPoints, hmm]
    exact h
  · set s' := (s.setXr argsort (10, -1) .global false).2 with hs'
    have hmm' : s'.mm = none := by rw [hs', hs]; rfl
    have hxr' : s'.xr = (10, -1) := by
      have := (C40_xr argsort s .global hv (10, -1)).2
      rw [hmm] at this
      exact this
    have hb := bow_tie (s := s') (run_sorted ha [.setXr (10, -1) .global false] hS) hxr'
    have hseg : ∀ q : Pt ℝ, OnRing [(4, 4), (0, 4), (4, 0), (0, 0)] q → q.2 = 2 → q.1 = 2 := by
      rintro q ⟨i, hi, τ, h0, h1, rfl⟩ h2
      simp only [List.length_cons, List.length_nil] at hi
      interval_cases i <;> simp [corner] at h2 ⊢ <;> linarith
    refine (C38_visible none s'.vertices (by rw [hb]; simp) .global .global hv hv (1, 2) ?_).1.2 ⟨π, ?_⟩ |>.imp fun t => Exists.imp fun u h => ?_
    · rw [hb]
      intro h
      have := hseg _ h rfl
      norm_num at this
    · rw [hb]
      rintro q hq ⟨r, hr, rfl⟩
      have := hseg _ hq (by simp)
      simp at this
      linarith
    · rw [StarPoly.tangentPoints, hmm']
      exact h

end Starworlds
