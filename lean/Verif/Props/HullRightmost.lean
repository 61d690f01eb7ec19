import Verif.Props.HullOrder

/-! # C110: rings with several rightmost vertices -/

namespace Starworlds

open Real Spec

/-- If the vertices are visited in the order of a star-shaped ring, the hull is this ring. -/
theorem hull_of_order {ops : HullOps} {ks w x : List (Pt ℝ)} (hord : orderVertices w = x) (ho : HullMeaning ops (filled x) ks) (hks : ks ≠ [])
    (hs : ∀ k ∈ ks, StarAbout k x) : polygonKernelHull ops w ks = .ok x := by
  obtain ⟨k0, l, e⟩ := List.exists_cons_of_ne_nil hks
  have hlen := star_length (hs k0 (by simp [e]))
  obtain ⟨b, hb⟩ := star_loop ho hs hks (fun i => if i = 0 then x.getLastD (0, 0) else ptAt x (i - 1)) k0
    (ks.map fun _ => false) x.length le_rfl
  rw [List.take_length] at hb
  have hins := star_insert hs (ks.map fun _ => false)
  unfold polygonKernelHull
  rw [hord]
  rw [e] at hb hins ⊢
  simp only
  rw [hb]
  simp only [bind, Except.bind, hins]
  rw [if_neg (by omega)]

/-- A clockwise ring is turned around, if the turn at the first of its rightmost vertices is larger than the threshold. -/
theorem orderVertices_clockwise {c : Pt ℝ} {w : List (Pt ℝ)} (h : StarAbout c w.reverse)
    (hturn : ∀ i < w.length, (∀ p ∈ w, p.1 ≤ (corner w i).1) → 1 / 10 ^ 10 < |turn w i|) :
    ∃ j, orderVertices w = w.reverse.rotate j := by
  have hlen : 3 ≤ w.length := by simpa using star_length h
  obtain ⟨n, hn⟩ : ∃ n, argmaxIdx (w.map Prod.fst) = n := ⟨_, rfl⟩
  obtain ⟨hlt, hmax⟩ := argmaxIdx_spec (w.map Prod.fst) (by rw [Ne, List.map_eq_nil_iff]; rintro rfl; simp at hlen)
  rw [hn] at hlt hmax
  rw [List.length_map] at hlt hmax
  have hle : ∀ p ∈ w, p.1 ≤ (corner w n).1 := by
    intro p hp
    obtain ⟨i, hi, rfl⟩ := List.mem_iff_getElem.1 hp
    have := hmax i hi
    rw [List.getD_eq_getElem _ _ (by simpa using hi), List.getD_eq_getElem _ _ (by simpa using hlt), List.getElem_map,
      List.getElem_map] at this
    rw [corner_eq_ptAt hlt, ptAt, List.getD_eq_getElem _ _ hlt]
    exact this
  have ht := hturn n hlt hle
  obtain ⟨u, hu⟩ : ∃ u, u = w.rotate n := ⟨_, rfl⟩
  have hul : u.length = w.length := by rw [hu, List.length_rotate]
  have ht' : turn u 0 = turn w n := by
    unfold turn
    rw [hul, hu]
    simp only [corner_rotate]
    rw [show 0 + w.length - 1 + n = n + w.length - 1 by omega, show 0 + n = n by omega, show 0 + 1 + n = n + 1 by omega]
  have hle' : ∀ p ∈ u, p.1 ≤ (corner u 0).1 := by
    intro p hp
    rw [hu, List.mem_rotate] at hp
    rw [hu, corner_rotate, zero_add]
    exact hle p hp
  rw [← ht'] at ht
  have hrev : u.reverse = w.reverse.rotate (w.length - n % w.length) := by rw [hu, List.reverse_rotate]
  have hx : StarAbout c (u.reverse.rotate (u.reverse.length - 1)) := by
    rw [hrev]
    exact starAbout_rotate (starAbout_rotate h _) _
  have hord : ∀ b, isCw (u.getLastD (0, 0)) (ptAt u 0) (ptAt u 1) = b → b = true →
      orderVertices w = u.reverse.rotate (u.reverse.length - 1) := by
    intro b hb hbt
    unfold orderVertices
    simp only
    rw [hn, ← hu, if_pos (by rw [hb, hbt])]
  refine ⟨_, (hord _ rfl ?_).trans (by rw [hrev, List.rotate_rotate])⟩
  -- the turn
  clear hord hrev hu ht'
  obtain ⟨m, a, s, b, rfl⟩ : ∃ m a s b, u = m :: a :: (s ++ [b]) := by
    match u, hul with
    | [], h => simp at h; omega
    | [_], h => simp at h; omega
    | m :: a :: t, h =>
      rcases t.eq_nil_or_concat with rfl | ⟨s, b, rfl⟩
      · simp at h; omega
      · exact ⟨m, a, s, b, by simp⟩
  have e : (m :: a :: (s ++ [b])).reverse.rotate ((m :: a :: (s ++ [b])).reverse.length - 1) = m :: b :: (s.reverse ++ [a]) := by
    have e : (m :: a :: (s ++ [b])).reverse = (b :: (s.reverse ++ [a])) ++ [m] := by simp
    rw [e]
    rw [show ((b :: (s.reverse ++ [a])) ++ [m]).length - 1 = (b :: (s.reverse ++ [a])).length by simp, List.rotate_append_length_eq]
    rfl
  rw [e] at hx
  have last : ∀ (p q r : Pt ℝ) (l : List (Pt ℝ)), corner (p :: q :: (l ++ [r])) (l.length + 2) = r := by
    intro p q r l
    rw [corner_eq_ptAt (by simp), ptAt]
    simp
  have c0 : ∀ (p q r : Pt ℝ) (l : List (Pt ℝ)), corner (p :: q :: (l ++ [r])) 0 = p ∧ corner (p :: q :: (l ++ [r])) 1 = q := by
    intro p q r l
    rw [corner_eq_ptAt (by simp), corner_eq_ptAt (by simp)]
    simp [ptAt]
  have hpos := (star_sectors hx).pos
  have g1 := hpos (s.reverse.length + 2) (by simp)
  have g2 := hpos 0 (by simp)
  have e1 : corner (m :: b :: (s.reverse ++ [a])) (s.reverse.length + 2 + 1) = m := by
    rw [← (c0 m b a s.reverse).1]; simp [corner]
  rw [last, e1] at g1
  rw [(c0 m b a s.reverse).1, zero_add, (c0 m b a s.reverse).2] at g2
  rw [(c0 m a b s).1] at hle'
  have hk : c.1 < m.1 := by
    obtain ⟨r, hr, hq⟩ := star_exists hx 0
    have := onRing_le (m := m.1) (fun p hp => hle' p (by
      simp only [List.mem_cons, List.mem_append, List.mem_reverse, List.not_mem_nil, or_false] at hp ⊢
      tauto)) hq
    simp [polar] at this
    linarith
  have hc := rightmost_convex (hle' a (by simp)) (hle' b (by simp)) hk g1 g2
  have et : turn (m :: a :: (s ++ [b])) 0 = cross (m - b) (a - m) := by
    unfold turn
    rw [show 0 + (m :: a :: (s ++ [b])).length - 1 = s.length + 2 by simp, last, (c0 m a b s).1, zero_add, (c0 m a b s).2]
  rw [et] at ht
  have el : (m :: a :: (s ++ [b])).getLastD (0, 0) = b := by
    rw [show m :: a :: (s ++ [b]) = (m :: a :: s) ++ [b] by simp]; simp [List.getLastD]
  rw [el]
  have ep : ptAt (m :: a :: (s ++ [b])) 0 = m ∧ ptAt (m :: a :: (s ++ [b])) 1 = a := by simp [ptAt]
  rw [ep.1, ep.2]
  have ec : cross (m - b) (a - m) = -cross (m - a) (b - m) := by unfold cross; simp; ring
  rw [ec, abs_neg, abs_of_nonneg hc] at ht
  simp only [isCw, orientationVal, collinearThreshold, decide_eq_true_eq, gt_iff_lt]
  simp only [cross, Prod.fst_sub, Prod.snd_sub] at ht
  linarith

/-- C110 for polygons that are star-shaped about the kernel points, also with several rightmost vertices: however the ring is written down
(any first vertex, clockwise or counter-clockwise), the hull is the polygon. Missing: rings with a rightmost vertex with a turn that is not
larger than the threshold, in particular an inner vertex of the rightmost edge; polygons that are not star-shaped. -/
theorem C110_rightmost_partial {ops : HullOps} {ks v w : List (Pt ℝ)} (ho : HullMeaning ops (filled w) ks) (hks : ks ≠ [])
    (hw : v ~r w ∨ v ~r w.reverse) (hstar : ∀ k ∈ ks, StarAbout k v)
    (hturn : ∀ i < w.length, (∀ p ∈ w, p.1 ≤ (corner w i).1) → 1 / 10 ^ 10 < |turn w i|) :
    ∃ star, polygonKernelHull ops w ks = .ok star ∧ IsStarHull (filled w) ks (filled star) ∧ filled star = filled v := by
  have e := filled_ring hw
  rcases hw with ⟨n, hn⟩ | ⟨n, hn⟩
  · have hs : ∀ k ∈ ks, StarAbout k w := fun k hk => by rw [← hn]; exact starAbout_rotate (hstar k hk) n
    obtain ⟨star, h1, h2, h3, -⟩ := C109_star_partial ho hks hs
    exact ⟨star, h1, h2, h3.trans e⟩
  · have hs : ∀ k ∈ ks, StarAbout k w.reverse := fun k hk => by rw [← hn]; exact starAbout_rotate (hstar k hk) n
    obtain ⟨k0, hk0⟩ := List.exists_mem_of_ne_nil _ hks
    obtain ⟨j, hj⟩ := orderVertices_clockwise (hs k0 hk0) hturn
    have ef : filled (w.reverse.rotate j) = filled w := by rw [filled_rotated, filled_reverse]
    have h1 := hull_of_order hj (by rw [ef]; exact ho) hks fun k hk => starAbout_rotate (hs k hk) j
    obtain ⟨star, -, h2, h3, -⟩ := C109_star_partial (ops := ops) (vertices := w.reverse) (by rw [filled_reverse]; exact ho) hks hs
    rw [filled_reverse] at h2 h3
    refine ⟨_, h1, ?_, ef.trans e⟩
    rw [h3] at h2
    rw [ef]
    exact h2

/-- The box [0, 2] x [0, 1] in clockwise order, with two rightmost vertices: its hull about two inner points is the box. -/
example : ∃ ops star, polygonKernelHull ops [((0, 0) : Pt ℝ), (0, 1), (2, 1), (2, 0)] ([((1 : ℚ), (1 / 2 : ℚ)), (3 / 2, 1 / 4)].map toReal) = .ok star ∧
    filled star = filled [((0, 0) : Pt ℝ), (2, 0), (2, 1), (0, 1)] := by
  have e : [((0, 0) : Pt ℝ), (2, 0), (2, 1), (0, 1)] = [((0 : ℚ), (0 : ℚ)), (2, 0), (2, 1), (0, 1)].map toReal := by simp [toReal]
  have h1 : StarAbout (toReal (1, 1 / 2)) [((0, 0) : Pt ℝ), (2, 0), (2, 1), (0, 1)] := by rw [e]; exact starAbout_rat (by decide +kernel)
  have h2 : StarAbout (toReal (3 / 2, 1 / 4)) [((0, 0) : Pt ℝ), (2, 0), (2, 1), (0, 1)] := by rw [e]; exact starAbout_rat (by decide +kernel)
  have hw : [((0, 0) : Pt ℝ), (2, 0), (2, 1), (0, 1)] ~r [((0, 0) : Pt ℝ), (0, 1), (2, 1), (2, 0)].reverse := ⟨1, rfl⟩
  obtain ⟨ops, ho⟩ := hullMeaning_exists h1 ([((1 : ℚ), (1 / 2 : ℚ)), (3 / 2, 1 / 4)].map toReal)
  obtain ⟨star, g1, -, g2⟩ := C110_rightmost_partial (ops := ops) (w := [((0, 0) : Pt ℝ), (0, 1), (2, 1), (2, 0)])
    (ks := [((1 : ℚ), (1 / 2 : ℚ)), (3 / 2, 1 / 4)].map toReal) (by rw [filled_ring (Or.inr hw)]; exact ho) (by simp) (Or.inr hw)
    (by simp only [List.map_cons, List.map_nil, List.mem_cons, List.not_mem_nil, or_false]; rintro k (rfl | rfl) <;> assumption)
    (by
      intro i hi _
      simp only [List.length_cons, List.length_nil] at hi
      interval_cases i <;> simp [turn, corner, cross] <;> norm_num)
  exact ⟨ops, star, g1, g2⟩

end Starworlds
