import Verif.Props.Combination

/-! # C44: the velocity of a combination -/

namespace Starworlds

open Real Spec

theorem velLoop_spec (xr : Pt ℝ) : ∀ (l : List (Pt ℝ)) (i : Nat) (best : Nat × ℝ),
    (velLoop xr l i best = best.1 ∧ ∀ p ∈ l, coordDist xr p ≤ best.2) ∨
    ∃ j, ∃ h : j < l.length, velLoop xr l i best = i + j ∧ best.2 < coordDist xr l[j] ∧
      ∀ p ∈ l, coordDist xr p ≤ coordDist xr l[j]
  | [], i, best => Or.inl ⟨rfl, by simp⟩
  | p :: l, i, best => by
    by_cases hgt : coordDist xr p > best.2
    · have e : velLoop xr (p :: l) i best = velLoop xr l (i + 1) (i, coordDist xr p) := by simp [velLoop, hgt]
      rw [e]
      right
      rcases velLoop_spec xr l (i + 1) (i, coordDist xr p) with ⟨h1, h2⟩ | ⟨j, hj, h1, h2, h3⟩
      · refine ⟨0, by simp, by rw [h1]; rfl, hgt, ?_⟩
        intro q hq
        rcases List.mem_cons.1 hq with rfl | hq
        · exact le_rfl
        · exact h2 q hq
      · refine ⟨j + 1, by simpa using hj, by rw [h1]; ring, hgt.lt.trans (by simpa using h2), ?_⟩
        intro q hq
        rcases List.mem_cons.1 hq with rfl | hq
        · simpa using h2.le
        · simpa using h3 q hq
    · have e : velLoop xr (p :: l) i best = velLoop xr l (i + 1) best := by simp [velLoop, hgt]
      rw [e]
      push Not at hgt
      rcases velLoop_spec xr l (i + 1) best with ⟨h1, h2⟩ | ⟨j, hj, h1, h2, h3⟩
      · left
        refine ⟨h1, ?_⟩
        intro q hq
        rcases List.mem_cons.1 hq with rfl | hq
        · exact hgt
        · exact h2 q hq
      · right
        refine ⟨j + 1, by simpa using hj, by rw [h1]; ring, by simpa using h2, ?_⟩
        intro q hq
        rcases List.mem_cons.1 hq with rfl | hq
        · simpa using hgt.trans h2.le
        · simpa using h3 q hq

theorem coordDist_nonneg (xr p : Pt ℝ) : 0 ≤ coordDist xr p := by
  unfold coordDist
  exact le_max_of_le_left (le_max_of_le_left (sqrt_nonneg _))

/-- The result is the velocity of some member, or an error. -/
theorem C44_member (c : Combination) (x : Pt ℝ) (v : Pt ℝ) (h : c.vel x = .ok v) :
    ∃ o ∈ c.members, o.vel x = .ok v := by
  simp only [Combination.vel, bind, Except.bind] at h
  cases hL : c.lineIntersection c.xr (c.testEnd x) with
  | error e => rw [hL] at h; simp at h
  | ok L =>
    rw [hL] at h
    simp only at h
    split at h
    · simp at h
    · rename_i o ho
      exact ⟨o, List.mem_of_getElem? ho, h⟩

/-- When the coordinates of `xr` are equal, the number the loop compares is the larger coordinate distance times
√2. -/
theorem coordDist_diag {s : ℝ} (p : Pt ℝ) : coordDist (s, s) p = √2 * max |p.1 - s| |p.2 - s| := by
  have h : ∀ a : ℝ, norm2 (a, a) = √2 * |a| := by
    intro a
    rw [norm2, ← two_mul, sqrt_mul (by norm_num), sqrt_sq_eq_abs]
  unfold coordDist
  simp only [h]
  rw [max_eq_left, mul_max_of_nonneg _ _ (sqrt_nonneg _)]
  exact le_trans (by norm_num) (le_max_of_le_left (mul_nonneg (sqrt_nonneg 2) (abs_nonneg (p.1 - s))))

/-- Along a ray from such an `xr`, the comparison is that of the distances. -/
theorem coordDist_ray {s : ℝ} {x p q : Pt ℝ} (hp : OnRay (s, s) x p) (hq : OnRay (s, s) x q)
    (h : coordDist (s, s) p ≤ coordDist (s, s) q) : len (p - (s, s)) ≤ len (q - (s, s)) := by
  obtain ⟨t, ht, rfl⟩ := hp
  obtain ⟨t', ht', rfl⟩ := hq
  rw [coordDist_diag, coordDist_diag] at h
  have h2 : (0 : ℝ) < √2 := by positivity
  have h := le_of_mul_le_mul_left h h2
  set d := x - ((s, s) : Pt ℝ) with hd
  have e : ∀ t : ℝ, 0 ≤ t → max |(((s, s) : Pt ℝ) + t • d).1 - s| |(((s, s) : Pt ℝ) + t • d).2 - s| = t * max |d.1| |d.2| := by
    intro t ht
    simp only [Prod.fst_add, Prod.snd_add, Prod.smul_fst, Prod.smul_snd, smul_eq_mul, add_sub_cancel_left, abs_mul,
      abs_of_nonneg ht]
    rw [mul_max_of_nonneg _ _ ht]
  rw [e t ht, e t' ht'] at h
  rw [add_sub_cancel_left, add_sub_cancel_left]
  have e2 : ∀ t : ℝ, normSq (t • d) = t ^ 2 * normSq d := by
    intro t
    simp only [normSq, Prod.smul_fst, Prod.smul_snd, smul_eq_mul]; ring
  refine sqrt_le_sqrt ?_
  rw [e2, e2]
  rcases (le_max_of_le_left (abs_nonneg d.1) : 0 ≤ max |d.1| |d.2|).eq_or_lt with h0 | h0
  · have h1 : |d.1| ≤ 0 := (le_max_left _ _).trans h0.symm.le
    have h3 : |d.2| ≤ 0 := (le_max_right |d.1| _).trans h0.symm.le
    have h1 := abs_nonpos_iff.1 h1
    have h3 := abs_nonpos_iff.1 h3
    simp [normSq, h1, h3]
  · have := le_of_mul_le_mul_right h h0
    have hn : 0 ≤ normSq d := by simp only [normSq]; positivity
    gcongr

theorem flatten_single {α β : Type} (f : α → Except PyErr (List β)) (g : α → β) : ∀ l : List α,
    (∀ a ∈ l, f a = .ok [g a]) → ∃ L, l.mapM f = .ok L ∧ L.flatten = l.map g
  | [], _ => ⟨[], rfl, rfl⟩
  | a :: l, h => by
    obtain ⟨L, hL, e⟩ := flatten_single f g l fun b hb => h b (List.mem_cons_of_mem _ hb)
    refine ⟨[g a] :: L, ?_, by simp [e]⟩
    simp [List.mapM_cons, h a List.mem_cons_self, hL, bind, Except.bind, pure, Except.pure]

/-- C44 (partial): with equal coordinates of `xr`, when the test segment meets each member exactly once and does not
meet the hull, the velocity is that of a member whose crossing is farthest from `xr`. Missing: other `xr`
(`C44_tie_false`), members met more than once (`C44_shift_false`, `C44_index_false`). -/
theorem C44_diagonal_partial (c : Combination) (s : ℝ) (hs : c.xr = (s, s)) (x : Pt ℝ) (cross : Member → Pt ℝ)
    (hne : c.members ≠ []) (hm : ∀ o ∈ c.members, o.lineIntersection c.xr (c.testEnd x) = .ok [cross o])
    (hray : ∀ o ∈ c.members, OnRay c.xr x (cross o)) (hh : c.hullIntersections c.xr (c.testEnd x) = .ok (some [])) :
    ∃ o ∈ c.members, c.vel x = o.vel x ∧ ∀ o' ∈ c.members, len (cross o' - c.xr) ≤ len (cross o - c.xr) := by
  obtain ⟨L, hL, hfl⟩ := flatten_single (fun o : Member => o.lineIntersection c.xr (c.testEnd x)) cross c.members hm
  have hli : c.lineIntersection c.xr (c.testEnd x) = .ok (c.members.map cross) := by
    simp only [Combination.lineIntersection, hL, hh, bind, Except.bind, hfl, List.append_nil]
  simp only [Combination.vel, hli, bind, Except.bind]
  rcases velLoop_spec c.xr (c.members.map cross) 0 (0, -1) with ⟨_, h2⟩ | ⟨j, hj, h1, _, h3⟩
  · exfalso
    obtain ⟨o, ho⟩ := List.exists_mem_of_ne_nil _ hne
    have := h2 (cross o) (List.mem_map_of_mem ho)
    have := coordDist_nonneg c.xr (cross o)
    simp only at *
    linarith
  · rw [zero_add] at h1
    rw [List.length_map] at hj
    have : ¬ j ≥ c.members.length := by omega
    simp only [h1, this, if_false, List.getElem?_eq_getElem hj]
    refine ⟨c.members[j], List.getElem_mem _, rfl, ?_⟩
    intro o' ho'
    have h4 := h3 (cross o') (List.mem_map_of_mem ho')
    rw [List.getElem_map] at h4
    have r1 := hray o' ho'
    have r2 := hray _ (List.getElem_mem hj)
    rw [hs] at h4 r1 r2 ⊢
    exact coordDist_ray r1 r2 h4

/-- C44 (partial): a combination of one member whose test segment has at most two crossings has the velocity of the
member. -/
theorem C44_single_partial (o : Member) (hull : Option HullGeom) (xr x : Pt ℝ) (L : List (Pt ℝ))
    (hL : (Combination.mk [o] hull xr).lineIntersection xr ((Combination.mk [o] hull xr).testEnd x) = .ok L)
    (hle : L.length ≤ 2) : (Combination.mk [o] hull xr).vel x = o.vel x := by
  have hi : velLoop xr L 0 (0, -1) ≤ 1 := by
    rcases velLoop_spec xr L 0 (0, -1) with ⟨h, _⟩ | ⟨j, hj, h, _⟩ <;> rw [h] <;> simp
    omega
  simp only [Combination.vel, hL, bind, Except.bind]
  generalize velLoop xr L 0 (0, -1) = i at hi
  interval_cases i <;> simp

/-! ## Counterexamples -/

/-- The box with corners (l, ±1), (r, ±1). -/
def box (l r : ℝ) : List (Pt ℝ) := [(r, -1), (r, 1), (l, 1), (l, -1)]

/-- Where the first axis meets a box. -/
theorem box_axis (l r t : ℝ) : OnRing (box l r) (t, 0) ↔ t = l ∨ t = r := by
  constructor
  · rintro ⟨i, hi, w, h0, h1, e⟩
    have hi' : i < 4 := by simpa [box] using hi
    interval_cases i <;> simp [corner, box, Prod.ext_iff] at e
    · exact Or.inr e.1
    · exact Or.inl e.1
  · rintro (rfl | rfl)
    · refine ⟨2, by simp [box], 1 / 2, by norm_num, by norm_num, ?_⟩
      ext <;> simp [corner, box]
      norm_num
    · refine ⟨0, by simp [box], 1 / 2, by norm_num, by norm_num, ?_⟩
      ext <;> simp [corner, box]
      norm_num

/-- Where a segment of the first axis meets a box. -/
theorem box_hits (l r a b : ℝ) (h : a ≠ b) : hits (box l r) (a, 0) (b, 0) =
    {p | p.2 = 0 ∧ (p.1 = l ∨ p.1 = r) ∧ 0 ≤ (p.1 - a) / (b - a) ∧ (p.1 - a) / (b - a) ≤ 1} := by
  have hba : b - a ≠ 0 := sub_ne_zero.2 h.symm
  ext ⟨p1, p2⟩
  constructor
  · rintro ⟨⟨t, h0, h1, e⟩, hr⟩
    simp only [Prod.mk_sub_mk, sub_zero, Prod.smul_mk, smul_eq_mul, mul_zero, Prod.mk_add_mk, add_zero, Prod.mk.injEq] at e
    obtain ⟨rfl, rfl⟩ := e
    have e : (a + t * (b - a) - a) / (b - a) = t := by rw [add_sub_cancel_left, mul_div_cancel_right₀ _ hba]
    exact ⟨rfl, (box_axis _ _ _).1 hr, by simp only [e]; exact h0, by simp only [e]; exact h1⟩
  · rintro ⟨h2, h3, h4, h5⟩
    simp only at h2 h3 h4 h5
    subst h2
    refine ⟨⟨_, h4, h5, ?_⟩, (box_axis _ _ _).2 h3⟩
    ext <;> simp
    field_simp
    ring

theorem coord_tie (a : ℝ) (h0 : 0 ≤ a) (h1 : a ≤ 1) : coordDist (1, 0) (a, 0) = 1 := by
  have e1 : norm2 ((a - 1, a - 0) : Pt ℝ) ≤ 1 := by
    rw [norm2]
    refine sqrt_le_one.2 ?_
    nlinarith
  have e2 : norm2 ((0 - 1, 0 - 0) : Pt ℝ) = 1 := by simp [norm2]
  unfold coordDist
  simp only [e2]
  rw [max_eq_right e1]
  norm_num

/-- C44 is false: with `xr` = (1, 0), two boxes about it reaching to 3/4 and to 1/2 in the direction of the origin
are both given the distance 1, and the first one's velocity is returned although the second reaches farther. -/
theorem C44_tie_false (ix ix' : Pt ℝ → Pt ℝ → Geom) (v v' : Pt ℝ)
    (hix : GeomIs (ix (1, 0) (-9, 0)) (hits (box (3 / 4) 2) (1, 0) (-9, 0)))
    (hix' : GeomIs (ix' (1, 0) (-9, 0)) (hits (box (1 / 2) 2) (1, 0) (-9, 0))) :
    let c : Combination := ⟨[polygonMember (box (3 / 4) 2) ix v, polygonMember (box (1 / 2) 2) ix' v'], none, (1, 0)⟩
    c.lineIntersection c.xr (c.testEnd 0) = .ok [(3 / 4, 0), (1 / 2, 0)] ∧ c.vel 0 = .ok v := by
  intro c
  have hend : c.testEnd 0 = ((-9, 0) : Pt ℝ) := by
    ext <;> simp [c, Combination.testEnd]
    norm_num
  have hxr : c.xr = ((1, 0) : Pt ℝ) := rfl
  have g : ∀ l, 0 ≤ l → l ≤ 1 → hits (box l 2) (1, 0) (-9, 0) = {((l, 0) : Pt ℝ)} := by
    intro l hl hl'
    rw [box_hits _ _ _ _ (by norm_num)]
    ext ⟨p1, p2⟩
    simp only [Set.mem_ofPred_eq, Set.mem_singleton_iff, Prod.mk.injEq]
    constructor
    · rintro ⟨h2, h1 | h1, h3, h4⟩
      · exact ⟨h1, h2⟩
      · subst h1; norm_num at h3
    · rintro ⟨rfl, rfl⟩
      refine ⟨rfl, Or.inl rfl, ?_, ?_⟩ <;> rw [show (-9 - 1 : ℝ) = -10 by norm_num]
      · exact div_nonneg_of_nonpos (by linarith) (by norm_num)
      · rw [div_le_one_of_neg (by norm_num)]; linarith
  have e1 := geom_point (g (3 / 4) (by norm_num) (by norm_num) ▸ hix)
  have e2 := geom_point (g (1 / 2) (by norm_num) (by norm_num) ▸ hix')
  have m1 : (polygonMember (box (3 / 4) 2) ix v).lineIntersection (1, 0) (-9, 0) = .ok [(3 / 4, 0)] :=
    polygonMember_line (by rw [e1]; rfl)
  have m2 : (polygonMember (box (1 / 2) 2) ix' v').lineIntersection (1, 0) (-9, 0) = .ok [(1 / 2, 0)] :=
    polygonMember_line (by rw [e2]; rfl)
  have hli : c.lineIntersection c.xr (c.testEnd 0) = .ok [(3 / 4, 0), (1 / 2, 0)] := by
    rw [hend, hxr]
    simp only [Combination.lineIntersection, c, m1, m2, Combination.hullIntersections, List.mapM_cons, List.mapM_nil, bind,
      Except.bind, pure, Except.pure, List.flatten_cons, List.flatten_nil, List.cons_append, List.nil_append, List.append_nil]
  refine ⟨hli, ?_⟩
  simp only [Combination.vel, hli, bind, Except.bind]
  have hl : velLoop c.xr [(3 / 4, 0), (1 / 2, 0)] 0 (0, -1) = 0 := by
    rw [hxr]
    simp only [velLoop, coord_tie (3 / 4) (by norm_num) (by norm_num), coord_tie (1 / 2) (by norm_num) (by norm_num)]
    norm_num
  rw [hl]
  simp [c, polygonMember]

theorem coord_axis (a : ℝ) (h : 0 ≤ a) : coordDist 0 (a, 0) = √2 * a := by
  have := coordDist_diag (s := 0) (a, 0)
  simp only [sub_zero, abs_zero, abs_of_nonneg h, max_eq_left h] at this
  exact this

/-- C44 is false: with the origin as `xr`, a box from 1 to 2 and a box about the origin that reaches to 4, the
velocity of the first is returned, since its two crossings move the index of the second. -/
theorem C44_shift_false (v v' : Pt ℝ) :
    let ix : Pt ℝ → Pt ℝ → Geom := fun _ _ => .multiPoint [(1, 0), (2, 0)]
    let ix' : Pt ℝ → Pt ℝ → Geom := fun _ _ => .point (4, 0)
    let c : Combination := ⟨[polygonMember (box 1 2) ix v, polygonMember (box (-1) 4) ix' v'], none, 0⟩
    GeomIs (ix c.xr (c.testEnd (1, 0))) (hits (box 1 2) c.xr (c.testEnd (1, 0))) ∧
    GeomIs (ix' c.xr (c.testEnd (1, 0))) (hits (box (-1) 4) c.xr (c.testEnd (1, 0))) ∧
    c.lineIntersection c.xr (c.testEnd (1, 0)) = .ok [(1, 0), (2, 0), (4, 0)] ∧ c.vel (1, 0) = .ok v := by
  intro ix ix' c
  have hend : c.testEnd (1, 0) = ((10, 0) : Pt ℝ) := by
    ext <;> simp [c, Combination.testEnd]
  have hxr : c.xr = ((0, 0) : Pt ℝ) := rfl
  have hli : c.lineIntersection c.xr (c.testEnd (1, 0)) = .ok [(1, 0), (2, 0), (4, 0)] := by
    have m1 : (polygonMember (box 1 2) ix v).lineIntersection (0, 0) (10, 0) = .ok [(1, 0), (2, 0)] :=
      polygonMember_line rfl
    have m2 : (polygonMember (box (-1) 4) ix' v').lineIntersection (0, 0) (10, 0) = .ok [(4, 0)] :=
      polygonMember_line rfl
    rw [hend, hxr]
    simp only [Combination.lineIntersection, c, m1, m2, Combination.hullIntersections, List.mapM_cons, List.mapM_nil, bind,
      Except.bind, pure, Except.pure, List.flatten_cons, List.flatten_nil, List.cons_append, List.nil_append, List.append_nil]
  refine ⟨?_, ?_, hli, ?_⟩
  · rw [hend, hxr, box_hits _ _ _ _ (by norm_num)]
    refine ⟨?_, by simp, by simp⟩
    ext ⟨p1, p2⟩
    simp only [Set.mem_ofPred_eq, List.mem_cons, List.not_mem_nil, or_false, Prod.mk.injEq]
    constructor
    · rintro ⟨h2, h1 | h1, _⟩
      · exact Or.inl ⟨h1, h2⟩
      · exact Or.inr ⟨h1, h2⟩
    · rintro (⟨rfl, rfl⟩ | ⟨rfl, rfl⟩) <;> norm_num
  · rw [hend, hxr, box_hits _ _ _ _ (by norm_num)]
    change _ = _
    ext ⟨p1, p2⟩
    simp only [Set.mem_ofPred_eq, Set.mem_singleton_iff, Prod.mk.injEq]
    constructor
    · rintro ⟨h2, h1 | h1, h3, h4⟩
      · subst h1; norm_num at h3
      · exact ⟨h1, h2⟩
    · rintro ⟨rfl, rfl⟩
      norm_num
  · simp only [Combination.vel, hli, bind, Except.bind]
    have hl : velLoop c.xr [(1, 0), (2, 0), (4, 0)] 0 (0, -1) = 2 := by
      have h2 : (0 : ℝ) < √2 := by positivity
      change velLoop 0 _ _ _ = _
      simp only [velLoop, coord_axis 1 (by norm_num), coord_axis 2 (by norm_num), coord_axis 4 (by norm_num)]
      rw [if_pos (by linarith : √2 * 1 > (-1 : ℝ))]
      simp only
      rw [if_pos (by linarith : √2 * 2 > √2 * 1)]
      simp only
      rw [if_pos (by linarith : √2 * 4 > √2 * 2)]
    rw [hl]
    simp [c, polygonMember]

/-- A box with a notch from above. -/
def notched : List (Pt ℝ) := [(-1, -2), (4, -2), (4, 1), (2, -1), (-1, 2)]

/-- C44 is false: for one polygon that the ray crosses three times, the call raises IndexError. -/
theorem C44_index_false (v : Pt ℝ) :
    let ix : Pt ℝ → Pt ℝ → Geom := fun _ _ => .multiPoint [(1, 0), (3, 0), (4, 0)]
    let c : Combination := ⟨[polygonMember notched ix v], none, 0⟩
    GeomIs (ix c.xr (c.testEnd (1, 0))) (hits notched c.xr (c.testEnd (1, 0))) ∧ c.vel (1, 0) = .error .indexError := by
  intro ix c
  have hend : c.testEnd (1, 0) = ((10, 0) : Pt ℝ) := by
    ext <;> simp [c, Combination.testEnd]
  have hxr : c.xr = ((0, 0) : Pt ℝ) := rfl
  have hli : c.lineIntersection c.xr (c.testEnd (1, 0)) = .ok [(1, 0), (3, 0), (4, 0)] := by
    have m1 : (polygonMember notched ix v).lineIntersection (0, 0) (10, 0) = .ok [(1, 0), (3, 0), (4, 0)] :=
      polygonMember_line rfl
    rw [hend, hxr]
    simp [Combination.lineIntersection, c, m1, Combination.hullIntersections, List.mapM_cons, bind, Except.bind, pure,
      Except.pure]
  refine ⟨?_, ?_⟩
  · rw [hend, hxr]
    refine ⟨?_, by simp, by simp⟩
    ext ⟨p1, p2⟩
    simp only [Set.mem_ofPred_eq, List.mem_cons, List.not_mem_nil, or_false, Prod.mk.injEq]
    constructor
    · rintro ⟨⟨t, h0, h1, e⟩, i, hi, w, h2, h3, e'⟩
      have hi' : i < 5 := by simpa [notched] using hi
      simp only [Prod.mk_sub_mk, sub_zero, Prod.smul_mk, smul_eq_mul, mul_zero, Prod.mk_add_mk, add_zero,
        Prod.mk.injEq, zero_add] at e
      obtain ⟨rfl, rfl⟩ := e
      interval_cases i <;> simp [corner, notched, Prod.ext_iff] at e' <;> obtain ⟨e1, e2⟩ := e'
      · exact Or.inr (Or.inr ⟨by linarith, rfl⟩)
      · exact Or.inr (Or.inl ⟨by linarith, rfl⟩)
      · exact Or.inl ⟨by linarith, rfl⟩
      · linarith
    · rintro (⟨rfl, rfl⟩ | ⟨rfl, rfl⟩ | ⟨rfl, rfl⟩)
      · exact ⟨⟨1 / 10, by norm_num, by norm_num, by norm_num⟩, 3, by simp [notched], 1 / 3, by norm_num, by norm_num, by
          norm_num [corner, notched]⟩
      · exact ⟨⟨3 / 10, by norm_num, by norm_num, by norm_num⟩, 2, by simp [notched], 1 / 2, by norm_num, by norm_num, by
          norm_num [corner, notched]⟩
      · exact ⟨⟨4 / 10, by norm_num, by norm_num, by norm_num⟩, 1, by simp [notched], 2 / 3, by norm_num, by norm_num, by
          norm_num [corner, notched]⟩
  · simp only [Combination.vel, hli, bind, Except.bind]
    have hl : velLoop c.xr [(1, 0), (3, 0), (4, 0)] 0 (0, -1) = 2 := by
      have h2 : (0 : ℝ) < √2 := by positivity
      change velLoop 0 _ _ _ = _
      simp only [velLoop, coord_axis 1 (by norm_num), coord_axis 3 (by norm_num), coord_axis 4 (by norm_num)]
      rw [if_pos (by linarith : √2 * 1 > (-1 : ℝ))]
      simp only
      rw [if_pos (by linarith : √2 * 3 > √2 * 1)]
      simp only
      rw [if_pos (by linarith : √2 * 4 > √2 * 3)]
    rw [hl]
    simp [c]

/-- Two members with one crossing each. -/
example : ∃ o ∈ [polygonMember (box (-1) 2) (fun _ _ => .point (2, 0)) (5, 6), polygonMember (box (-1) 3) (fun _ _ => .point (3, 0)) (7, 8)],
    (Combination.mk [polygonMember (box (-1) 2) (fun _ _ => .point (2, 0)) (5, 6),
      polygonMember (box (-1) 3) (fun _ _ => .point (3, 0)) (7, 8)] none 0).vel (1, 0) = o.vel (1, 0) := by
  classical
  set o1 := polygonMember (box (-1) 2) (fun _ _ => .point (2, 0)) (5, 6)
  set o2 := polygonMember (box (-1) 3) (fun _ _ => .point (3, 0)) (7, 8)
  have h1 : ∀ a b, o1.lineIntersection a b = .ok [(2, 0)] := fun a b => polygonMember_line rfl
  have h2 : ∀ a b, o2.lineIntersection a b = .ok [(3, 0)] := fun a b => polygonMember_line rfl
  have hne : o1 ≠ o2 := by
    intro e
    have := h1 0 0
    rw [e, h2] at this
    norm_num at this
  obtain ⟨o, ho, e, _⟩ := C44_diagonal_partial ⟨[o1, o2], none, 0⟩ 0 rfl (1, 0) (fun o => if o = o1 then (2, 0) else (3, 0))
    (by simp) (by
      intro o ho
      rcases (by simpa using ho : o = o1 ∨ o = o2) with rfl | rfl
      · simp [h1]
      · simp [h2, hne.symm]) (by
      intro o _
      split_ifs
      · exact ⟨2, by norm_num, by ext <;> simp⟩
      · exact ⟨3, by norm_num, by ext <;> simp⟩) rfl
  exact ⟨o, ho, e⟩

end Starworlds
