import Verif.Model.CombinationState
import Verif.Props.Combination
import Verif.Props.StarPolygonHit

/-! # C79: the normal of the part of a combination that is hit by the ray from the reference point -/

namespace Starworlds

open Real Spec

theorem farLoop_spec (xr : Pt ℝ) (i : Nat) : ∀ (l : List (Pt ℝ)) (best : Nat × ℝ),
    best.2 ≤ (farLoop xr i l best).2 ∧ (∀ p ∈ l, len (p - xr) ≤ (farLoop xr i l best).2) ∧
      (farLoop xr i l best = best ∨ ((farLoop xr i l best).1 = i ∧ best.2 < (farLoop xr i l best).2 ∧
        ∃ p ∈ l, len (p - xr) = (farLoop xr i l best).2))
  | [], best => by simp [farLoop]
  | p :: l, best => by
    classical
    simp only [farLoop]
    obtain ⟨h1, h2, h3⟩ := farLoop_spec xr i l (if norm2 (p - xr) > best.2 then (i, norm2 (p - xr)) else best)
    have hp : norm2 (p - xr) = len (p - xr) := rfl
    rw [hp] at h1 h2 h3 ⊢
    by_cases hlt : len (p - xr) > best.2
    · rw [if_pos hlt] at h1 h2 h3 ⊢
      refine ⟨hlt.le.trans h1, ?_, ?_⟩
      · intro q hq
        rcases List.mem_cons.1 hq with rfl | hq
        · exact h1
        · exact h2 q hq
      · right
        rcases h3 with h3 | ⟨h3, h4, q, hq, h5⟩
        · rw [h3]
          exact ⟨rfl, hlt, p, List.mem_cons_self, rfl⟩
        · exact ⟨h3, lt_trans hlt h4, q, List.mem_cons_of_mem _ hq, h5⟩
    · rw [if_neg hlt] at h1 h2 h3 ⊢
      refine ⟨h1, ?_, ?_⟩
      · intro q hq
        rcases List.mem_cons.1 hq with rfl | hq
        · exact (not_lt.1 hlt).trans h1
        · exact h2 q hq
      · rcases h3 with h3 | ⟨h3, h4, q, hq, h5⟩
        · exact Or.inl h3
        · exact Or.inr ⟨h3, h4, q, List.mem_cons_of_mem _ hq, h5⟩

theorem farMembers_spec (xr b : Pt ℝ) : ∀ (os : List Member) (i : Nat) (best : Nat × ℝ),
    (∀ o ∈ os, ∃ L, o.lineIntersection xr b = .ok L) →
    ∃ r, farMembers xr b os i best = .ok r ∧ best.2 ≤ r.2 ∧
      (∀ o ∈ os, ∀ L, o.lineIntersection xr b = .ok L → ∀ p ∈ L, len (p - xr) ≤ r.2) ∧
      (r = best ∨ ∃ j o L p, os[j]? = some o ∧ o.lineIntersection xr b = .ok L ∧ p ∈ L ∧ r.1 = i + j ∧
        len (p - xr) = r.2 ∧ best.2 < r.2 ∧ ∀ k < j, ∀ o', os[k]? = some o' → ∀ L',
          o'.lineIntersection xr b = .ok L' → ∀ q ∈ L', len (q - xr) < r.2)
  | [], i, best, _ => ⟨best, rfl, le_rfl, by simp, Or.inl rfl⟩
  | o :: os, i, best, h => by
    obtain ⟨L, hL⟩ := h o List.mem_cons_self
    obtain ⟨h1, h2, h3⟩ := farLoop_spec xr i L best
    obtain ⟨r, hr, h4, h5, h6⟩ := farMembers_spec xr b os (i + 1) (farLoop xr i L best)
      fun o' ho' => h o' (List.mem_cons_of_mem _ ho')
    refine ⟨r, by simp only [farMembers, hL, bind, Except.bind]; exact hr, h1.trans h4, ?_, ?_⟩
    · intro o' ho' L' hL' p hp
      rcases List.mem_cons.1 ho' with rfl | ho'
      · rw [hL] at hL'
        injection hL' with e
        exact (h2 p (e ▸ hp)).trans h4
      · exact h5 o' ho' L' hL' p hp
    · rcases h6 with h6 | ⟨j, o', L', p, g1, g2, g3, g4, g5, g6, g7⟩
      · rcases h3 with h3 | ⟨h3, h7, p, hp, h8⟩
        · exact Or.inl (h6.trans h3)
        · right
          refine ⟨0, o, L, p, rfl, hL, hp, ?_, ?_, ?_, by simp⟩
          · rw [h6, h3]; rfl
          · rw [h6, h8]
          · rw [h6]; exact h7
      · right
        refine ⟨j + 1, o', L', p, by simpa using g1, g2, g3, by omega, g5, lt_of_le_of_lt h1 g6, ?_⟩
        intro k hk o'' ho'' L'' hL'' q hq
        cases k with
        | zero =>
          simp only [List.getElem?_cons_zero, Option.some.injEq] at ho''
          subst ho''
          rw [hL] at hL''
          injection hL'' with e
          exact lt_of_le_of_lt (h2 q (e ▸ hq)) g6
        | succ k =>
          simp only [List.getElem?_cons_succ] at ho''
          exact g7 k (by omega) o'' ho'' L'' hL'' q hq

/-! ## The hull -/

theorem sortedAbout_sorted {argsort : List ℝ → List Nat} (ha : IsArgsort argsort) {ring v : List (Pt ℝ)} (xr : Pt ℝ)
    (hp : ring.Perm v) : Sorted v { sortedAbout argsort ring xr with ring := v } := by
  have h := update_sorted ha (⟨none, ring, xr, ring, [], 0⟩ : StarPoly) rfl (List.Perm.refl _)
  exact ⟨rfl, h.perm.trans hp, h.angles, h.sorted⟩

theorem hullNormal_eq {argsort : List ℝ → List Nat} (ha : IsArgsort argsort) {ring v : List (Pt ℝ)} (xr x : Pt ℝ)
    (hr : ring ≠ []) : hullNormal argsort ring xr x =
      ({ sortedAbout argsort ring xr with ring := v } : StarPoly).normal x .global .global .edge := by
  have hS := sortedAbout_sorted ha xr (List.Perm.refl ring)
  have hlen : (sortedAbout argsort ring xr).vertices.length = ring.length := hS.perm.length_eq
  have hpos : 0 < ring.length := List.length_pos_iff.2 hr
  obtain ⟨_, hal, _, _, hlast, hlarge⟩ := sorted_facts hr hS
  change (sortedAbout argsort ring xr).vertexAngles.length = _ at hal
  change ∀ t ≤ π, t < (sortedAbout argsort ring xr).vertexAngles.getD ring.length 0 at hlarge
  have hmem : (sortedAbout argsort ring xr).vertexAngles.getD ring.length 0 ∈
      (sortedAbout argsort ring xr).vertexAngles := by
    rw [List.getD_eq_getElem _ _ (by omega)]; exact List.getElem_mem _
  obtain ⟨hk, _, _⟩ := firstAbove_spec (sortedAbout argsort ring xr).vertexAngles (angleAbout xr x)
    ⟨_, hmem, hlarge _ (angleAbout_bounds _ _).2⟩
  simp only [hullNormal, StarPoly.normal, vertexIndex, bind, Except.bind]
  have et : ∀ f g, transform (sortedAbout argsort ring xr).mm x f g = .ok x := fun f g => (C21_identity _ _ _ _ (Or.inr rfl)).1
  have er : ∀ (m : Pt ℝ) f g, rotate (sortedAbout argsort ring xr).mm m f g = .ok m := fun m f g =>
    (C21_identity _ _ _ _ (Or.inr rfl)).2
  have ex : (sortedAbout argsort ring xr).xr = xr := rfl
  simp only [et, er, ex]
  rw [hal] at hk
  generalize firstAbove (sortedAbout argsort ring xr).vertexAngles (angleAbout xr x) = k at hk
  generalize (sortedAbout argsort ring xr).vertices = V at hlen
  rw [← hlen] at hk hpos
  have get : ∀ j < V.length, ptAt (V ++ [ptAt V 0]) j = ptAt V j := by
    intro j hj
    simp [ptAt, List.getElem?_append_left hj]
  have getlast : ptAt (V ++ [ptAt V 0]) V.length = ptAt V 0 := by
    simp [ptAt]
  simp only [List.length_append, List.length_cons, List.length_nil, zero_add, Nat.add_sub_cancel]
  have key : edgeNormal (ptAt (V ++ [ptAt V 0]) ((if k = 0 then V.length else k) - 1))
      (ptAt (V ++ [ptAt V 0]) (if k = 0 then V.length else k)) =
      edgeNormal (ptAt V (((if k = V.length then 0 else k) + V.length - 1) % V.length))
        (ptAt V (if k = V.length then 0 else k)) := by
    have hmod : (V.length - 1) % V.length = V.length - 1 := Nat.mod_eq_of_lt (by omega)
    rcases Nat.eq_zero_or_pos k with rfl | hk0
    · rw [if_pos rfl, if_neg (by omega), get _ (by omega), getlast, zero_add, hmod]
    · rcases Nat.lt_or_ge k V.length with h | h
      · rw [if_neg (by omega), if_neg (by omega), get _ (by omega), get _ h,
          show k + V.length - 1 = (k - 1) + V.length by omega, Nat.add_mod_right, Nat.mod_eq_of_lt (by omega)]
      · have : k = V.length := by omega
        subst this
        rw [if_neg (by omega), if_pos rfl, get _ (by omega), getlast, zero_add, hmod]
  rw [key]

/-! ## C79 -/

/-- C79 (partial): if the test segment from `xr` to `xr + 10 (x - xr)` meets the boundary of some part, let `p` be the
farthest such point. `normal(x, type='sub_normal')` is the normal that a member gives for `x`: the first member with a
boundary point that far. If no member has one, `p` is on the boundary of the hull, and for a hull that is star-shaped
about `xr`, with its vertices listed in any order, the result is the outward unit normal of the edge of the hull
through `p`. Missing: points so near to `xr` that the test segment ends before the boundary, see `C79_near_false`. -/
theorem C79_part_partial (argsort : List ℝ → List Nat) (ha : IsArgsort argsort) (s : CombState)
    (B : Member → Set (Pt ℝ)) (H : Set (Pt ℝ)) (x : Pt ℝ)
    (h : Parts s.comb B H (s.comb.xr + (10 : ℝ) • (x - s.comb.xr)))
    (hreach : ∃ q ∈ allOf s.comb B H, OnSegment s.comb.xr (s.comb.xr + (10 : ℝ) • (x - s.comb.xr)) q) :
    ∃ p ∈ allOf s.comb B H, OnSegment s.comb.xr (s.comb.xr + (10 : ℝ) • (x - s.comb.xr)) p ∧
      (∀ q ∈ allOf s.comb B H, OnSegment s.comb.xr (s.comb.xr + (10 : ℝ) • (x - s.comb.xr)) q →
        len (q - s.comb.xr) ≤ len (p - s.comb.xr)) ∧
      ((∃ (k : ℕ) (o : Member), s.comb.members[k]? = some o ∧ p ∈ B o ∧ s.subNormal argsort x = o.normal x ∧
          ∀ j < k, ∀ o', s.comb.members[j]? = some o' → ∀ q ∈ B o',
            OnSegment s.comb.xr (s.comb.xr + (10 : ℝ) • (x - s.comb.xr)) q →
              len (q - s.comb.xr) < len (p - s.comb.xr)) ∨
        (p ∈ H ∧ (∀ o ∈ s.comb.members, ∀ q ∈ B o,
            OnSegment s.comb.xr (s.comb.xr + (10 : ℝ) • (x - s.comb.xr)) q →
              len (q - s.comb.xr) < len (p - s.comb.xr)) ∧
          ∀ ring v, s.hullRing = some ring → ring.Perm v → StarAbout s.comb.xr v → H = {p | OnRing v p} →
            x ≠ s.comb.xr →
            ∃ j < v.length, ∃ n, s.subNormal argsort x = .ok n ∧ OnSegment (corner v j) (corner v (j + 1)) p ∧
              normSq n = 1 ∧ dot n (corner v (j + 1) - corner v j) = 0 ∧ dot n (p - s.comb.xr) > 0)) := by
  set c := s.comb with hc
  set b := c.xr + (10 : ℝ) • (x - c.xr) with hb
  have hhull : ∃ L, c.hullIntersections c.xr b = .ok (some L) ∧ Crossings H c.xr b L := by
    rcases h.hull with ⟨h1, rfl⟩ | ⟨g, ix, h1, h2, h3, h4⟩
    · exact ⟨[], by simp [Combination.hullIntersections, h1], by simp [Crossings]⟩
    · obtain ⟨L, hL, hcr⟩ := geomPoints_crossings h4 h3
      exact ⟨L, hullIntersections_eq h1 h2 hL, hcr⟩
  obtain ⟨HL, hHL, hH⟩ := hhull
  obtain ⟨r, hr, hr1, hr2, hr3⟩ := farMembers_spec c.xr b c.members 0 (0, -1) fun o ho =>
    (h.member o ho).imp fun L hL => hL.1
  obtain ⟨g1, g2, g3⟩ := farLoop_spec c.xr c.members.length HL r
  have hsub : s.subNormal argsort x = match c.members[(farLoop c.xr c.members.length HL r).1]? with
      | some o => o.normal x
      | none => match s.hullRing with
        | none => .error .attributeError
        | some ring => hullNormal argsort ring c.xr x := by
    simp only [CombState.subNormal, ← hc, Combination.testEnd, ← hb, hr, hHL, bind, Except.bind, Option.getD_some]
    rfl
  set r' := farLoop c.xr c.members.length HL r with hr'
  -- no boundary point is farther than `r'.2`
  have hmax : ∀ q ∈ allOf c B H, OnSegment c.xr b q → len (q - c.xr) ≤ r'.2 := by
    rintro q (⟨o, ho, hq⟩ | hq) hs
    · obtain ⟨L, hL, hcr⟩ := h.member o ho
      obtain ⟨p, hp, hle⟩ := hcr.2 q hq hs
      exact hle.trans ((hr2 o ho L hL p hp).trans g1)
    · obtain ⟨p, hp, hle⟩ := hH.2 q hq hs
      exact hle.trans (g2 p hp)
  have hnn : (0 : ℝ) ≤ r'.2 := by
    obtain ⟨q, hq, hs⟩ := hreach
    exact le_trans (sqrt_nonneg _) (hmax q hq hs)
  rcases g3 with g3 | ⟨g3, g4, p, hp, hpl⟩
  · -- a member
    rw [g3] at hmax hnn hsub
    rcases hr3 with hr3 | ⟨j, o, L, p, m1, m2, m3, m4, m5, m6, m7⟩
    · rw [hr3] at hnn; norm_num at hnn
    · have ho : o ∈ c.members := List.mem_of_getElem? m1
      obtain ⟨L', hL', hcr⟩ := h.member o ho
      rw [m2] at hL'
      injection hL' with e
      subst e
      refine ⟨p, Or.inl ⟨o, ho, (hcr.1 p m3).2⟩, (hcr.1 p m3).1, fun q hq hs => m5 ▸ hmax q hq hs, Or.inl
        ⟨j, o, m1, (hcr.1 p m3).2, ?_, ?_⟩⟩
      · rw [hsub, show r.1 = j by omega, m1]
      · intro k hk o' ho' q hq hs
        obtain ⟨L', hL', hcr'⟩ := h.member o' (List.mem_of_getElem? ho')
        obtain ⟨p', hp', hle⟩ := hcr'.2 q hq hs
        rw [m5]
        exact lt_of_le_of_lt hle (m7 k hk o' ho' L' hL' p' hp')
  · -- the hull
    refine ⟨p, Or.inr (hH.1 p hp).2, (hH.1 p hp).1, fun q hq hs => hpl ▸ hmax q hq hs, Or.inr
      ⟨(hH.1 p hp).2, ?_, ?_⟩⟩
    · intro o ho q hq hs
      obtain ⟨L, hL, hcr⟩ := h.member o ho
      obtain ⟨p', hp', hle⟩ := hcr.2 q hq hs
      rw [hpl]
      exact lt_of_le_of_lt hle (lt_of_le_of_lt (hr2 o ho L hL p' hp') g4)
    · intro ring v hring hperm hstar hHv hx
      rw [g3, List.getElem?_eq_none le_rfl, hring] at hsub
      have hv : v ≠ [] := by
        rintro rfl
        have := (hH.1 p hp).2
        rw [hHv] at this
        obtain ⟨i, hi, _⟩ := this
        simp at hi
      have hrne : ring ≠ [] := by
        rintro rfl
        exact hv hperm.nil_eq.symm
      obtain ⟨j, hj, q, n, q1, q2, q3, q4, q5, q6, q7⟩ := hit_of_sorted hv (sortedAbout_sorted ha c.xr hperm) .global
        .global (Or.inl rfl) (Or.inl rfl) x hstar hx
      have hpq : p = q := by
        refine q3 p ?_ ?_
        · obtain ⟨t, t0, _, e⟩ := (hH.1 p hp).1
          refine ⟨t * 10, by positivity, ?_⟩
          change p = c.xr + (t * 10) • (x - c.xr)
          rw [e, hb, add_sub_cancel_left, smul_smul]
        · have := (hH.1 p hp).2
          rw [hHv] at this
          exact this
      refine ⟨j, hj, n, ?_, by rw [hpq]; exact q2, q5, q6, by rw [hpq]; exact q7⟩
      rw [hsub]
      simp only
      rw [hullNormal_eq (v := v) ha _ _ hrne]
      rw [show n = n - 0 by rw [sub_zero]]
      exact q4

/-! ## Witnesses -/

/-- A small diamond inside the square `bigSquare`. -/
noncomputable def diamond : List (Pt ℝ) := [(1 / 4, 0), (0, 1 / 4), (-1 / 4, 0), (0, -1 / 4)]

theorem diamond_star : StarAbout 0 diamond := by
  refine ⟨fun i => i * (π / 2), ?_, ?_, ?_⟩
  · intro i hi
    have hi' : i < 4 := by simpa [diamond] using hi
    have e2 : (2 : ℝ) * (π / 2) = π := by ring
    have e3 : (3 : ℝ) * (π / 2) = π + π / 2 := by ring
    constructor
    · refine ⟨1 / 4, by norm_num, ?_⟩
      interval_cases i
      · simp [corner, diamond]
      · simp [corner, diamond]
      · ext <;> norm_num [corner, diamond, e2]
      · ext <;> norm_num [corner, diamond, e3, cos_add, sin_add]
    · interval_cases i <;> simp [corner, diamond]
  · intro i _
    have := pi_pos
    push_cast
    constructor <;> linarith
  · simp [diamond]; ring

/-- A star-shaped polygon about the origin as a member. -/
noncomputable def starMember (v : List (Pt ℝ)) : Member where
  pointLocation x := .ok (polyLocation v x)
  lineIntersection a b := polygonLineIntersection none (exactIx v) a b .global .global
  tangentPoints x := .ok (polyTangents v x)
  vel _ := .ok 0
  normal x := (StarPoly.make sortIdcs none v 0).normal x .global .global .edge

theorem starMember_crossings {v : List (Pt ℝ)} (h : StarAbout 0 v) (b : Pt ℝ) :
    ∃ L, (starMember v).lineIntersection 0 b = .ok L ∧ Crossings {p | OnRing v p} 0 b L :=
  polygonMember_crossings (v := v) (vel := 0) (exactIx_spec h b) (exactIx_no_collection h b)

theorem starMember_normal {v : List (Pt ℝ)} (hv : v ≠ []) (h : StarAbout 0 v) {x : Pt ℝ} (hx : x ≠ 0) :
    ∃ j < v.length, ∃ (w : ℝ) (n : Pt ℝ), 0 ≤ w ∧ OnSegment (corner v j) (corner v (j + 1)) (w • x) ∧ (starMember v).normal x = .ok n ∧
      normSq n = 1 ∧ dot n (corner v (j + 1) - corner v j) = 0 ∧ dot n (w • x) > 0 := by
  obtain ⟨j, hj, q, n, ⟨w, hw, rfl⟩, h1, _, h2, h3, h4, h5⟩ := C39_hit sortIdcs sortIdcs_spec none v hv 0 [] .global
    .global (.inl rfl) (.inl rfl) x (StarPoly.make sortIdcs none v 0) rfl h hx
  have e : (StarPoly.make sortIdcs none v 0).xr + w • (x - (StarPoly.make sortIdcs none v 0).xr) = w • x := by
    change 0 + w • (x - 0) = w • x
    rw [zero_add, sub_zero]
  rw [e] at h1 h5
  refine ⟨j, hj, w, n, hw, h1, ?_, h3, h4, ?_⟩
  · rw [show n = n - 0 by rw [sub_zero]]
    exact h2
  · change dot n (w • x - 0) > 0 at h5
    rwa [sub_zero] at h5

theorem square_normal {x : Pt ℝ} (h1 : x.2 < x.1) (h2 : -x.1 < x.2) : (starMember bigSquare).normal x = .ok (1, 0) := by
  have hx1 : 0 < x.1 := by linarith
  obtain ⟨j, hj, w, n, hw, ⟨u, hu0, hu1, hu⟩, hn, g1, g2, g3⟩ := starMember_normal (by simp [bigSquare]) bigSquare_star
    (x := x) (by rintro rfl; simp at hx1)
  have hj' : j < 4 := by simpa [bigSquare] using hj
  have u1 := congrArg Prod.fst hu
  have u2 := congrArg Prod.snd hu
  simp only [Prod.smul_fst, Prod.smul_snd, smul_eq_mul] at u1 u2
  have hw1 := mul_le_mul_of_nonneg_left h1.le hw
  have hw2 := mul_le_mul_of_nonneg_left h2.le hw
  rw [hn]
  simp only [normSq] at g1
  interval_cases j
  · simp [corner, bigSquare, dot] at u1 u2 g2 g3
    have h0 : n.2 = 0 := by linarith
    rw [h0, u1] at g3
    rw [h0] at g1
    congr 1
    ext
    · simp only; nlinarith
    · exact h0
  · simp [corner, bigSquare] at u1 u2
    have hw0 : 0 < w := lt_of_le_of_ne hw (by rintro rfl; simp at u2)
    have := mul_lt_mul_of_pos_left h1 hw0
    linarith
  · simp [corner, bigSquare] at u1 u2
    nlinarith
  · simp [corner, bigSquare] at u1 u2
    have hw0 : 0 < w := lt_of_le_of_ne hw (by rintro rfl; simp at u2)
    have := mul_lt_mul_of_pos_left h2 hw0
    linarith

theorem diamond_normal {x : Pt ℝ} (h1 : 0 < x.1) (h2 : 0 < x.2) :
    ∃ n, (starMember diamond).normal x = .ok n ∧ n.1 = n.2 ∧ normSq n = 1 := by
  obtain ⟨j, hj, w, n, hw, ⟨u, hu0, hu1, hu⟩, hn, g1, g2, g3⟩ := starMember_normal (by simp [diamond]) diamond_star
    (x := x) (by rintro rfl; simp at h1)
  have hj' : j < 4 := by simpa [diamond] using hj
  have u1 := congrArg Prod.fst hu
  have u2 := congrArg Prod.snd hu
  simp only [Prod.smul_fst, Prod.smul_snd, smul_eq_mul] at u1 u2
  have hw0 : 0 < w := by
    refine lt_of_le_of_ne hw ?_
    rintro rfl
    simp [dot] at g3
  have hw1 := mul_pos hw0 h1
  have hw2 := mul_pos hw0 h2
  refine ⟨n, hn, ?_, g1⟩
  interval_cases j
  · simp [corner, diamond, dot] at g2
    linarith
  · simp [corner, diamond] at u1 u2
    linarith
  · simp [corner, diamond] at u1 u2
    linarith
  · simp [corner, diamond] at u1 u2
    linarith

theorem diamond_ring (p : Pt ℝ) (h : OnRing diamond p) : |p.1| ≤ 1 / 4 := by
  obtain ⟨i, hi, t, h0, h1, rfl⟩ := h
  have hi' : i < 4 := by simpa [diamond] using hi
  rw [abs_le]
  interval_cases i <;> simp [corner, diamond] <;> constructor <;> linarith

/-- The diamond and the square about the origin, without hull. -/
noncomputable def diamondSquare : CombState := CombState.make ⟨[starMember diamond, starMember bigSquare], none, 0⟩ none

open scoped Classical in
/-- The boundaries of the two members. -/
noncomputable def diamondSquareB (o : Member) : Set (Pt ℝ) :=
  if o = starMember diamond then {p | OnRing diamond p} else {p | OnRing bigSquare p}

theorem diamond_ne_square : starMember bigSquare ≠ starMember diamond := by
  intro h
  obtain ⟨n, h1, h2, _⟩ := diamond_normal (x := (2, 1)) (by norm_num) (by norm_num)
  rw [← h, square_normal (by norm_num) (by norm_num)] at h1
  injection h1 with h1
  rw [← h1] at h2
  norm_num at h2

theorem diamondSquare_parts (b : Pt ℝ) : Parts diamondSquare.comb diamondSquareB ∅ b where
  member := by
    intro o ho
    change o ∈ [starMember diamond, starMember bigSquare] at ho
    simp only [List.mem_cons, List.not_mem_nil, or_false] at ho
    rcases ho with rfl | rfl
    · rw [diamondSquareB, if_pos rfl]; exact starMember_crossings diamond_star b
    · rw [diamondSquareB, if_neg diamond_ne_square]; exact starMember_crossings bigSquare_star b
  hull := Or.inl ⟨rfl, rfl⟩

theorem diamondSquare_all (p : Pt ℝ) :
    p ∈ allOf diamondSquare.comb diamondSquareB ∅ ↔ OnRing diamond p ∨ OnRing bigSquare p := by
  simp only [allOf, diamondSquare, CombState.make, List.mem_cons, List.not_mem_nil, or_false, Set.mem_ofPred_eq,
    exists_eq_or_imp, exists_eq_left, Set.mem_empty_iff_false, diamondSquareB, if_neg diamond_ne_square, if_true]

theorem diamond_point (a b : ℝ) (ha : 0 ≤ a) (hb : 0 ≤ b) (h : a + b = 1 / 4) : OnRing diamond (a, b) := by
  refine ⟨0, by simp [diamond], 4 * b, by linarith, by linarith, ?_⟩
  ext
  · simp [corner, diamond]; linarith
  · simp [corner, diamond]; linarith

/-- C79 is false for points near `xr`: for a diamond inside of a square, both about the origin, the ray through
(1/20, 1/60) leaves the combination through the side of the square with normal (1, 0), which is the result for (1/2, 1/6);
but for (1/20, 1/60) it is the normal of the diamond. -/
theorem C79_near_false : diamondSquare.subNormal sortIdcs (1 / 2, 1 / 6) = .ok (1, 0) ∧
    ∃ n, diamondSquare.subNormal sortIdcs (1 / 20, 1 / 60) = .ok n ∧ n.1 = n.2 ∧ normSq n = 1 := by
  have hxr : diamondSquare.comb.xr = 0 := rfl
  have hmem : ∀ (k : ℕ) o, diamondSquare.comb.members[k]? = some o →
      (k = 0 ∧ o = starMember diamond) ∨ (k = 1 ∧ o = starMember bigSquare) := by
    intro k o h
    match k with
    | 0 => left; exact ⟨rfl, (Option.some.inj h).symm⟩
    | 1 => right; exact ⟨rfl, (Option.some.inj h).symm⟩
    | k + 2 => cases h
  constructor
  · have hq : OnRing bigSquare (1, 1 / 3) := ⟨0, by simp [bigSquare], 2 / 3, by norm_num, by norm_num, by
      ext <;> simp [corner, bigSquare]
      norm_num⟩
    have hseg : OnSegment (0 : Pt ℝ) (0 + (10 : ℝ) • ((1 / 2, 1 / 6) - 0)) (1, 1 / 3) :=
      ⟨1 / 5, by norm_num, by norm_num, by ext <;> simp <;> norm_num⟩
    obtain ⟨p, _, hs, hfar, ⟨k, o, hk, hp, h, _⟩ | ⟨h, _⟩⟩ := C79_part_partial sortIdcs sortIdcs_spec diamondSquare
      diamondSquareB ∅ (1 / 2, 1 / 6) (diamondSquare_parts _) ⟨(1, 1 / 3), (diamondSquare_all _).2 (Or.inr hq), hseg⟩
    · rcases hmem k o hk with ⟨_, rfl⟩ | ⟨_, rfl⟩
      · exfalso
        rw [diamondSquareB, if_pos rfl] at hp
        have hs' : OnSegment (0 : Pt ℝ) (0 + (10 : ℝ) • ((1 / 2, 1 / 6) - 0)) p := hs
        obtain ⟨t, t0, _, e⟩ := hs'
        have h1 := diamond_ring p hp
        have h2 := hfar (1, 1 / 3) ((diamondSquare_all _).2 (Or.inr hq)) hseg
        rw [hxr, sub_zero, sub_zero, len, len, sqrt_le_sqrt_iff (by simp only [normSq]; positivity)] at h2
        have e1 := congrArg Prod.fst e
        have e2 := congrArg Prod.snd e
        simp at e1 e2
        simp only [normSq] at h2
        rw [abs_le] at h1
        rw [e1] at h1 h2
        rw [e2] at h2
        nlinarith
      · rw [h]; exact square_normal (by norm_num) (by norm_num)
    · exact absurd h (Set.notMem_empty _)
  · have hq : OnRing diamond (3 / 16, 1 / 16) := diamond_point _ _ (by norm_num) (by norm_num) (by norm_num)
    have hseg : OnSegment (0 : Pt ℝ) (0 + (10 : ℝ) • ((1 / 20, 1 / 60) - 0)) (3 / 16, 1 / 16) :=
      ⟨3 / 8, by norm_num, by norm_num, by ext <;> simp <;> norm_num⟩
    obtain ⟨p, _, hs, _, ⟨k, o, hk, hp, h, _⟩ | ⟨h, _⟩⟩ := C79_part_partial sortIdcs sortIdcs_spec diamondSquare
      diamondSquareB ∅ (1 / 20, 1 / 60) (diamondSquare_parts _) ⟨_, (diamondSquare_all _).2 (Or.inl hq), hseg⟩
    · rcases hmem k o hk with ⟨_, rfl⟩ | ⟨_, rfl⟩
      · rw [h]
        exact diamond_normal (by norm_num) (by norm_num)
      · exfalso
        rw [diamondSquareB, if_neg diamond_ne_square] at hp
        have hs' : OnSegment (0 : Pt ℝ) (0 + (10 : ℝ) • ((1 / 20, 1 / 60) - 0)) p := hs
        obtain ⟨t, t0, t1, e⟩ := hs'
        have e1 := congrArg Prod.fst e
        have e2 := congrArg Prod.snd e
        simp at e1 e2
        rcases bigSquare_ring p hp with h1 | h1
        · rw [e1, abs_of_nonneg (by positivity)] at h1
          linarith
        · rw [e2, abs_of_nonneg (by positivity)] at h1
          linarith
    · exact absurd h (Set.notMem_empty _)

/-- The square as the hull of a combination of the diamond alone, its vertices listed clockwise. -/
noncomputable def diamondHull : CombState :=
  CombState.make ⟨[starMember diamond], some ⟨fun _ => false, fun _ => false, some (exactIx bigSquare)⟩, 0⟩
    (some bigSquare.reverse)

/-- For that combination the hull bounds the ray through (1/2, 1/6), and the result is the normal of its side. -/
example : diamondHull.subNormal sortIdcs (1 / 2, 1 / 6) = .ok (1, 0) := by
  have hxr : diamondHull.comb.xr = 0 := rfl
  have hparts : ∀ b, Parts diamondHull.comb (fun _ => {p | OnRing diamond p}) {p | OnRing bigSquare p} b := fun b =>
    { member := by
        intro o ho
        change o ∈ [starMember diamond] at ho
        rw [List.mem_singleton] at ho
        subst ho
        exact starMember_crossings diamond_star b
      hull := Or.inr ⟨_, _, rfl, rfl, exactIx_no_collection bigSquare_star b, exactIx_spec bigSquare_star b⟩ }
  have hq : OnRing bigSquare (1, 1 / 3) := ⟨0, by simp [bigSquare], 2 / 3, by norm_num, by norm_num, by
    ext <;> simp [corner, bigSquare]
    norm_num⟩
  have hseg : OnSegment (0 : Pt ℝ) (0 + (10 : ℝ) • ((1 / 2, 1 / 6) - 0)) (1, 1 / 3) :=
    ⟨1 / 5, by norm_num, by norm_num, by ext <;> simp <;> norm_num⟩
  obtain ⟨p, _, hs, hfar, hcase⟩ := C79_part_partial sortIdcs sortIdcs_spec diamondHull _ _ (1 / 2, 1 / 6) (hparts _)
    ⟨(1, 1 / 3), Or.inr hq, hseg⟩
  have hs' : OnSegment (0 : Pt ℝ) (0 + (10 : ℝ) • ((1 / 2, 1 / 6) - 0)) p := hs
  obtain ⟨t, t0, _, e⟩ := hs'
  have e1 := congrArg Prod.fst e
  have e2 := congrArg Prod.snd e
  simp at e1 e2
  have h2 := hfar (1, 1 / 3) (Or.inr hq) hseg
  rw [hxr, sub_zero, sub_zero, len, len, sqrt_le_sqrt_iff (by simp only [normSq]; positivity)] at h2
  simp only [normSq] at h2
  rw [e1, e2] at h2
  rcases hcase with ⟨k, o, _, hp, _⟩ | ⟨hp, _, h⟩
  · exfalso
    have h1 := diamond_ring p hp
    rw [abs_le, e1] at h1
    nlinarith
  · obtain ⟨j, hj, n, hn, ⟨u, u0, u1, hu⟩, g1, g2, g3⟩ := h _ bigSquare rfl (List.reverse_perm _) bigSquare_star rfl
      (by rw [hxr]; simp)
    have hj' : j < 4 := by simpa [bigSquare] using hj
    rw [hn]
    rw [hxr, sub_zero] at g3
    have v1 := congrArg Prod.fst hu
    have v2 := congrArg Prod.snd hu
    rw [e1] at v1
    rw [e2] at v2
    simp only [normSq] at g1
    interval_cases j
    · simp [corner, bigSquare, dot] at v1 v2 g2 g3
      have h0 : n.2 = 0 := by linarith
      rw [h0, e1, v1] at g3
      rw [h0] at g1
      congr 1
      ext
      · simp only; nlinarith
      · exact h0
    · simp [corner, bigSquare] at v1 v2
      linarith
    · simp [corner, bigSquare] at v1 v2
      nlinarith
    · simp [corner, bigSquare] at v1 v2
      linarith

end Starworlds
