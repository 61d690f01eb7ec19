import Verif.Proofs.SimpleOrient
import Verif.Proofs.SimpleRational
import Verif.Proofs.FilledRational
import Verif.Props.StarPolygonMore
import Verif.Props.StarPolygonLocation
import Verif.Props.Moving

/-! # C133: a StarshapedPolygon with a reference point of its kernel -/

namespace Starworlds

open Real Spec

/-! ## Reference points inside the kernel -/

/-- C133, the ring: for a polygon whose ring does not cross itself the inner points of the visibility kernel are exactly the points
about which the ring, made counter-clockwise, is star-shaped; the kernel is the intersection of the half-planes of the edges. -/
theorem C133_kernel {v : List (Pt ℝ)} (hv : SimpleRing v) (c : Pt ℝ) :
    (c ∈ interior (visKernel (filled v)) ↔ StarAbout c (orientRing v)) ∧
      (c ∈ interior (visKernel (filled v)) → visKernel (filled v) = leftKernel (orientRing v)) := by
  refine ⟨⟨star_orient hv, fun h => ?_⟩, fun h => simple_kernel hv ⟨c, h⟩⟩
  have := star_kernel_interior h
  rwa [filled_orient] at this

/-- C133, partial: the polygon is any ring that does not cross itself, given in either order, and the current reference point is an
inner point of its visibility kernel. Missing: points on the border of the kernel, see `C133_border_false` and `C133_line_false`. -/
theorem C133_partial (argsort : List ℝ → List Nat) (ha : IsArgsort argsort) (mm : Option Pose) {v : List (Pt ℝ)} (hv : SimpleRing v)
    (xr : Pt ℝ) (ops : List StarOp) (s : StarPoly) (hs : s = (StarPoly.make argsort mm (orientRing v) xr).run argsort ops)
    (hk : s.xr ∈ interior (visKernel (filled v))) (ix : Pt ℝ → Pt ℝ → Geom) (hix : ∀ b, GeomIs (ix s.xr b) (hits s.ring s.xr b))
    (f g : Frame) (hf : f.Valid) (hg : g.Valid) (x : Pt ℝ) (hx : x ≠ s.xr) :
    (∃ d, s.distanceFunction ix (inFrame s.mm f x) f = .ok d ∧ (d < 1 ↔ Inside v x) ∧ (d = 1 ↔ OnRing v x)) ∧
      (∃ q, OnRing v q ∧ OnRay s.xr x q ∧ (∀ q', OnRing v q' → OnRay s.xr x q' → q' = q) ∧
        s.boundaryMapping ix (inFrame s.mm f x) f g = .ok (some (inFrame s.mm g q))) ∧
      ∃ m < v.length, ∃ q n, OnRay s.xr x q ∧ OnSegment (corner v m) (corner v (m + 1)) q ∧
        s.normal (inFrame s.mm f x) f g .edge = .ok (inFrame s.mm g n - inFrame s.mm g 0) ∧ normSq n = 1 ∧
        dot n (corner v (m + 1) - corner v m) = 0 ∧ 0 < dot n (q - s.xr) := by
  have hstar := star_orient hv hk
  have hr : orientRing v ≠ [] := by
    rintro e
    obtain ⟨φ, -, -, h3⟩ := hstar
    rw [e] at h3
    simp [pi_ne_zero] at h3
  have hball : s.ball = (extent (orientRing v)).1 + (extent (orientRing v)).2 := by rw [hs, run_ball]; rfl
  have hring : s.ring = orientRing v := by
    rw [hs]; exact (run_sorted ha ops (update_sorted ha _ rfl (List.Perm.refl _))).hring
  refine ⟨?_, ?_, ?_⟩
  · obtain ⟨d, l, h1, -, h2, h3, -⟩ := C83_agree argsort ha mm _ xr ops s hs hstar ix hix f hf x hx
    rw [inside_orient] at h2
    rw [onRing_orient] at h3
    exact ⟨d, h1, h2, h3⟩
  · rw [hring] at hix
    obtain ⟨d, t, hd, e, -, -⟩ := polar_self hx
    obtain ⟨r, hr', hq, hb⟩ := boundaryMapping_star hball hstar ix hix (t := t) hd
    obtain ⟨q, h1, h2, h3, -⟩ := C41_classify_partial argsort ha mm _ xr ops s hs hstar ix (by rwa [hring]) f hf x hx
    have hray : OnRay s.xr x (polar s.xr r t) := by
      refine ⟨r / d, by positivity, ?_⟩
      rw [e]
      ext
      · simp only [polar_fst, Prod.fst_add, Prod.smul_fst, Prod.fst_sub, smul_eq_mul]; field_simp; ring
      · simp only [polar_snd, Prod.snd_add, Prod.smul_snd, Prod.snd_sub, smul_eq_mul]; field_simp; ring
    have hqe := h3 _ hq hray
    rw [hqe, ← e] at hb
    refine ⟨q, (onRing_orient v q).1 h1, h2, fun q' a b => h3 q' ((onRing_orient v q').2 a) b, ?_⟩
    have a1 := (C116_star s ix hf hg x).1
    have a2 := (C116_star s ix (f := .obstacle) (g := .obstacle) (.inr rfl) (.inr rfl) x).1
    have e0 : ∀ p : Pt ℝ, inFrame s.mm .obstacle p = p := fun p => rfl
    rw [e0, hb] at a2
    rw [a1]
    cases hc : ({ s with mm := none } : StarPoly).boundaryMapping ix x .global .global with
    | error e => rw [hc] at a2; cases a2
    | ok o =>
      rw [hc] at a2
      cases o with
      | none => cases a2
      | some b =>
        have : q = b := by
          have := Except.ok.inj a2
          exact Option.some.inj this
        rw [this]; rfl
  · obtain ⟨j, hj, q, n, h1, h2, -, h4, h5, h6, h7⟩ := C39_hit argsort ha mm _ hr xr ops f g hf hg x s hs hstar hx
    obtain ⟨m, hm, ⟨e1, e2⟩ | ⟨e1, e2⟩⟩ := edge_orient v hj
    · rw [e1, e2] at h2 h6
      exact ⟨m, hm, q, n, h1, h2, h4, h5, h6, h7⟩
    · rw [e1, e2] at h2 h6
      refine ⟨m, hm, q, n, h1, onSegment_swap.1 h2, h4, h5, ?_, h7⟩
      have e : dot n (corner v (m + 1) - corner v m) = -dot n (corner v m - corner v (m + 1)) := by
        simp only [dot, Prod.fst_sub, Prod.snd_sub]; ring
      rw [e, h6, neg_zero]

/-! ## Reference points on the border of the kernel -/

/-- A call for a point to the right of the reference point. -/
theorem mapping_right {s : StarPoly} {a b : ℝ} (hmm : s.mm = none) (hxr : s.xr = (a, b)) (ix : Pt ℝ → Pt ℝ → Geom) {c : ℝ} (hc : a < c)
    (f g : Frame) : s.boundaryMapping ix (c, b) f g = (geomPoints (ix (a, b) (a + 11 / 10 * s.ball, b))).map (nearerOfTwo (c, b)) := by
  have h1 : ((c, b) : Pt ℝ) - (a, b) = (c - a, 0) := by ext <;> simp
  have hn : norm2 ((c - a, 0) : Pt ℝ) = c - a := by
    rw [norm2, show (c - a) ^ 2 + (0 : ℝ) ^ 2 = (c - a) ^ 2 by ring, sqrt_sq (by linarith)]
  have hd : referenceDirection none (a, b) (c, b) .obstacle .obstacle = .ok (1, 0) := by
    simp only [referenceDirection, transform, bind, Except.bind, h1, hn]
    rw [if_neg (by linarith), div_self (by linarith), zero_div]
  have hend : ((a, b) : Pt ℝ) + (11 / 10 * s.ball) • ((1, 0) : Pt ℝ) = (a + 11 / 10 * s.ball, b) := by
    ext <;> simp
  simp only [StarPoly.boundaryMapping, hmm, hxr, hd, bind, Except.bind, hend, polygonLineIntersection, transform]
  cases geomPoints (ix (a, b) (a + 11 / 10 * s.ball, b)) with
  | error e => rfl
  | ok pts =>
    have hm : (pts.mapM fun p => (Except.ok p : Except PyErr (Pt ℝ))) = .ok pts := by
      have := mapM_transform none .obstacle (Or.inr rfl) pts
      rwa [show inFrame none .obstacle = id from rfl, List.map_id] at this
    simp only [hm]
    match pts with
    | [] => rfl
    | [p] => rfl
    | p :: q :: _ =>
      simp only [nearerOfTwo, Except.map]
      split <;> rfl

/-- A finite geometry is given by its points, each of them once. -/
theorem geom_nodup {g : Geom} {S : Set (Pt ℝ)} (h : GeomIs g S) (hf : S.Finite) :
    ∃ pts, geomPoints g = .ok pts ∧ pts.Nodup ∧ ∀ p, p ∈ pts ↔ p ∈ S := by
  obtain ⟨pts, h1, h2⟩ := geom_finite h hf
  refine ⟨pts, h1, ?_, h2⟩
  cases g with
  | empty => obtain rfl := Except.ok.inj h1; simp
  | point q => obtain rfl := Except.ok.inj h1; simp
  | multiPoint l => obtain rfl := Except.ok.inj h1; exact h.2.1
  | lineString l =>
    obtain ⟨h1, p, hp, r, hr, hne⟩ := h
    exact absurd hf (path_infinite hp hr hne h1.ge)
  | multiLineString ls =>
    obtain ⟨h1, h2, h3⟩ := h
    cases ls with
    | nil => exact absurd rfl h2
    | cons l ls =>
      obtain ⟨p, hp, r, hr, hne⟩ := h3 l List.mem_cons_self
      refine absurd hf (path_infinite hp hr hne fun x hx => ?_)
      rw [h1]; exact ⟨l, List.mem_cons_self, hx⟩
  | collection => exact absurd hf h

theorem square_simple : SimpleRing unitSquare := by
  have := simple_rat (v := [(0, 0), (1, 0), (1, 1), (0, 1)]) (by decide +kernel)
  simpa [toReal, unitSquare] using this

theorem square_hits : hits unitSquare (0, 1 / 2) (0 + 11 / 5, 1 / 2) = {(0, 1 / 2), (1, 1 / 2)} := by
  ext p
  simp only [hits, unitSquare, Set.mem_ofPred_eq, Set.mem_insert_iff, Set.mem_singleton_iff]
  constructor
  · rintro ⟨⟨t, h0, h1, rfl⟩, i, hi, s, hs0, hs1, h⟩
    simp only [List.length_cons, List.length_nil] at hi
    interval_cases i <;> simp [corner, Prod.ext_iff] at h ⊢ <;> obtain ⟨h1, h2⟩ := h
    · right; linarith
    · left; linarith
  · rintro (rfl | rfl)
    · refine ⟨⟨0, by norm_num, by norm_num, ?_⟩, 3, by simp, 1 / 2, by norm_num, by norm_num, ?_⟩ <;>
        ext <;> simp [corner] <;> norm_num
    · refine ⟨⟨5 / 11, by norm_num, by norm_num, ?_⟩, 1, by simp, 1 / 2, by norm_num, by norm_num, ?_⟩ <;>
        ext <;> simp [corner] <;> norm_num

/-- With the reference point in the middle of the left side the nearer of two hits is the reference point or the middle of the right
side. -/
theorem square_call (argsort : List ℝ → List Nat) (ix : Pt ℝ → Pt ℝ → Geom)
    (hix : ∀ b, GeomIs (ix (0, 1 / 2) b) (hits unitSquare (0, 1 / 2) b)) {c : ℝ} (hc : 0 < c) (hc2 : c ≠ 1 / 2) :
    (StarPoly.make argsort none unitSquare (0, 1 / 2)).boundaryMapping ix (c, 1 / 2) .obstacle .obstacle =
      .ok (some (if c < 1 / 2 then (0, 1 / 2) else (1, 1 / 2))) := by
  set s := StarPoly.make argsort none unitSquare (0, 1 / 2) with hs
  have hball : s.ball = 2 := by
    simp [s, StarPoly.make, StarPoly.update, unitSquare, extent, boundsOf]; norm_num
  have hg := hix (0 + 11 / 10 * s.ball, 1 / 2)
  rw [hball, show (0 : ℝ) + 11 / 10 * 2 = 0 + 11 / 5 by norm_num, square_hits] at hg
  have call := mapping_right (s := s) rfl rfl ix (a := 0) (b := 1 / 2) (c := c) hc .obstacle .obstacle
  rw [hball, show (0 : ℝ) + 11 / 10 * 2 = 0 + 11 / 5 by norm_num] at call
  obtain ⟨pts, h1, hnd, hmem⟩ := geom_nodup hg (Set.toFinite _)
  rw [h1] at call
  rw [call]
  have n1 : norm2 ((0, 1 / 2) - (c, 1 / 2) : Pt ℝ) < norm2 ((1, 1 / 2) - (c, 1 / 2) : Pt ℝ) ↔ c < 1 / 2 := by
    rw [norm2_lt_iff]; simp only [normSq, Prod.fst_sub, Prod.snd_sub]
    constructor <;> intro h <;> nlinarith
  have n2 : norm2 ((1, 1 / 2) - (c, 1 / 2) : Pt ℝ) < norm2 ((0, 1 / 2) - (c, 1 / 2) : Pt ℝ) ↔ 1 / 2 < c := by
    rw [norm2_lt_iff]; simp only [normSq, Prod.fst_sub, Prod.snd_sub]
    constructor <;> intro h <;> nlinarith
  simp only [Except.map]
  congr 1
  match pts, hnd, hmem with
  | [], _, hmem => exact absurd ((hmem (0, 1 / 2)).2 (by simp)) (by simp)
  | [p], _, hmem =>
    have a1 := (hmem (0, 1 / 2)).2 (by simp)
    have a2 := (hmem (1, 1 / 2)).2 (by simp)
    rw [List.mem_singleton] at a1 a2
    rw [← a1] at a2
    norm_num at a2
  | p :: q :: _, hnd, hmem =>
    have hpq : p ≠ q := by
      intro e
      rw [e] at hnd
      simp at hnd
    simp only [nearerOfTwo]
    rcases (hmem p).1 (by simp) with rfl | rfl <;> rcases (hmem q).1 (by simp) with e | e
    · exact absurd e.symm hpq
    · rw [e]; simp only [n1]
    · rw [e]; simp only [n2]
      by_cases h : c < 1 / 2
      · rw [if_pos h, if_neg (by linarith)]
      · rw [if_neg h, if_pos (lt_of_le_of_ne (not_lt.1 h) (Ne.symm hc2))]
    · exact absurd e.symm hpq

/-- C133 is false for reference points on the boundary of the polygon: from the middle of the left side of the unit square all of the
square is visible, but for the inner point (1/4, 1/2) the distance function is 25/16, whatever order shapely returns the hits in. -/
theorem C133_border_false (argsort : List ℝ → List Nat) (ix : Pt ℝ → Pt ℝ → Geom)
    (hix : ∀ b, GeomIs (ix (0, 1 / 2) b) (hits unitSquare (0, 1 / 2) b)) :
    SimpleRing unitSquare ∧ ((0, 1 / 2) : Pt ℝ) ∈ visKernel (filled unitSquare) ∧ Inside unitSquare (1 / 4, 1 / 2) ∧
      (StarPoly.make argsort none unitSquare (0, 1 / 2)).distanceFunction ix (1 / 4, 1 / 2) .global = .ok (25 / 16) := by
  have hstar : StarAbout (1 / 2, 1 / 2) unitSquare := by
    refine left_star square_simple fun i hi => ?_
    simp only [unitSquare, List.length_cons, List.length_nil] at hi
    interval_cases i <;> norm_num [unitSquare, corner, cross]
  refine ⟨square_simple, ?_, ?_, ?_⟩
  · rw [star_kernel hstar]
    intro i hi
    simp only [unitSquare, List.length_cons, List.length_nil] at hi
    interval_cases i <;> norm_num [unitSquare, corner, cross]
  · rw [inside_filled]
    constructor
    · have := (filledB_iff [(0, 0), (1, 0), (1, 1), (0, 1)] (1 / 4, 1 / 2)).1 (by decide +kernel)
      norm_num [toReal] at this
      norm_num [unitSquare]
      exact this
    · rintro ⟨i, hi, t, h0, h1, h⟩
      simp only [unitSquare, List.length_cons, List.length_nil] at hi
      interval_cases i <;> norm_num [unitSquare, corner, Prod.ext_iff] at h
  · set s := StarPoly.make argsort none unitSquare (0, 1 / 2) with hs
    have call := square_call argsort ix hix (c := 1 / 4) (by norm_num) (by norm_num)
    rw [if_pos (by norm_num), ← hs] at call
    have hs1 : s.mm = none := rfl
    have hs2 : s.xr = (0, 1 / 2) := rfl
    have e1 : norm2 ((1 / 4, 1 / 2) - (0, 1 / 2) : Pt ℝ) = 1 / 4 := by
      rw [norm2, show ((1 / 4, 1 / 2) - (0, 1 / 2) : Pt ℝ).1 ^ 2 + ((1 / 4, 1 / 2) - (0, 1 / 2) : Pt ℝ).2 ^ 2 = (1 / 4) ^ 2 by norm_num,
        sqrt_sq (by norm_num)]
    have e2 : norm2 ((0, 1 / 2) - (0, 1 / 2) : Pt ℝ) = 0 := by simp [norm2]
    simp only [StarPoly.distanceFunction, hs1, hs2, transform, bind, Except.bind, call, e1, e2]
    norm_num

/-! ## Reference points in line with an edge -/

/-- An L. -/
def lQ : List (Pt ℚ) := [(0, 0), (2, 0), (2, 1), (1, 1), (1, 2), (0, 2)]

theorem lQ_simple : SimpleRing (lQ.map toReal) := simple_rat (by decide +kernel)

theorem lQ_corners : lQ.map toReal = [(0, 0), (2, 0), (2, 1), (1, 1), (1, 2), (0, 2)] := by simp [lQ, toReal]

theorem lQ_star : StarAbout (1 / 2, 1 / 2) (lQ.map toReal) := by
  refine left_star lQ_simple fun i hi => ?_
  rw [lQ_corners] at hi ⊢
  simp only [List.length_cons, List.length_nil] at hi
  interval_cases i <;> norm_num [corner, cross]

/-- C133 is false for inner points of the polygon on the border of its kernel: from (1/2, 1) all of the L is visible, but whatever
shapely returns for the ray along the edge from (2, 1) to (1, 1), there is a point of that edge for which the distance function is
not 1. -/
theorem C133_line_false (argsort : List ℝ → List Nat) (ix : Pt ℝ → Pt ℝ → Geom) :
    SimpleRing (lQ.map toReal) ∧ ((1 / 2, 1) : Pt ℝ) ∈ visKernel (filled (lQ.map toReal)) ∧ Inside (lQ.map toReal) (1 / 2, 1) ∧
      ∃ x, OnRing (lQ.map toReal) x ∧
        (StarPoly.make argsort none (lQ.map toReal) (1 / 2, 1)).distanceFunction ix x .global ≠ .ok 1 := by
  refine ⟨lQ_simple, ?_, ?_, ?_⟩
  · rw [star_kernel lQ_star, lQ_corners]
    intro i hi
    simp only [List.length_cons, List.length_nil] at hi
    interval_cases i <;> norm_num [corner, cross]
  · rw [inside_filled]
    constructor
    · have := (filledB_iff lQ (1 / 2, 1)).1 (by decide +kernel)
      norm_num [toReal] at this
      norm_num [toReal]
      exact this
    · rintro ⟨i, hi, t, h0, h1, h⟩
      rw [lQ_corners] at hi h
      simp only [List.length_cons, List.length_nil] at hi
      interval_cases i <;> norm_num [corner, Prod.ext_iff] at h
      all_goals linarith
  · set s := StarPoly.make argsort none (lQ.map toReal) (1 / 2, 1) with hs
    have hs1 : s.mm = none := rfl
    have hs2 : s.xr = (1 / 2, 1) := rfl
    by_contra hall
    push Not at hall
    have edge : ∀ c : ℝ, 1 ≤ c → c ≤ 2 → OnRing (lQ.map toReal) (c, 1) := by
      intro c h1 h2
      rw [lQ_corners]
      refine ⟨2, by simp, 2 - c, by linarith, by linarith, ?_⟩
      ext <;> norm_num [corner]
    -- the boundary point found is at the distance of the point
    have rad : ∀ c : ℝ, 1 ≤ c → c ≤ 2 → ∃ pts b, geomPoints (ix (1 / 2, 1) (1 / 2 + 11 / 10 * s.ball, 1)) = .ok pts ∧
        nearerOfTwo (c, 1) pts = some b ∧ norm2 (b - (1 / 2, 1)) = c - 1 / 2 := by
      intro c h1 h2
      have h := hall _ (edge c h1 h2)
      have call := mapping_right (s := s) hs1 hs2 ix (c := c) (by linarith) .obstacle .obstacle
      have hn : norm2 ((c, 1) - (1 / 2, 1) : Pt ℝ) = c - 1 / 2 := by
        rw [norm2, show ((c, 1) - (1 / 2, 1) : Pt ℝ).1 ^ 2 + ((c, 1) - (1 / 2, 1) : Pt ℝ).2 ^ 2 = (c - 1 / 2) ^ 2 by simp,
          sqrt_sq (by linarith)]
      simp only [StarPoly.distanceFunction, hs1, hs2, transform, bind, Except.bind, call, hn] at h
      cases hg : geomPoints (ix (1 / 2, 1) (1 / 2 + 11 / 10 * s.ball, 1)) with
      | error e => rw [hg] at h; cases h
      | ok pts =>
        rw [hg] at h
        simp only [Except.map] at h
        cases hb : nearerOfTwo (c, 1) pts with
        | none => rw [hb] at h; cases h
        | some b =>
          rw [hb] at h
          refine ⟨pts, b, rfl, hb, ?_⟩
          have hb0 : 0 ≤ norm2 (b - (1 / 2, 1)) := by rw [norm2]; positivity
          simp only at h
          split at h
          · rename_i hlt
            have := Except.ok.inj h
            have hd : (c - 1 / 2) / norm2 (b - (1 / 2, 1)) < 1 := (div_lt_one (by linarith)).2 hlt
            have hd0 : 0 ≤ (c - 1 / 2) / norm2 (b - (1 / 2, 1)) := div_nonneg (by linarith) hb0
            nlinarith
          · rename_i hge
            have := Except.ok.inj h
            push Not at hge
            nlinarith
    obtain ⟨pts, b1, e, n1, r1⟩ := rad 1 le_rfl (by norm_num)
    obtain ⟨pts', b2, e', n2, r2⟩ := rad (3 / 2) (by norm_num) (by norm_num)
    obtain ⟨pts'', b3, e'', n3, r3⟩ := rad 2 (by norm_num) le_rfl
    rw [e] at e' e''
    obtain rfl := Except.ok.inj e'
    obtain rfl := Except.ok.inj e''
    have d12 : b1 ≠ b2 := by rintro rfl; linarith
    have d13 : b1 ≠ b3 := by rintro rfl; linarith
    have d23 : b2 ≠ b3 := by rintro rfl; linarith
    match pts with
    | [] => simp [nearerOfTwo] at n1
    | [p] =>
      simp only [nearerOfTwo, Option.some.injEq] at n1 n2
      exact d12 (n1.symm.trans n2)
    | p :: q :: _ =>
      simp only [nearerOfTwo, Option.some.injEq] at n1 n2 n3
      have two : ∀ {P : Prop} [Decidable P] {b : Pt ℝ}, (if P then p else q) = b → b = p ∨ b = q := by
        intro P _ b h
        split at h
        · exact .inl h.symm
        · exact .inr h.symm
      rcases two n1 with h1 | h1 <;> rcases two n2 with h2 | h2 <;> rcases two n3 with h3 | h3 <;> first
        | exact d12 (h1.trans h2.symm)
        | exact d13 (h1.trans h3.symm)
        | exact d23 (h2.trans h3.symm)

/-! ## Example -/

/-- The L with a reference point inside its kernel, whatever has been done with it before: the distance function is below 1 at (3/2, 1/2) and
equals 1 at (2, 1/2), for every pose. -/
example (argsort : List ℝ → List Nat) (ha : IsArgsort argsort) (mm : Option Pose) (s : StarPoly) (xr : Pt ℝ) (ops : List StarOp)
    (hs : s = (StarPoly.make argsort mm (orientRing (lQ.map toReal)) xr).run argsort ops)
    (hxr : s.xr = (1 / 2, 1 / 2)) (ix : Pt ℝ → Pt ℝ → Geom) (hix : ∀ b, GeomIs (ix s.xr b) (hits s.ring s.xr b)) :
    (∃ d, s.distanceFunction ix (inFrame s.mm .global (3 / 2, 1 / 2)) .global = .ok d ∧ d < 1) ∧
      s.distanceFunction ix (inFrame s.mm .global (2, 1 / 2)) .global = .ok 1 := by
  have hk : s.xr ∈ interior (visKernel (filled (lQ.map toReal))) := by rw [hxr]; exact star_kernel_interior lQ_star
  have hr : OnRing (lQ.map toReal) (2, 1 / 2) := by
    rw [lQ_corners]
    refine ⟨1, by simp, 1 / 2, by norm_num, by norm_num, ?_⟩
    ext <;> norm_num [corner]
  have hin : Inside (lQ.map toReal) (3 / 2, 1 / 2) := by
    rw [inside_filled]
    constructor
    · have := (filledB_iff lQ (3 / 2, 1 / 2)).1 (by decide +kernel)
      norm_num [toReal] at this
      norm_num [toReal]
      exact this
    · rintro ⟨i, hi, t, h0, h1, h⟩
      rw [lQ_corners] at hi h
      simp only [List.length_cons, List.length_nil] at hi
      interval_cases i <;> norm_num [corner, Prod.ext_iff] at h
  obtain ⟨⟨d, h1, h2, -⟩, -⟩ := C133_partial argsort ha mm lQ_simple xr ops s hs hk ix hix .global .global (.inl rfl) (.inl rfl)
    (3 / 2, 1 / 2) (by rw [hxr]; norm_num)
  obtain ⟨⟨d', h1', -, h3'⟩, -⟩ := C133_partial argsort ha mm lQ_simple xr ops s hs hk ix hix .global .global (.inl rfl) (.inl rfl)
    (2, 1 / 2) (by rw [hxr]; norm_num)
  exact ⟨⟨d, h1, h2.2 hin⟩, by rw [h1', h3'.2 hr]⟩

end Starworlds
