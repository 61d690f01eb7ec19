import Verif.Props.StarPolygonHit
import Mathlib.Tactic.IntervalCases
import Mathlib.Tactic.NormNum

/-! # C41: StarshapedPolygon.distance_function -/

namespace Starworlds

open Real Spec

/-! ## Geometries -/

theorem node_mem_path {l : List (Pt ℝ)} (hl : 2 ≤ l.length) {p : Pt ℝ} (hp : p ∈ l) : p ∈ pathPoints l := by
  obtain ⟨i, hi, rfl⟩ := List.mem_iff_getElem.1 hp
  by_cases h : i + 1 < l.length
  · exact ⟨i, h, 0, le_rfl, zero_le_one, by simp [List.getElem?_eq_getElem hi]⟩
  · refine ⟨i - 1, by omega, 1, zero_le_one, le_rfl, ?_⟩
    rw [show i - 1 + 1 = i by omega]
    simp [List.getElem?_eq_getElem hi]

theorem two_le_of_ne {l : List (Pt ℝ)} {p q : Pt ℝ} (hp : p ∈ l) (hq : q ∈ l) (h : p ≠ q) : 2 ≤ l.length := by
  match l, hp, hq with
  | [a], hp, hq =>
    rw [List.mem_singleton] at hp hq
    exact absurd (hp.trans hq.symm) h
  | _ :: _ :: _, _, _ => simp

/-- A geometry that is one point. -/
theorem geom_point {g : Geom} {q : Pt ℝ} (h : GeomIs g {q}) : g = .point q := by
  cases g with
  | empty => exact absurd (h.symm ▸ Set.mem_singleton q) (Set.notMem_empty q)
  | point p =>
    have : q ∈ ({p} : Set (Pt ℝ)) := by rw [← (show ({q} : Set (Pt ℝ)) = {p} from h)]; exact Set.mem_singleton q
    rw [Set.mem_singleton_iff.1 this]
  | multiPoint l =>
    obtain ⟨h1, h2, h3⟩ := h
    exfalso
    match l, h2, h3 with
    | a :: b :: l, h2, _ =>
      have ha : a ∈ ({q} : Set (Pt ℝ)) := by rw [h1]; simp
      have hb : b ∈ ({q} : Set (Pt ℝ)) := by rw [h1]; simp
      rw [Set.mem_singleton_iff] at ha hb
      rw [ha, hb] at h2
      simp at h2
  | lineString l =>
    obtain ⟨h1, p, hp, r, hr, hne⟩ := h
    have hl := two_le_of_ne hp hr hne
    have a := node_mem_path hl hp
    have b := node_mem_path hl hr
    rw [← h1, Set.mem_singleton_iff] at a b
    exact absurd (a.trans b.symm) hne
  | multiLineString ls =>
    obtain ⟨h1, h2, h3⟩ := h
    cases ls with
    | nil => exact absurd rfl h2
    | cons l ls =>
      obtain ⟨p, hp, r, hr, hne⟩ := h3 l List.mem_cons_self
      have hl := two_le_of_ne hp hr hne
      have a : p ∈ ({q} : Set (Pt ℝ)) := by rw [h1]; exact ⟨l, List.mem_cons_self, node_mem_path hl hp⟩
      have b : r ∈ ({q} : Set (Pt ℝ)) := by rw [h1]; exact ⟨l, List.mem_cons_self, node_mem_path hl hr⟩
      rw [Set.mem_singleton_iff] at a b
      exact absurd (a.trans b.symm) hne
  | collection => exact absurd (Set.finite_singleton q) h

/-- A geometry without points. -/
theorem geom_empty {g : Geom} (h : GeomIs g ∅) : g = .empty := by
  cases g with
  | empty => rfl
  | point p => exact absurd ((show (∅ : Set (Pt ℝ)) = {p} from h) ▸ Set.mem_singleton p) (Set.notMem_empty p)
  | multiPoint l =>
    obtain ⟨h1, h2, h3⟩ := h
    exfalso
    match l, h3 with
    | a :: l, _ =>
      have ha : a ∈ (∅ : Set (Pt ℝ)) := by rw [h1]; simp
      exact ha
  | lineString l =>
    obtain ⟨h1, p, hp, r, hr, hne⟩ := h
    have a := node_mem_path (two_le_of_ne hp hr hne) hp
    rw [← h1] at a
    exact absurd a (Set.notMem_empty p)
  | multiLineString ls =>
    obtain ⟨h1, h2, h3⟩ := h
    cases ls with
    | nil => exact absurd rfl h2
    | cons l ls =>
      obtain ⟨p, hp, r, hr, hne⟩ := h3 l List.mem_cons_self
      have a : p ∈ (∅ : Set (Pt ℝ)) := by
        rw [h1]; exact ⟨l, List.mem_cons_self, node_mem_path (two_le_of_ne hp hr hne) hp⟩
      exact absurd a (Set.notMem_empty p)
  | collection => exact absurd Set.finite_empty h

/-! ## The bounding box -/

theorem ring_box {a : Pt ℝ} {l : List (Pt ℝ)} {q : Pt ℝ} (hq : OnRing (a :: l) q) :
    (boundsOf a l).1 ≤ q.1 ∧ q.1 ≤ (boundsOf a l).2.2.1 ∧ (boundsOf a l).2.1 ≤ q.2 ∧ q.2 ≤ (boundsOf a l).2.2.2 := by
  obtain ⟨i, _, t, h0, h1, rfl⟩ := hq
  have hne : a :: l ≠ [] := by simp
  obtain ⟨a1, a2, a3, a4⟩ := bounds_spec a l _ (corner_mem hne i)
  obtain ⟨b1, b2, b3, b4⟩ := bounds_spec a l _ (corner_mem hne (i + 1))
  simp only [Prod.fst_add, Prod.snd_add, Prod.smul_fst, Prod.smul_snd, Prod.fst_sub, Prod.snd_sub, smul_eq_mul]
  refine ⟨?_, ?_, ?_, ?_⟩ <;> nlinarith

theorem norm2_polar (c : Pt ℝ) {r : ℝ} (hr : 0 ≤ r) (t : ℝ) : norm2 (polar c r t - c) = r := by
  rw [norm2]
  have : (polar c r t - c).1 ^ 2 + (polar c r t - c).2 ^ 2 = r ^ 2 := by
    simp only [Prod.fst_sub, Prod.snd_sub, polar_fst, polar_snd]
    linear_combination r ^ 2 * sin_sq_add_cos_sq t
  rw [this, sqrt_sq hr]

/-- From the centre of a star-shaped ring no point of the ring is farther than width plus height. -/
theorem star_extent {c : Pt ℝ} {v : List (Pt ℝ)} (h : StarAbout c v) {r t : ℝ} (hr : 0 ≤ r)
    (hq : OnRing v (polar c r t)) : r ≤ (extent v).1 + (extent v).2 := by
  cases v with
  | nil => obtain ⟨i, hi, _⟩ := hq; simp at hi
  | cons a l =>
    -- the centre is in the box
    obtain ⟨r1, h1, q1⟩ := star_exists h 0
    obtain ⟨r2, h2, q2⟩ := star_exists h π
    obtain ⟨r3, h3, q3⟩ := star_exists h (π / 2)
    obtain ⟨r4, h4, q4⟩ := star_exists h (-(π / 2))
    have b1 := (ring_box q1).2.1
    have b2 := (ring_box q2).1
    have b3 := (ring_box q3).2.2.2
    have b4 := (ring_box q4).2.2.1
    simp only [polar_fst, polar_snd, cos_zero, cos_pi, sin_pi_div_two, sin_neg] at b1 b2 b3 b4
    obtain ⟨c1, c2, c3, c4⟩ := ring_box hq
    simp only [polar_fst, polar_snd] at c1 c2 c3 c4
    simp only [extent]
    have e : r = |r * cos t| * |cos t| + |r * sin t| * |sin t| := by
      rw [← abs_mul, ← abs_mul, abs_of_nonneg, abs_of_nonneg]
      · linear_combination -r * sin_sq_add_cos_sq t
      · rw [mul_assoc]; exact mul_nonneg hr (mul_self_nonneg _)
      · rw [mul_assoc]; exact mul_nonneg hr (mul_self_nonneg _)
    have h5 : |r * cos t| ≤ (boundsOf a l).2.2.1 - (boundsOf a l).1 := by rw [abs_le]; constructor <;> linarith
    have h6 : |r * sin t| ≤ (boundsOf a l).2.2.2 - (boundsOf a l).2.1 := by rw [abs_le]; constructor <;> linarith
    have h7 := abs_cos_le_one t
    have h8 := abs_sin_le_one t
    have h9 : |r * cos t| * |cos t| ≤ |r * cos t| := mul_le_of_le_one_right (abs_nonneg _) h7
    have h10 : |r * sin t| * |sin t| ≤ |r * sin t| := mul_le_of_le_one_right (abs_nonneg _) h8
    linarith

/-! ## boundary_mapping -/

/-- The states in which the length of the test segment is that of the constructor. -/
theorem run_ball {argsort : List ℝ → List Nat} (ops : List StarOp) :
    ∀ s : StarPoly, (s.run argsort ops).ball = s.ball := by
  induction ops with
  | nil => intro s; rfl
  | cons op ops ih =>
    intro s
    refine (ih (s.step argsort op)).trans ?_
    cases op with
    | setXr x f safe =>
      simp only [StarPoly.step, StarPoly.setXr]
      split
      · rfl
      · split <;> rfl
    | setPose p => rfl
    | setMotionModel mm => rfl

theorem polar_self {c x : Pt ℝ} (hx : x ≠ c) : ∃ d t, 0 < d ∧ x = polar c d t ∧ d = norm2 (x - c) ∧
    ((x - c).1 / norm2 (x - c), (x - c).2 / norm2 (x - c)) = ((cos t, sin t) : Pt ℝ) := by
  obtain ⟨d, hd, e⟩ := seenAt_pos (seenAt_arctan2 c x) hx
  refine ⟨d, _, hd, e, ?_, ?_⟩
  · conv_rhs => rw [e]
    rw [norm2_polar _ hd.le]
  · have hn : norm2 (x - c) = d := by
      conv_lhs => rw [e]
      exact norm2_polar _ hd.le _
    rw [hn]
    have e1 := congrArg Prod.fst e
    have e2 := congrArg Prod.snd e
    rw [polar_fst] at e1
    rw [polar_snd] at e2
    ext
    · simp only [Prod.fst_sub]
      rw [div_eq_iff hd.ne']; linarith
    · simp only [Prod.snd_sub]
      rw [div_eq_iff hd.ne']; linarith

/-- The boundary point in the direction of `x`. -/
theorem boundaryMapping_star {s : StarPoly} {ring : List (Pt ℝ)} (hball : s.ball = (extent ring).1 + (extent ring).2)
    (hstar : StarAbout s.xr ring) (ix : Pt ℝ → Pt ℝ → Geom) (hix : ∀ b, GeomIs (ix s.xr b) (hits ring s.xr b))
    {d t : ℝ} (hd : 0 < d) : ∃ r, 0 < r ∧ OnRing ring (polar s.xr r t) ∧
      s.boundaryMapping ix (polar s.xr d t) .obstacle .obstacle = .ok (some (polar s.xr r t)) := by
  obtain ⟨r, hr, hq⟩ := star_exists hstar t
  refine ⟨r, hr, hq, ?_⟩
  have tr : ∀ p, transform s.mm p .obstacle .obstacle = .ok p := fun p =>
    transform_to_obstacle s.mm .obstacle (.inr rfl) p
  have hn : norm2 (polar s.xr d t - s.xr) = d := norm2_polar _ hd.le _
  have hdir : referenceDirection s.mm s.xr (polar s.xr d t) .obstacle .obstacle = .ok (cos t, sin t) := by
    simp only [referenceDirection, tr, bind, Except.bind, hn, if_neg hd.ne']
    congr 1
    ext
    · simp only [Prod.fst_sub, polar_fst]; field_simp; ring
    · simp only [Prod.snd_sub, polar_snd]; field_simp; ring
  have hL := star_extent hstar hr.le hq
  rw [← hball] at hL
  have hhits : hits ring s.xr (s.xr + (11 / 10 * s.ball) • ((cos t, sin t) : Pt ℝ)) = {polar s.xr r t} := by
    have hL' : 0 < 11 / 10 * s.ball := by linarith
    ext p
    simp only [hits, Set.mem_ofPred_eq, Set.mem_singleton_iff]
    constructor
    · rintro ⟨⟨w, h0, h1, rfl⟩, hp⟩
      have e : s.xr + w • (s.xr + (11 / 10 * s.ball) • ((cos t, sin t) : Pt ℝ) - s.xr) =
          polar s.xr (w * (11 / 10 * s.ball)) t := by
        rw [add_sub_cancel_left, smul_smul]; rfl
      rw [e] at hp ⊢
      rw [star_unique hstar (mul_nonneg h0 hL'.le) hr.le hp hq]
    · rintro rfl
      refine ⟨⟨r / (11 / 10 * s.ball), by positivity, ?_, ?_⟩, hq⟩
      · rw [div_le_one hL']; linarith
      · rw [add_sub_cancel_left, smul_smul, div_mul_cancel₀ _ hL'.ne']; rfl
  have hpts : polygonLineIntersection s.mm ix s.xr (s.xr + (11 / 10 * s.ball) • ((cos t, sin t) : Pt ℝ)) .obstacle
      .obstacle = .ok [polar s.xr r t] := by
    have hg := hix (s.xr + (11 / 10 * s.ball) • ((cos t, sin t) : Pt ℝ))
    rw [hhits] at hg
    simp only [polygonLineIntersection, tr, bind, Except.bind, geom_point hg, geomPoints, List.mapM_cons, List.mapM_nil,
      pure, Except.pure]
  simp only [StarPoly.boundaryMapping, tr, bind, Except.bind, hdir, hpts, Except.map]

/-! ## C41 -/

/-- The value of `distance_function` at distance `d` in direction `t`. -/
theorem distance_star {s : StarPoly} {ring : List (Pt ℝ)} (hball : s.ball = (extent ring).1 + (extent ring).2)
    (hstar : StarAbout s.xr ring) (ix : Pt ℝ → Pt ℝ → Geom) (hix : ∀ b, GeomIs (ix s.xr b) (hits ring s.xr b))
    (f : Frame) (hf : f.Valid) (t : ℝ) : ∃ r, 0 < r ∧ OnRing ring (polar s.xr r t) ∧ ∀ d, 0 < d →
      s.distanceFunction ix (inFrame s.mm f (polar s.xr d t)) f = .ok (if d < r then (d / r) ^ 2 else (d - r + 1) ^ 2) := by
  obtain ⟨r, hr, hq, _⟩ := boundaryMapping_star hball hstar ix hix (t := t) one_pos
  refine ⟨r, hr, hq, ?_⟩
  intro d hd
  obtain ⟨r', hr', hq', hb⟩ := boundaryMapping_star hball hstar ix hix (t := t) hd
  rw [star_unique hstar hr'.le hr.le hq' hq] at hb
  simp only [StarPoly.distanceFunction, transform_to_obstacle _ _ hf, bind, Except.bind, hb, norm2_polar _ hd.le,
    norm2_polar _ hr.le]
  split_ifs <;> rfl

/-- C41 (partial): if the polygon is star-shaped about the current reference point then, for every other point `x`,
there is exactly one boundary point on the ray towards `x`, and the value is non-negative, less than 1 exactly when
`x` is closer than that boundary point, and 1 exactly when it is that point. Missing: dilated polygons, for which
the call may raise (`C41_dilated_false`), and reference points about which the polygon is not star-shaped. -/
theorem C41_classify_partial (argsort : List ℝ → List Nat) (ha : IsArgsort argsort) (mm : Option Pose)
    (ring : List (Pt ℝ)) (xr : Pt ℝ) (ops : List StarOp) (s : StarPoly)
    (hs : s = (StarPoly.make argsort mm ring xr).run argsort ops) (hstar : StarAbout s.xr ring)
    (ix : Pt ℝ → Pt ℝ → Geom) (hix : ∀ b, GeomIs (ix s.xr b) (hits s.ring s.xr b)) (f : Frame) (hf : f.Valid)
    (x : Pt ℝ) (hx : x ≠ s.xr) :
    ∃ q, OnRing ring q ∧ OnRay s.xr x q ∧ (∀ q', OnRing ring q' → OnRay s.xr x q' → q' = q) ∧
      ∃ d, s.distanceFunction ix (inFrame s.mm f x) f = .ok d ∧ 0 ≤ d ∧ (d < 1 ↔ len (x - s.xr) < len (q - s.xr)) ∧
        (d = 1 ↔ x = q) := by
  have hball : s.ball = (extent ring).1 + (extent ring).2 := by rw [hs, run_ball]; rfl
  have hring : s.ring = ring := by
    rw [hs]; exact (run_sorted ha ops (update_sorted ha _ rfl (List.Perm.refl _))).hring
  rw [hring] at hix
  obtain ⟨d, t, hd, e, _, _⟩ := polar_self hx
  obtain ⟨r, hr, hq, hval⟩ := distance_star hball hstar ix hix f hf t
  have hlen : ∀ {k}, 0 ≤ k → len (polar s.xr k t - s.xr) = k := fun hk => norm2_polar s.xr hk t
  refine ⟨polar s.xr r t, hq, ⟨r / d, by positivity, ?_⟩, ?_, _, by rw [e]; exact hval d hd, ?_, ?_, ?_⟩
  · rw [e]
    ext
    · simp only [polar_fst, Prod.fst_add, Prod.smul_fst, Prod.fst_sub, smul_eq_mul]; field_simp; ring
    · simp only [polar_snd, Prod.snd_add, Prod.smul_snd, Prod.snd_sub, smul_eq_mul]; field_simp; ring
  · rintro q' hq' ⟨w, hw, rfl⟩
    have e' : s.xr + w • (x - s.xr) = polar s.xr (w * d) t := by
      rw [e]
      ext
      · simp only [polar_fst, Prod.fst_add, Prod.smul_fst, Prod.fst_sub, smul_eq_mul]; ring
      · simp only [polar_snd, Prod.snd_add, Prod.smul_snd, Prod.snd_sub, smul_eq_mul]; ring
    rw [e'] at hq' ⊢
    rw [star_unique hstar (mul_nonneg hw hd.le) hr.le hq' hq]
  · split <;> positivity
  · rw [e, hlen hd.le, hlen hr.le]
    split
    · rename_i hlt
      have h1 : d / r < 1 := (div_lt_one hr).2 hlt
      have h0 : 0 ≤ d / r := by positivity
      exact ⟨fun _ => hlt, fun _ => by nlinarith⟩
    · rename_i hge
      push Not at hge
      exact ⟨fun h => absurd h (not_lt.2 (by nlinarith)), fun h => absurd h (not_lt.2 hge)⟩
  · rw [e]
    constructor
    · intro h
      split at h
      · rename_i hlt
        have h1 : d / r < 1 := (div_lt_one hr).2 hlt
        have h0 : 0 ≤ d / r := by positivity
        nlinarith
      · rename_i hge
        push Not at hge
        have : d = r := by nlinarith
        rw [this]
    · intro h
      have : d = r := (polar_inj hd hr h).1
      rw [this, if_neg (lt_irrefl _)]
      ring

/-- C41 (partial): along each ray from the reference point of a polygon that is star-shaped about it, the value is
strictly increasing. -/
theorem C41_increasing_partial (argsort : List ℝ → List Nat) (ha : IsArgsort argsort) (mm : Option Pose)
    (ring : List (Pt ℝ)) (xr : Pt ℝ) (ops : List StarOp) (s : StarPoly)
    (hs : s = (StarPoly.make argsort mm ring xr).run argsort ops) (hstar : StarAbout s.xr ring)
    (ix : Pt ℝ → Pt ℝ → Geom) (hix : ∀ b, GeomIs (ix s.xr b) (hits s.ring s.xr b)) (f : Frame) (hf : f.Valid)
    (x : Pt ℝ) (hx : x ≠ s.xr) (k : ℝ) (hk : 1 < k) :
    ∃ d d', s.distanceFunction ix (inFrame s.mm f x) f = .ok d ∧
      s.distanceFunction ix (inFrame s.mm f (s.xr + k • (x - s.xr))) f = .ok d' ∧ d < d' := by
  have hball : s.ball = (extent ring).1 + (extent ring).2 := by rw [hs, run_ball]; rfl
  have hring : s.ring = ring := by
    rw [hs]; exact (run_sorted ha ops (update_sorted ha _ rfl (List.Perm.refl _))).hring
  rw [hring] at hix
  obtain ⟨d, t, hd, e, _, _⟩ := polar_self hx
  obtain ⟨r, hr, hq, hval⟩ := distance_star hball hstar ix hix f hf t
  have e' : s.xr + k • (x - s.xr) = polar s.xr (k * d) t := by
    rw [e]
    ext
    · simp only [polar_fst, Prod.fst_add, Prod.smul_fst, Prod.fst_sub, smul_eq_mul]; ring
    · simp only [polar_snd, Prod.snd_add, Prod.smul_snd, Prod.snd_sub, smul_eq_mul]; ring
  have hkd : 0 < k * d := by positivity
  have hlt : d < k * d := by nlinarith
  refine ⟨_, _, by rw [e]; exact hval d hd, by rw [e']; exact hval _ hkd, ?_⟩
  generalize k * d = d' at *
  split_ifs with h1 h2 h2
  · have : d / r < d' / r := by gcongr
    have : 0 ≤ d / r := by positivity
    nlinarith
  · push Not at h2
    have h3 : d / r < 1 := (div_lt_one hr).2 h1
    have : 0 ≤ d / r := by positivity
    nlinarith
  · linarith
  · push Not at h1 h2
    nlinarith

/-- The unit square. -/
def unitSquare : List (Pt ℝ) := [(0, 0), (1, 0), (1, 1), (0, 1)]

/-- C41 is false for dilated polygons: for the unit square with reference point (1/20, 1/20), after dilation by 0
(which leaves the square as it is) the test segment towards (1, 1) is too short and the call raises. -/
theorem C41_dilated_false (argsort : List ℝ → List Nat) (ix : Pt ℝ → Pt ℝ → Geom)
    (hix : ∀ b, GeomIs (ix (1 / 20, 1 / 20) b) (hits unitSquare (1 / 20, 1 / 20) b)) :
    ((StarPoly.make argsort none unitSquare (1 / 20, 1 / 20)).dilated argsort unitSquare).distanceFunction ix (1, 1) .global =
      .error .typeError := by
  set s := (StarPoly.make argsort none unitSquare (1 / 20, 1 / 20)).dilated argsort unitSquare with hs
  have hxr : s.xr = (1 / 20, 1 / 20) := rfl
  have hmm : s.mm = none := rfl
  have hball : s.ball = 1 := by
    have : s.ball = max (extent unitSquare).1 (extent unitSquare).2 := rfl
    rw [this]
    simp [extent, unitSquare, boundsOf]
  set n := norm2 ((1, 1) - ((1 / 20, 1 / 20) : Pt ℝ)) with hn
  have hn2 : n ^ 2 = 2 * (19 / 20) ^ 2 := by
    rw [hn, norm2, sq_sqrt (by positivity)]
    norm_num
  have hn0 : 0 ≤ n := sqrt_nonneg _
  have hn1 : 67 / 50 < n := by nlinarith
  have hhits : hits unitSquare (1 / 20, 1 / 20) ((1 / 20, 1 / 20) + (11 / 10 * (1 : ℝ)) •
      (((1 : ℝ) - 1 / 20) / n, ((1 : ℝ) - 1 / 20) / n)) = ∅ := by
    ext p
    simp only [hits, Set.mem_ofPred_eq, Set.mem_empty_iff_false, iff_false]
    rintro ⟨⟨t, h0, h1, rfl⟩, i, hi, w, hw0, hw1, e⟩
    have e1 := congrArg Prod.fst e
    have e2 := congrArg Prod.snd e
    simp only [Prod.fst_add, Prod.snd_add, Prod.smul_fst, Prod.smul_snd, Prod.fst_sub, Prod.snd_sub, smul_eq_mul,
      add_sub_cancel_left] at e1 e2
    have hm : 0 ≤ (1 - 1 / 20) / n := by
      have : (0 : ℝ) ≤ 1 - 1 / 20 := by norm_num
      positivity
    have hm1 : (1 - 1 / 20) / n < 71 / 100 := by
      rw [div_lt_iff₀ (by linarith)]; linarith
    have hz0 : 0 ≤ t * (11 / 10 * 1 * ((1 - 1 / 20) / n)) := by positivity
    have hz1 : t * (11 / 10 * 1 * ((1 - 1 / 20) / n)) < 79 / 100 := by nlinarith
    generalize t * (11 / 10 * 1 * ((1 - 1 / 20) / n)) = z at *
    have hi' : i < 4 := by simpa [unitSquare] using hi
    interval_cases i <;> simp [corner, unitSquare] at e1 e2 <;> linarith
  have hg := hix ((1 / 20, 1 / 20) + (11 / 10 * (1 : ℝ)) • (((1 : ℝ) - 1 / 20) / n, ((1 : ℝ) - 1 / 20) / n))
  rw [hhits] at hg
  have hgeom := geom_empty hg
  have hpts : polygonLineIntersection none ix (1 / 20, 1 / 20) ((1 / 20, 1 / 20) + (11 / 10 * (1 : ℝ)) •
      (((1 : ℝ) - 1 / 20) / n, ((1 : ℝ) - 1 / 20) / n)) .obstacle .obstacle = .ok [] := by
    simp only [polygonLineIntersection, transform, bind, Except.bind, hgeom, geomPoints, List.mapM_nil, pure, Except.pure]
  have hnn : ¬ n = 0 := by linarith
  simp only [StarPoly.distanceFunction, StarPoly.boundaryMapping, hmm, hxr, hball, transform, referenceDirection, bind,
    Except.bind, ← hn, if_neg hnn, Prod.fst_sub, Prod.snd_sub, hpts]

/-! ## Examples -/

/-- The square with corners (±1, ±1). -/
def bigSquare : List (Pt ℝ) := [(1, -1), (1, 1), (-1, 1), (-1, -1)]

theorem bigSquare_star : StarAbout 0 bigSquare := by
  have hpi := pi_pos
  have h2 : √2 * (√2 / 2) = 1 := by
    have := mul_self_sqrt (show (0 : ℝ) ≤ 2 by norm_num)
    linarith
  have c1 : cos (-(π / 4)) = √2 / 2 := by rw [cos_neg, cos_pi_div_four]
  have s1 : sin (-(π / 4)) = -(√2 / 2) := by rw [sin_neg, sin_pi_div_four]
  have c2 : cos (π / 4 + π / 2) = -(√2 / 2) := by rw [cos_add_pi_div_two, sin_pi_div_four]
  have s2 : sin (π / 4 + π / 2) = √2 / 2 := by rw [sin_add_pi_div_two, cos_pi_div_four]
  have c3 : cos (π / 4 + π) = -(√2 / 2) := by rw [cos_add_pi, cos_pi_div_four]
  have s3 : sin (π / 4 + π) = -(√2 / 2) := by rw [sin_add_pi, sin_pi_div_four]
  refine ⟨fun i => -(π / 4) + i * (π / 2), ?_, ?_, ?_⟩
  · intro i hi
    have hi' : i < 4 := by simpa [bigSquare] using hi
    constructor
    · refine ⟨√2, sqrt_nonneg _, ?_⟩
      interval_cases i
      · simp [corner, bigSquare, h2]
      · have e : -(π / 4) + ((1 : ℕ) : ℝ) * (π / 2) = π / 4 := by push_cast; ring
        simp only [e]
        simp [corner, bigSquare, h2]
      · have e : -(π / 4) + ((2 : ℕ) : ℝ) * (π / 2) = π / 4 + π / 2 := by push_cast; ring
        simp only [e, c2, s2]
        simp [corner, bigSquare, h2]
      · have e : -(π / 4) + ((3 : ℕ) : ℝ) * (π / 2) = π / 4 + π := by push_cast; ring
        simp only [e, c3, s3]
        simp [corner, bigSquare, h2]
    · interval_cases i <;> simp [corner, bigSquare]
  · intro i _
    push_cast
    constructor <;> linarith
  · simp [bigSquare]; ring

open scoped Classical in
/-- An exact intersection routine for segments that start at the centre. -/
noncomputable def exactIx (v : List (Pt ℝ)) (a b : Pt ℝ) : Geom :=
  if hits v a b = ∅ then .empty else if h : ∃ q, hits v a b = {q} then .point h.choose else .collection

theorem exactIx_spec {c : Pt ℝ} {v : List (Pt ℝ)} (h : StarAbout c v) (b : Pt ℝ) : GeomIs (exactIx v c b) (hits v c b) := by
  classical
  unfold exactIx
  split_ifs with h1 h2
  · exact h1
  · exact h2.choose_spec
  · exfalso
    obtain ⟨q, hq⟩ := Set.nonempty_iff_ne_empty.2 h1
    refine h2 ⟨q, Set.eq_singleton_iff_unique_mem.2 ⟨hq, ?_⟩⟩
    obtain ⟨⟨w, hw, _, rfl⟩, hq⟩ := hq
    rintro q' ⟨⟨w', hw', _, rfl⟩, hq'⟩
    obtain ⟨r, hr, e⟩ := seenAt_arctan2 c b
    have e2 : ∀ w : ℝ, c + w • (b - c) = polar c (w * r) (arctan2 (b.2 - c.2) (b.1 - c.1)) := by
      intro w
      have hb : b - c = r • ((cos (arctan2 (b.2 - c.2) (b.1 - c.1)), sin (arctan2 (b.2 - c.2) (b.1 - c.1))) : Pt ℝ) :=
        sub_eq_iff_eq_add'.2 e
      rw [hb, smul_smul]; rfl
    rw [e2] at hq hq' ⊢
    rw [e2, star_unique h (mul_nonneg hw' hr) (mul_nonneg hw hr) hq' hq]

/-- For that square with the origin as reference point, the value is 4 at (2, 0) and 1/4 at (1/2, 0). -/
example : (StarPoly.make sortIdcs none bigSquare 0).distanceFunction (exactIx bigSquare) (2, 0) .global = .ok 4 ∧
    (StarPoly.make sortIdcs none bigSquare 0).distanceFunction (exactIx bigSquare) (1 / 2, 0) .global = .ok (1 / 4) := by
  obtain ⟨r, hr, hq, hval⟩ := distance_star (s := StarPoly.make sortIdcs none bigSquare 0) (ring := bigSquare) rfl
    bigSquare_star (exactIx bigSquare) (exactIx_spec bigSquare_star) .global (.inl rfl) 0
  have h1 : r = 1 := by
    refine star_unique bigSquare_star (θ := 0) hr.le zero_le_one hq ⟨0, by simp [bigSquare], 1 / 2, by norm_num, by norm_num, ?_⟩
    ext <;> (simp [polar, corner, bigSquare]; try norm_num)
  subst h1
  have e : ∀ d, inFrame (StarPoly.make sortIdcs none bigSquare 0).mm .global
      (polar (StarPoly.make sortIdcs none bigSquare 0).xr d 0) = (d, 0) := by
    intro d
    have : (StarPoly.make sortIdcs none bigSquare 0).xr = 0 := rfl
    rw [this]
    simp [inFrame, worldOf, polar, StarPoly.make, StarPoly.update]
  have v1 := hval 2 (by norm_num)
  have v2 := hval (1 / 2) (by norm_num)
  rw [e] at v1 v2
  refine ⟨v1.trans ?_, v2.trans ?_⟩ <;> norm_num

/-- C39 for that square: towards (2, 0) the normal is (1, 0). -/
example : (StarPoly.make sortIdcs none bigSquare 0).normal (2, 0) .global .global .edge = .ok (1, 0) := by
  obtain ⟨j, hj, q, n, ⟨w, hw, rfl⟩, hseg, huniq, hn, h1, h2, h3⟩ := C39_hit sortIdcs sortIdcs_spec none bigSquare
    (by simp [bigSquare]) 0 [] .global .global (.inl rfl) (.inl rfl) (2, 0) (StarPoly.make sortIdcs none bigSquare 0) rfl
    bigSquare_star (by
      change ((2, 0) : Pt ℝ) ≠ 0
      simp)
  have hxr : (StarPoly.make sortIdcs none bigSquare 0).xr = 0 := rfl
  have hmm : (StarPoly.make sortIdcs none bigSquare 0).mm = none := rfl
  rw [hxr] at hseg huniq h3
  simp only [hmm, inFrame, worldOf, sub_zero] at hn
  rw [hn]
  have e := huniq (1, 0) ⟨1 / 2, by norm_num, by ext <;> simp⟩ ⟨0, by simp [bigSquare], 1 / 2, by norm_num, by norm_num, by
    ext <;> simp [corner, bigSquare]
    norm_num⟩
  rw [← e] at hseg h3
  have hj' : j < 4 := by simpa [bigSquare] using hj
  obtain ⟨u, hu0, hu1, hu⟩ := hseg
  have u1 := congrArg Prod.fst hu
  have u2 := congrArg Prod.snd hu
  have hn0 : n.2 = 0 ∧ n.1 ^ 2 = 1 := by
    simp only [normSq] at h1
    interval_cases j
    · simp [corner, bigSquare, dot] at h2
      have : n.2 = 0 := by linarith
      rw [this] at h1
      exact ⟨this, by linarith⟩
    · simp [corner, bigSquare] at u1 u2
    · simp [corner, bigSquare] at u1 u2
      linarith
    · simp [corner, bigSquare] at u1 u2
  simp [dot] at h3
  congr 1
  ext
  · simp only
    nlinarith [hn0.2]
  · exact hn0.1

end Starworlds
