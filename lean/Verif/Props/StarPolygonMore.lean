import Verif.Props.PolygonLine

/-! # C69, C70: the choice of boundary_mapping among several crossings; weighted edge normals -/

namespace Starworlds

open Real Spec

/-! ## C69 -/

/-- `p` is the point of the list nearest to `x`. -/
def Spec.Nearest (x : Pt ℝ) (l : List (Pt ℝ)) (p : Pt ℝ) : Prop :=
  p ∈ l ∧ ∀ q ∈ l, normSq (p - x) ≤ normSq (q - x)

theorem norm2_lt_iff (v w : Pt ℝ) : norm2 v < norm2 w ↔ normSq v < normSq w := by
  rw [norm2, norm2, sqrt_lt_sqrt_iff (by positivity)]; rfl

open scoped Classical in
theorem nearest_two (y p q : Pt ℝ) : Nearest y [p, q] (if norm2 (p - y) < norm2 (q - y) then p else q) := by
  split
  · rename_i h
    rw [norm2_lt_iff] at h
    exact ⟨by simp, by simpa using h.le⟩
  · rename_i h
    rw [norm2_lt_iff, not_lt] at h
    exact ⟨by simp, by simpa using h⟩

theorem ellVertical_length (a l r : Pt ℝ) : (ellVertical a l r).length ≤ 2 := by
  unfold ellVertical
  simp only
  split_ifs <;> simp

theorem ellSloped_length {a l r : Pt ℝ} {m c : ℝ} {ps : List (Pt ℝ)} (h : ellSloped a l r m c = .ok ps) :
    ps.length ≤ 2 := by
  unfold ellSloped at h
  simp only at h
  split_ifs at h <;> (rw [← Except.ok.inj h]; simp)

theorem ellLine_length {a l0 l1 : Pt ℝ} {ps : List (Pt ℝ)} (h : ellLine a l0 l1 = .ok ps) : ps.length ≤ 2 := by
  unfold ellLine at h
  simp only at h
  generalize (if l0.1 < l1.1 then l0 else l1) = l at h
  generalize (if l0.1 < l1.1 then l1 else l0) = r at h
  split_ifs at h
  · rw [← Except.ok.inj h]; exact ellVertical_length _ _ _
  · rw [← Except.ok.inj h]; exact ellVertical_length _ _ _
  · exact ellSloped_length h

/-- C69, ellipses: of the points that `line_intersection` finds on the test segment from `xr`, `boundary_mapping`
returns the one nearest to `x`, and `None` if there is none. -/
theorem C69_ellipse (e : Ell) (f g : Frame) (hf : f.Valid) (hg : g.Valid) (y d : Pt ℝ)
    (hd : referenceDirection e.mm e.xr y .obstacle .obstacle = .ok d) (ps : List (Pt ℝ))
    (hps : e.lineIntersection e.xr (e.xr + (1.1 * e.diameter) • d) .obstacle .obstacle = .ok ps) :
    (ps = [] ∧ e.boundaryMapping (inFrame e.mm f y) f g = .ok none) ∨
      ∃ b, Nearest y ps b ∧ e.boundaryMapping (inFrame e.mm f y) f g = .ok (some (inFrame e.mm g b)) := by
  have hlen : ps.length ≤ 2 := by
    simp only [Ell.lineIntersection, (C21_identity _ _ _ _ (Or.inl rfl)).1, bind, Except.bind] at hps
    cases hl : ellLine e.a e.xr (e.xr + (1.1 * e.diameter) • d) with
    | error er => rw [hl] at hps; cases hps
    | ok L =>
      have := mapM_transform e.mm .obstacle (Or.inr rfl) L
      simp only [(C21_identity _ _ _ _ (Or.inl rfl)).1] at this
      rw [hl] at hps
      simp only [this] at hps
      rw [← Except.ok.inj hps]
      simpa using ellLine_length hl
  simp only [Ell.boundaryMapping, transform_to_obstacle _ _ hf, bind, Except.bind, hd, hps]
  match ps, hlen with
  | [], _ => exact Or.inl ⟨rfl, rfl⟩
  | [p], _ => exact Or.inr ⟨p, ⟨by simp, by simp⟩, by simp [transform_from_obstacle _ _ hg]⟩
  | [p, q], _ =>
    refine Or.inr ⟨_, nearest_two y p q, ?_⟩
    simp only [transform_from_obstacle _ _ hg]
    split <;> rfl

/-- The unit circle with a reference point to the left of it: both crossings are found, and for (1/2, 0) the farther
one from the reference point is returned. -/
example : (⟨(1, 1), (-11 / 10, 0), 20, none⟩ : Ell).lineIntersection (-11 / 10, 0) (11 / 10, 0) .obstacle .obstacle =
      .ok [(-1, 0), (1, 0)] ∧
    (⟨(1, 1), (-11 / 10, 0), 20, none⟩ : Ell).boundaryMapping (1 / 2, 0) .global .global = .ok (some (1, 0)) := by
  have hl : (⟨(1, 1), (-11 / 10, 0), 20, none⟩ : Ell).lineIntersection (-11 / 10, 0) (11 / 10, 0) .obstacle .obstacle =
      .ok [(-1, 0), (1, 0)] := by
    norm_num [Ell.lineIntersection, transform, bind, Except.bind, ellLine, ellSloped, isClose, pure, Except.pure]
  refine ⟨hl, ?_⟩
  have hd : referenceDirection none (-11 / 10, 0) (1 / 2, 0) .obstacle .obstacle = .ok (1, 0) := by
    have hn : norm2 ((8 / 5, 0) : Pt ℝ) = 8 / 5 := by
      rw [norm2, show ((8 / 5 : ℝ) ^ 2 + 0 ^ 2) = (8 / 5) ^ 2 by ring, sqrt_sq (by norm_num)]
    have h1 : ((1 / 2, 0) : Pt ℝ) - (-11 / 10, 0) = (8 / 5, 0) := by ext <;> norm_num
    simp only [referenceDirection, transform, bind, Except.bind, h1, hn]
    rw [if_neg (by norm_num)]; norm_num
  have he : ((-11 / 10, 0) : Pt ℝ) + (1.1 * (⟨(1, 1), (-11 / 10, 0), 20, none⟩ : Ell).diameter) • ((1, 0) : Pt ℝ) =
      (11 / 10, 0) := by
    ext <;> norm_num [Ell.diameter]
  obtain ⟨h, _⟩ | ⟨b, ⟨hb, hmin⟩, h⟩ := C69_ellipse ⟨(1, 1), (-11 / 10, 0), 20, none⟩ .global .global (Or.inl rfl)
    (Or.inl rfl) (1 / 2, 0) (1, 0) hd _ (by rw [he]; exact hl)
  · cases h
  · simp only [List.mem_cons, List.not_mem_nil, or_false] at hb
    rcases hb with rfl | rfl
    · have := hmin (1, 0) (by simp)
      norm_num [normSq] at this
    · exact h

/-- C69, polygons, at most two crossings. Missing: more than two crossings, see `C69_three_false`. -/
theorem C69_polygon_partial (s : StarPoly) (ix : Pt ℝ → Pt ℝ → Geom) (f g : Frame) (hf : f.Valid) (hg : g.Valid)
    (y d : Pt ℝ) (hd : referenceDirection s.mm s.xr y .obstacle .obstacle = .ok d) (ps : List (Pt ℝ))
    (hps : polygonLineIntersection s.mm ix s.xr (s.xr + (11 / 10 * s.ball) • d) .obstacle .obstacle = .ok ps)
    (hlen : ps.length ≤ 2) :
    (ps = [] ∧ s.boundaryMapping ix (inFrame s.mm f y) f g = .ok none) ∨
      ∃ b, Nearest y ps b ∧ s.boundaryMapping ix (inFrame s.mm f y) f g = .ok (some (inFrame s.mm g b)) := by
  simp only [StarPoly.boundaryMapping, transform_to_obstacle _ _ hf, bind, Except.bind, hd, hps]
  match ps, hlen with
  | [], _ => exact Or.inl ⟨rfl, rfl⟩
  | [p], _ => exact Or.inr ⟨p, ⟨by simp, by simp⟩, by simp [transform_from_obstacle _ _ hg, Except.map]⟩
  | [p, q], _ =>
    refine Or.inr ⟨_, nearest_two y p q, ?_⟩
    simp only [transform_from_obstacle _ _ hg]
    split <;> rfl

/-- A crown; it is star-shaped about (3, 1/2). -/
def crown : List (Pt ℝ) := [(0, 0), (6, 0), (6, 4), (3, 1), (0, 4)]

theorem crown_hits : hits crown (1 / 2, 2) (1 / 2 + 11, 2) = {(2, 2), (4, 2), (6, 2)} := by
  ext p
  simp only [hits, crown, Set.mem_ofPred_eq, Set.mem_insert_iff, Set.mem_singleton_iff]
  constructor
  · rintro ⟨⟨t, h0, h1, rfl⟩, i, hi, s, hs0, hs1, h⟩
    simp only [List.length_cons, List.length_nil] at hi
    interval_cases i <;> simp [corner, Prod.ext_iff] at h ⊢ <;> obtain ⟨h1, h2⟩ := h
    · right; right; linarith
    · right; left; linarith
    · left; linarith
    · exfalso; linarith
  · rintro (rfl | rfl | rfl)
    · refine ⟨⟨3 / 22, by norm_num, by norm_num, ?_⟩, 3, by simp, 1 / 3, by norm_num, by norm_num, ?_⟩ <;>
        ext <;> simp [corner] <;> norm_num
    · refine ⟨⟨7 / 22, by norm_num, by norm_num, ?_⟩, 2, by simp, 2 / 3, by norm_num, by norm_num, ?_⟩ <;>
        ext <;> simp [corner] <;> norm_num
    · refine ⟨⟨1 / 2, by norm_num, by norm_num, ?_⟩, 1, by simp, 1 / 2, by norm_num, by norm_num, ?_⟩ <;>
        ext <;> simp [corner] <;> norm_num

open scoped Classical in
/-- The choice that the code makes. -/
noncomputable def nearerOfTwo (y : Pt ℝ) : List (Pt ℝ) → Option (Pt ℝ)
  | [] => none
  | [p] => some p
  | p :: q :: _ => some (if norm2 (p - y) < norm2 (q - y) then p else q)

/-- C69 is false for polygons: with three crossings only the first two are compared. Whatever the order in which
shapely lists the crossings of the crown, there is a boundary point `x` for which `boundary_mapping(x)` is not `x`. -/
theorem C69_three_false (argsort : List ℝ → List Nat) (ix : Pt ℝ → Pt ℝ → Geom)
    (hix : ∀ a b, GeomIs (ix a b) (hits crown a b)) :
    let s := StarPoly.make argsort none crown (1 / 2, 2)
    ∃ x b, OnRing crown x ∧ OnRing crown b ∧ OnRay s.xr x b ∧
      s.boundaryMapping ix x .global .global = .ok (some b) ∧ b ≠ x := by
  intro s
  have hg := hix (1 / 2, 2) (1 / 2 + 11, 2)
  rw [crown_hits] at hg
  obtain ⟨pts, hpts, hmem⟩ := geom_finite hg (Set.toFinite _)
  -- the call for a point of the ray
  have call : ∀ c : ℝ, 1 / 2 < c → s.boundaryMapping ix (c, 2) .global .global = .ok (nearerOfTwo (c, 2) pts) := by
    intro c hc
    have hn : norm2 ((c - 1 / 2, 0) : Pt ℝ) = c - 1 / 2 := by
      rw [norm2, show (c - 1 / 2) ^ 2 + (0 : ℝ) ^ 2 = (c - 1 / 2) ^ 2 by ring, sqrt_sq (by linarith)]
    have hd : referenceDirection none (1 / 2, 2) (c, 2) .obstacle .obstacle = .ok (1, 0) := by
      have h1 : ((c, 2) : Pt ℝ) - (1 / 2, 2) = (c - 1 / 2, 0) := by ext <;> simp
      simp only [referenceDirection, transform, bind, Except.bind, h1, hn]
      rw [if_neg (by linarith), div_self (by linarith), zero_div]
    have hend : ((1 / 2, 2) : Pt ℝ) + (11 / 10 * s.ball) • ((1, 0) : Pt ℝ) = (1 / 2 + 11, 2) := by
      have : s.ball = 10 := by
        simp [s, StarPoly.make, StarPoly.update, crown, extent, boundsOf]; norm_num
      rw [this]; ext <;> norm_num
    have hm : (pts.mapM fun p => (Except.ok p : Except PyErr (Pt ℝ))) = .ok pts := by
      have := mapM_transform none .obstacle (Or.inr rfl) pts
      rwa [show inFrame none .obstacle = id from rfl, List.map_id] at this
    have hs1 : s.mm = none := rfl
    have hs2 : s.xr = (1 / 2, 2) := rfl
    simp only [StarPoly.boundaryMapping, hs1, hs2, hd, bind, Except.bind, hend, polygonLineIntersection, transform, hpts, hm]
    clear hpts hmem hm
    match pts with
    | [] => rfl
    | [p] => rfl
    | p :: q :: _ =>
      simp only [nearerOfTwo]
      split <;> rfl
  have onray : ∀ c c' : ℝ, 1 / 2 < c → 1 / 2 < c' → OnRay s.xr (c, 2) (c', 2) := by
    intro c c' h h'
    refine ⟨(c' - 1 / 2) / (c - 1 / 2), div_nonneg (by linarith) (by linarith), ?_⟩
    have : c - 1 / 2 ≠ 0 := by linarith
    ext
    · simp only [s, StarPoly.make, StarPoly.update, Prod.fst_add, Prod.smul_fst, Prod.fst_sub, smul_eq_mul]
      rw [div_mul_cancel₀ _ this]; ring
    · simp [s, StarPoly.make, StarPoly.update]
  have ring : ∀ x ∈ ({(2, 2), (4, 2), (6, 2)} : Set (Pt ℝ)), OnRing crown x := by
    intro x hx
    rw [← crown_hits] at hx
    exact hx.2
  have form : ∀ x ∈ ({(2, 2), (4, 2), (6, 2)} : Set (Pt ℝ)), ∃ c : ℝ, 1 / 2 < c ∧ x = (c, 2) := by
    rintro x (rfl | rfl | rfl)
    · exact ⟨2, by norm_num, rfl⟩
    · exact ⟨4, by norm_num, rfl⟩
    · exact ⟨6, by norm_num, rfl⟩
  clear hpts
  match pts, hmem, call with
  | [], hmem, _ => exact absurd ((hmem (2, 2)).2 (by simp)) (by simp)
  | [p], hmem, _ =>
    have h1 := (hmem (2, 2)).2 (by simp)
    have h2 := (hmem (4, 2)).2 (by simp)
    rw [List.mem_singleton] at h1 h2
    rw [← h1] at h2
    norm_num at h2
  | p :: q :: l, hmem, call =>
    have hp := (hmem p).1 (by simp)
    have hq := (hmem q).1 (by simp)
    obtain ⟨r, hr, h1, h2⟩ : ∃ r ∈ ({(2, 2), (4, 2), (6, 2)} : Set (Pt ℝ)), p ≠ r ∧ q ≠ r := by
      by_contra hc
      push Not at hc
      have a1 := hc (2, 2) (by simp)
      have a2 := hc (4, 2) (by simp)
      have a3 := hc (6, 2) (by simp)
      simp only [Set.mem_insert_iff, Set.mem_singleton_iff] at hp hq
      rcases hp with rfl | rfl | rfl <;> rcases hq with rfl | rfl | rfl <;>
        first | (norm_num at a1; done) | (norm_num at a2; done) | (norm_num at a3; done)
    obtain ⟨c, hc, rfl⟩ := form r hr
    refine ⟨(c, 2), _, ring _ hr, ?_, ?_, (call c hc).trans rfl, ?_⟩
    · split
      · exact ring p hp
      · exact ring q hq
    · obtain ⟨cp, hcp, ep⟩ := form p hp
      obtain ⟨cq, hcq, eq⟩ := form q hq
      split
      · rw [ep]; exact onray _ _ hc hcp
      · rw [eq]; exact onray _ _ hc hcq
    · split
      · exact h1
      · exact h2

/-! ## C70 -/

/-- `d` is the distance of `x` from the segment from `a` to `b`. -/
def Spec.SegmentDist (a b x : Pt ℝ) (d : ℝ) : Prop :=
  (∃ p, OnSegment a b p ∧ len (p - x) = d) ∧ ∀ p, OnSegment a b p → d ≤ len (p - x)

/-- The vector from `a` to `b` turned by a quarter turn to the right. -/
def Spec.rightOf (a b : Pt ℝ) : Pt ℝ := ((b - a).2, -(b - a).1)

theorem nearest_dist (a b x : Pt ℝ) : SegmentDist a b x (norm2 (nearestOnSegment a b x - x)) := by
  have hlen : ∀ v : Pt ℝ, norm2 v = len v := fun v => rfl
  have mono : ∀ v w : Pt ℝ, normSq v ≤ normSq w → len v ≤ len w := fun v w h => sqrt_le_sqrt h
  unfold nearestOnSegment
  simp only
  set d := b - a with hd
  split
  · rename_i h0
    have h1 : d.1 = 0 := by nlinarith [sq_nonneg d.1, sq_nonneg d.2]
    have h2 : d.2 = 0 := by nlinarith [sq_nonneg d.1, sq_nonneg d.2]
    have hz : d = 0 := Prod.ext h1 h2
    refine ⟨⟨a, ⟨0, le_rfl, zero_le_one, by simp⟩, rfl⟩, ?_⟩
    rintro p ⟨t, _, _, rfl⟩
    rw [← hd, hz, smul_zero, add_zero]; rfl
  · rename_i h0
    have hpos : 0 < d.1 ^ 2 + d.2 ^ 2 := lt_of_le_of_ne (by positivity) (Ne.symm h0)
    set c := ((x.1 - a.1) * d.1 + (x.2 - a.2) * d.2) / (d.1 ^ 2 + d.2 ^ 2) with hc
    have hcm : (x.1 - a.1) * d.1 + (x.2 - a.2) * d.2 = c * (d.1 ^ 2 + d.2 ^ 2) := by
      rw [hc, div_mul_cancel₀ _ h0]
    set m := max 0 (min 1 c) with hm
    have hm0 : 0 ≤ m := le_max_left _ _
    have hm1 : m ≤ 1 := max_le zero_le_one (min_le_left _ _)
    refine ⟨⟨a + m • d, ⟨m, hm0, hm1, rfl⟩, rfl⟩, ?_⟩
    rintro p ⟨t, ht0, ht1, rfl⟩
    rw [hlen]
    apply mono
    rw [← hd]
    simp only [normSq, Prod.fst_sub, Prod.snd_sub, Prod.fst_add, Prod.snd_add, Prod.smul_fst, Prod.smul_snd, smul_eq_mul]
    have key : (m - c) ^ 2 ≤ (t - c) ^ 2 := by
      rcases le_total c 0 with h | h
      · have : m = 0 := by rw [hm, min_eq_right (by linarith), max_eq_left h]
        rw [this]; nlinarith
      · rcases le_total c 1 with h' | h'
        · have : m = c := by rw [hm, min_eq_right h', max_eq_right h]
          rw [this]; nlinarith [sq_nonneg (t - c)]
        · have : m = 1 := by rw [hm, min_eq_left h', max_eq_right zero_le_one]
          rw [this]; nlinarith
    have := mul_le_mul_of_nonneg_right key hpos.le
    nlinarith [this, hcm]

theorem weights_three {a b c : ℝ} (ha : 0 < a) (hb : 0 < b) (hc : 0 < c) :
    let s := 1 / a + (1 / b + (1 / c + 0))
    0 < 1 / a / s ∧ 0 < 1 / b / s ∧ 0 < 1 / c / s ∧ 1 / a / s + 1 / b / s + 1 / c / s = 1 ∧
      1 / a / s * a = 1 / b / s * b ∧ 1 / b / s * b = 1 / c / s * c := by
  intro s
  have hs : 0 < s := by positivity
  have hz : ∀ z : ℝ, z ≠ 0 → 1 / z / s * z = 1 / s := fun z hz => by field_simp
  refine ⟨by positivity, by positivity, by positivity, ?_, ?_, ?_⟩
  · rw [← add_div, ← add_div, show 1 / a + 1 / b + 1 / c = s by simp only [s]; ring, div_self hs.ne']
  · rw [hz a ha.ne', hz b hb.ne']
  · rw [hz b hb.ne', hz c hc.ne']

/-- The weighted mean for sorted arrays, with `ε` added to the distances, see `C70_weights_partial`. -/
theorem weights_of_sorted {ring : List (Pt ℝ)} (hr : ring ≠ []) {s : StarPoly} (hS : Sorted ring s) (x : Pt ℝ) {ε : ℝ}
    (hε : 0 < ε) :
    let n := ring.length
    let edges := (List.range 3).map fun k =>
      (ptAt s.vertices ((vertexIndex s x + 2 * s.vertices.length - 2 + k) % s.vertices.length),
        ptAt s.vertices ((vertexIndex s x + 2 * s.vertices.length - 1 + k) % s.vertices.length))
    let w := edges.map fun e => 1 / (norm2 (nearestOnSegment e.1 e.2 x - x) + ε)
    ∃ i < n, (∃ t, SeenAt s.xr x t ∧ s.vertexAngles.getD i 0 ≤ t ∧ t < s.vertexAngles.getD (i + 1) 0) ∧
      ∃ w0 w1 w2 d0 d1 d2 : ℝ, 0 < w0 ∧ 0 < w1 ∧ 0 < w2 ∧ w0 + w1 + w2 = 1 ∧
        SegmentDist (corner s.vertices (i + n - 1)) (corner s.vertices i) x d0 ∧
        SegmentDist (corner s.vertices i) (corner s.vertices (i + 1)) x d1 ∧
        SegmentDist (corner s.vertices (i + 1)) (corner s.vertices (i + 2)) x d2 ∧
        w0 * (d0 + ε) = w1 * (d1 + ε) ∧ w1 * (d1 + ε) = w2 * (d2 + ε) ∧
        ((edges.zip w).map fun e => (e.2 / w.sum) • edgeNormal e.1.1 e.1.2).sum =
          w0 • rightOf (corner s.vertices (i + n - 1)) (corner s.vertices i) +
            w1 • rightOf (corner s.vertices i) (corner s.vertices (i + 1)) +
            w2 • rightOf (corner s.vertices (i + 1)) (corner s.vertices (i + 2)) := by
  intro n edges w
  obtain ⟨i, hi, hidx, t, ht, ht1, ht2⟩ := vertexIndex_spec hr hS x
  have hl : s.vertices.length = n := hS.perm.length_eq
  have hpos : 0 < n := List.length_pos_iff.2 hr
  refine ⟨i, hi, ⟨t, ?_, ht1, ht2⟩, ?_⟩
  · rcases ht with rfl | rfl
    · exact seenAt_arctan2 _ _
    · have := seenAt_add_two_pi (seenAt_arctan2 s.xr x) 1
      simpa [angleAbout] using this
  -- indices
  have hidx' : ∃ q, vertexIndex s x + q * n = i + 1 ∧ q ≤ 1 := by
    rw [hidx]
    rcases Nat.lt_or_ge (i + 1) n with h | h
    · exact ⟨0, by rw [Nat.mod_eq_of_lt h]; omega, by omega⟩
    · have : i + 1 = n := by omega
      exact ⟨1, by rw [show ring.length = n from rfl, this, Nat.mod_self]; omega, le_rfl⟩
  obtain ⟨q, hq, hq1⟩ := hidx'
  have corner_eq : ∀ j k, (∃ m, j + m * n = k ∨ k + m * n = j) → ptAt s.vertices (j % n) = corner s.vertices k := by
    rintro j k ⟨m, h | h⟩
    · rw [corner, hl, ← h, Nat.add_mul_mod_self_right]; rfl
    · rw [corner, hl, ← h, Nat.add_mul_mod_self_right]; rfl
  have e0 : ptAt s.vertices ((vertexIndex s x + 2 * n - 2 + 0) % n) = corner s.vertices (i + n - 1) :=
    corner_eq _ _ (by
      rcases Nat.le_one_iff_eq_zero_or_eq_one.1 hq1 with rfl | rfl
      · exact ⟨1, Or.inr (by omega)⟩
      · exact ⟨0, Or.inl (by omega)⟩)
  have e1 : ptAt s.vertices ((vertexIndex s x + 2 * n - 1 + 0) % n) = corner s.vertices i :=
    corner_eq _ _ (by
      rcases Nat.le_one_iff_eq_zero_or_eq_one.1 hq1 with rfl | rfl
      · exact ⟨2, Or.inr (by omega)⟩
      · exact ⟨1, Or.inr (by omega)⟩)
  have e2 : ptAt s.vertices ((vertexIndex s x + 2 * n - 1 + 1) % n) = corner s.vertices (i + 1) :=
    corner_eq _ _ (by
      rcases Nat.le_one_iff_eq_zero_or_eq_one.1 hq1 with rfl | rfl
      · exact ⟨2, Or.inr (by omega)⟩
      · exact ⟨1, Or.inr (by omega)⟩)
  have e3 : ptAt s.vertices ((vertexIndex s x + 2 * n - 1 + 2) % n) = corner s.vertices (i + 2) :=
    corner_eq _ _ (by
      rcases Nat.le_one_iff_eq_zero_or_eq_one.1 hq1 with rfl | rfl
      · exact ⟨2, Or.inr (by omega)⟩
      · exact ⟨1, Or.inr (by omega)⟩)
  have e1' : ptAt s.vertices ((vertexIndex s x + 2 * n - 2 + 1) % n) = corner s.vertices i := by
    rw [← e1]; congr 2; omega
  have e2' : ptAt s.vertices ((vertexIndex s x + 2 * n - 2 + 2) % n) = corner s.vertices (i + 1) := by
    rw [← e2]; congr 2; omega
  simp only [w, edges, hl]
  simp only [List.range_succ_eq_map, List.range_zero, List.map_cons, List.map_nil, Nat.succ_eq_add_one, zero_add,
    Nat.reduceAdd, List.zip_cons_cons, List.zip_nil_right, List.sum_cons, List.sum_nil, e0, e1, e2, e3, e1', e2']
  generalize hp0 : corner s.vertices (i + n - 1) = p0
  generalize hp1 : corner s.vertices i = p1
  generalize hp2 : corner s.vertices (i + 1) = p2
  generalize hp3 : corner s.vertices (i + 2) = p3
  have hpd : ∀ v : Pt ℝ, 0 < norm2 v + ε := fun v => by
    have : 0 ≤ norm2 v := sqrt_nonneg _
    positivity
  obtain ⟨w0, w1, w2, hsum, h01, h12⟩ := weights_three (hpd (nearestOnSegment p0 p1 x - x))
    (hpd (nearestOnSegment p1 p2 x - x)) (hpd (nearestOnSegment p2 p3 x - x))
  refine ⟨_, _, _, _, _, _, w0, w1, w2, hsum, nearest_dist _ _ _, nearest_dist _ _ _, nearest_dist _ _ _, h01, h12, ?_⟩
  have hen : ∀ a b : Pt ℝ, edgeNormal a b = rightOf a b := fun a b => by
    simp [edgeNormal, rightOf]
  simp only [hen, add_zero, ← add_assoc]

/-- C70, the true part: in every reachable state `normal(x, type='weighted_edges')` is a mean of the three edges
around the direction of `x`, each turned to the right, with positive weights that add up to one and are inversely
proportional to the distance of `x` from the edge plus 10⁻⁶. What is missing: the mean is not normalised,
see `C70_unit_false`. -/
theorem C70_weights_partial (argsort : List ℝ → List Nat) (ha : IsArgsort argsort) (mm : Option Pose)
    (ring : List (Pt ℝ)) (hr : ring ≠ []) (xr : Pt ℝ) (ops : List StarOp) (f g : Frame) (hf : f.Valid) (hg : g.Valid)
    (x : Pt ℝ) :
    let s := (StarPoly.make argsort mm ring xr).run argsort ops
    let n := ring.length
    ∃ i < n, (∃ t, SeenAt s.xr x t ∧ s.vertexAngles.getD i 0 ≤ t ∧ t < s.vertexAngles.getD (i + 1) 0) ∧
      ∃ w0 w1 w2 d0 d1 d2 : ℝ, 0 < w0 ∧ 0 < w1 ∧ 0 < w2 ∧ w0 + w1 + w2 = 1 ∧
        SegmentDist (corner s.vertices (i + n - 1)) (corner s.vertices i) x d0 ∧
        SegmentDist (corner s.vertices i) (corner s.vertices (i + 1)) x d1 ∧
        SegmentDist (corner s.vertices (i + 1)) (corner s.vertices (i + 2)) x d2 ∧
        w0 * (d0 + 1 / 10 ^ 6) = w1 * (d1 + 1 / 10 ^ 6) ∧ w1 * (d1 + 1 / 10 ^ 6) = w2 * (d2 + 1 / 10 ^ 6) ∧
        s.normal (inFrame s.mm f x) f g .weightedEdges = .ok (inFrame s.mm g
          (w0 • rightOf (corner s.vertices (i + n - 1)) (corner s.vertices i) +
            w1 • rightOf (corner s.vertices i) (corner s.vertices (i + 1)) +
            w2 • rightOf (corner s.vertices (i + 1)) (corner s.vertices (i + 2))) - inFrame s.mm g 0) := by
  intro s n
  obtain ⟨i, hi, ht, w0, w1, w2, d0, d1, d2, h0, h1, h2, hsum, hd0, hd1, hd2, h01, h12, e⟩ := weights_of_sorted hr
    (run_sorted ha ops (update_sorted ha _ rfl (List.Perm.refl _)) : Sorted ring s) x (show (0 : ℝ) < 1 / 10 ^ 6 by norm_num)
  refine ⟨i, hi, ht, w0, w1, w2, d0, d1, d2, h0, h1, h2, hsum, hd0, hd1, hd2, h01, h12, ?_⟩
  rw [← e, ← rotate_from_obstacle _ _ hg]
  simp only [StarPoly.normal, transform_to_obstacle _ _ hf, bind, Except.bind]
  rfl

/-- The point (1, 1) has distance 1 from all sides of the triangle (0, 0), (4, 0), (0, 3). -/
theorem incentre_dist {p q : Pt ℝ} (hp : p ∈ [((0, 0) : Pt ℝ), (4, 0), (0, 3)]) (hq : q ∈ [((0, 0) : Pt ℝ), (4, 0), (0, 3)])
    (hne : p ≠ q) {d : ℝ} (h : SegmentDist p q (1, 1) d) : d = 1 := by
  have key : (∃ r, OnSegment p q r ∧ normSq (r - (1, 1)) = 1) ∧ ∀ r, OnSegment p q r → 1 ≤ normSq (r - (1, 1)) := by
    have f1 : ∀ t : ℝ, 1 ≤ (t * 4 - 1) ^ 2 + (1 : ℝ) := fun t => by nlinarith [sq_nonneg (t * 4 - 1)]
    simp only [List.mem_cons, List.not_mem_nil, or_false] at hp hq
    rcases hp with rfl | rfl | rfl <;> rcases hq with rfl | rfl | rfl
    · exact absurd rfl hne
    · refine ⟨⟨_, ⟨1 / 4, by norm_num, by norm_num, rfl⟩, by simp [normSq]⟩, ?_⟩
      rintro r ⟨t, _, _, rfl⟩; simp [normSq]; positivity
    · refine ⟨⟨_, ⟨1 / 3, by norm_num, by norm_num, rfl⟩, by simp [normSq]⟩, ?_⟩
      rintro r ⟨t, _, _, rfl⟩; simp [normSq]; positivity
    · refine ⟨⟨_, ⟨3 / 4, by norm_num, by norm_num, rfl⟩, by simp [normSq]; norm_num⟩, ?_⟩
      rintro r ⟨t, _, _, rfl⟩; simp [normSq]; positivity
    · exact absurd rfl hne
    · refine ⟨⟨_, ⟨3 / 5, by norm_num, by norm_num, rfl⟩, by simp [normSq]; norm_num⟩, ?_⟩
      rintro r ⟨t, _, _, rfl⟩; simp [normSq]; nlinarith [sq_nonneg (5 * t - 3)]
    · refine ⟨⟨_, ⟨2 / 3, by norm_num, by norm_num, rfl⟩, by simp [normSq]; norm_num⟩, ?_⟩
      rintro r ⟨t, _, _, rfl⟩; simp [normSq]; positivity
    · refine ⟨⟨_, ⟨2 / 5, by norm_num, by norm_num, rfl⟩, by simp [normSq]; norm_num⟩, ?_⟩
      rintro r ⟨t, _, _, rfl⟩; simp [normSq]; nlinarith [sq_nonneg (5 * t - 2)]
    · exact absurd rfl hne
  obtain ⟨⟨r, hr, hr1⟩, hall⟩ := key
  obtain ⟨⟨r', hr', hd⟩, hmin⟩ := h
  have h1 : len (r - (1, 1)) = 1 := by rw [len, hr1, sqrt_one]
  have h2 : 1 ≤ len (r' - (1, 1)) := by rw [len]; exact one_le_sqrt.2 (hall r' hr')
  have := hmin r hr
  linarith

/-- C70 is false: from the incentre of a triangle `normal(x, type='weighted_edges')` is the zero vector, wherever the
reference point is and has been. -/
theorem C70_unit_false (argsort : List ℝ → List Nat) (ha : IsArgsort argsort) (xr : Pt ℝ) (ops : List StarOp) :
    let s := (StarPoly.make argsort none [(0, 0), (4, 0), (0, 3)] xr).run argsort ops
    s.normal (inFrame s.mm .obstacle (1, 1)) .obstacle .obstacle .weightedEdges = .ok (0, 0) := by
  intro s
  obtain ⟨i, hi, _, w0, w1, w2, d0, d1, d2, _, _, _, hsum, hd0, hd1, hd2, h01, h12, hn⟩ :=
    C70_weights_partial argsort ha none [(0, 0), (4, 0), (0, 3)] (by simp) xr ops .obstacle .obstacle (Or.inr rfl)
      (Or.inr rfl) (1, 1)
  change SegmentDist (corner s.vertices (i + 3 - 1)) (corner s.vertices i) (1, 1) d0 at hd0
  change SegmentDist (corner s.vertices i) (corner s.vertices (i + 1)) (1, 1) d1 at hd1
  change SegmentDist (corner s.vertices (i + 1)) (corner s.vertices (i + 2)) (1, 1) d2 at hd2
  change s.normal (inFrame s.mm .obstacle (1, 1)) .obstacle .obstacle .weightedEdges = _ at hn
  rw [hn]
  have hS : Sorted [(0, 0), (4, 0), (0, 3)] s := run_sorted ha ops (update_sorted ha _ rfl (List.Perm.refl _))
  have hperm := hS.perm
  have hlen : s.vertices.length = 3 := hperm.length_eq
  have hnd : s.vertices.Nodup := hperm.nodup_iff.2 (by norm_num)
  have hmem : ∀ j, corner s.vertices j ∈ [((0, 0) : Pt ℝ), (4, 0), (0, 3)] := fun j =>
    hperm.mem_iff.1 (corner_mem (by rw [← List.length_pos_iff]; omega) j)
  have hne : ∀ j k, j % 3 ≠ k % 3 → corner s.vertices j ≠ corner s.vertices k := by
    intro j k hjk h
    simp only [corner, hlen] at h
    rw [List.getD_eq_getElem _ _ (by omega), List.getD_eq_getElem _ _ (by omega)] at h
    exact hjk ((List.Nodup.getElem_inj_iff hnd).1 h)
  have e0 := incentre_dist (hmem _) (hmem _) (hne _ _ (by omega)) hd0
  have e1 := incentre_dist (hmem _) (hmem _) (hne _ _ (by omega)) hd1
  have e2 := incentre_dist (hmem _) (hmem _) (hne _ _ (by omega)) hd2
  rw [e0, e1] at h01
  rw [e1, e2] at h12
  have hw0 : w0 = 1 / 3 := by linarith
  have hw1 : w1 = 1 / 3 := by linarith
  have hw2 : w2 = 1 / 3 := by linarith
  have hc : corner s.vertices (i + 2) = corner s.vertices (i + 3 - 1) := by congr 1
  change Except.ok (w0 • rightOf (corner s.vertices (i + 3 - 1)) (corner s.vertices i) +
    w1 • rightOf (corner s.vertices i) (corner s.vertices (i + 1)) +
    w2 • rightOf (corner s.vertices (i + 1)) (corner s.vertices (i + 2)) - 0) = _
  rw [hc, hw0, hw1, hw2]
  congr 1
  ext <;> simp [rightOf] <;> ring

end Starworlds
