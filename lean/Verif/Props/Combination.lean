import Verif.Model.Combination
import Verif.Spec.Combination
import Verif.Props.StarPolygonDistance

/-! # C42, C43, C44: StarshapedPrimitiveCombination -/

namespace Starworlds

open Real Spec

/-! ## C42 -/

theorem mapM_exists {α β : Type} (f : α → Except PyErr β) : ∀ l : List α, (∀ a ∈ l, ∃ b, f a = .ok b) →
    ∃ L, l.mapM f = .ok L ∧ (∀ b, b ∈ L ↔ ∃ a ∈ l, f a = .ok b) ∧ L.length = l.length ∧
      ∀ (i : ℕ) (a : α), l[i]? = some a → ∃ b, L[i]? = some b ∧ f a = .ok b
  | [], _ => ⟨[], rfl, by simp, rfl, by simp⟩
  | a :: l, h => by
    obtain ⟨b, hb⟩ := h a List.mem_cons_self
    obtain ⟨L, hL, hmem, hlen, hidx⟩ := mapM_exists f l fun c hc => h c (List.mem_cons_of_mem _ hc)
    refine ⟨b :: L, ?_, ?_, by simp [hlen], ?_⟩
    · simp [List.mapM_cons, hb, hL, bind, Except.bind, pure, Except.pure]
    · intro c
      simp only [List.mem_cons, hmem]
      constructor
      · rintro (rfl | ⟨d, hd, e⟩)
        · exact ⟨a, Or.inl rfl, hb⟩
        · exact ⟨d, Or.inr hd, e⟩
      · rintro ⟨d, rfl | hd, e⟩
        · rw [hb] at e; injection e with e; exact Or.inl e.symm
        · exact Or.inr ⟨d, hd, e⟩
    · intro i c hc
      cases i with
      | zero =>
        simp only [List.getElem?_cons_zero, Option.some.injEq] at hc ⊢
        subst hc
        exact ⟨b, rfl, hb⟩
      | succ i =>
        simp only [List.getElem?_cons_succ] at hc ⊢
        exact hidx i c hc

theorem mapM_error {α β : Type} (f : α → Except PyErr β) : ∀ l : List α, (∃ L, l.mapM f = .ok L) → ∀ a ∈ l, ∃ b, f a = .ok b
  | [], _, a, ha => by simp at ha
  | c :: l, h, a, ha => by
    obtain ⟨L, hL⟩ := h
    simp only [List.mapM_cons, bind, Except.bind, pure, Except.pure] at hL
    cases hc : f c with
    | error e => rw [hc] at hL; simp at hL
    | ok b =>
      rw [hc] at hL
      rcases List.mem_cons.1 ha with rfl | ha
      · exact ⟨b, hc⟩
      · refine mapM_error f l ?_ a ha
        cases hl : l.mapM f with
        | error e => simp only [hl] at hL; simp at hL
        | ok L' => exact ⟨L', rfl⟩

/-- C42: the combination reports interior exactly when some member or the hull does, boundary exactly when none
reports interior and some reports boundary, and exterior exactly when all report exterior. -/
theorem C42_union (c : Combination) (x : Pt ℝ) (hdef : ∀ o ∈ c.members, ∃ l, o.pointLocation x = .ok l) :
    ∃ r, c.pointLocation x = .ok r ∧ (r = -1 ∨ r = 0 ∨ r = 1) ∧
      (r = -1 ↔ (∃ o ∈ c.members, ∃ l < 0, o.pointLocation x = .ok l) ∨ ∃ h, c.hull = some h ∧ h.contains x = true) ∧
      (r = 0 ↔ (¬ ((∃ o ∈ c.members, ∃ l < 0, o.pointLocation x = .ok l) ∨ ∃ h, c.hull = some h ∧ h.contains x = true)) ∧
        ((∃ o ∈ c.members, o.pointLocation x = .ok 0) ∨
          ∃ h, c.hull = some h ∧ h.contains x = false ∧ h.disjoint x = false)) ∧
      (r = 1 ↔ (∀ o ∈ c.members, ∀ l, o.pointLocation x = .ok l → 0 < l) ∧
        ∀ h, c.hull = some h → h.contains x = false ∧ h.disjoint x = true) := by
  obtain ⟨L, hL, hmem, _⟩ := mapM_exists (fun o : Member => o.pointLocation x) c.members hdef
  have hneg : (c.hullLocation x < 0 ↔ ∃ h, c.hull = some h ∧ h.contains x = true) := by
    unfold Combination.hullLocation
    cases hh : c.hull with
    | none => simp
    | some h =>
      simp only [Option.some.injEq, exists_eq_left']
      split
      · rename_i h1; simp [h1]
      · rename_i h1
        split <;> simp [h1]
  have hzero : (c.hullLocation x = 0 ↔ ∃ h, c.hull = some h ∧ h.contains x = false ∧ h.disjoint x = false) := by
    unfold Combination.hullLocation
    cases hh : c.hull with
    | none => simp
    | some h =>
      simp only [Option.some.injEq, exists_eq_left']
      split
      · rename_i h1; simp [h1]
      · rename_i h1
        split
        · rename_i h2; simp [h2]
        · rename_i h2; simp [h1, h2]
  have hpos : (0 < c.hullLocation x ↔ ∀ h, c.hull = some h → h.contains x = false ∧ h.disjoint x = true) := by
    unfold Combination.hullLocation
    cases hh : c.hull with
    | none => simp
    | some h =>
      simp only [Option.some.injEq, forall_eq']
      split
      · rename_i h1; simp [h1]
      · rename_i h1
        split
        · rename_i h2; simp [h1, h2]
        · rename_i h2; simp [h2]
  have hany1 : ((L ++ [c.hullLocation x]).any fun l => decide (l < 0)) = true ↔
      ((∃ o ∈ c.members, ∃ l < 0, o.pointLocation x = .ok l) ∨ ∃ h, c.hull = some h ∧ h.contains x = true) := by
    rw [← hneg, List.any_append, Bool.or_eq_true, List.any_eq_true]
    simp only [decide_eq_true_eq, hmem, List.any_cons, List.any_nil, Bool.or_false]
    constructor
    · rintro (⟨l, ⟨o, ho, e⟩, hl⟩ | h)
      · exact Or.inl ⟨o, ho, l, hl, e⟩
      · exact Or.inr h
    · rintro (⟨o, ho, l, hl, e⟩ | h)
      · exact Or.inl ⟨l, ⟨o, ho, e⟩, hl⟩
      · exact Or.inr h
  have hany2 : ((L ++ [c.hullLocation x]).any fun l => decide (l = 0)) = true ↔
      ((∃ o ∈ c.members, o.pointLocation x = .ok 0) ∨ ∃ h, c.hull = some h ∧ h.contains x = false ∧ h.disjoint x = false) := by
    rw [← hzero, List.any_append, Bool.or_eq_true, List.any_eq_true]
    simp only [decide_eq_true_eq, hmem, List.any_cons, List.any_nil, Bool.or_false]
    constructor
    · rintro (⟨l, ⟨o, ho, e⟩, rfl⟩ | h)
      · exact Or.inl ⟨o, ho, e⟩
      · exact Or.inr h
    · rintro (⟨o, ho, e⟩ | h)
      · exact Or.inl ⟨0, ⟨o, ho, e⟩, rfl⟩
      · exact Or.inr h
  have hall : ((∀ o ∈ c.members, ∀ l, o.pointLocation x = .ok l → 0 < l) ∧
      ∀ h, c.hull = some h → h.contains x = false ∧ h.disjoint x = true) ↔
      ¬ ((L ++ [c.hullLocation x]).any fun l => decide (l < 0)) = true ∧
      ¬ ((L ++ [c.hullLocation x]).any fun l => decide (l = 0)) = true := by
    rw [← hpos]
    simp only [List.any_append, Bool.or_eq_true, List.any_eq_true, decide_eq_true_eq, hmem, List.any_cons, List.any_nil,
      Bool.or_false, not_or, not_exists, not_and, not_lt]
    constructor
    · rintro ⟨h1, h2⟩
      exact ⟨⟨fun l ⟨o, ho, e⟩ => (h1 o ho l e).le, h2.le⟩, fun l ⟨o, ho, e⟩ => (h1 o ho l e).ne', h2.ne'⟩
    · rintro ⟨⟨h1, h2⟩, h3, h4⟩
      exact ⟨fun o ho l e => lt_of_le_of_ne (h1 l ⟨o, ho, e⟩) (Ne.symm (h3 l ⟨o, ho, e⟩)), lt_of_le_of_ne h2 (Ne.symm h4)⟩
  rw [← hany1, ← hany2, hall]
  simp only [Combination.pointLocation, hL, bind, Except.bind]
  generalize ((L ++ [c.hullLocation x]).any fun l => decide (l < 0)) = b1
  generalize ((L ++ [c.hullLocation x]).any fun l => decide (l = 0)) = b2
  cases b1 <;> cases b2 <;> simp <;> norm_num

/-- C42: the call raises exactly when some member raises. -/
theorem C42_defined (c : Combination) (x : Pt ℝ) :
    (∃ r, c.pointLocation x = .ok r) ↔ ∀ o ∈ c.members, ∃ l, o.pointLocation x = .ok l := by
  constructor
  · rintro ⟨r, hr⟩
    apply mapM_error (fun o : Member => o.pointLocation x)
    simp only [Combination.pointLocation, bind, Except.bind] at hr
    cases h : c.members.mapM fun o => o.pointLocation x with
    | error e => rw [h] at hr; simp at hr
    | ok L => exact ⟨L, rfl⟩
  · intro h
    obtain ⟨r, hr, _⟩ := C42_union c x h
    exact ⟨r, hr⟩

/-- A member that reports a fixed location everywhere. -/
def constMember (l : ℝ) : Member where
  pointLocation _ := .ok l
  lineIntersection _ _ := .ok []
  tangentPoints _ := .ok []
  vel _ := .ok (0, 0)
  normal _ := .ok (1, 0)

/-- Exterior, boundary and interior of three combinations. -/
example : (∀ x, (Combination.mk [constMember 1, constMember 1] none 0).pointLocation x = .ok 1) ∧
    (∀ x, (Combination.mk [constMember 1, constMember 0] none 0).pointLocation x = .ok 0) ∧
    (∀ x, (Combination.mk [constMember 0, constMember 1] (some ⟨fun _ => true, fun _ => false, none⟩) 0).pointLocation x =
      .ok (-1)) := by
  refine ⟨fun x => ?_, fun x => ?_, fun x => ?_⟩ <;>
    simp [Combination.pointLocation, Combination.hullLocation, constMember, List.mapM_cons, bind, Except.bind, pure,
      Except.pure]

/-! ## C43 -/

theorem normSq_convex (u v : Pt ℝ) {t : ℝ} (h0 : 0 ≤ t) (h1 : t ≤ 1) :
    normSq (u + t • (v - u)) ≤ max (normSq u) (normSq v) := by
  have e : normSq (u + t • (v - u)) = (1 - t) * normSq u + t * normSq v - t * (1 - t) * normSq (v - u) := by
    simp only [normSq, Prod.fst_add, Prod.snd_add, Prod.smul_fst, Prod.smul_snd, Prod.fst_sub, Prod.snd_sub, smul_eq_mul]
    ring
  have h2 : 0 ≤ t * (1 - t) * normSq (v - u) :=
    mul_nonneg (mul_nonneg h0 (by linarith)) (by simp only [normSq]; positivity)
  have h3 := le_max_left (normSq u) (normSq v)
  have h4 := le_max_right (normSq u) (normSq v)
  rw [e]
  nlinarith

theorem path_far {l : List (Pt ℝ)} {q a : Pt ℝ} (h : q ∈ pathPoints l) : ∃ p ∈ l, len (q - a) ≤ len (p - a) := by
  obtain ⟨i, hi, t, h0, h1, rfl⟩ := h
  have m1 : l.getD i 0 ∈ l := by rw [List.getD_eq_getElem _ _ (by omega)]; exact List.getElem_mem _
  have m2 : l.getD (i + 1) 0 ∈ l := by rw [List.getD_eq_getElem _ _ hi]; exact List.getElem_mem _
  generalize l.getD i 0 = u at *
  generalize l.getD (i + 1) 0 = v at *
  have e : u + t • (v - u) - a = (u - a) + t • ((v - a) - (u - a)) := by
    rw [sub_sub_sub_cancel_right]; abel
  have := normSq_convex (u - a) (v - a) h0 h1
  rw [← e] at this
  rcases le_max_iff.1 this with h | h
  · exact ⟨u, m1, sqrt_le_sqrt h⟩
  · exact ⟨v, m2, sqrt_le_sqrt h⟩

/-- The points taken from shapely's intersection of a segment and a set describe where they meet. -/
theorem geomPoints_crossings {B : Set (Pt ℝ)} {a b : Pt ℝ} {g : Geom} (h : GeomIs g {p | OnSegment a b p ∧ p ∈ B})
    (hg : g ≠ .collection) : ∃ L, geomPoints g = .ok L ∧ Crossings B a b L := by
  have conv : ∀ {L : List (Pt ℝ)} {S : Set (Pt ℝ)}, S = {p | OnSegment a b p ∧ p ∈ B} → (∀ p ∈ L, p ∈ S) →
      (∀ q ∈ S, ∃ p ∈ L, len (q - a) ≤ len (p - a)) → Crossings B a b L := by
    rintro L S rfl h1 h2
    exact ⟨fun p hp => h1 p hp, fun q hq hs => h2 q ⟨hs, hq⟩⟩
  cases g with
  | empty => exact ⟨[], rfl, conv (show ∅ = _ from h.symm) (by simp) (by simp)⟩
  | point p => exact ⟨[p], rfl, conv (show {p} = _ from h.symm) (by simp) (by simp)⟩
  | multiPoint l =>
    exact ⟨l, rfl, conv h.1.symm (fun p hp => hp) (fun q hq => ⟨q, hq, le_rfl⟩)⟩
  | lineString l =>
    obtain ⟨h1, p, hp, r, hr, hne⟩ := h
    exact ⟨l, rfl, conv h1.symm (fun p' hp' => node_mem_path (two_le_of_ne hp hr hne) hp') (fun q hq => path_far hq)⟩
  | multiLineString ls =>
    obtain ⟨h1, h2, h3⟩ := h
    refine ⟨ls.flatten, rfl, conv h1.symm ?_ ?_⟩
    · intro p' hp'
      obtain ⟨l, hl, hp'⟩ := List.mem_flatten.1 hp'
      obtain ⟨p, hp, r, hr, hne⟩ := h3 l hl
      exact ⟨l, hl, node_mem_path (two_le_of_ne hp hr hne) hp'⟩
    · rintro q ⟨l, hl, hq⟩
      obtain ⟨p, hp, hle⟩ := path_far (a := a) hq
      exact ⟨p, List.mem_flatten.2 ⟨l, hl, hp⟩, hle⟩
  | collection => exact absurd rfl hg

theorem hullIntersections_eq {c : Combination} {h : HullGeom} {ix : Pt ℝ → Pt ℝ → Geom} (hh : c.hull = some h)
    (he : h.exterior = some ix) {a b : Pt ℝ} {L : List (Pt ℝ)} (hL : geomPoints (ix a b) = .ok L) :
    c.hullIntersections a b = .ok (some L) := by
  simp only [Combination.hullIntersections, hh, he]
  cases hg : ix a b <;> rw [hg] at hL <;> simp [geomPoints] at hL ⊢ <;> exact hL

/-- What is assumed of the parts of a combination for a test segment from `xr` to `b`: each member finds where the
segment meets its boundary `B o`, and shapely does for the boundary `H` of the hull (no hull: `H` is empty). -/
structure Parts (c : Combination) (B : Member → Set (Pt ℝ)) (H : Set (Pt ℝ)) (b : Pt ℝ) : Prop where
  member : ∀ o ∈ c.members, ∃ L, o.lineIntersection c.xr b = .ok L ∧ Crossings (B o) c.xr b L
  hull : (c.hull = none ∧ H = ∅) ∨ ∃ h ix, c.hull = some h ∧ h.exterior = some ix ∧ ix c.xr b ≠ .collection ∧
    GeomIs (ix c.xr b) {p | OnSegment c.xr b p ∧ p ∈ H}

/-- The boundaries of all parts. -/
def allOf (c : Combination) (B : Member → Set (Pt ℝ)) (H : Set (Pt ℝ)) : Set (Pt ℝ) :=
  {p | (∃ o ∈ c.members, p ∈ B o) ∨ p ∈ H}

theorem lineIntersection_parts {c : Combination} {B : Member → Set (Pt ℝ)} {H : Set (Pt ℝ)} {b : Pt ℝ}
    (h : Parts c B H b) : ∃ L, c.lineIntersection c.xr b = .ok L ∧ Crossings (allOf c B H) c.xr b L := by
  obtain ⟨Ls, hLs, hmem, _⟩ := mapM_exists (fun o : Member => o.lineIntersection c.xr b) c.members
    (fun o ho => (h.member o ho).imp fun L hL => hL.1)
  have hhull : ∃ L, c.hullIntersections c.xr b = .ok (some L) ∧ Crossings H c.xr b L := by
    rcases h.hull with ⟨h1, rfl⟩ | ⟨g, ix, h1, h2, h3, h4⟩
    · exact ⟨[], by simp [Combination.hullIntersections, h1], by simp [Crossings]⟩
    · obtain ⟨L, hL, hc⟩ := geomPoints_crossings h4 h3
      exact ⟨L, hullIntersections_eq h1 h2 hL, hc⟩
  obtain ⟨HL, hHL, hH⟩ := hhull
  refine ⟨Ls.flatten ++ HL, by simp only [Combination.lineIntersection, hLs, hHL, bind, Except.bind], ?_, ?_⟩
  · intro p hp
    rcases List.mem_append.1 hp with hp | hp
    · obtain ⟨l, hl, hp⟩ := List.mem_flatten.1 hp
      obtain ⟨o, ho, e⟩ := (hmem l).1 hl
      obtain ⟨L, hL, hc⟩ := h.member o ho
      rw [hL] at e
      injection e with e
      subst e
      exact ⟨(hc.1 p hp).1, Or.inl ⟨o, ho, (hc.1 p hp).2⟩⟩
    · exact ⟨(hH.1 p hp).1, Or.inr (hH.1 p hp).2⟩
  · rintro q (⟨o, ho, hq⟩ | hq) hs
    · obtain ⟨L, hL, hc⟩ := h.member o ho
      obtain ⟨p, hp, hle⟩ := hc.2 q hq hs
      exact ⟨p, List.mem_append_left _ (List.mem_flatten.2 ⟨L, (hmem L).2 ⟨o, ho, hL⟩, hp⟩), hle⟩
    · obtain ⟨p, hp, hle⟩ := hH.2 q hq hs
      exact ⟨p, List.mem_append_right _ hp, hle⟩

theorem norm2_eq_len (v : Pt ℝ) : norm2 v = len v := rfl

/-- C43: `boundary_mapping(x)` is the point farthest from `xr` among those where the segment from `xr` to
`xr + 10 (x - xr)` meets the boundaries of the members and the hull; it is None exactly when there are none. -/
theorem C43_farthest (c : Combination) (B : Member → Set (Pt ℝ)) (H : Set (Pt ℝ)) (x : Pt ℝ)
    (h : Parts c B H (c.xr + (10 : ℝ) • (x - c.xr))) :
    ∃ r, c.boundaryMapping x = .ok r ∧
      (r = none ↔ ∀ q ∈ allOf c B H, ¬ OnSegment c.xr (c.xr + (10 : ℝ) • (x - c.xr)) q) ∧
      ∀ p, r = some p → p ∈ allOf c B H ∧ OnSegment c.xr (c.xr + (10 : ℝ) • (x - c.xr)) p ∧ OnRay c.xr x p ∧
        ∀ q ∈ allOf c B H, OnSegment c.xr (c.xr + (10 : ℝ) • (x - c.xr)) q → len (q - c.xr) ≤ len (p - c.xr) := by
  obtain ⟨L, hL, hc1, hc2⟩ := lineIntersection_parts h
  simp only [Combination.boundaryMapping, Combination.testEnd, hL, bind, Except.bind]
  cases L with
  | nil =>
    refine ⟨none, rfl, ⟨fun _ q hq hs => ?_, fun _ => rfl⟩, by simp⟩
    obtain ⟨p, hp, _⟩ := hc2 q hq hs
    simp at hp
  | cons a l =>
    set pts := a :: l with hpts
    have hne : pts.map (fun p => norm2 (p - c.xr)) ≠ [] := by simp [hpts]
    obtain ⟨h1, h2⟩ := argmaxIdx_spec _ hne
    simp only [List.length_map] at h1 h2
    set m := argmaxIdx (pts.map fun p => norm2 (p - c.xr)) with hm
    have hpm : ptAt pts m = pts[m] := List.getD_eq_getElem _ _ h1
    have hmem : ptAt pts m ∈ pts := by rw [hpm]; exact List.getElem_mem _
    have hmax : ∀ p ∈ pts, len (p - c.xr) ≤ len (ptAt pts m - c.xr) := by
      intro p hp
      obtain ⟨i, hi, rfl⟩ := List.mem_iff_getElem.1 hp
      have := h2 i hi
      rw [List.getD_eq_getElem _ _ (by simpa using hi), List.getD_eq_getElem _ _ (by simpa using h1), List.getElem_map,
        List.getElem_map] at this
      rw [hpm]
      exact this
    refine ⟨some (ptAt pts m), rfl, ?_, ?_⟩
    · simp only [reduceCtorEq, false_iff, not_forall, not_not]
      exact ⟨ptAt pts m, (hc1 _ hmem).2, (hc1 _ hmem).1⟩
    · rintro p ⟨rfl⟩
      refine ⟨(hc1 _ hmem).2, (hc1 _ hmem).1, ?_, ?_⟩
      · obtain ⟨t, h0, _, e⟩ := (hc1 _ hmem).1
        refine ⟨t * 10, by positivity, ?_⟩
        rw [e, add_sub_cancel_left, smul_smul]
      · intro q hq hs
        obtain ⟨p, hp, hle⟩ := hc2 q hq hs
        exact hle.trans (hmax p hp)

/-- C43 (partial): two points in the same direction from `xr` get the same value, if the test segments of both reach
every point of the boundaries in that direction. Missing: points closer to `xr` than a tenth of the distance of the
boundary (`C43_near_false`). -/
theorem C43_direction_partial (c : Combination) (B : Member → Set (Pt ℝ)) (H : Set (Pt ℝ)) (x : Pt ℝ) (k : ℝ) (hk : 0 < k)
    (h : Parts c B H (c.xr + (10 : ℝ) • (x - c.xr)))
    (h' : Parts c B H (c.xr + (10 : ℝ) • (c.xr + k • (x - c.xr) - c.xr)))
    (hreach : ∀ q ∈ allOf c B H, OnRay c.xr x q → len (q - c.xr) ≤ 10 * len (x - c.xr) ∧
      len (q - c.xr) ≤ 10 * (k * len (x - c.xr))) :
    c.boundaryMapping (c.xr + k • (x - c.xr)) = c.boundaryMapping x := by
  obtain ⟨r, hr, hr1, hr2⟩ := C43_farthest c B H x h
  obtain ⟨r', hr', hr1', hr2'⟩ := C43_farthest c B H _ h'
  rw [hr, hr']
  congr 1
  by_cases hx : x = c.xr
  · subst hx
    simp only [sub_self, smul_zero, add_zero] at hr'
    rw [hr] at hr'
    injection hr' with e
    exact e.symm
  -- lengths along the ray
  have hpos : 0 < len (x - c.xr) := by
    refine sqrt_pos.2 ?_
    have h0 : 0 ≤ normSq (x - c.xr) := by simp only [normSq]; positivity
    rcases h0.eq_or_lt with h0 | h0
    · exfalso
      apply hx
      simp only [normSq, Prod.fst_sub, Prod.snd_sub] at h0
      have h1 : x.1 - c.xr.1 = 0 := by nlinarith [sq_nonneg (x.1 - c.xr.1), sq_nonneg (x.2 - c.xr.2)]
      have h2 : x.2 - c.xr.2 = 0 := by nlinarith [sq_nonneg (x.1 - c.xr.1), sq_nonneg (x.2 - c.xr.2)]
      ext <;> linarith
    · exact h0
  have hlen : ∀ t : ℝ, 0 ≤ t → len (c.xr + t • (x - c.xr) - c.xr) = t * len (x - c.xr) := by
    intro t ht
    have e : normSq (c.xr + t • (x - c.xr) - c.xr) = t ^ 2 * normSq (x - c.xr) := by
      simp only [normSq, Prod.fst_add, Prod.snd_add, Prod.smul_fst, Prod.smul_snd, Prod.fst_sub, Prod.snd_sub, smul_eq_mul]
      ring
    rw [len, e, sqrt_mul (by positivity), sqrt_sq ht, len]
  -- the crossings of the two test segments are the crossings of the ray
  have seg1 : ∀ q, q ∈ allOf c B H → (OnSegment c.xr (c.xr + (10 : ℝ) • (x - c.xr)) q ↔ OnRay c.xr x q) := by
    intro q hq
    constructor
    · rintro ⟨t, h0, _, e⟩
      exact ⟨t * 10, by positivity, by rw [e, add_sub_cancel_left, smul_smul]⟩
    · intro hray
      have hle := (hreach q hq hray).1
      obtain ⟨t, h0, e⟩ := hray
      rw [e, hlen t h0] at hle
      have : t ≤ 10 := le_of_mul_le_mul_right hle hpos
      exact ⟨t / 10, by positivity, by linarith, by rw [e, add_sub_cancel_left, smul_smul]; congr 2; ring⟩
  have seg2 : ∀ q, q ∈ allOf c B H →
      (OnSegment c.xr (c.xr + (10 : ℝ) • (c.xr + k • (x - c.xr) - c.xr)) q ↔ OnRay c.xr x q) := by
    intro q hq
    constructor
    · rintro ⟨t, h0, _, e⟩
      exact ⟨t * (10 * k), by positivity, by rw [e, add_sub_cancel_left, add_sub_cancel_left, smul_smul, smul_smul, mul_assoc]⟩
    · intro hray
      have hle := (hreach q hq hray).2
      obtain ⟨t, h0, e⟩ := hray
      rw [e, hlen t h0, ← mul_assoc] at hle
      have : t ≤ 10 * k := le_of_mul_le_mul_right hle hpos
      refine ⟨t / (10 * k), by positivity, (div_le_one (by positivity)).2 this, ?_⟩
      rw [e, add_sub_cancel_left, add_sub_cancel_left, smul_smul, smul_smul]
      congr 2
      field_simp
  cases r with
  | none =>
    have h0 := hr1.1 rfl
    refine hr1'.2 ?_
    intro q hq hs
    exact h0 q hq ((seg1 q hq).2 ((seg2 q hq).1 hs))
  | some p =>
    obtain ⟨p1, p2, p3, p4⟩ := hr2 p rfl
    cases r' with
    | none => exact absurd ((seg2 p p1).2 p3) (hr1'.1 rfl p p1)
    | some p' =>
      obtain ⟨p1', p2', _, p4'⟩ := hr2' p' rfl
      have p3' := (seg2 p' p1').1 p2'
      have e1 := p4 p' p1' ((seg1 p' p1').2 p3')
      have e2 := p4' p p1 ((seg2 p p1).2 p3)
      have e := le_antisymm e1 e2
      obtain ⟨t, ht, rfl⟩ := p3
      obtain ⟨t', ht', rfl⟩ := p3'
      rw [hlen t ht, hlen t' ht'] at e
      rw [mul_right_cancel₀ hpos.ne' e]

/-- A polygon as a member. -/
noncomputable def polygonMember (v : List (Pt ℝ)) (ix : Pt ℝ → Pt ℝ → Geom) (vel : Pt ℝ) : Member where
  pointLocation x := .ok (polyLocation v x)
  lineIntersection a b := polygonLineIntersection none ix a b .global .global
  tangentPoints x := .ok (polyTangents v x)
  vel _ := .ok vel
  normal _ := .ok (1, 0)

theorem polygonMember_line {v : List (Pt ℝ)} {ix : Pt ℝ → Pt ℝ → Geom} {vel a b : Pt ℝ} {L : List (Pt ℝ)}
    (h : geomPoints (ix a b) = .ok L) : (polygonMember v ix vel).lineIntersection a b = .ok L := by
  have hm : ∀ l : List (Pt ℝ), (l.mapM fun p => transform none p .obstacle .global) = .ok l := by
    intro l
    induction l with
    | nil => rfl
    | cons a l ih => simp only [List.mapM_cons, ih]; rfl
  simp only [polygonMember, polygonLineIntersection]
  change (geomPoints (ix a b) >>= fun pts => pts.mapM fun p => transform none p .obstacle .global) = _
  rw [h]
  exact hm L

/-- A polygon member finds where segments meet its boundary. -/
theorem polygonMember_crossings {v : List (Pt ℝ)} {ix : Pt ℝ → Pt ℝ → Geom} {vel a b : Pt ℝ}
    (hix : GeomIs (ix a b) (hits v a b)) (hc : ix a b ≠ .collection) :
    ∃ L, (polygonMember v ix vel).lineIntersection a b = .ok L ∧ Crossings {p | OnRing v p} a b L := by
  obtain ⟨L, hL, hcr⟩ := geomPoints_crossings (B := {p | OnRing v p}) hix hc
  exact ⟨L, polygonMember_line hL, hcr⟩

theorem exactIx_no_collection {c : Pt ℝ} {v : List (Pt ℝ)} (h : StarAbout c v) (b : Pt ℝ) : exactIx v c b ≠ .collection := by
  classical
  intro h0
  have hs := exactIx_spec h b
  rw [h0] at hs
  unfold exactIx at h0
  split_ifs at h0 with h1 h2
  obtain ⟨q, hq⟩ := Set.nonempty_iff_ne_empty.2 h1
  -- a star-shaped ring is met at most once
  have hsub : (hits v c b).Finite := by
    refine Set.Subsingleton.finite ?_
    rintro p ⟨⟨w, hw, _, rfl⟩, hp⟩ p' ⟨⟨w', hw', _, rfl⟩, hp'⟩
    obtain ⟨r, hr, e⟩ := seenAt_arctan2 c b
    have e2 : ∀ w : ℝ, c + w • (b - c) = polar c (w * r) (arctan2 (b.2 - c.2) (b.1 - c.1)) := by
      intro w
      have hb : b - c = r • ((cos (arctan2 (b.2 - c.2) (b.1 - c.1)), sin (arctan2 (b.2 - c.2) (b.1 - c.1))) : Pt ℝ) :=
        sub_eq_iff_eq_add'.2 e
      rw [hb, smul_smul]; rfl
    rw [e2] at hp hp'
    rw [e2, e2, star_unique h (mul_nonneg hw' hr) (mul_nonneg hw hr) hp' hp]
  exact hs hsub

/-- The combination of one square about the origin. -/
noncomputable def oneSquare : Combination := ⟨[polygonMember bigSquare (exactIx bigSquare) 0], none, 0⟩

theorem oneSquare_parts (b : Pt ℝ) : Parts oneSquare (fun _ => {p | OnRing bigSquare p}) ∅ b where
  member := by
    intro o ho
    rw [oneSquare, List.mem_singleton] at ho
    subst ho
    exact polygonMember_crossings (exactIx_spec bigSquare_star b) (exactIx_no_collection bigSquare_star b)
  hull := Or.inl ⟨rfl, rfl⟩

theorem bigSquare_ring (p : Pt ℝ) (h : OnRing bigSquare p) : |p.1| = 1 ∨ |p.2| = 1 := by
  obtain ⟨i, hi, t, _, _, rfl⟩ := h
  have hi' : i < 4 := by simpa [bigSquare] using hi
  interval_cases i <;> simp [corner, bigSquare]

/-- C43 is false for points near `xr`: for the square about the origin, (1/20, 0) has no boundary point although
(1, 0), in the same direction, is its own. -/
theorem C43_near_false : oneSquare.boundaryMapping (1 / 20, 0) = .ok none ∧ oneSquare.boundaryMapping (1, 0) = .ok (some (1, 0)) := by
  have hxr : oneSquare.xr = 0 := rfl
  have hall : ∀ p, p ∈ allOf oneSquare (fun _ => {p | OnRing bigSquare p}) ∅ ↔ OnRing bigSquare p := by
    intro p
    simp [allOf, oneSquare]
  constructor
  · obtain ⟨r, hr, h1, _⟩ := C43_farthest oneSquare _ _ (1 / 20, 0) (oneSquare_parts _)
    rw [hr, h1.2]
    rintro q hq ⟨t, h0, h2, rfl⟩
    rw [hall, hxr] at hq
    rcases bigSquare_ring _ hq with h | h
    · simp only [zero_add, sub_zero, Prod.smul_fst, smul_eq_mul, abs_of_nonneg h0, abs_mul] at h
      norm_num at h
      linarith
    · simp at h
  · obtain ⟨r, hr, h1, h2⟩ := C43_farthest oneSquare _ _ (1, 0) (oneSquare_parts _)
    have hring : OnRing bigSquare (1, 0) := ⟨0, by simp [bigSquare], 1 / 2, by norm_num, by norm_num, by
      ext <;> simp [corner, bigSquare]
      norm_num⟩
    cases r with
    | none =>
      exact absurd ⟨1 / 10, by norm_num, by norm_num, by rw [hxr]; ext <;> simp⟩ (h1.1 rfl (1, 0) ((hall _).2 hring))
    | some p =>
      obtain ⟨p1, _, p3, _⟩ := h2 p rfl
      rw [hall] at p1
      obtain ⟨t, ht, e⟩ := p3
      rw [hxr] at e
      have e' : p = polar 0 t 0 := by rw [e]; ext <;> simp [polar]
      rw [e'] at p1
      have h5 : OnRing bigSquare (polar 0 1 0) := by
        have : polar 0 1 0 = ((1, 0) : Pt ℝ) := by ext <;> simp [polar]
        rw [this]; exact hring
      have := star_unique bigSquare_star ht zero_le_one p1 h5
      rw [hr, e', this]
      simp [polar]

end Starworlds
