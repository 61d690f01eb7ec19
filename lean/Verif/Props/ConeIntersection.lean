import Verif.Proofs.ConeList
import Verif.Spec.Admissible

/-! # C92: intersections of cones as polygons -/

namespace Starworlds

open Real Spec

variable {G : Type}

/-- The polygon of a cone, as a shapely polygon. -/
theorem coneShape_region {geo : ConeGeo G} {gpts : G → Set (Pt ℝ)} {valid : List (Pt ℝ) → Prop} (hg : ConeGeoOk geo gpts valid)
    {c : Cone ℝ} (hc : ConeOk c) (ht : NotThin c) (hv : ∀ v, conePolygon c 4 = .ok (some v) → valid v) :
    ∃ g, coneShape geo c = .ok g ∧ ∀ p, InBox p → (p ∈ gpts g ↔ p ∈ conePts c) := by
  obtain ⟨v, h1, h2⟩ := C91_region_partial c hc.x hc.y hc.len1 hc.len2 ht 4 le_rfl
  refine ⟨geo.polygon v, by simp [coneShape, h1, bind, Except.bind], fun p hp => ?_⟩
  rw [hg.polygon v (hv v h1)]
  exact h2 p hp

/-- C92 (partial): two cones, without `same_apex`. Missing: what C91 excludes, and polygons that shapely does not accept. -/
theorem C92_intersection_partial {geo : ConeGeo G} {gpts : G → Set (Pt ℝ)} {valid : List (Pt ℝ) → Prop}
    (hg : ConeGeoOk geo gpts valid) {c d : Cone ℝ} (hc : ConeOk c) (hd : ConeOk d) (htc : NotThin c) (htd : NotThin d)
    (hv : ∀ e ∈ [c, d], ∀ v, conePolygon e 4 = .ok (some v) → valid v) :
    ∃ g, coneIntersection geo c d false = .ok g ∧ ∀ p, InBox p → (p ∈ gpts g ↔ p ∈ conePts c ∧ p ∈ conePts d) := by
  obtain ⟨a, ha, ha'⟩ := coneShape_region hg hc htc (hv c (by simp))
  obtain ⟨b, hb, hb'⟩ := coneShape_region hg hd htd (hv d (by simp))
  refine ⟨geo.intersection a b, by simp [coneIntersection, ha, hb, bind, Except.bind], fun p hp => ?_⟩
  rw [hg.inter, Set.mem_inter_iff, ha' p hp, hb' p hp]

/-- C92 (partial): a list of cones, without `same_apex`. -/
theorem C92_list_partial {geo : ConeGeo G} {gpts : G → Set (Pt ℝ)} {valid : List (Pt ℝ) → Prop}
    (hg : ConeGeoOk geo gpts valid) {cs : List (Cone ℝ)} (hne : cs ≠ []) (hc : ∀ c ∈ cs, ConeOk c) (ht : ∀ c ∈ cs, NotThin c)
    (hv : ∀ c ∈ cs, ∀ v, conePolygon c 4 = .ok (some v) → valid v) :
    ∃ g, coneListIntersection geo cs false = .ok g ∧ ∀ p, InBox p → (p ∈ gpts g ↔ ∀ c ∈ cs, p ∈ conePts c) := by
  have loop : ∀ (cs : List (Cone ℝ)) (cur : G), (∀ c ∈ cs, ConeOk c) → (∀ c ∈ cs, NotThin c) →
      (∀ c ∈ cs, ∀ v, conePolygon c 4 = .ok (some v) → valid v) →
      ∃ g, coneListLoop geo cur cs = .ok g ∧ ∀ p, InBox p → (p ∈ gpts g ↔ p ∈ gpts cur ∧ ∀ c ∈ cs, p ∈ conePts c) := by
    intro cs
    induction cs with
    | nil => intro cur _ _ _; exact ⟨cur, rfl, by simp⟩
    | cons c cs ih =>
      intro cur h1 h2 h3
      obtain ⟨a, ha, ha'⟩ := coneShape_region hg (h1 c (by simp)) (h2 c (by simp)) (h3 c (by simp))
      obtain ⟨g, hg1, hg2⟩ := ih (geo.intersection cur a) (fun c hc => h1 c (by simp [hc])) (fun c hc => h2 c (by simp [hc]))
        (fun c hc => h3 c (by simp [hc]))
      refine ⟨g, by simp [coneListLoop, ha, hg1, bind, Except.bind], fun p hp => ?_⟩
      rw [hg2 p hp, hg.inter, Set.mem_inter_iff, ha' p hp, List.forall_mem_cons, and_assoc]
  cases cs with
  | nil => exact absurd rfl hne
  | cons c cs =>
    obtain ⟨a, ha, ha'⟩ := coneShape_region hg (hc c (by simp)) (ht c (by simp)) (hv c (by simp))
    obtain ⟨g, h1, h2⟩ := loop cs a (fun c h => hc c (by simp [h])) (fun c h => ht c (by simp [h])) (fun c h => hv c (by simp [h]))
    refine ⟨g, by simp [coneListIntersection, ha, h1, bind, Except.bind], fun p hp => ?_⟩
    rw [h2 p hp, ha' p hp, List.forall_mem_cons]

/-- Several cones as one geometry. -/
theorem cones_union {geo : ConeGeo G} {gpts : G → Set (Pt ℝ)} {valid : List (Pt ℝ) → Prop}
    (hg : ConeGeoOk geo gpts valid) : ∀ {l : List (Cone ℝ)}, (∀ c ∈ l, ConeOk c) → (∀ c ∈ l, NotThin c) →
    (∀ c ∈ l, ∀ v, conePolygon c 4 = .ok (some v) → valid v) →
    ∃ ps, l.mapM (coneShape geo) = .ok ps ∧ ∀ p, InBox p → ((∃ g ∈ ps, p ∈ gpts g) ↔ ∃ c ∈ l, p ∈ conePts c) := by
  intro l
  induction l with
  | nil => intro _ _ _; exact ⟨[], by simp [pure, Except.pure], by simp⟩
  | cons c l ih =>
    intro h1 h2 h3
    obtain ⟨a, ha, ha'⟩ := coneShape_region hg (h1 c (by simp)) (h2 c (by simp)) (h3 c (by simp))
    obtain ⟨ps, hp1, hp2⟩ := ih (fun c hc => h1 c (by simp [hc])) (fun c hc => h2 c (by simp [hc])) (fun c hc => h3 c (by simp [hc]))
    refine ⟨a :: ps, by simp [ha, hp1, bind, Except.bind, pure, Except.pure], fun p hp => ?_⟩
    rw [List.exists_mem_cons_iff, List.exists_mem_cons_iff, hp2 p hp, ha' p hp]

/-- The cones made of two directions of the given cones that are not parallel. -/
def madeOf (cs : List (Cone ℝ)) (c : Cone ℝ) : Prop :=
  (∃ d ∈ cs, c.apex = d.apex) ∧ (∃ d ∈ cs, c.dir1 = d.dir1 ∨ c.dir1 = d.dir2) ∧ (∃ d ∈ cs, c.dir2 = d.dir1 ∨ c.dir2 = d.dir2) ∧
    1 / 10 ^ 10 < |cross c.dir1 c.dir2|

theorem coneDirs_of {cs : List (Cone ℝ)} {d : Pt ℝ} (h : d ∈ coneDirs cs) : ∃ c ∈ cs, d = c.dir1 ∨ d = c.dir2 := by
  obtain ⟨c, hc, hm⟩ := List.mem_flatMap.1 h
  exact ⟨c, hc, by simpa using hm⟩

theorem madeOf_ok {cs : List (Cone ℝ)} (hc : ∀ c ∈ cs, ConeOk c) {c : Cone ℝ} (h : madeOf cs c) : ConeOk c := by
  obtain ⟨⟨d0, m0, e0⟩, ⟨d1, m1, e1⟩, ⟨d2, m2, e2⟩, -⟩ := h
  refine ⟨e0 ▸ (hc d0 m0).x, e0 ▸ (hc d0 m0).y, ?_, ?_⟩
  · rcases e1 with e | e <;> rw [e]
    · exact (hc d1 m1).len1
    · exact (hc d1 m1).len2
  · rcases e2 with e | e <;> rw [e]
    · exact (hc d2 m2).len1
    · exact (hc d2 m2).len2

/-- C92 (partial): a list of cones with the same apex and directions in general position. Missing: other
lists, for which it is false (`C92_touching_false`, `C15_list_false`). -/
theorem C92_same_apex_partial {geo : ConeGeo G} {gpts : G → Set (Pt ℝ)} {valid : List (Pt ℝ) → Prop}
    (hg : ConeGeoOk geo gpts valid) {cs : List (Cone ℝ)} {a : Pt ℝ} (hne : cs ≠ []) (hc : ∀ c ∈ cs, ConeOk c) (ha : ∀ c ∈ cs, c.apex = a)
    (hp : List.Pairwise (fun u v => 1 / 10 ^ 10 < |cross u v|) (cs.flatMap fun c => [c.dir1, c.dir2]))
    (hv : ∀ c, madeOf cs c → ∀ v, conePolygon c 4 = .ok (some v) → valid v) :
    ∃ g, coneListIntersection geo cs true = .ok g ∧ ∀ p, InBox p → p ≠ a → (p ∈ gpts g ↔ ∀ c ∈ cs, p ∈ conePts c) := by
  have hp' : List.Pairwise GenDir (coneDirs cs) := hp
  obtain ⟨res, hres⟩ : ∃ res, Cone.listIntersection cs = .ok res := by
    cases cs with
    | nil => exact absurd rfl hne
    | cons c cs => exact ⟨_, rfl⟩
  have hfd := list_fromDirs ha hp' hres
  have hmade : ∀ c ∈ res, madeOf cs c := by
    intro c hcr
    obtain ⟨e, m1, m2, m3⟩ := hfd c hcr
    obtain ⟨d, hd⟩ := List.exists_mem_of_ne_nil cs hne
    exact ⟨⟨d, hd, e.trans (ha d hd).symm⟩, coneDirs_of m1, coneDirs_of m2, m3⟩
  have hok : ∀ c ∈ res, ConeOk c := fun c h => madeOf_ok hc (hmade c h)
  have hnt : ∀ c ∈ res, NotThin c := fun c h => genDir_cases (hfd c h).2.2.2
  have hvv : ∀ c ∈ res, ∀ v, conePolygon c 4 = .ok (some v) → valid v := fun c h => hv c (hmade c h)
  have key : ∀ p, p ≠ a → ((∃ c ∈ res, p ∈ conePts c) ↔ ∀ c ∈ cs, p ∈ conePts c) := by
    intro p hpa
    have := list_sweep (v := p - a) ha hp' hres (sub_ne_zero.2 hpa)
    have L : (∃ c ∈ res, p ∈ conePts c) ↔ ∃ c ∈ res, p - a ∈ sweep c.dir1 c.dir2 := by
      refine exists_congr fun c => and_congr_right fun h => ?_
      rw [← (hfd c h).1]; rfl
    have R : (∀ c ∈ cs, p ∈ conePts c) ↔ ∀ c ∈ cs, p - a ∈ sweep c.dir1 c.dir2 := by
      refine forall₂_congr fun c h => ?_
      rw [← ha c h]; rfl
    rw [L, R, this]
  unfold coneListIntersection
  simp only [if_true, hres, bind, Except.bind]
  match res, hok, hnt, hvv, key with
  | [], _, _, _, key =>
    refine ⟨geo.polygon [], rfl, fun p hp hpa => ?_⟩
    rw [← key p hpa, hg.empty]; simp
  | [c], hok, hnt, hvv, key =>
    obtain ⟨g, h1, h2⟩ := coneShape_region hg (hok c (by simp)) (hnt c (by simp)) (hvv c (by simp))
    refine ⟨g, h1, fun p hp hpa => ?_⟩
    rw [← key p hpa, h2 p hp]; simp
  | c :: c' :: l, hok, hnt, hvv, key =>
    obtain ⟨ps, h1, h2⟩ := cones_union hg hok hnt hvv
    refine ⟨geo.unaryUnion ps, by simp only [h1], fun p hp hpa => ?_⟩
    rw [hg.union, Set.mem_ofPred_eq, h2 p hp, key p hpa]

/-- C92 (partial): two cones with the same apex, with `same_apex`. -/
theorem C92_pair_partial {geo : ConeGeo G} {gpts : G → Set (Pt ℝ)} {valid : List (Pt ℝ) → Prop}
    (hg : ConeGeoOk geo gpts valid) {c d : Cone ℝ} (hc : ConeOk c) (hd : ConeOk d) (ha : c.apex = d.apex)
    (hp : List.Pairwise (fun u v => 1 / 10 ^ 10 < |cross u v|) [c.dir1, c.dir2, d.dir1, d.dir2])
    (hv : ∀ e, madeOf [c, d] e → ∀ v, conePolygon e 4 = .ok (some v) → valid v) :
    ∃ g, coneIntersection geo c d true = .ok g ∧ ∀ p, InBox p → p ≠ c.apex → (p ∈ gpts g ↔ p ∈ conePts c ∧ p ∈ conePts d) := by
  obtain ⟨g, h1, h2⟩ := C92_same_apex_partial (a := c.apex) hg (cs := [c, d]) (by simp) (by simp [hc, hd]) (by simp [ha]) (by simpa using hp) hv
  have hl : Cone.listIntersection [c, d] = .ok (c.intersectionSameApex d) := by
    simp [Cone.listIntersection, Cone.listIntersectionLoop]
  unfold coneListIntersection at h1
  simp only [if_true, hl, bind, Except.bind] at h1
  unfold coneIntersection
  simp only [if_true, bind, Except.bind]
  split at h1
  · rename_i heq
    rw [heq]
    simp only [Except.ok.injEq] at h1
    refine ⟨geo.unaryUnion [], by simp [pure, Except.pure], fun p hp hpa => ?_⟩
    have := h2 p hp hpa
    rw [← h1, hg.empty] at this
    rw [hg.union]
    simpa using this
  · rename_i heq
    rw [heq]
    exact ⟨g, h1, fun p hp hpa => by simpa using h2 p hp hpa⟩
  · rename_i l n1 n2
    refine ⟨g, ?_, fun p hp hpa => by simpa using h2 p hp hpa⟩
    split
    · rename_i heq; exact absurd heq (n2 _)
    · exact h1

/-- The geometry of point sets: what shapely computes if it accepts every ring. -/
noncomputable def setGeo : ConeGeo (Set (Pt ℝ)) where
  polygon := filled
  intersection a b := a ∩ b
  unaryUnion l := {p | ∃ g ∈ l, p ∈ g}
  negligible _ := false

theorem setGeo_ok : ConeGeoOk setGeo id (fun _ => True) where
  polygon _ _ := rfl
  empty := by
    ext p
    simp [setGeo, filled, Inside, OnRing]
  inter _ _ := rfl
  union _ := rfl

/-- Two cones with a common border up to the threshold. -/
noncomputable def touchC : Cone ℝ := ⟨0, (-1, -1), (-1, 0)⟩
noncomputable def touchD : Cone ℝ := ⟨0, (-1, -(1 / 10 ^ 11)), (-1, 1)⟩

theorem touch_result : touchC.intersectionSameApex touchD = [⟨0, (-1, -1), (-1, 1)⟩, ⟨0, (-1, -(1 / 10 ^ 11)), (-1, 0)⟩] := by
  have h1 : touchC.pointInCone (touchD.apex + touchD.dir1) = true := by
    norm_num [touchC, touchD, Cone.pointInCone, Cone.isConvex, Cone.ray1, Cone.ray2, isCcw, isCw, orientationVal, collinearThreshold]
  have h2 : touchC.pointInCone (touchD.apex + touchD.dir2) = true := by
    norm_num [touchC, touchD, Cone.pointInCone, Cone.isConvex, Cone.ray1, Cone.ray2, isCcw, isCw, orientationVal, collinearThreshold]
  have h3 : touchD.pointInCone (touchC.apex + touchC.dir1) = true := by
    norm_num [touchC, touchD, Cone.pointInCone, Cone.isConvex, Cone.ray1, Cone.ray2, isCcw, isCw, orientationVal, collinearThreshold]
  simp only [Cone.intersectionSameApex, h1, h2, h3]
  rfl

theorem touch_ok : ConeOk touchC ∧ ConeOk touchD ∧ NotThin touchC ∧ NotThin touchD := by
  refine ⟨⟨?_, ?_, ?_, ?_⟩, ⟨?_, ?_, ?_, ?_⟩, Or.inr (Or.inl ?_), Or.inr (Or.inl ?_)⟩ <;> norm_num [touchC, touchD, normSq, cross]

/-- What the program computes for them: the points of either result cone, so all but a sliver. -/
theorem touch_region : ∃ g, coneIntersection setGeo touchC touchD true = .ok g ∧ coneListIntersection setGeo [touchC, touchD] true = .ok g ∧
    ∀ p, InBox p → ¬ (p.2 < 0 ∧ p.1 * (1 / 10 ^ 11) < p.2) → p ∈ g := by
  obtain ⟨ps, h1, h2⟩ := cones_union setGeo_ok (l := [⟨0, (-1, -1), (-1, 1)⟩, ⟨0, (-1, -(1 / 10 ^ 11)), (-1, 0)⟩])
    (by
      intro c hc
      simp only [List.mem_cons, List.not_mem_nil, or_false] at hc
      rcases hc with rfl | rfl <;> constructor <;> norm_num [normSq])
    (by
      intro c hc
      simp only [List.mem_cons, List.not_mem_nil, or_false] at hc
      rcases hc with rfl | rfl <;> exact Or.inr (Or.inl (by norm_num [cross])))
    (fun _ _ _ _ => trivial)
  have hl : Cone.listIntersection [touchC, touchD] = .ok (touchC.intersectionSameApex touchD) := by
    simp [Cone.listIntersection, Cone.listIntersectionLoop]
  refine ⟨setGeo.unaryUnion ps, ?_, ?_, fun p hp hs => ?_⟩
  · simp only [coneIntersection, if_true, touch_result, h1, bind, Except.bind]
  · simp only [coneListIntersection, if_true, hl, touch_result, h1, bind, Except.bind]
  · refine (h2 p hp).2 ⟨_, List.mem_cons_of_mem _ (List.mem_singleton.2 rfl), ?_⟩
    change p - 0 ∈ sweep _ _
    rw [sub_zero, sweep_reflex (by norm_num [cross])]
    rintro ⟨a, b⟩
    simp only [cross] at a b
    exact hs ⟨by linarith, by linarith⟩

/-- C92 is false with `same_apex` for cones with a common border up to the threshold: each leaves out the sector on its side
of it, and the second of the two cones of the result is the whole plane but a sliver, so that points of the left out
sectors are in the result. -/
theorem C92_touching_false : ∃ c d : Cone ℝ, ConeOk c ∧ ConeOk d ∧ c.apex = d.apex ∧ NotThin c ∧ NotThin d ∧
    ∃ g, coneIntersection setGeo c d true = .ok g ∧ coneListIntersection setGeo [c, d] true = .ok g ∧
      (∃ p, InBox p ∧ p ∈ g ∧ p ∉ conePts c) ∧ ∃ q, InBox q ∧ q ∈ g ∧ q ∉ conePts d := by
  obtain ⟨a1, a2, a3, a4⟩ := touch_ok
  obtain ⟨g, h1, h2, h3⟩ := touch_region
  refine ⟨touchC, touchD, a1, a2, rfl, a3, a4, g, h1, h2, ⟨(-3, -1), by norm_num [InBox], h3 _ (by norm_num [InBox]) (by norm_num), ?_⟩,
    (-3, 1), by norm_num [InBox], h3 _ (by norm_num [InBox]) (by norm_num), ?_⟩
  · change ¬ (-3, -1) - (0 : Pt ℝ) ∈ sweep (-1, -1) (-1, 0)
    rw [sub_zero, sweep_reflex (by norm_num [cross]), not_not]
    norm_num [cross]
  · change ¬ (-3, 1) - (0 : Pt ℝ) ∈ sweep (-1, -(1 / 10 ^ 11)) (-1, 1)
    rw [sub_zero, sweep_reflex (by norm_num [cross]), not_not]
    norm_num [cross]

/-- A concrete case of `C92_pair_partial`: two cones that overlap, a common point and a point of only one of them. -/
example : ∃ g, coneIntersection setGeo ⟨0, (2, 1), (-1, 3)⟩ ⟨0, (1, 3), (-3, -1)⟩ true = .ok g ∧ (0, 5) ∈ g ∧ (5, 5) ∉ g := by
  obtain ⟨g, h1, h2⟩ := C92_pair_partial setGeo_ok (c := ⟨0, (2, 1), (-1, 3)⟩) (d := ⟨0, (1, 3), (-3, -1)⟩)
    (by constructor <;> norm_num [normSq]) (by constructor <;> norm_num [normSq]) rfl (by norm_num [cross]) (fun _ _ _ _ => trivial)
  have e : ∀ (p : Pt ℝ) (a b : Pt ℝ), p ∈ conePts ⟨0, a, b⟩ ↔ p ∈ sweep a b := by
    intro p a b; change p - 0 ∈ sweep a b ↔ _; rw [sub_zero]
  refine ⟨g, h1, (h2 _ (by norm_num [InBox]) (by norm_num)).2 ?_, fun h => ?_⟩
  · rw [e, e, sweep_convex (by norm_num [cross]), sweep_convex (by norm_num [cross])]
    norm_num [cross]
  · have := ((h2 _ (by norm_num [InBox]) (by norm_num)).1 h).2
    rw [e, sweep_convex (by norm_num [cross])] at this
    norm_num [cross] at this

/-- A concrete case of `C92_intersection_partial`: cones with different apexes. -/
example : ∃ g, coneIntersection setGeo ⟨0, (2, 1), (-1, 3)⟩ ⟨(0, 9), (-1, -2), (1, -3)⟩ false = .ok g ∧ (0, 5) ∈ g ∧ (0, 10) ∉ g := by
  obtain ⟨g, h1, h2⟩ := C92_intersection_partial setGeo_ok (c := ⟨0, (2, 1), (-1, 3)⟩) (d := ⟨(0, 9), (-1, -2), (1, -3)⟩)
    (by constructor <;> norm_num [normSq]) (by constructor <;> norm_num [normSq]) (Or.inl (by norm_num [cross])) (Or.inl (by norm_num [cross]))
    (fun _ _ _ _ => trivial)
  refine ⟨g, h1, (h2 _ (by norm_num [InBox])).2 ⟨?_, ?_⟩, fun h => ?_⟩
  · change (0, 5) - (0 : Pt ℝ) ∈ sweep _ _
    rw [sub_zero, sweep_convex (by norm_num [cross])]
    norm_num [cross]
  · change (0, 5) - ((0, 9) : Pt ℝ) ∈ sweep _ _
    rw [sweep_convex (by norm_num [cross])]
    norm_num [cross]
  · have := ((h2 _ (by norm_num [InBox])).1 h).2
    change (0, 10) - ((0, 9) : Pt ℝ) ∈ sweep _ _ at this
    rw [sweep_convex (by norm_num [cross])] at this
    norm_num [cross] at this

/-- C92: there is no intersection of no cones, with or without a common apex: `cones[0]` raises. -/
theorem C92_empty (geo : ConeGeo G) (sameApex : Bool) : coneListIntersection geo [] sameApex = .error .indexError := by
  cases sameApex <;> rfl

end Starworlds
