import Verif.Model.Exclude
import Verif.Props.Admissible

/-! # C94: `exclude_obstacles` -/

namespace Starworlds

open Real Spec

variable {G : Type}

/-- The points from which the point `v` is seen outside of the obstacle, with coordinates inside the box. -/
structure ExtremeOk (O : Set (Pt ℝ)) (o : ExObs) (v t s : Pt ℝ) : Prop where
  x : |v.1| ≤ 10 ^ 6 - 1
  y : |v.2| ≤ 10 ^ 6 - 1
  view : ViewOk O o.obs.tangentPoints v t s
  exterior : o.exterior v = .ok true

/-- The cone of an extreme point as a polygon. -/
theorem extreme_shape {geo : ConeGeo G} {gpts : G → Set (Pt ℝ)} {valid : List (Pt ℝ) → Prop} (hg : ConeGeoOk geo gpts valid)
    {O : Set (Pt ℝ)} {o : ExObs} {v t s : Pt ℝ} (h : ExtremeOk O o v t s)
    (hv : ∀ w, conePolygon ⟨v, v - t, v - s⟩ 4 = .ok (some w) → valid w) :
    ∃ g, (coneOf v o.obs >>= coneShape geo) = .ok g ∧ ∀ p, InBox p → (p ∈ gpts g ↔ p ∈ closure (freeFrom O v)) := by
  obtain ⟨h1, h2, h3, h4⟩ := view_cone h.view h.x h.y
  obtain ⟨g, g1, g2⟩ := coneShape_region hg h2 h3 hv
  refine ⟨g, by simp only [h1, bind, Except.bind, g1], fun p hp => ?_⟩
  rw [g2 p hp, h4]

/-- C94 (partial), one obstacle: inside the box, the entry is the closed region from which no extreme point of the other obstacle is
in the way. -/
theorem C94_kernel_partial {geo : ConeGeo G} {gpts : G → Set (Pt ℝ)} {valid : List (Pt ℝ) → Prop} (hg : ConeGeoOk geo gpts valid)
    {O : Set (Pt ℝ)} {o : ExObs} {vs : List (Pt ℝ)} (hne : vs ≠ []) {t s : Pt ℝ → Pt ℝ} (h : ∀ v ∈ vs, ExtremeOk O o v (t v) (s v))
    (hv : ∀ v ∈ vs, ∀ w, conePolygon ⟨v, v - t v, v - s v⟩ 4 = .ok (some w) → valid w) :
    ∃ g, excludeKernel geo o vs = .ok (some g) ∧ ∀ p, InBox p → (p ∈ gpts g ↔ ∀ v ∈ vs, p ∈ closure (freeFrom O v)) := by
  have hext : ∀ {vs : List (Pt ℝ)}, (∀ v ∈ vs, ExtremeOk O o v (t v) (s v)) → vs.mapM o.exterior = .ok (vs.map fun _ => true) := by
    intro vs
    induction vs with
    | nil => intro _; rfl
    | cons v vs ih =>
      intro h
      simp [(h v (by simp)).exterior, ih fun w hw => h w (by simp [hw]), bind, Except.bind, pure, Except.pure]
  have loop : ∀ (vs : List (Pt ℝ)) (cur : G), (∀ v ∈ vs, ExtremeOk O o v (t v) (s v)) →
      (∀ v ∈ vs, ∀ w, conePolygon ⟨v, v - t v, v - s v⟩ 4 = .ok (some w) → valid w) →
      ∃ g, excludeLoop geo o.obs cur vs = .ok g ∧ ∀ p, InBox p → (p ∈ gpts g ↔ p ∈ gpts cur ∧ ∀ v ∈ vs, p ∈ closure (freeFrom O v)) := by
    intro vs
    induction vs with
    | nil => intro cur _ _; exact ⟨cur, rfl, by simp⟩
    | cons v vs ih =>
      intro cur h hv
      obtain ⟨a, a1, a2⟩ := extreme_shape hg (h v (by simp)) (hv v (by simp))
      obtain ⟨g, g1, g2⟩ := ih (geo.intersection cur a) (fun w hw => h w (by simp [hw])) (fun w hw => hv w (by simp [hw]))
      obtain ⟨c, hc, ha⟩ : ∃ c, coneOf v o.obs = .ok c ∧ coneShape geo c = .ok a := by
        cases hc : coneOf v o.obs with
        | error e => rw [hc] at a1; simp [bind, Except.bind] at a1
        | ok c => rw [hc] at a1; exact ⟨c, rfl, a1⟩
      refine ⟨g, by simp only [excludeLoop, hc, ha, g1, bind, Except.bind], fun p hp => ?_⟩
      rw [g2 p hp, hg.inter, Set.mem_inter_iff, a2 p hp, List.forall_mem_cons, and_assoc]
  cases vs with
  | nil => exact absurd rfl hne
  | cons v vs =>
    obtain ⟨a, a1, a2⟩ := extreme_shape hg (h v (by simp)) (hv v (by simp))
    obtain ⟨c, hc, ha⟩ : ∃ c, coneOf v o.obs = .ok c ∧ coneShape geo c = .ok a := by
      cases hc : coneOf v o.obs with
      | error e => rw [hc] at a1; simp [bind, Except.bind] at a1
      | ok c => rw [hc] at a1; exact ⟨c, rfl, a1⟩
    obtain ⟨g, g1, g2⟩ := loop vs a (fun w hw => h w (by simp [hw])) (fun w hw => hv w (by simp [hw]))
    refine ⟨g, ?_, fun p hp => ?_⟩
    · simp only [excludeKernel, hext h, bind, Except.bind, hc, ha, g1]
      simp
    · rw [g2 p hp, a2 p hp, List.forall_mem_cons]

/-- C94: an obstacle with an extreme point that is not outside is left out. -/
theorem C94_none {geo : ConeGeo G} {o : ExObs} {vs : List (Pt ℝ)} (hall : ∀ v ∈ vs, ∃ b, o.exterior v = .ok b)
    (h : ∃ v ∈ vs, o.exterior v = .ok false) : excludeKernel geo o vs = .ok none := by
  have : ∀ {vs : List (Pt ℝ)}, (∀ v ∈ vs, ∃ b, o.exterior v = .ok b) → ∃ l, vs.mapM o.exterior = .ok l ∧
      ((∃ v ∈ vs, o.exterior v = .ok false) → l.all id = false) := by
    intro vs
    induction vs with
    | nil => intro _; exact ⟨[], rfl, by simp⟩
    | cons v vs ih =>
      intro h
      obtain ⟨b, hb⟩ := h v (by simp)
      obtain ⟨l, h1, h2⟩ := ih fun w hw => h w (by simp [hw])
      refine ⟨b :: l, by simp [hb, h1, bind, Except.bind, pure, Except.pure], ?_⟩
      rintro ⟨w, hw, hf⟩
      rcases List.mem_cons.1 hw with rfl | hw
      · rw [hb] at hf
        simp only [Except.ok.injEq] at hf
        simp [hf]
      · simp [List.all_cons, h2 ⟨w, hw, hf⟩]
  obtain ⟨l, h1, h2⟩ := this hall
  simp [excludeKernel, h1, bind, Except.bind, h2 h]

/-- No way from `k` to `O` leads through `y` exactly when `y` is not in the hull of `k` and `O`. -/
theorem free_hull {O : Set (Pt ℝ)} (hO : Convex ℝ O) (hne : O.Nonempty) (k y : Pt ℝ) :
    (∀ q ∈ O, ¬ OnSegment k q y) ↔ y ∉ convexHull ℝ (insert k O) := by
  rw [convexHull_insert hne, hO.convexHull_eq, mem_convexJoin]
  simp only [Set.mem_singleton_iff, exists_eq_left, not_exists, not_and]
  refine forall₂_congr fun q _ => not_congr ?_
  rw [segment_eq_image']
  constructor
  · rintro ⟨r, h0, h1, rfl⟩; exact ⟨r, ⟨h0, h1⟩, rfl⟩
  · rintro ⟨r, ⟨h0, h1⟩, rfl⟩; exact ⟨r, h0, h1, rfl⟩

/-- C94 (partial): with an inner point of the entry as kernel point, the hull of the obstacle contains no extreme point of the
other obstacle. -/
theorem C94_hull_partial {geo : ConeGeo G} {gpts : G → Set (Pt ℝ)} {valid : List (Pt ℝ) → Prop} (hg : ConeGeoOk geo gpts valid)
    {O : Set (Pt ℝ)} {o : ExObs} {vs : List (Pt ℝ)} (hne : vs ≠ []) {t s : Pt ℝ → Pt ℝ} (h : ∀ v ∈ vs, ExtremeOk O o v (t v) (s v))
    (hv : ∀ v ∈ vs, ∀ w, conePolygon ⟨v, v - t v, v - s v⟩ 4 = .ok (some w) → valid w) :
    ∃ g, excludeKernel geo o vs = .ok (some g) ∧
      ∀ k ∈ interior (gpts g), InBox k → ∀ v ∈ vs, v ∉ convexHull ℝ (insert k O) := by
  obtain ⟨g, h1, h2⟩ := C94_kernel_partial hg hne h hv
  refine ⟨g, h1, fun k hk hb v hvs => ?_⟩
  have hview := (h v hvs).view
  rw [← free_hull hview.convex (hview.inner.mono interior_subset)]
  have : k ∈ interior (gpts g ∩ {p | InBox p}) := by
    rw [interior_inter, inBox_open.interior_eq]; exact ⟨hk, hb⟩
  exact interior_free hview.convex hview.inner v (interior_mono (fun p hp => (h2 p hp.2).1 hp.1 v hvs) this)

theorem fold_mem {geo : ConeGeo G} {gpts : G → Set (Pt ℝ)} (h : ∀ a b, gpts (geo.intersection a b) = gpts a ∩ gpts b) :
    ∀ (l : List G) (A : G) (p : Pt ℝ), p ∈ gpts (l.foldl geo.intersection A) ↔ p ∈ gpts A ∧ ∀ g ∈ l, p ∈ gpts g := by
  intro l
  induction l with
  | nil => intro A p; simp
  | cons b l ih =>
    intro A p
    rw [List.foldl_cons, ih, h, Set.mem_inter_iff, List.forall_mem_cons, and_assoc]

/-- Computations of a list that all succeed. -/
theorem mapM_all {α β : Type} {f : α → Except PyErr β} : ∀ {xs : List α}, (∀ a ∈ xs, ∃ b, f a = .ok b) →
    ∃ l, xs.mapM f = .ok l ∧ (∀ a ∈ xs, ∃ b ∈ l, f a = .ok b) ∧ ∀ b ∈ l, ∃ a ∈ xs, f a = .ok b := by
  intro xs
  induction xs with
  | nil => intro _; exact ⟨[], rfl, by simp, by simp⟩
  | cons a xs ih =>
    intro h
    obtain ⟨b, hb⟩ := h a (by simp)
    obtain ⟨l, h1, h2, h3⟩ := ih fun c hc => h c (by simp [hc])
    refine ⟨b :: l, by simp [hb, h1, bind, Except.bind, pure, Except.pure], ?_, ?_⟩
    · intro c hc
      rcases List.mem_cons.1 hc with rfl | hc
      · exact ⟨b, by simp, hb⟩
      · obtain ⟨d, hd, e⟩ := h2 c hc; exact ⟨d, by simp [hd], e⟩
    · intro d hd
      rcases List.mem_cons.1 hd with rfl | hd
      · exact ⟨a, by simp, hb⟩
      · obtain ⟨c, hc, e⟩ := h3 d hd; exact ⟨c, by simp [hc], e⟩

/-- C94 (partial), a cluster: the admissible kernel is in the closed region from which neither robot nor goal is in the way, and
it is either the part of it from which also no extreme point of another obstacle is in the way of an obstacle of the cluster,
or this part is negligible. Of the other obstacles those count that have all their extreme points outside of the obstacle. -/
theorem C94_loop_partial {geo : ConeGeo G} {gpts : G → Set (Pt ℝ)} {valid : List (Pt ℝ) → Prop} (hg : ConeGeoOk geo gpts valid)
    {all cl : List ExObs} (hne : cl ≠ []) {pts : ConvObs → Set (Pt ℝ)} {x xg : Pt ℝ} {t s t' s' : ConvObs → Pt ℝ}
    (hx1 : |x.1| ≤ 10 ^ 6 - 1) (hx2 : |x.2| ≤ 10 ^ 6 - 1) (hg1 : |xg.1| ≤ 10 ^ 6 - 1) (hg2 : |xg.2| ≤ 10 ^ 6 - 1)
    (hr : ∀ o ∈ cl, ViewOk (pts o.obs) o.obs.tangentPoints x (t o.obs) (s o.obs))
    (hgo : ∀ o ∈ cl, ViewOk (pts o.obs) o.obs.tangentPoints xg (t' o.obs) (s' o.obs))
    (hp : List.Pairwise (fun u v => 1 / 10 ^ 10 < |cross u v|) ((cl.map (·.obs)).flatMap fun o => [x - t o, x - s o]))
    (hp' : List.Pairwise (fun u v => 1 / 10 ^ 10 < |cross u v|) ((cl.map (·.obs)).flatMap fun o => [xg - t' o, xg - s' o]))
    (hv : ∀ c, (madeOf ((cl.map (·.obs)).map fun o => ⟨x, x - t o, x - s o⟩) c ∨
      madeOf ((cl.map (·.obs)).map fun o => ⟨xg, xg - t' o, xg - s' o⟩) c) → ∀ v, conePolygon c 4 = .ok (some v) → valid v)
    {vs : ExObs → List (Pt ℝ)} {left right : ExObs → Pt ℝ → Pt ℝ}
    (hex : ∀ o ∈ cl, ∀ e ∈ all, e.obs.id ≠ o.obs.id → e.extreme = .ok (vs e) ∧ vs e ≠ [] ∧ ∀ v ∈ vs e, o.exterior v = .ok false ∨
      (ExtremeOk (pts o.obs) o v (left o v) (right o v) ∧
        ∀ w, conePolygon ⟨v, v - left o v, v - right o v⟩ 4 = .ok (some w) → valid w)) :
    ∃ A B, admissibleExclude geo x xg all cl = .ok A ∧
      (∀ p, InBox p → p ∈ gpts A → ∀ o ∈ cl, p ∈ closure (freeFrom (pts o.obs) x) ∧ p ∈ closure (freeFrom (pts o.obs) xg)) ∧
      (A = B ∨ geo.negligible B = true) ∧
      ∀ p, InBox p → (p ∈ gpts B → ∀ o ∈ cl, ∀ e ∈ all, e.obs.id ≠ o.obs.id → (∀ v ∈ vs e, o.exterior v = .ok true) →
          ∀ v ∈ vs e, p ∈ closure (freeFrom (pts o.obs) v)) ∧
        (p ≠ x → p ≠ xg → (∀ o ∈ cl, p ∈ closure (freeFrom (pts o.obs) x) ∧ p ∈ closure (freeFrom (pts o.obs) xg)) →
          (∀ o ∈ cl, ∀ e ∈ all, e.obs.id ≠ o.obs.id → (∀ v ∈ vs e, o.exterior v = .ok true) →
            ∀ v ∈ vs e, p ∈ closure (freeFrom (pts o.obs) v)) → p ∈ gpts B) := by
  -- one entry
  have entry : ∀ o ∈ cl, ∀ e ∈ all, e.obs.id ≠ o.obs.id → ∃ r, (e.extreme >>= excludeKernel geo o) = .ok r ∧
      (((∀ v ∈ vs e, o.exterior v = .ok true) ∧ ∃ g, r = some g ∧ ∀ p, InBox p → (p ∈ gpts g ↔ ∀ v ∈ vs e, p ∈ closure (freeFrom (pts o.obs) v))) ∨
        (¬ (∀ v ∈ vs e, o.exterior v = .ok true) ∧ r = none)) := by
    intro o ho e he hid
    obtain ⟨h1, h2, h3⟩ := hex o ho e he hid
    by_cases hall : ∀ v ∈ vs e, o.exterior v = .ok true
    · have h3' := fun v hv => (h3 v hv).resolve_left (by rw [hall v hv]; simp)
      obtain ⟨g, g1, g2⟩ := C94_kernel_partial hg h2 (fun v hv => (h3' v hv).1) (fun v hv => (h3' v hv).2)
      exact ⟨some g, by simp only [h1, bind, Except.bind, g1], Or.inl ⟨hall, g, rfl, g2⟩⟩
    · refine ⟨none, ?_, Or.inr ⟨hall, rfl⟩⟩
      push Not at hall
      obtain ⟨v, hv, hn⟩ := hall
      have := C94_none (geo := geo) (o := o) (vs := vs e)
        (fun w hw => (h3 w hw).elim (fun h => ⟨false, h⟩) fun h => ⟨true, h.1.exterior⟩)
        ⟨v, hv, (h3 v hv).resolve_right fun h => hn h.1.exterior⟩
      simp only [h1, bind, Except.bind, this]
  -- the rows
  have row : ∀ o ∈ cl, ∃ l, excludeRow geo all o = .ok l ∧
      (∀ e ∈ all, e.obs.id ≠ o.obs.id → ∃ r ∈ l, (e.extreme >>= excludeKernel geo o) = .ok r) ∧
      ∀ r ∈ l, ∃ e ∈ all, e.obs.id ≠ o.obs.id ∧ (e.extreme >>= excludeKernel geo o) = .ok r := by
    intro o ho
    obtain ⟨l, h1, h2, h3⟩ := mapM_all (f := fun e : ExObs => e.extreme >>= excludeKernel geo o) (xs := all.filter fun e => decide (e.obs.id ≠ o.obs.id))
      (fun e he => by
        rw [List.mem_filter, decide_eq_true_eq] at he
        obtain ⟨r, hr, -⟩ := entry o ho e he.1 he.2
        exact ⟨r, hr⟩)
    refine ⟨l, h1, fun e he hid => h2 e (List.mem_filter.2 ⟨he, by simpa using hid⟩), fun r hr => ?_⟩
    obtain ⟨e, he, hh⟩ := h3 r hr
    rw [List.mem_filter, decide_eq_true_eq] at he
    exact ⟨e, he.1, he.2, hh⟩
  obtain ⟨rows, r1, r2, r3⟩ := mapM_all (f := excludeRow geo all) (xs := cl) fun o ho => by
    obtain ⟨l, hl, -⟩ := row o ho; exact ⟨l, hl⟩
  set ex := rows.flatten.filterMap id with hexdef
  have hmem : ∀ g, g ∈ ex ↔ ∃ o ∈ cl, ∃ e ∈ all, e.obs.id ≠ o.obs.id ∧ (e.extreme >>= excludeKernel geo o) = .ok (some g) := by
    intro g
    rw [hexdef, List.mem_filterMap]
    constructor
    · rintro ⟨r, hr, e⟩
      obtain ⟨l, hl, hrl⟩ := List.mem_flatten.1 hr
      obtain ⟨o, ho, hrow⟩ := r3 l hl
      obtain ⟨l', hl', -, h3⟩ := row o ho
      rw [hrow, Except.ok.injEq] at hl'
      subst hl'
      obtain ⟨e', he', hid, hh⟩ := h3 r hrl
      simp only [id] at e
      exact ⟨o, ho, e', he', hid, by rw [hh, e]⟩
    · rintro ⟨o, ho, e, he, hid, hh⟩
      obtain ⟨l, hl, hrow⟩ := r2 o ho
      obtain ⟨l', hl', h2, -⟩ := row o ho
      rw [hrow, Except.ok.injEq] at hl'
      subst hl'
      obtain ⟨r, hr, hh'⟩ := h2 e he hid
      rw [hh, Except.ok.injEq] at hh'
      exact ⟨r, List.mem_flatten.2 ⟨l, hl, hr⟩, hh'.symm⟩
  have hr' : ∀ o ∈ cl.map (·.obs), ViewOk (pts o) o.tangentPoints x (t o) (s o) := by
    intro o ho; obtain ⟨e, he, rfl⟩ := List.mem_map.1 ho; exact hr e he
  have hgo' : ∀ o ∈ cl.map (·.obs), ViewOk (pts o) o.tangentPoints xg (t' o) (s' o) := by
    intro o ho; obtain ⟨e, he, rfl⟩ := List.mem_map.1 ho; exact hgo e he
  obtain ⟨A0, a1, a2⟩ := C93_loop_partial hg (by simpa using hne) hx1 hx2 hg1 hg2 hr' hgo' hp hp' hv []
  obtain ⟨A, b1, b2⟩ := C93_loop_partial hg (by simpa using hne) hx1 hx2 hg1 hg2 hr' hgo' hp hp' hv ex
  have hAB : A = ex.foldl geo.intersection A0 ∨ geo.negligible (ex.foldl geo.intersection A0) = true := by
    simp only [admissibleLoop, bind, Except.bind] at a1 b1
    split at b1
    · simp at b1
    · rename_i h1
      rw [h1] at a1
      simp only at a1
      split at b1
      · simp at b1
      · rename_i h2
        rw [h2] at a1
        simp only at a1
        split at b1
        · simp at b1
        · rename_i h3
          rw [h3] at a1
          simp only at a1
          split at b1
          · simp at b1
          · rename_i h4
            rw [h4] at a1
            simp only [Except.ok.injEq] at a1 b1
            split at a1 <;>
            · rw [← a1]
              try rw [List.foldl_nil]
              split at b1
              · rename_i hneg; exact Or.inr hneg
              · exact Or.inl b1.symm
  refine ⟨A, ex.foldl geo.intersection A0, by simp only [admissibleExclude, r1, bind, Except.bind]; exact b1, fun p hpb hpA o ho => ?_, hAB, fun p hpb => ?_⟩
  · exact (b2 p hpb).1 hpA o.obs (List.mem_map_of_mem ho)
  · rw [fold_mem hg.inter]
    constructor
    · rintro ⟨-, h⟩ o ho e he hid hall
      obtain ⟨r, hr, ⟨-, g, rfl, hgp⟩ | ⟨hn, -⟩⟩ := entry o ho e he hid
      · exact (hgp p hpb).1 (h g ((hmem g).2 ⟨o, ho, e, he, hid, hr⟩))
      · exact absurd hall hn
    · intro n1 n2 hf hvx
      refine ⟨(a2 p hpb).2 rfl n1 n2 fun o ho => ?_, fun g hgm => ?_⟩
      · obtain ⟨e, he, rfl⟩ := List.mem_map.1 ho; exact hf e he
      · obtain ⟨o, ho, e, he, hid, hh⟩ := (hmem g).1 hgm
        obtain ⟨r, hr, ⟨hall, g', rfl, hgp⟩ | ⟨-, rfl⟩⟩ := entry o ho e he hid
        · rw [hh, Except.ok.injEq, Option.some.injEq] at hr
          subst hr
          exact (hgp p hpb).2 (hvx o ho e he hid hall)
        · rw [hh] at hr; simp at hr

/-- C94 (partial), the row of an obstacle for one polygon: inside the box, the entry is the closed region from which no vertex of the
polygon is in the way. -/
theorem C94_polygon_partial {geo : ConeGeo G} {gpts : G → Set (Pt ℝ)} {valid : List (Pt ℝ) → Prop} (hg : ConeGeoOk geo gpts valid)
    {O : Set (Pt ℝ)} {o : ExObs} {id : Option Nat} (hid : id ≠ o.obs.id) {vs : List (Pt ℝ)} (hne : vs ≠ []) (pts : Set (Pt ℝ))
    {t s : Pt ℝ → Pt ℝ} (h : ∀ v ∈ vs, ExtremeOk O o v (t v) (s v))
    (hv : ∀ v ∈ vs, ∀ w, conePolygon ⟨v, v - t v, v - s v⟩ 4 = .ok (some w) → valid w) :
    ∃ g, excludeRow geo [o, polygonEx id vs pts] o = .ok [some g] ∧
      ∀ p, InBox p → (p ∈ gpts g ↔ ∀ v ∈ vs, p ∈ closure (freeFrom O v)) := by
  obtain ⟨g, h1, h2⟩ := C94_kernel_partial hg hne h hv
  refine ⟨g, ?_, h2⟩
  have hf : ([o, polygonEx id vs pts].filter fun e => decide (e.obs.id ≠ o.obs.id)) = [polygonEx id vs pts] := by
    have : (polygonEx id vs pts).obs.id ≠ o.obs.id := hid
    rw [List.filter_cons_of_neg (by simp), List.filter_cons_of_pos (by simpa using this), List.filter_nil]
  have he : (polygonEx id vs pts).extreme = .ok vs := rfl
  rw [excludeRow, hf]
  simp [he, h1, bind, Except.bind, pure, Except.pure]

/-- C94 is false with an ellipse: for every other obstacle before it, outside of which robot and goal are, the call raises an
AttributeError. -/
theorem C94_ellipse_false {Star KP P : Type} (geo : ConeGeo G) (g : Geo ExObs Star KP P) (o : ExObs) (id : Option Nat) (e : Ell) (pts : Set (Pt ℝ))
    (hid : id ≠ o.obs.id) (hex : g.exclude = excludeWork geo [o, ellipseEx id e pts]) (ht : g.timeoutInit 0 = false) (hr : g.robotFree o = .ok true)
    (hgo : g.goalFree o = .ok true) (par : Params) (prev : Option (List (Cl ExObs Star KP P))) (fuel : Nat) :
    clusterAndStarify g par prev fuel [o, ellipseEx id e pts] = some (.error .attributeError) := by
  have h1 : excludeWork geo [o, ellipseEx id e pts] o = .error .attributeError := by
    have hf : ([o, ellipseEx id e pts].filter fun e' => decide (e'.obs.id ≠ o.obs.id)) = [ellipseEx id e pts] := by
      have : (ellipseEx id e pts).obs.id ≠ o.obs.id := hid
      rw [List.filter_cons_of_neg (by simp), List.filter_cons_of_pos (by simpa using this), List.filter_nil]
    rw [excludeWork, excludeRow, hf]
    rfl
  have h2 : initLoop g 0 [o, ellipseEx id e pts] = .error .attributeError := by
    simp [initLoop, ht, hr, hgo, hex, h1, bind, Except.bind]
  simp [clusterAndStarify, h2]

end Starworlds
