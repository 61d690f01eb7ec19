import Verif.Props.StarPolygonDistance
import Verif.Props.Obstacle
import Mathlib.Data.Set.Finite.Lattice
import Mathlib.Order.Interval.Set.Infinite

/-! # C65: Polygon.line_intersection -/

namespace Starworlds

open Real Spec

/-- The global coordinates of the point that has coordinates `p` in frame `f`. -/
noncomputable def Spec.globalPoint (mm : Option Pose) (f : Frame) (p : Pt ℝ) : Pt ℝ :=
  match mm, f with
  | some q, .obstacle =>
    (cos q.rot * p.1 - sin q.rot * p.2 + q.pos.1, sin q.rot * p.1 + cos q.rot * p.2 + q.pos.2)
  | _, _ => p

/-- `p`, given in frame `fout`, is a point that the segment from `l0` to `l1`, given in frame `fin`, has in common
with the boundary of the polygon with vertices `ring` in the obstacle frame. -/
def Spec.Crossing (mm : Option Pose) (ring : List (Pt ℝ)) (l0 l1 : Pt ℝ) (fin fout : Frame) (p : Pt ℝ) : Prop :=
  ∃ q, OnRing ring q ∧ globalPoint mm fout p = globalPoint mm .obstacle q ∧
    OnSegment (globalPoint mm fin l0) (globalPoint mm fin l1) (globalPoint mm .obstacle q)

theorem transform_global {mm : Option Pose} {x y : Pt ℝ} {f g : Frame} (hf : f.Valid) (hg : g.Valid)
    (h : transform mm x f g = .ok y) : globalPoint mm g y = globalPoint mm f x := by
  rcases mm with _ | p
  · simp only [transform, Except.ok.injEq] at h
    rw [h]; rfl
  · rcases hf with rfl | rfl <;> rcases hg with rfl | rfl
    · simp [transform] at h; rw [h]
    · have h' := (C21_inverse _ _ _ _ _).1 h
      rw [(C21_meaning p y).2.1, Except.ok.injEq] at h'
      exact h'
    · rw [(C21_meaning p x).2.1, Except.ok.injEq] at h
      exact h.symm
    · simp [transform] at h; rw [h]

theorem globalPoint_inj {mm : Option Pose} {f : Frame} {p q : Pt ℝ} (h : globalPoint mm f p = globalPoint mm f q) :
    p = q := by
  rcases mm with _ | m
  · exact h
  · cases f with
    | obstacle =>
      simp only [globalPoint, Prod.mk.injEq] at h
      have e := sin_sq_add_cos_sq m.rot
      ext
      · linear_combination cos m.rot * h.1 + sin m.rot * h.2 + (q.1 - p.1) * e
      · linear_combination -sin m.rot * h.1 + cos m.rot * h.2 + (q.2 - p.2) * e
    | global => exact h
    | other => exact h

theorem globalPoint_segment (mm : Option Pose) (f : Frame) (a b p : Pt ℝ) :
    OnSegment (globalPoint mm f a) (globalPoint mm f b) (globalPoint mm f p) ↔ OnSegment a b p := by
  have key : ∀ t : ℝ, globalPoint mm f a + t • (globalPoint mm f b - globalPoint mm f a) =
      globalPoint mm f (a + t • (b - a)) := by
    intro t
    rcases mm with _ | m
    · rfl
    · cases f with
      | obstacle =>
        ext <;> simp only [globalPoint, Prod.fst_add, Prod.snd_add, Prod.smul_fst, Prod.smul_snd, Prod.fst_sub,
          Prod.snd_sub, smul_eq_mul] <;> ring
      | global => rfl
      | other => rfl
  constructor
  · rintro ⟨t, h0, h1, h⟩
    rw [key] at h
    exact ⟨t, h0, h1, globalPoint_inj h⟩
  · rintro ⟨t, h0, h1, h⟩
    exact ⟨t, h0, h1, by rw [key, h]⟩

theorem segment_infinite {a b : Pt ℝ} (h : a ≠ b) {S : Set (Pt ℝ)} (hS : ∀ p, OnSegment a b p → p ∈ S) :
    S.Infinite := by
  have hi : (Set.Icc (0 : ℝ) 1).Infinite := Set.Icc_infinite zero_lt_one
  have hinj : Set.InjOn (fun t : ℝ => a + t • (b - a)) (Set.Icc 0 1) := by
    intro s _ t _ hst
    have h1 : s • (b - a) = t • (b - a) := add_left_cancel hst
    have h2 : (s - t) • (b - a) = 0 := by rw [sub_smul, h1, sub_self]
    rcases smul_eq_zero.mp h2 with h3 | h3
    · linarith
    · exact absurd (sub_eq_zero.mp h3).symm h
  exact (hi.image hinj).mono (by rintro _ ⟨t, ht, rfl⟩; exact hS _ ⟨t, ht.1, ht.2, rfl⟩)

/-- All nodes of a path are equal if consecutive ones are. -/
theorem path_const {l : List (Pt ℝ)} (h : ∀ i, i + 1 < l.length → l.getD i 0 = l.getD (i + 1) 0) {p q : Pt ℝ}
    (hp : p ∈ l) (hq : q ∈ l) : p = q := by
  have h0 : ∀ i, i < l.length → l.getD i 0 = l.getD 0 0 := by
    intro i
    induction i with
    | zero => intro _; rfl
    | succ i ih => intro hi; rw [← h i hi]; exact ih (by omega)
  obtain ⟨i, hi, rfl⟩ := List.mem_iff_getElem.1 hp
  obtain ⟨j, hj, rfl⟩ := List.mem_iff_getElem.1 hq
  rw [← List.getD_eq_getElem _ 0 hi, ← List.getD_eq_getElem _ 0 hj, h0 i hi, h0 j hj]

theorem path_infinite {l : List (Pt ℝ)} {p q : Pt ℝ} (hp : p ∈ l) (hq : q ∈ l) (hne : p ≠ q) {S : Set (Pt ℝ)}
    (hS : pathPoints l ⊆ S) : S.Infinite := by
  by_contra hf
  exact hne (path_const (fun i hi => by
    by_contra hc
    exact hf (segment_infinite hc fun r hr => hS ⟨i, hi, hr⟩)) hp hq)

/-- A finite geometry is given by its points. -/
theorem geom_finite {g : Geom} {S : Set (Pt ℝ)} (h : GeomIs g S) (hf : S.Finite) :
    ∃ pts, geomPoints g = .ok pts ∧ ∀ p, p ∈ pts ↔ p ∈ S := by
  cases g with
  | empty => exact ⟨[], rfl, fun p => by rw [show S = ∅ from h]; simp⟩
  | point q => exact ⟨[q], rfl, fun p => by rw [show S = {q} from h]; simp⟩
  | multiPoint l => exact ⟨l, rfl, fun p => by rw [h.1]; rfl⟩
  | lineString l =>
    obtain ⟨h1, p, hp, r, hr, hne⟩ := h
    exact absurd hf (path_infinite hp hr hne h1.ge)
  | multiLineString ls =>
    obtain ⟨h1, h2, h3⟩ := h
    cases ls with
    | nil => exact absurd rfl h2
    | cons l ls =>
      obtain ⟨p, hp, r, hr, hne⟩ := h3 l List.mem_cons_self
      refine absurd hf (path_infinite hp hr hne fun x hx => ?_)
      rw [h1]; exact ⟨l, List.mem_cons_self, hx⟩
  | collection => exact absurd hf h

/-- The points taken from a geometry belong to it. -/
theorem geom_mem {g : Geom} {S : Set (Pt ℝ)} (h : GeomIs g S) {pts : List (Pt ℝ)} (hp : geomPoints g = .ok pts) :
    ∀ p ∈ pts, p ∈ S := by
  intro p hm
  cases g with
  | empty => simp only [geomPoints, Except.ok.injEq] at hp; subst hp; simp at hm
  | point q =>
    simp only [geomPoints, Except.ok.injEq] at hp; subst hp
    rw [show S = {q} from h]; exact List.mem_singleton.1 hm
  | multiPoint l => simp only [geomPoints, Except.ok.injEq] at hp; subst hp; rw [h.1]; exact hm
  | lineString l =>
    simp only [geomPoints, Except.ok.injEq] at hp; subst hp
    obtain ⟨h1, a, ha, b, hb, hne⟩ := h
    rw [h1]; exact node_mem_path (two_le_of_ne ha hb hne) hm
  | multiLineString ls =>
    simp only [geomPoints, Except.ok.injEq] at hp; subst hp
    obtain ⟨h1, h2, h3⟩ := h
    obtain ⟨l, hl, hpl⟩ := List.mem_flatten.1 hm
    obtain ⟨a, ha, b, hb, hne⟩ := h3 l hl
    rw [h1]; exact ⟨l, hl, node_mem_path (two_le_of_ne ha hb hne) hpl⟩
  | collection => simp [geomPoints] at hp

theorem mapM_toFrame {mm : Option Pose} {g : Frame} (hg : g.Valid) (l : List (Pt ℝ)) :
    ∃ l', (l.mapM fun p => transform mm p .obstacle g) = .ok l' ∧
      ∀ p, p ∈ l' ↔ ∃ q ∈ l, globalPoint mm g p = globalPoint mm .obstacle q := by
  induction l with
  | nil => exact ⟨[], rfl, by simp⟩
  | cons a l ih =>
    obtain ⟨l', h1, h2⟩ := ih
    obtain ⟨b, hb⟩ := (C21_total mm a .obstacle g (Or.inr rfl) hg).1
    refine ⟨b :: l', by simp only [List.mapM_cons, hb, h1, bind, Except.bind, pure, Except.pure], fun p => ?_⟩
    have hb' := transform_global (Or.inr rfl) hg hb
    simp only [List.mem_cons, h2, exists_eq_or_imp]
    refine or_congr ⟨fun h => by rw [h, hb'], fun h => globalPoint_inj (h.trans hb'.symm)⟩ Iff.rfl

section
variable {mm : Option Pose} {ring : List (Pt ℝ)} {ix : Pt ℝ → Pt ℝ → Geom} {l0 l1 : Pt ℝ} {fin fout : Frame}

theorem crossing_iff {a b : Pt ℝ} (ha : globalPoint mm .obstacle a = globalPoint mm fin l0)
    (hb : globalPoint mm .obstacle b = globalPoint mm fin l1) (p : Pt ℝ) :
    Crossing mm ring l0 l1 fin fout p ↔ ∃ q ∈ hits ring a b, globalPoint mm fout p = globalPoint mm .obstacle q := by
  unfold Crossing
  rw [← ha, ← hb]
  refine exists_congr fun q => ?_
  rw [globalPoint_segment]
  simp only [hits, Set.mem_ofPred_eq]
  tauto

/-- C65: every point that `line_intersection` returns is, in the output frame, a point that the segment has in
common with the boundary of the polygon placed at the current pose. -/
theorem C65_sound (hin : fin.Valid) (hout : fout.Valid) (hix : ∀ a b, GeomIs (ix a b) (hits ring a b))
    {pts : List (Pt ℝ)} (h : polygonLineIntersection mm ix l0 l1 fin fout = .ok pts) :
    ∀ p ∈ pts, Crossing mm ring l0 l1 fin fout p := by
  obtain ⟨a, ha⟩ := (C21_total mm l0 fin .obstacle hin (Or.inr rfl)).1
  obtain ⟨b, hb⟩ := (C21_total mm l1 fin .obstacle hin (Or.inr rfl)).1
  intro p hp
  rw [crossing_iff (transform_global hin (Or.inr rfl) ha) (transform_global hin (Or.inr rfl) hb)]
  simp only [polygonLineIntersection, ha, hb, bind, Except.bind] at h
  cases hg : geomPoints (ix a b) with
  | error e => rw [hg] at h; cases h
  | ok l =>
    rw [hg] at h
    obtain ⟨l', h1, h2⟩ := mapM_toFrame (mm := mm) hout l
    simp only [h1, Except.ok.injEq] at h
    subst h
    obtain ⟨q, hq, e⟩ := (h2 p).1 hp
    exact ⟨q, geom_mem (hix a b) hg q hq, e⟩

/-- C65, the finite case: if the segment meets the boundary in finitely many points only, the call succeeds and
returns exactly these points, in the output frame. Missing: segments that run along an edge. -/
theorem C65_exact_partial (hin : fin.Valid) (hout : fout.Valid) (hix : ∀ a b, GeomIs (ix a b) (hits ring a b))
    (hfin : {p | Crossing mm ring l0 l1 fin fout p}.Finite) :
    ∃ pts, polygonLineIntersection mm ix l0 l1 fin fout = .ok pts ∧
      ∀ p, p ∈ pts ↔ Crossing mm ring l0 l1 fin fout p := by
  obtain ⟨a, ha⟩ := (C21_total mm l0 fin .obstacle hin (Or.inr rfl)).1
  obtain ⟨b, hb⟩ := (C21_total mm l1 fin .obstacle hin (Or.inr rfl)).1
  have hc : ∀ p, Crossing mm ring l0 l1 fin fout p ↔
      ∃ q ∈ hits ring a b, globalPoint mm fout p = globalPoint mm .obstacle q :=
    crossing_iff (transform_global hin (Or.inr rfl) ha) (transform_global hin (Or.inr rfl) hb)
  have hfin' : (hits ring a b).Finite := by
    by_contra hi
    have hsub : ∀ q, ∃ p, globalPoint mm fout p = globalPoint mm .obstacle q := fun q => by
      obtain ⟨p, hp⟩ := (C21_total mm q .obstacle fout (Or.inr rfl) hout).1
      exact ⟨p, transform_global (Or.inr rfl) hout hp⟩
    choose f hf using hsub
    have hinj : Set.InjOn f (hits ring a b) := by
      intro x _ y _ hxy
      have := hf x
      rw [hxy, hf y] at this
      exact (globalPoint_inj this).symm
    exact ((Set.not_finite.mp hi |>.image hinj).mono (by
      rintro _ ⟨q, hq, rfl⟩
      exact (hc _).2 ⟨q, hq, hf q⟩)) hfin
  obtain ⟨l, hl, hmem⟩ := geom_finite (hix a b) hfin'
  obtain ⟨l', h1, h2⟩ := mapM_toFrame (mm := mm) hout l
  refine ⟨l', by simp only [polygonLineIntersection, ha, hb, hl, bind, Except.bind, h1], fun p => ?_⟩
  rw [h2, hc]
  simp only [hmem]

end

/-- The geometry of a path that has an isolated point `q` and at least two different nodes does not exist. -/
theorem path_isolated {l : List (Pt ℝ)} {S : Set (Pt ℝ)} {q : Pt ℝ} (hS : pathPoints l ⊆ S)
    (hiso : ∀ a b, (∀ r, OnSegment a b r → r ∈ S) → OnSegment a b q → a = q ∧ b = q) (hq : q ∈ pathPoints l)
    {p r : Pt ℝ} (hp : p ∈ l) (hr : r ∈ l) : p = r := by
  have start : ∀ a b : Pt ℝ, OnSegment a b a := fun a b => ⟨0, le_rfl, zero_le_one, by simp⟩
  have stop : ∀ a b : Pt ℝ, OnSegment a b b := fun a b => ⟨1, zero_le_one, le_rfl, by simp⟩
  obtain ⟨i, hi, hqi⟩ := hq
  have step : ∀ j, j + 1 < l.length → (l.getD j 0 = q ↔ l.getD (j + 1) 0 = q) := by
    intro j hj
    constructor
    · intro h
      exact (hiso _ _ (fun x hx => hS ⟨j, hj, hx⟩) (by rw [← h]; exact start _ _)).2
    · intro h
      exact (hiso _ _ (fun x hx => hS ⟨j, hj, hx⟩) (by rw [← h]; exact stop _ _)).1
  have h0 : ∀ j, j < l.length → (l.getD j 0 = q ↔ l.getD 0 0 = q) := by
    intro j
    induction j with
    | zero => intro _; rfl
    | succ j ih => intro hj; rw [← step j hj]; exact ih (by omega)
  have hfirst : l.getD 0 0 = q :=
    (h0 i (by omega)).1 (hiso _ _ (fun x hx => hS ⟨i, hi, hx⟩) hqi).1
  obtain ⟨j, hj, rfl⟩ := List.mem_iff_getElem.1 hp
  obtain ⟨k, hk, rfl⟩ := List.mem_iff_getElem.1 hr
  rw [← List.getD_eq_getElem _ 0 hj, ← List.getD_eq_getElem _ 0 hk, (h0 j hj).2 hfirst, (h0 k hk).2 hfirst]

/-- The segment from (-1, 0) to (4, 0) meets this ring in the edge from (0, 0) to (1, 0) and in the corner (2, 0). -/
theorem notch_hits (p : Pt ℝ) :
    p ∈ hits [(0, 0), (1, 0), (1, 1), (2, 0), (2, 2), (0, 2)] (-1, 0) (4, 0) ↔
      p.2 = 0 ∧ (0 ≤ p.1 ∧ p.1 ≤ 1 ∨ p.1 = 2) := by
  simp only [hits, Set.mem_ofPred_eq]
  constructor
  · rintro ⟨⟨t, _, _, rfl⟩, i, hi, s, hs0, hs1, h⟩
    simp only [List.length_cons, List.length_nil] at hi
    interval_cases i <;> simp [corner, Prod.ext_iff] at h ⊢ <;> obtain ⟨h1, h2⟩ := h
    · left; constructor <;> linarith
    · left; constructor <;> linarith
    · right; linarith
    · right; linarith
    · left; constructor <;> linarith
  · rintro ⟨h2, h⟩
    refine ⟨⟨(p.1 + 1) / 5, by rcases h with h | h <;> linarith, by rcases h with h | h <;> linarith, ?_⟩, ?_⟩
    · ext
      · simp; ring
      · simp [h2]
    · rcases h with ⟨h, h'⟩ | h
      · refine ⟨0, by simp, p.1, h, h', ?_⟩
        ext <;> simp [corner, h2]
      · refine ⟨3, by simp, 0, le_rfl, zero_le_one, ?_⟩
        ext <;> simp [corner, h2, h]

/-- C65 is false: for a segment that runs along one edge and touches the boundary elsewhere as well, whatever shapely
returns is a GeometryCollection, and `line_intersection` raises UnboundLocalError. -/
theorem C65_collection_false (ix : Pt ℝ → Pt ℝ → Geom)
    (hix : ∀ a b, GeomIs (ix a b) (hits [(0, 0), (1, 0), (1, 1), (2, 0), (2, 2), (0, 2)] a b)) :
    polygonLineIntersection none ix (-1, 0) (4, 0) .global .global = .error .unboundLocalError := by
  have hg := hix (-1, 0) (4, 0)
  have hiso : ∀ a b : Pt ℝ,
      (∀ r, OnSegment a b r → r ∈ hits [(0, 0), (1, 0), (1, 1), (2, 0), (2, 2), (0, 2)] (-1, 0) (4, 0)) →
      OnSegment a b ((2, 0) : Pt ℝ) → a = (2, 0) ∧ b = (2, 0) := by
    intro a b hS hq
    have ha := (notch_hits a).1 (hS a ⟨0, le_rfl, zero_le_one, by simp⟩)
    have hb := (notch_hits b).1 (hS b ⟨1, zero_le_one, le_rfl, by simp⟩)
    have mid : ∀ t : ℝ, 0 ≤ t → t ≤ 1 → (0 ≤ a.1 + t * (b.1 - a.1) ∧ a.1 + t * (b.1 - a.1) ≤ 1 ∨
        a.1 + t * (b.1 - a.1) = 2) := by
      intro t h0 h1
      simpa using ((notch_hits _).1 (hS _ ⟨t, h0, h1, rfl⟩)).2
    obtain ⟨t, ht0, ht1, ht⟩ := hq
    have e : (2 : ℝ) = a.1 + t * (b.1 - a.1) := by
      have := congrArg Prod.fst ht; simpa using this
    rcases ha with ⟨ha2, ⟨ha0, ha1⟩ | ha⟩ <;> rcases hb with ⟨hb2, ⟨hb0, hb1⟩ | hb⟩
    · exfalso; nlinarith
    · exfalso
      have hpos : 0 < 2 - a.1 := by linarith
      have := mid ((3 / 2 - a.1) / (2 - a.1)) (div_nonneg (by linarith) hpos.le) ((div_le_one hpos).2 (by linarith))
      rw [hb, div_mul_cancel₀ _ hpos.ne'] at this
      rcases this with h | h <;> linarith
    · exfalso
      have hpos : 0 < 2 - b.1 := by linarith
      have := mid ((1 / 2) / (2 - b.1)) (div_nonneg (by norm_num) hpos.le) ((div_le_one hpos).2 (by linarith))
      rw [ha, show (1 / 2 : ℝ) / (2 - b.1) * (b.1 - 2) = -(1 / 2) by field_simp; ring] at this
      rcases this with h | h <;> linarith
    · exact ⟨Prod.ext ha ha2, Prod.ext hb hb2⟩
  have hq : ((2, 0) : Pt ℝ) ∈ hits [(0, 0), (1, 0), (1, 1), (2, 0), (2, 2), (0, 2)] (-1, 0) (4, 0) :=
    (notch_hits _).2 ⟨rfl, Or.inr rfl⟩
  have hinf : (hits [((0, 0) : Pt ℝ), (1, 0), (1, 1), (2, 0), (2, 2), (0, 2)] (-1, 0) (4, 0)).Infinite := by
    refine segment_infinite (a := (0, 0)) (b := (1, 0)) (by simp) fun p hp => (notch_hits p).2 ?_
    obtain ⟨t, h0, h1, rfl⟩ := hp
    simp [h0, h1]
  have hcol : ix (-1, 0) (4, 0) = .collection := by
    cases h : ix (-1, 0) (4, 0) with
    | collection => rfl
    | empty => rw [h] at hg; simp only [GeomIs] at hg; rw [hg] at hinf; exact absurd Set.finite_empty hinf
    | point p => rw [h] at hg; simp only [GeomIs] at hg; rw [hg] at hinf; exact absurd (Set.finite_singleton p) hinf
    | multiPoint l => rw [h] at hg; rw [hg.1] at hinf; exact absurd (List.finite_toSet l) hinf
    | lineString l =>
      rw [h] at hg
      obtain ⟨h1, p, hp, r, hr, hne⟩ := hg
      exact absurd (path_isolated h1.ge hiso (h1 ▸ hq) hp hr) hne
    | multiLineString ls =>
      rw [h] at hg
      obtain ⟨h1, h2, h3⟩ := hg
      have hq' := hq
      rw [h1] at hq'
      obtain ⟨l, hl, hql⟩ := hq'
      obtain ⟨p, hp, r, hr, hne⟩ := h3 l hl
      refine absurd (path_isolated (fun x hx => ?_) hiso hql hp hr) hne
      rw [h1]; exact ⟨l, hl, hx⟩
  simp [polygonLineIntersection, transform, bind, Except.bind, hcol, geomPoints]

/-- Every point set is described by a geometry, so the hypothesis about `ix` can be met for every ring. -/
theorem geom_exists (S : Set (Pt ℝ)) : ∃ g, GeomIs g S := by
  by_cases hf : S.Finite
  · obtain ⟨l, hl, hS⟩ : ∃ l : List (Pt ℝ), l.Nodup ∧ S = {p | p ∈ l} := by
      classical
      exact ⟨hf.toFinset.toList, Finset.nodup_toList _, by ext; simp⟩
    match l with
    | [] => exact ⟨.empty, by rw [hS]; simp [GeomIs]⟩
    | [a] => exact ⟨.point a, by rw [hS]; simp [GeomIs]⟩
    | a :: b :: l => exact ⟨.multiPoint (a :: b :: l), hS, hl, by simp⟩
  · exact ⟨.collection, hf⟩

theorem ix_exists (ring : List (Pt ℝ)) : ∃ ix : Pt ℝ → Pt ℝ → Geom, ∀ a b, GeomIs (ix a b) (hits ring a b) :=
  ⟨fun _ _ => (geom_exists _).choose, fun _ _ => (geom_exists _).choose_spec⟩

/-- The unit square turned by a quarter turn and moved by (1, 0), met from the left. -/
example (ix : Pt ℝ → Pt ℝ → Geom) (hix : ∀ a b, GeomIs (ix a b) (hits [(0, 0), (1, 0), (1, 1), (0, 1)] a b)) :
    polygonLineIntersection (some ⟨(1, 0), π / 2⟩) ix (-1, 1 / 2) (1 / 2, 1 / 2) .global .global =
      .ok [(0, 1 / 2)] := by
  have h1 : transform (some ⟨(1, 0), π / 2⟩) (-1, 1 / 2) .global .obstacle = .ok (1 / 2, 2) := by
    simp [transform, (C01_formula _ _ _).2]; norm_num
  have h2 : transform (some ⟨(1, 0), π / 2⟩) (1 / 2, 1 / 2) .global .obstacle = .ok (1 / 2, 1 / 2) := by
    simp [transform, (C01_formula _ _ _).2]; norm_num
  have h3 : transform (some ⟨(1, 0), π / 2⟩) (1 / 2, 1) .obstacle .global = .ok (0, 1 / 2) := by
    simp [transform, (C01_formula _ _ _).1]
  have hh : hits [((0, 0) : Pt ℝ), (1, 0), (1, 1), (0, 1)] (1 / 2, 2) (1 / 2, 1 / 2) = {(1 / 2, 1)} := by
    ext p
    simp only [hits, Set.mem_ofPred_eq, Set.mem_singleton_iff]
    constructor
    · rintro ⟨⟨t, h0, h1, rfl⟩, i, hi, s, hs0, hs1, h⟩
      simp only [List.length_cons, List.length_nil] at hi
      interval_cases i <;> simp [corner, Prod.ext_iff] at h ⊢ <;> obtain ⟨h1, h2⟩ := h <;> linarith
    · rintro rfl
      refine ⟨⟨2 / 3, by norm_num, by norm_num, ?_⟩, 2, by simp, 1 / 2, by norm_num, by norm_num, ?_⟩
      · ext <;> simp; norm_num
      · ext <;> simp [corner]; norm_num
  have hg : ix (1 / 2, 2) (1 / 2, 1 / 2) = .point (1 / 2, 1) := geom_point (hh ▸ hix _ _)
  simp only [polygonLineIntersection, h1, h2, hg, geomPoints, bind, Except.bind, List.mapM_cons, List.mapM_nil, h3, pure,
    Except.pure]

end Starworlds
