import Verif.Props.PolygonLine

/-! # C65: segments that run along an edge -/

namespace Starworlds

open Real Spec

section
variable {mm : Option Pose} {ring : List (Pt ℝ)} {ix : Pt ℝ → Pt ℝ → Geom} {l0 l1 : Pt ℝ} {fin fout : Frame}

/-- The nodes taken from a geometry enclose it. -/
theorem geom_between {g : Geom} {S : Set (Pt ℝ)} (h : GeomIs g S) {pts : List (Pt ℝ)} (hp : geomPoints g = .ok pts) :
    ∀ p ∈ S, ∃ q ∈ pts, ∃ r ∈ pts, OnSegment q r p ∧ ∀ s, OnSegment q r s → s ∈ S := by
  have single : ∀ {p s : Pt ℝ}, OnSegment p p s → s = p := by rintro p s ⟨t, -, -, rfl⟩; simp
  have self : ∀ p : Pt ℝ, OnSegment p p p := fun p => ⟨0, le_rfl, zero_le_one, by simp⟩
  have path : ∀ l p, p ∈ pathPoints l → ∃ q ∈ l, ∃ r ∈ l, OnSegment q r p ∧ ∀ s, OnSegment q r s → s ∈ pathPoints l := by
    rintro l p ⟨i, hi, hs⟩
    refine ⟨l.getD i 0, ?_, l.getD (i + 1) 0, ?_, hs, fun s hs => ⟨i, hi, hs⟩⟩
    · rw [List.getD_eq_getElem _ 0 (by omega)]; exact List.getElem_mem _
    · rw [List.getD_eq_getElem _ 0 hi]; exact List.getElem_mem _
  intro p hpS
  cases g with
  | empty => rw [show S = ∅ from h] at hpS; exact absurd hpS (Set.notMem_empty _)
  | point q =>
    simp only [geomPoints, Except.ok.injEq] at hp; subst hp
    rw [show S = {q} from h, Set.mem_singleton_iff] at hpS
    subst hpS
    exact ⟨p, by simp, p, by simp, self p, fun s hs => by rw [show S = {p} from h]; exact single hs⟩
  | multiPoint l =>
    simp only [geomPoints, Except.ok.injEq] at hp; subst hp
    have hl : p ∈ l := by rw [h.1] at hpS; exact hpS
    exact ⟨p, hl, p, hl, self p, fun s hs => by rw [single hs]; exact hpS⟩
  | lineString l =>
    simp only [geomPoints, Except.ok.injEq] at hp; subst hp
    rw [h.1] at hpS ⊢
    exact path l p hpS
  | multiLineString ls =>
    simp only [geomPoints, Except.ok.injEq] at hp; subst hp
    rw [h.1] at hpS ⊢
    obtain ⟨l, hl, hpl⟩ := hpS
    obtain ⟨q, hq, r, hr, h1, h2⟩ := path l p hpl
    exact ⟨q, List.mem_flatten.2 ⟨l, hl, hq⟩, r, List.mem_flatten.2 ⟨l, hl, hr⟩, h1, fun s hs => ⟨l, hl, h2 s hs⟩⟩
  | collection => simp [geomPoints] at hp

/-- C65 with segments along edges: whenever the call returns, every common point of segment and boundary is between two points returned (or
is one), and the points between these two are common points as well. -/
theorem C65_between_partial (hin : fin.Valid) (hout : fout.Valid) (hix : ∀ a b, GeomIs (ix a b) (hits ring a b))
    {pts : List (Pt ℝ)} (h : polygonLineIntersection mm ix l0 l1 fin fout = .ok pts) :
    ∀ p, Crossing mm ring l0 l1 fin fout p → ∃ q ∈ pts, ∃ r ∈ pts, OnSegment q r p ∧
      ∀ s, OnSegment q r s → Crossing mm ring l0 l1 fin fout s := by
  obtain ⟨a, ha⟩ := (C21_total mm l0 fin .obstacle hin (Or.inr rfl)).1
  obtain ⟨b, hb⟩ := (C21_total mm l1 fin .obstacle hin (Or.inr rfl)).1
  have hc : ∀ p, Crossing mm ring l0 l1 fin fout p ↔
      ∃ q ∈ hits ring a b, globalPoint mm fout p = globalPoint mm .obstacle q :=
    crossing_iff (transform_global hin (Or.inr rfl) ha) (transform_global hin (Or.inr rfl) hb)
  intro p hp
  simp only [polygonLineIntersection, ha, hb, bind, Except.bind] at h
  cases hg : geomPoints (ix a b) with
  | error e => rw [hg] at h; cases h
  | ok l =>
    rw [hg] at h
    obtain ⟨l', h1, h2⟩ := mapM_toFrame (mm := mm) hout l
    simp only [h1, Except.ok.injEq] at h
    subst h
    obtain ⟨p0, hp0, ep⟩ := (hc p).1 hp
    obtain ⟨q0, hq0, r0, hr0, hs0, hseg⟩ := geom_between (hix a b) hg p0 hp0
    obtain ⟨q, hq⟩ := (C21_total mm q0 .obstacle fout (Or.inr rfl) hout).1
    obtain ⟨r, hr⟩ := (C21_total mm r0 .obstacle fout (Or.inr rfl) hout).1
    have eq := transform_global (Or.inr rfl) hout hq
    have er := transform_global (Or.inr rfl) hout hr
    refine ⟨q, (h2 q).2 ⟨q0, hq0, eq⟩, r, (h2 r).2 ⟨r0, hr0, er⟩, ?_, fun s hs => ?_⟩
    · rw [← globalPoint_segment (mm := mm) (f := fout), eq, er, ep, globalPoint_segment]; exact hs0
    · obtain ⟨s0, hs0⟩ := (C21_total mm s fout .obstacle hout (Or.inr rfl)).1
      have es := transform_global hout (Or.inr rfl) hs0
      refine (hc s).2 ⟨s0, hseg s0 ?_, es.symm⟩
      rw [← globalPoint_segment (mm := mm) (f := .obstacle), ← eq, ← er, es, globalPoint_segment]; exact hs

end

/-- A segment along the lower edge of the unit square: whenever points are returned, all of the edge is between two of them, and nothing to
the right of the square is returned. -/
example (ix : Pt ℝ → Pt ℝ → Geom) (hix : ∀ a b, GeomIs (ix a b) (hits [(0, 0), (1, 0), (1, 1), (0, 1)] a b)) (pts : List (Pt ℝ))
    (h : polygonLineIntersection none ix (-1, 0) (4, 0) .global .global = .ok pts) (x : ℝ) (h0 : 0 ≤ x) (h1 : x ≤ 1) :
    (∃ q ∈ pts, ∃ r ∈ pts, OnSegment q r (x, 0)) ∧ (2, 0) ∉ pts := by
  have hv : Frame.global.Valid := Or.inl rfl
  constructor
  · obtain ⟨q, hq, r, hr, hs, -⟩ := C65_between_partial hv hv hix h (x, 0) ⟨(x, 0), ⟨0, by simp, x, h0, h1, by ext <;> simp [corner]⟩, rfl,
      ⟨(x + 1) / 5, by linarith, by linarith, by ext <;> simp [globalPoint] ; ring⟩⟩
    exact ⟨q, hq, r, hr, hs⟩
  · intro hm
    obtain ⟨q, ⟨i, hi, s, hs0, hs1, e⟩, e', -⟩ := C65_sound hv hv hix h _ hm
    have : q = (2, 0) := e'.symm
    rw [this] at e
    simp only [List.length_cons, List.length_nil] at hi
    interval_cases i <;> simp [corner, Prod.ext_iff] at e <;> linarith

end Starworlds
