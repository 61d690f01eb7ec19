import Verif.Spec.Moving
import Verif.Model.StarTangent
import Verif.Model.Ellipse
import Verif.Props.Obstacle
import Verif.Props.EllipseTangent

/-! # C116: moving an obstacle moves the answers -/

namespace Starworlds

open Spec Real

theorem to_local (mm : Option Pose) {f : Frame} (hf : f.Valid) (p : Pt ℝ) : transform mm (inFrame mm f p) f .obstacle = .ok p := by
  rcases mm with _ | q
  · rcases hf with rfl | rfl <;> rfl
  · rcases hf with rfl | rfl
    · have := (C21_inverse (some q) p _ .obstacle .global).1 (C21_meaning q p).2.1
      exact this
    · simp [transform, inFrame]

theorem from_local (mm : Option Pose) {f : Frame} (hf : f.Valid) (p : Pt ℝ) : transform mm p .obstacle f = .ok (inFrame mm f p) := by
  rcases mm with _ | q
  · rcases hf with rfl | rfl <;> rfl
  · rcases hf with rfl | rfl
    · exact (C21_meaning q p).2.1
    · simp [transform, inFrame]

theorem dir_from_local (mm : Option Pose) {f : Frame} (hf : f.Valid) (p : Pt ℝ) : rotate mm p .obstacle f = .ok (dirFrame mm f p) := by
  have := C21_difference mm p (0, 0) _ _ .obstacle f (from_local mm hf p) (from_local mm hf (0, 0))
  rwa [show p - ((0, 0) : Pt ℝ) = p by ext <;> simp] at this

theorem frame_none (f : Frame) (p : Pt ℝ) : inFrame none f p = p := by cases f <;> rfl

theorem dirFrame_none (f : Frame) (p : Pt ℝ) : dirFrame none f p = p := by rw [dirFrame, frame_none, frame_none]; ext <;> simp

theorem map_rest (f : Frame) (r : Except PyErr (List (Pt ℝ))) : answerIn (List.map (inFrame none f)) r = r := by
  have : inFrame none f = id := funext (frame_none f)
  cases r <;> simp [answerIn, this]

theorem map_own (mm : Option Pose) (r : Except PyErr (List (Pt ℝ))) : answerIn (List.map (inFrame mm .obstacle)) r = r := by
  have : inFrame mm .obstacle = id := rfl
  cases r <;> simp [answerIn, this]

theorem refDir_pose (mm : Option Pose) (xr y : Pt ℝ) :
    referenceDirection mm xr y .obstacle .obstacle = referenceDirection none xr y .global .global := by
  cases mm <;> simp [referenceDirection, transform]

theorem mapM_frame (mm : Option Pose) {f : Frame} (hf : f.Valid) (l : List (Pt ℝ)) :
    (l.mapM fun p => transform mm p .obstacle f) = .ok (l.map (inFrame mm f)) := by
  induction l with
  | nil => rfl
  | cons p l ih =>
    rw [List.mapM_cons, from_local mm hf, ih]
    rfl

theorem isCcw_frame (mm : Option Pose) (f : Frame) (x s t : Pt ℝ) :
    isCcw (inFrame mm f x) (inFrame mm f s) (inFrame mm f t) = isCcw x s t := by
  have key : cross (inFrame mm f s - inFrame mm f x) (inFrame mm f t - inFrame mm f x) = cross (s - x) (t - x) := by
    rcases mm with _ | q
    · simp [frame_none]
    · have e := sin_sq_add_cos_sq q.rot
      cases f
      all_goals simp only [inFrame, worldOf, cross, Prod.fst_sub, Prod.snd_sub]
      all_goals linear_combination ((s.1 - x.1) * (t.2 - x.2) - (s.2 - x.2) * (t.1 - x.1)) * e
  rw [Bool.eq_iff_iff, isCcw_cross, isCcw_cross, key]

/-! ## Ellipse -/

/-- C116, Ellipse: the values for a moved ellipse and a moved point are those for the ellipse at rest. -/
theorem C116_ellipse_values (e : Ell) {f : Frame} (hf : f.Valid) (p : Pt ℝ) :
    e.pointLocation (inFrame e.mm f p) f = { e with mm := none }.pointLocation p .global ∧
      e.distanceFunction (inFrame e.mm f p) f = { e with mm := none }.distanceFunction p .global := by
  have hb : e.boundaryMapping p .obstacle .obstacle = { e with mm := none }.boundaryMapping p .obstacle .obstacle := by
    obtain ⟨a, xr, n, mm⟩ := e
    have h0 : ∀ (x : Pt ℝ) (m : Option Pose), transform m x .obstacle .obstacle = .ok x := fun x m => (C21_identity m x _ _ (.inl rfl)).1
    simp only [Ell.boundaryMapping, Ell.lineIntersection, Ell.diameter, refDir_pose mm, refDir_pose none, h0]
  refine ⟨?_, ?_⟩
  · simp only [Ell.pointLocation, to_local e.mm hf p]
    rfl
  · simp only [Ell.distanceFunction, to_local e.mm hf p, bind, Except.bind, hb]
    rfl

/-- C116, Ellipse: the points of a moved ellipse are the moved points of the ellipse at rest, in whichever frames the points are
given and asked for; the same exceptions are raised. -/
theorem C116_ellipse_points (e : Ell) {f g : Frame} (hf : f.Valid) (hg : g.Valid) (p q : Pt ℝ) :
    e.lineIntersection (inFrame e.mm f p) (inFrame e.mm f q) f g =
        answerIn (List.map (inFrame e.mm g)) ({ e with mm := none }.lineIntersection p q .global .global) ∧
      e.boundaryMapping (inFrame e.mm f p) f g =
        answerIn (Option.map (inFrame e.mm g)) ({ e with mm := none }.boundaryMapping p .global .global) ∧
      ∀ b, e.normal (inFrame e.mm f p) f g b =
        answerIn (Option.map (dirFrame e.mm g)) ({ e with mm := none }.normal p .global .global b) := by
  obtain ⟨a, xr, n, mm⟩ := e
  have hv : Frame.global.Valid := Or.inl rfl
  have ho : Frame.obstacle.Valid := Or.inr rfl
  have h0 : ∀ (x : Pt ℝ) (m : Option Pose), transform m x .obstacle .obstacle = .ok x := fun x m => (C21_identity m x _ _ (.inl rfl)).1
  have hn : ∀ (x : Pt ℝ) (k l : Frame), transform none x k l = .ok x := fun x k l => rfl
  have hl : ∀ (m : Option Pose) (u v : Pt ℝ) {f g : Frame}, f.Valid → g.Valid →
      (⟨a, xr, n, m⟩ : Ell).lineIntersection (inFrame m f u) (inFrame m f v) f g =
        answerIn (List.map (inFrame m g)) (ellLine a u v) := by
    intro m u v f g hf hg
    simp only [Ell.lineIntersection, to_local m hf, bind, Except.bind]
    cases ellLine a u v with
    | error e => rfl
    | ok l => exact mapM_frame m hg l
  have hln : ∀ u v, (⟨a, xr, n, none⟩ : Ell).lineIntersection u v .global .global = ellLine a u v := by
    intro u v
    have := hl none u v hv hv
    rwa [map_rest, frame_none, frame_none] at this
  have hlo : ∀ (m : Option Pose) u v, (⟨a, xr, n, m⟩ : Ell).lineIntersection u v .obstacle .obstacle = ellLine a u v := by
    intro m u v
    have := hl m u v ho ho
    rwa [map_own] at this
  have hb : ∀ {f g : Frame}, f.Valid → g.Valid → (⟨a, xr, n, mm⟩ : Ell).boundaryMapping (inFrame mm f p) f g =
        answerIn (Option.map (inFrame mm g)) ((⟨a, xr, n, none⟩ : Ell).boundaryMapping p .global .global) := by
    intro f g hf hg
    simp only [Ell.boundaryMapping, to_local mm hf, hn, bind, Except.bind, refDir_pose mm, refDir_pose none, Ell.diameter, hlo, from_local mm hg]
    cases referenceDirection none xr p .global .global with
    | error e => rfl
    | ok d =>
      simp only []
      rcases ellLine a xr (xr + (1.1 * max (2 * a.1) (2 * a.2)) • d) with e | l
      · rfl
      · rcases l with _ | ⟨s, _ | ⟨t, l⟩⟩
        · rfl
        · rfl
        · simp only []
          split <;> rfl
  refine ⟨?_, hb hf hg, fun b => ?_⟩
  · rw [hln]
    exact hl mm p q hf hg
  · have hrot : ∀ x, rotate none x .obstacle .global = .ok x := fun _ => rfl
    cases b with
    | true =>
      simp only [Ell.normal, if_true, to_local mm hf, hn, bind, Except.bind, Except.map, dir_from_local mm hg, hrot]
      split <;> rfl
    | false =>
      simp only [Ell.normal, Bool.false_eq_true, if_false, bind, Except.bind, dir_from_local mm hg, hrot]
      rw [hb hf ho]
      have e : (⟨a, xr, n, none⟩ : Ell).boundaryMapping p .global .obstacle = (⟨a, xr, n, none⟩ : Ell).boundaryMapping p .global .global := rfl
      rw [e]
      rcases (⟨a, xr, n, none⟩ : Ell).boundaryMapping p .global .global with e | _ | b
      · rfl
      · rfl
      · simp only [answerIn, Option.map_some, inFrame]
        split <;> rfl

/-- C116, Ellipse: with the tangent points in the frame of the given point (the order of the two is that of the ellipse at rest). -/
theorem C116_ellipse_tangents (e : Ell) {f : Frame} (hf : f.Valid) (p : Pt ℝ) :
    e.tangentPoints (inFrame e.mm f p) f f =
      answerIn (List.map (inFrame e.mm f)) ({ e with mm := none }.tangentPoints p .global .global) := by
  obtain ⟨a, xr, n, mm⟩ := e
  have h0 : ∀ (x : Pt ℝ) (m : Option Pose), transform m x .obstacle .obstacle = .ok x := fun x m => (C21_identity m x _ _ (.inl rfl)).1
  have hn : ∀ (x : Pt ℝ) (k l : Frame), transform none x k l = .ok x := fun x k l => rfl
  have hp : (⟨a, xr, n, mm⟩ : Ell).exteriorPoint p .obstacle = (⟨a, xr, n, none⟩ : Ell).exteriorPoint p .obstacle := by
    simp only [Ell.exteriorPoint, Ell.pointLocation, h0]
  simp only [Ell.tangentPoints, to_local mm hf, hn, bind, Except.bind, hp, from_local mm hf]
  rcases (⟨a, xr, n, none⟩ : Ell).exteriorPoint p .obstacle with e | _ | _
  · rfl
  · rfl
  · simp only [Bool.not_true, Bool.false_eq_true, if_false]
    rcases ellTangents a p with e | ⟨t1, t2⟩
    · rfl
    · simp only [isCcw_frame]
      split <;> rfl

/-! ## Polygon -/

/-- C116, Polygon and StarshapedPolygon. -/
theorem C116_polygon (mm : Option Pose) (v : List (Pt ℝ)) (ix : Pt ℝ → Pt ℝ → Geom) {f g : Frame} (hf : f.Valid) (hg : g.Valid)
    (p q : Pt ℝ) :
    polygonPointLocation mm v (inFrame mm f p) f = polygonPointLocation none v p .global ∧
      polygonLineIntersection mm ix (inFrame mm f p) (inFrame mm f q) f g =
        answerIn (List.map (inFrame mm g)) (polygonLineIntersection none ix p q .global .global) ∧
      polygonTangentPoints mm v (inFrame mm f p) f g =
        answerIn (List.map (inFrame mm g)) (polygonTangentPoints none v p .global .global) := by
  have hv : Frame.global.Valid := Or.inl rfl
  refine ⟨?_, ?_, ?_⟩
  · simp only [polygonPointLocation, to_local mm hf]
    rfl
  · have hl : ∀ (m : Option Pose) {f g : Frame}, f.Valid → g.Valid →
        polygonLineIntersection m ix (inFrame m f p) (inFrame m f q) f g = answerIn (List.map (inFrame m g)) (geomPoints (ix p q)) := by
      intro m f g hf hg
      simp only [polygonLineIntersection, to_local m hf, bind, Except.bind]
      cases geomPoints (ix p q) with
      | error e => rfl
      | ok l => exact mapM_frame m hg l
    have := hl none hv hv
    rw [map_rest, frame_none, frame_none] at this
    rw [this]
    exact hl mm hf hg
  · have hl : ∀ (m : Option Pose) {f g : Frame}, f.Valid → g.Valid →
        polygonTangentPoints m v (inFrame m f p) f g = answerIn (List.map (inFrame m g)) (.ok (polyTangents v p)) := by
      intro m f g hf hg
      simp only [polygonTangentPoints, to_local m hf, bind, Except.bind]
      exact mapM_frame m hg _
    have := hl none hv hv
    rw [map_rest, frame_none] at this
    rw [this]
    exact hl mm hf hg

/-! ## StarshapedPolygon -/

/-- C116, StarshapedPolygon: `boundary_mapping`, `normal` of all types, `distance_function` and `tangent_points`. -/
theorem C116_star (s : StarPoly) (ix : Pt ℝ → Pt ℝ → Geom) {f g : Frame} (hf : f.Valid) (hg : g.Valid) (p : Pt ℝ) :
    s.boundaryMapping ix (inFrame s.mm f p) f g =
        answerIn (Option.map (inFrame s.mm g)) ({ s with mm := none }.boundaryMapping ix p .global .global) ∧
      (∀ type, s.normal (inFrame s.mm f p) f g type =
        answerIn (dirFrame s.mm g) ({ s with mm := none }.normal p .global .global type)) ∧
      s.distanceFunction ix (inFrame s.mm f p) f = { s with mm := none }.distanceFunction ix p .global ∧
      s.tangentPoints (inFrame s.mm f p) f g =
        answerIn (List.map (inFrame s.mm g)) ({ s with mm := none }.tangentPoints p .global .global) := by
  obtain ⟨mm, ring, xr, vs, va, ball⟩ := s
  have hv : Frame.global.Valid := Or.inl rfl
  have ho : Frame.obstacle.Valid := Or.inr rfl
  have hn : ∀ (x : Pt ℝ) (k l : Frame), transform none x k l = .ok x := fun x k l => rfl
  have hlo : ∀ (m : Option Pose) u v, polygonLineIntersection m ix u v .obstacle .obstacle = geomPoints (ix u v) := by
    intro m u v
    have h0 : ∀ (x : Pt ℝ), transform m x .obstacle .obstacle = .ok x := fun x => (C21_identity m x _ _ (.inl rfl)).1
    simp only [polygonLineIntersection, h0, bind, Except.bind]
    cases geomPoints (ix u v) with
    | error e => rfl
    | ok l =>
      have := mapM_frame m ho l
      simp only [h0] at this
      simp only []
      rw [this]
      simp [show inFrame m .obstacle = id from rfl]
  have hb : ∀ {f g : Frame}, f.Valid → g.Valid → (⟨mm, ring, xr, vs, va, ball⟩ : StarPoly).boundaryMapping ix (inFrame mm f p) f g =
      answerIn (Option.map (inFrame mm g)) ((⟨none, ring, xr, vs, va, ball⟩ : StarPoly).boundaryMapping ix p .global .global) := by
    intro f g hf hg
    simp only [StarPoly.boundaryMapping, to_local mm hf, hn, bind, Except.bind, refDir_pose mm, refDir_pose none, hlo, from_local mm hg]
    cases referenceDirection none xr p .global .global with
    | error e => rfl
    | ok d =>
      simp only []
      rcases geomPoints (ix xr (xr + (11 / 10 * ball) • d)) with e | l
      · rfl
      · rcases l with _ | ⟨s, _ | ⟨t, l⟩⟩
        · rfl
        · rfl
        · simp only []
          split <;> rfl
  refine ⟨hb hf hg, fun type => ?_, ?_, (C116_polygon mm vs ix hf hg p p).2.2⟩
  · have hrot : ∀ x, rotate none x .obstacle .global = .ok x := fun _ => rfl
    cases type with
    | edge =>
      simp only [StarPoly.normal, to_local mm hf, hn, bind, Except.bind, dir_from_local mm hg, hrot, vertexIndex]
      split <;> split <;> rfl
    | weightedEdges =>
      simp only [StarPoly.normal, to_local mm hf, hn, bind, Except.bind, dir_from_local mm hg, hrot, vertexIndex]
      split <;> rfl
    | other =>
      simp only [StarPoly.normal, to_local mm hf, hn, bind, Except.bind]
      rfl
  · simp only [StarPoly.distanceFunction, to_local mm hf, hn, bind, Except.bind]
    have e1 := hb ho ho
    simp only [inFrame] at e1
    rw [e1]
    have e2 : (⟨none, ring, xr, vs, va, ball⟩ : StarPoly).boundaryMapping ix p .obstacle .obstacle =
      (⟨none, ring, xr, vs, va, ball⟩ : StarPoly).boundaryMapping ix p .global .global := rfl
    rw [e2]
    rcases (⟨none, ring, xr, vs, va, ball⟩ : StarPoly).boundaryMapping ix p .global .global with e | _ | b <;> rfl

/-- C116: `reference_direction`. -/
theorem C116_direction (mm : Option Pose) (xr p : Pt ℝ) {f g : Frame} (hf : f.Valid) (hg : g.Valid) :
    referenceDirection mm xr (inFrame mm f p) f g = answerIn (dirFrame mm g) (referenceDirection none xr p .global .global) := by
  have ht : transform mm (inFrame mm f p) f g = .ok (inFrame mm g p) := by
    rcases mm with _ | q
    · simp [transform, frame_none]
    · rcases hf with rfl | rfl
      · rcases hg with rfl | rfl
        · exact (C21_identity _ _ _ _ (.inl rfl)).1
        · exact to_local (some q) (Or.inl rfl) p
      · exact from_local (some q) hg p
  have hd : inFrame mm g p - inFrame mm g xr = dirFrame mm g (p - xr) := by
    rcases mm with _ | q
    · simp [frame_none, dirFrame_none]
    · rcases hg with rfl | rfl <;> ext <;> simp [dirFrame, inFrame, worldOf] <;> ring
  have hs : ∀ (c : ℝ) (d : Pt ℝ), dirFrame mm g (d.1 / c, d.2 / c) = ((dirFrame mm g d).1 / c, (dirFrame mm g d).2 / c) := by
    intro c d
    rcases mm with _ | q
    · simp [dirFrame_none]
    · rcases hg with rfl | rfl <;> ext <;> simp [dirFrame, inFrame, worldOf] <;> ring
  have hnorm : norm2 (dirFrame mm g (p - xr)) = norm2 (p - xr) := by
    rcases mm with _ | q
    · simp [dirFrame_none]
    · rw [norm2, norm2]
      congr 1
      have e := sin_sq_add_cos_sq q.rot
      rcases hg with rfl | rfl
      · simp [dirFrame, inFrame, worldOf]
        linear_combination ((p.1 - xr.1) ^ 2 + (p.2 - xr.2) ^ 2) * e
      · simp [dirFrame, inFrame]
  simp only [referenceDirection, ht, from_local mm hg, bind, Except.bind, hd, hnorm]
  rw [show transform none p .global .global = .ok p from rfl, show transform none xr .obstacle .global = .ok xr from rfl]
  simp only []
  split
  · rfl
  · rw [answerIn, hs]

/-! ## Examples -/

/-- A circle of radius 2 at (5, 0), turned by a quarter: the boundary point of (5, 7), as seen from the centre. -/
example (e : Ell) (h : e = ⟨(2, 2), (0, 0), 20, some ⟨(5, 0), π / 2⟩⟩) :
    e.pointLocation (5, 7) .global = { e with mm := none }.pointLocation (7, 0) .global := by
  have := (C116_ellipse_values e (f := .global) (Or.inl rfl) (7, 0)).1
  rw [← this, h]
  norm_num [inFrame, worldOf]

end Starworlds
