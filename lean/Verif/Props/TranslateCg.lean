import Verif.Proofs.Translate
import Verif.Proofs.Angles
import Verif.Props.Moving
import Verif.Props.StarifyDisjoint
import Mathlib.Tactic.LinearCombination
import Mathlib.Tactic.FieldSimp

/-! # C123: the functions of utils/cg.py and the obstacles in a scene that is moved as a whole -/

namespace Starworlds

open Spec Real

/-- A line, moved by `d`. -/
def movedLine {K : Type*} [Field K] (d : Pt K) (l : Line K) : Line K := ⟨l.p1 + d, l.p2 + d⟩

/-- A cone, moved by `d`. -/
def movedCone {K : Type*} [Field K] (d : Pt K) (c : Cone K) : Cone K := ⟨c.apex + d, c.dir1, c.dir2⟩

section Exact

variable {K : Type*} [Field K] [LinearOrder K] [IsStrictOrderedRing K]

omit [IsStrictOrderedRing K] in
theorem pointInCone_moved (d : Pt K) (c : Cone K) (p : Pt K) : (movedCone d c).pointInCone (p + d) = c.pointInCone p := by
  have e1 : (movedCone d c).ray1.p2 = c.ray1.p2 + d := by simp only [movedCone, Cone.ray1]; abel
  have e2 : (movedCone d c).ray2.p2 = c.ray2.p2 + d := by simp only [movedCone, Cone.ray2]; abel
  simp only [Cone.pointInCone, e1, e2]
  simp only [movedCone, Cone.isConvex, isCcw_moved, isCw_moved]
  rfl

omit [IsStrictOrderedRing K] in
theorem sameApex_moved (d : Pt K) (b c : Cone K) :
    (movedCone d b).intersectionSameApex (movedCone d c) = (b.intersectionSameApex c).map (movedCone d) := by
  have e : ∀ (c : Cone K) (v : Pt K), (movedCone d c).apex + v = c.apex + v + d := fun c v => by simp only [movedCone]; abel
  simp only [Cone.intersectionSameApex, e, pointInCone_moved,
    show ∀ c : Cone K, (movedCone d c).dir1 = c.dir1 from fun _ => rfl, show ∀ c : Cone K, (movedCone d c).dir2 = c.dir2 from fun _ => rfl,
    pointInCone_moved]
  split_ifs <;> rfl

omit [IsStrictOrderedRing K] in
theorem coneLoop_moved (d : Pt K) (cs : List (Cone K)) : ∀ cur : List (Cone K),
    Cone.listIntersectionLoop (cur.map (movedCone d)) (cs.map (movedCone d)) = (Cone.listIntersectionLoop cur cs).map (movedCone d) := by
  induction cs with
  | nil => intro cur; rfl
  | cons c cs ih =>
    intro cur
    simp only [List.map_cons, Cone.listIntersectionLoop, ← ih]
    congr 1
    simp only [List.flatMap_map, sameApex_moved, List.map_flatMap]

/-- The tests and constructions in exact arithmetic. -/
theorem C123_exact (d : Pt K) :
    (∀ a b c : Pt K, isCcw (a + d) (b + d) (c + d) = isCcw a b c ∧ isCw (a + d) (b + d) (c + d) = isCw a b c ∧
      isCollinear (a + d) (b + d) (c + d) = isCollinear a b c) ∧
    (∀ a b c e : Pt K, intersect (a + d) (b + d) (c + d) (e + d) = intersect a b c e) ∧
    (∀ l m : Line K, (movedLine d l).lineIntersection (movedLine d m) = (l.lineIntersection m).map (· + d) ∧
      (movedLine d l).lineSegmentIntersection (movedLine d m) = (l.lineSegmentIntersection m).map (· + d) ∧
      (movedLine d l).rayIntersection (movedLine d m) = (l.rayIntersection m).map (· + d)) ∧
    (∀ (a b c : Pt K) x y, pointInTriangle (a + d) (b + d) (c + d) x y = pointInTriangle a b c x y + d) ∧
    (∀ (l : List (Pt K)) fuel, l ≠ [] → convexHullPts (l.map (· + d)) fuel = (convexHullPts l fuel).map (List.map (· + d))) ∧
    (∀ (c : Cone K) p, (movedCone d c).pointInCone (p + d) = c.pointInCone p) ∧
    (∀ b c : Cone K, (movedCone d b).intersectionSameApex (movedCone d c) = (b.intersectionSameApex c).map (movedCone d)) ∧
    ∀ cs : List (Cone K), Cone.listIntersection (cs.map (movedCone d)) = (Cone.listIntersection cs).map (List.map (movedCone d)) := by
  refine ⟨fun a b c => ⟨isCcw_moved .., isCw_moved .., isCollinear_moved ..⟩, fun a b c e => by simp only [intersect, isCcw_moved],
    fun l m => ⟨?_, ?_, ?_⟩, fun a b c x y => ?_, fun l fuel h => hull_moved d h fuel, pointInCone_moved d, sameApex_moved d, fun cs => ?_⟩
  · simp only [Line.lineIntersection, movedLine, Prod.fst_add, Prod.snd_add, add_sub_add_right_eq_sub]
    split_ifs with h
    · rfl
    · have hne : (l.p1.1 - l.p2.1) * (m.p1.2 - m.p2.2) - (l.p1.2 - l.p2.2) * (m.p1.1 - m.p2.1) ≠ 0 := by
        intro h0
        rw [h0, abs_zero] at h
        exact h (by positivity)
      simp only [Option.map_some, Option.some.injEq]
      ext <;> simp only [Prod.fst_add, Prod.snd_add] <;> rw [div_add' _ _ _ hne, div_left_inj' hne] <;> ring
  · simp only [Line.lineSegmentIntersection, movedLine, Prod.fst_add, Prod.snd_add, add_sub_add_right_eq_sub]
    split_ifs
    · rfl
    · rfl
    · simp only [Option.map_some, Option.some.injEq]
      ext <;> simp only [Prod.fst_add, Prod.snd_add] <;> ring
  · simp only [Line.rayIntersection, movedLine, Prod.fst_add, Prod.snd_add, add_sub_add_right_eq_sub]
    split_ifs
    · rfl
    · rfl
    · simp only [Option.map_some, Option.some.injEq]
      ext <;> simp only [Prod.fst_add, Prod.snd_add] <;> ring
  · simp only [pointInTriangle]
    ext <;> simp only [Prod.fst_add, Prod.snd_add] <;> ring
  · cases cs with
    | nil => rfl
    | cons c cs =>
      have := coneLoop_moved d cs [c]
      simp only [List.map_cons, List.map_nil] at this
      simp only [List.map_cons, Cone.listIntersection, this, Except.map]

end Exact

/-- The functions that use square roots. A triangle with a rotation turns about the origin, see `C123_triangle_false`. -/
theorem C123_real (d : Pt ℝ) :
    (∀ a b c : Pt ℝ, isBetween (a + d) (b + d) (c + d) = isBetween a b c) ∧
    (∀ a b c e : Pt ℝ, getIntersection (a + d) (b + d) (c + d) (e + d) = (getIntersection a b c e).map (Option.map (· + d))) ∧
    ∀ (c : Pt ℝ) L, equilateralTriangle (c + d) L 0 = movedTriple d (equilateralTriangle c L 0) := by
  have hb : ∀ a b c : Pt ℝ, isBetween (a + d) (b + d) (c + d) = isBetween a b c := fun a b c => by
    simp only [isBetween, add_sub_add_right_eq_sub]
  refine ⟨hb, fun a b c e => ?_, fun c L => triangle_moved d c L⟩
  simp only [getIntersection, intersect, isCcw_moved, hb, add_sub_add_right_eq_sub]
  split_ifs <;> first | rfl | (simp only [Except.map, Option.map_some, add_assoc])

/-- With a rotation, the moved triangle is not the triangle moved. -/
theorem C123_triangle_false : ∃ (d c : Pt ℝ) (L rot : ℝ), equilateralTriangle (c + d) L rot ≠ movedTriple d (equilateralTriangle c L rot) := by
  refine ⟨(1, 0), (0, 0), 1, π, fun h => ?_⟩
  have := congrArg (fun T : Triple => T.1.1) h
  simp only [equilateralTriangle, movedTriple, pi_ne_zero, if_false, cos_pi, sin_pi, Prod.fst_add, Prod.snd_add] at this
  linarith

/-! ## The obstacles -/

theorem raw_moved (d x p : Pt ℝ) : rawAngle (x + d) (p + d) = rawAngle x p := by
  simp only [rawAngle, Prod.fst_add, Prod.snd_add, add_sub_add_right_eq_sub]

theorem unwrapFrom_length (o p : ℝ) (l : List ℝ) : (unwrapFrom o p l).length = l.length := by
  induction l generalizing o p with
  | nil => rfl
  | cons t l ih => simp only [unwrapFrom, List.length_cons, ih]

theorem unwrapAngles_length (l : List ℝ) : (unwrapAngles l).length = l.length := by
  cases l with
  | nil => rfl
  | cons t l => simp only [unwrapAngles, List.length_cons, unwrapFrom_length]

theorem polyTangents_moved (d : Pt ℝ) {v : List (Pt ℝ)} (hv : v ≠ []) (x : Pt ℝ) :
    polyTangents (v.map (· + d)) (x + d) = (polyTangents v x).map (· + d) := by
  have er : ringOf (v.map (· + d)) = (ringOf v).map (· + d) := by cases v <;> simp [ringOf]
  have hne : ringOf v ≠ [] := by cases v <;> simp_all [ringOf]
  have em : ((ringOf v).map (· + d)).map (rawAngle (x + d)) = (ringOf v).map (rawAngle x) := by
    simp only [List.map_map, Function.comp_def, raw_moved]
  have hl : (unwrapAngles ((ringOf v).map (rawAngle x))).length = (ringOf v).length := by rw [unwrapAngles_length, List.length_map]
  have hp : unwrapAngles ((ringOf v).map (rawAngle x)) ≠ [] := by
    rw [← List.length_pos_iff, hl]
    exact List.length_pos_iff.2 hne
  have h1 := (argminIdx_spec _ hp).1
  have h2 := (argmaxIdx_spec _ hp).1
  rw [hl] at h1 h2
  simp only [polyTangents, er, em, ptAt_moved d h1, ptAt_moved d h2]
  split_ifs <;> rfl

/-- A polygon without a motion model: the obstacle with moved vertices is the moved obstacle. -/
theorem C123_polygon (d : Pt ℝ) (id : Option Nat) (k : Bool) {v : List (Pt ℝ)} (hv : v ≠ []) :
    polygonObs id k none (v.map (· + d)) = movedObs d (polygonObs id k none v) := by
  simp only [polygonObs, movedObs, ConvObs.mk.injEq, true_and]
  have hn : ∀ v x, polygonTangentPoints none v x .global .global = .ok (polyTangents v x) := by
    intro v x
    simp only [polygonTangentPoints, transform, bind, Except.bind]
    exact (mapM_frame none (f := .global) (Or.inl rfl) _).trans (by
      rw [show inFrame none .global = _root_.id from funext (frame_none _), List.map_id])
  constructor
  · funext x
    have e := polyTangents_moved d hv (x - d)
    rw [sub_add_cancel] at e
    rw [hn, hn, e]
  · have e : {p | p ∈ v.map (· + d)} = (· + d) '' {p | p ∈ v} := by
      ext p; exact List.mem_map
    have h0 : ∀ L : Set (Pt ℝ), {q | ∃ p ∈ L, q = inFrame none .global p} = L := by
      intro L; ext q; simp [frame_none]
    rw [polyRegion, polyRegion, h0, h0, e, convexHull_moved]

theorem world_moved (d : Pt ℝ) (q : Pose) (p : Pt ℝ) : inFrame (some ⟨q.pos + d, q.rot⟩) .global p = inFrame (some q) .global p + d := by
  simp only [inFrame, worldOf]
  ext <;> simp only [Prod.fst_add, Prod.snd_add] <;> ring

theorem world_onto (mm : Option Pose) (x : Pt ℝ) : ∃ p, inFrame mm .global p = x := by
  rcases mm with _ | q
  · exact ⟨x, rfl⟩
  · refine ⟨(cos q.rot * (x.1 - q.pos.1) + sin q.rot * (x.2 - q.pos.2), -sin q.rot * (x.1 - q.pos.1) + cos q.rot * (x.2 - q.pos.2)), ?_⟩
    have e := sin_sq_add_cos_sq q.rot
    simp only [inFrame, worldOf]
    ext
    · linear_combination (x.1 - q.pos.1) * e
    · linear_combination (x.2 - q.pos.2) * e

/-- Any obstacle that answers in its own coordinates. -/
theorem moving_moved (d : Pt ℝ) (id : Option Nat) (k : Bool) (q : Pose) (v : List (Pt ℝ)) (tp : Option Pose → Pt ℝ → Except PyErr (List (Pt ℝ)))
    (tp0 : Pt ℝ → Except PyErr (List (Pt ℝ)))
    (h : ∀ mm p, tp mm (inFrame mm .global p) = answerIn (List.map (inFrame mm .global)) (tp0 p)) :
    (⟨id, k, tp (some ⟨q.pos + d, q.rot⟩), polyRegion (some ⟨q.pos + d, q.rot⟩) v⟩ : ConvObs) =
      movedObs d ⟨id, k, tp (some q), polyRegion (some q) v⟩ := by
  simp only [movedObs, ConvObs.mk.injEq, true_and]
  constructor
  · funext x
    obtain ⟨p, hp⟩ := world_onto (some q) (x - d)
    have hx : x = inFrame (some ⟨q.pos + d, q.rot⟩) .global p := by rw [world_moved, hp, sub_add_cancel]
    rw [← hp, h]
    conv_lhs => rw [hx, h]
    cases tp0 p with
    | error e => rfl
    | ok l => exact congrArg Except.ok ((List.map_congr_left fun p _ => world_moved d q p).trans
      (List.map_map (f := inFrame (some q) .global) (g := (· + d)) (l := l)).symm)
  · ext x
    simp only [polyRegion, Set.mem_ofPred_eq, Set.mem_image, world_moved]
    constructor
    · rintro ⟨p, hp, rfl⟩
      exact ⟨_, ⟨p, hp, rfl⟩, rfl⟩
    · rintro ⟨_, ⟨p, hp, rfl⟩, rfl⟩
      exact ⟨p, hp, rfl⟩

/-- Obstacles with a motion model: those at the moved position are the moved obstacles. -/
theorem C123_moving (d : Pt ℝ) (id : Option Nat) (k : Bool) (q : Pose) (v : List (Pt ℝ)) (a xr : Pt ℝ) (n : Nat) :
    polygonObs id k (some ⟨q.pos + d, q.rot⟩) v = movedObs d (polygonObs id k (some q) v) ∧
    ellipseObs id ⟨a, xr, n, some ⟨q.pos + d, q.rot⟩⟩ = movedObs d (ellipseObs id ⟨a, xr, n, some q⟩) := by
  constructor
  · exact moving_moved d id k q v (fun mm x => polygonTangentPoints mm v x .global .global) (fun p => polygonTangentPoints none v p .global .global)
      fun mm p => (C116_polygon mm v (fun _ _ => .empty) (f := .global) (g := .global) (Or.inl rfl) (Or.inl rfl) p p).2.2
  · exact moving_moved d id true q (Ell.polygonVertices ⟨a, xr, n, some q⟩)
      (fun mm x => (⟨a, xr, n, mm⟩ : Ell).tangentPoints x .global .global) (fun p => (⟨a, xr, n, none⟩ : Ell).tangentPoints p .global .global)
      fun mm p => C116_ellipse_tangents ⟨a, xr, n, mm⟩ (f := .global) (Or.inl rfl) p

/-- A box with its lower left corner at the origin, and the same box with this corner at (5, 7). -/
example : polygonObs (some 0) true none ([(0, 0), (1, 0), (1, 1), (0, 1)].map (· + (5, 7))) =
    movedObs (5, 7) (polygonObs (some 0) true none [(0, 0), (1, 0), (1, 1), (0, 1)]) := C123_polygon _ _ _ (by simp)

example : convexHullPts (([(0, 0), (2, 0), (1, 1), (2, 2), (0, 2)] : List (Pt ℚ)).map (· + (3, -1))) 9 =
    some [(3, 1), (3, -1), (5, -1), (5, 1)] := by
  rw [(C123_exact (K := ℚ) (3, -1)).2.2.2.2.1 _ _ (by simp)]
  decide +kernel

end Starworlds
