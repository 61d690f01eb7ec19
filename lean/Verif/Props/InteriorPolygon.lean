import Verif.Proofs.Ellipse
import Verif.Props.Intersects
import Verif.Props.PolygonLocation
import Verif.Props.Flags
import Verif.Props.Moving

/-! # C117: interior_point and polygon() -/

namespace Starworlds

open Spec Real

theorem polygonCall_inFrame {base : Shape} {s : ObState} (h : PolCacheOk base s) {f : Frame} (hf : f.Valid) :
    (polygonCall s f).1 = .ok (base.map (inFrame s.mm f)) := by
  rcases hf with rfl | rfl
  · exact polygonCall_global h
  · rw [polygonCall_value h]
    rcases s.mm with _ | q <;> simp [show inFrame _ .obstacle = id from rfl]

theorem inside_frame (mm : Option Pose) (f : Frame) (v : List (Pt ℝ)) (p : Pt ℝ) :
    (Inside (v.map (inFrame mm f)) (inFrame mm f p) ↔ Inside v p) ∧ (OnRing (v.map (inFrame mm f)) (inFrame mm f p) ↔ OnRing v p) := by
  cases f with
  | obstacle => simp [show inFrame mm .obstacle = id from rfl]
  | global => exact ⟨inside_world mm v p, onRing_world mm v p⟩
  | other => exact ⟨inside_world mm v p, onRing_world mm v p⟩

/-- C117: after any history, `interior_point` of a Polygon, asked in either frame, is `True` exactly for the points in the interior of
what `polygon()` returns for the same frame. -/
theorem C117_interior (base : Shape) (mm : Option Pose) (xr : Pt ℝ) (eager static : Bool) (src : KernelSrc) (nr : Bool) (ops : List ObOp)
    {f : Frame} (hf : f.Valid) (x : Pt ℝ) :
    let s := runOps src nr (construct base mm xr eager static) ops
    ∃ ring, (polygonCall s f).1 = .ok ring ∧ ∃ b, interiorPoint (polygonLoc s.mm base x f) = .ok b ∧ (b = true ↔ Inside ring x) := by
  intro s
  obtain ⟨h0, _⟩ := polCacheOk_construct base mm xr eager static
  obtain ⟨h1, _⟩ := polCacheOk_run src nr ops _ h0
  obtain ⟨p, rfl⟩ := inFrame_surj s.mm f hf x
  refine ⟨_, polygonCall_inFrame h1 hf, decide ((polyLocation base p : ℝ) < 0), ?_, ?_⟩
  · simp only [polygonLoc, C37_placed s.mm base f hf p, interiorPoint, bind, Except.bind]
  · rw [(inside_frame s.mm f base p).1, ← C37_interior, decide_eq_true_iff]
    have hr : polyLocation base p = -1 ∨ polyLocation base p = 0 ∨ polyLocation base p = 1 := by
      unfold polyLocation
      split
      · exact .inr (.inr rfl)
      · dsimp only
        split_ifs <;> simp
    rcases hr with h | h | h <;> rw [h] <;> norm_num

/-- C117: `exterior_point` is `True` for all points outside of what `polygon()` returns, and never for its inner points. -/
theorem C117_exterior (base : Shape) (mm : Option Pose) (xr : Pt ℝ) (eager static : Bool) (src : KernelSrc) (nr : Bool) (ops : List ObOp)
    {f : Frame} (hf : f.Valid) (x : Pt ℝ) :
    let s := runOps src nr (construct base mm xr eager static) ops
    ∃ ring, (polygonCall s f).1 = .ok ring ∧ ∃ b, exteriorPoint (polygonLoc s.mm base x f) = .ok b ∧
      (x ∉ filled ring → b = true) ∧ (Inside ring x → b = false) := by
  intro s
  obtain ⟨h0, _⟩ := polCacheOk_construct base mm xr eager static
  obtain ⟨h1, _⟩ := polCacheOk_run src nr ops _ h0
  obtain ⟨p, rfl⟩ := inFrame_surj s.mm f hf x
  refine ⟨_, polygonCall_inFrame h1 hf, decide (0 < (polyLocation base p : ℝ)), ?_, fun h => ?_, fun h => ?_⟩
  · simp only [polygonLoc, C37_placed s.mm base f hf p, exteriorPoint, bind, Except.bind]
  · have hi : ¬ Inside base p := fun hi => h (.inl ((inside_frame s.mm f base p).1.2 hi))
    have ho : ¬ OnRing base p := fun ho => h (.inr ((inside_frame s.mm f base p).2.2 ho))
    rw [C37_exterior base p hi ho]
    norm_num
  · rw [(inside_frame s.mm f base p).1, ← C37_interior] at h
    rw [h]
    norm_num

/-- A square that has been asked for its polygon and then moved to (10, 0): its new centre is an interior point, and inside
of the polygon. -/
example (src : KernelSrc) (nr : Bool) :
    let s := runOps src nr (construct bigSquare (some ⟨(0, 0), 0⟩) (0, 0) true false) [.polygon .global, .setPose ⟨(10, 0), 0⟩]
    ∃ ring, (polygonCall s .global).1 = .ok ring ∧ Inside ring (10, 0) := by
  intro s
  obtain ⟨ring, h1, b, h2, h3⟩ := C117_interior bigSquare (some ⟨(0, 0), 0⟩) (0, 0) true false src nr
    [.polygon .global, .setPose ⟨(10, 0), 0⟩] (f := .global) (Or.inl rfl) (10, 0)
  refine ⟨ring, h1, h3.1 ?_⟩
  have hmm : s.mm = some ⟨(10, 0), 0⟩ := by
    obtain ⟨h0, hm⟩ := polCacheOk_construct bigSquare (some ⟨(0, 0), 0⟩) (0, 0) true false
    obtain ⟨_, h2⟩ := polCacheOk_run src nr [.polygon .global, .setPose ⟨(10, 0), 0⟩] _ h0
    rw [hm] at h2
    exact h2
  have hin : polyLocation bigSquare 0 = -1 := by
    norm_num [bigSquare, polyLocation, boundsOf, polyContains, ringContains, onSegB, rayCrosses, edgesOf, ringOf, List.countP, List.countP.go]
  have e : ((10, 0) : Pt ℝ) = inFrame s.mm .global 0 := by rw [hmm]; simp [inFrame, worldOf]
  change interiorPoint (polygonLoc s.mm bigSquare (10, 0) .global) = _ at h2
  rw [e] at h2
  simp only [polygonLoc, C37_placed s.mm bigSquare .global (Or.inl rfl) 0, interiorPoint, bind, Except.bind, hin] at h2
  have := Except.ok.inj h2
  rw [← this]
  norm_num

end Starworlds
