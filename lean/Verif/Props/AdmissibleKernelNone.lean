import Verif.Props.AdmissibleKernel
import Verif.Props.PolygonVisible
import Verif.Props.StarPolygonDistance

/-! # C58: points without admissible kernel -/

namespace Starworlds

open Real Spec

/-- C58: the admissible kernel is None exactly when there are no tangent points. -/
theorem C58_none (tp : Pt ℝ → Except PyErr (List (Pt ℝ))) (x : Pt ℝ) :
    admissibleKernel tp x = .ok none ↔ tp x = .ok [] := by
  simp only [admissibleKernel, bind, Except.bind]
  rcases h : tp x with e | l
  · simp
  · rcases l with _ | ⟨a, _ | ⟨b, l⟩⟩ <;> simp

/-- C58: for a point of the ellipse, inside or on the border, no admissible kernel is given. -/
theorem C58_none_ellipse (e : Ell) (h0 : 0 < e.a.1) (h1 : 0 < e.a.2) (p : Pt ℝ) (hp : ellForm e.a p ≤ 1) :
    admissibleKernel (fun x => e.tangentPoints x .global .global) (inFrame e.mm .global p) = .ok none :=
  (C58_none _ _).2 (C32_empty e h0 h1 .global .global (Or.inl rfl) p hp)

/-- C58: for a point from which every ray meets the boundary of the polygon and that is not on the boundary, no admissible
kernel is given; for the other points that are not on the boundary one is given. -/
theorem C58_none_polygon (mm : Option Pose) (v : List (Pt ℝ)) (hv : v ≠ []) (x : Pt ℝ) (hx : ¬ OnRing v x) :
    admissibleKernel (fun x => polygonTangentPoints mm v x .global .global) (inFrame mm .global x) = .ok none ↔
      ∀ θ, ∃ q, OnRing v q ∧ SeenAt x q θ := by
  have h := C38_visible mm v hv .global .global (Or.inl rfl) (Or.inl rfl) x hx
  rw [C58_none]
  constructor
  · intro h1 θ
    by_contra hc
    push Not at hc
    obtain ⟨t, s, e⟩ := h.1.2 ⟨θ, hc⟩
    rw [h1] at e
    simp at e
  · exact h.2

/-- The centre of a square has no admissible kernel, the origin in front of a box has one. -/
example : admissibleKernel (fun x => polygonTangentPoints none bigSquare x .global .global) 0 = .ok none ∧
    admissibleKernel (fun x => polygonTangentPoints none nearBox x .global .global) 0 ≠ .ok none ∧
    ∃ θ, ∀ q, OnRing nearBox q → ¬ SeenAt 0 q θ := by
  have h1 : admissibleKernel (fun x => polygonTangentPoints none nearBox x .global .global) 0 ≠ .ok none := by
    rw [Ne, C58_none, nearBox_tangents]
    simp
  refine ⟨(C58_none _ _).2 (C38_inside none bigSquare (by simp [bigSquare]) .global .global (Or.inl rfl) (Or.inl rfl) 0
    bigSquare_star), h1, ?_⟩
  by_contra hc
  push Not at hc
  refine h1 ((C58_none_polygon none nearBox (by simp [nearBox]) 0 ?_).2 hc)
  rintro ⟨i, hi, t, h0, ht, e⟩
  have := congrArg Prod.fst e
  simp only [nearBox, List.length_cons, List.length_nil] at hi
  interval_cases i <;> norm_num [corner, nearBox] at this
  all_goals linarith

end Starworlds
