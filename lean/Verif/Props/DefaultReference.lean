import Verif.Props.DefaultXr
import Verif.Props.PolygonSimple
import Verif.Props.KernelReference

/-! # C84 for all convex polygons -/

namespace Starworlds

open Real Spec

theorem turn_mod (v : List (Pt ℝ)) (j : ℕ) : turn v (j % v.length) = turn v j := by
  rcases Nat.eq_zero_or_pos v.length with h | h
  · rw [h, Nat.mod_zero]
  have e : ∀ i, corner v (j % v.length + i) = corner v (j + i) := fun i => by simp [corner]
  unfold turn
  rw [show j % v.length + v.length - 1 = j % v.length + (v.length - 1) by omega, show j + v.length - 1 = j + (v.length - 1) by omega,
    e, e, show corner v (j % v.length) = corner v j by simpa using e 0]

theorem turn_rotated (v : List (Pt ℝ)) (k j : ℕ) : turn (v.rotate k) j = turn v (j + k) := by
  rcases Nat.eq_zero_or_pos v.length with h | h
  · rw [List.length_eq_zero_iff] at h; subst h; simp [turn, corner]
  unfold turn
  rw [List.length_rotate, corner_rotate, corner_rotate, corner_rotate, show j + v.length - 1 + k = j + k + v.length - 1 by omega,
    show j + 1 + k = j + k + 1 by omega]

theorem turn_backwards {v : List (Pt ℝ)} (h3 : 3 ≤ v.length) {j : ℕ} (hj : j < v.length) : ∃ m < v.length, turn v.reverse j = - turn v m := by
  obtain ⟨i, hi, hn⟩ := nx_exists hj
  have hcn := corner_nx (v := v.reverse) (i := i) (j := j) (by rwa [List.length_reverse])
  obtain ⟨m, hm, em, a1, a2⟩ := edge_reverse v hi
  obtain ⟨l, hl, el, b1, b2⟩ := edge_reverse v hj
  have hlm : Nx v.length l m := by unfold Nx at *; omega
  refine ⟨m, hm, ?_⟩
  rw [turn_nx hl hlm, turn_nx (v := v.reverse) (i := i) (by rwa [List.length_reverse]) (by rwa [List.length_reverse])]
  rw [← hcn, a2, b2, a1]
  simp only [cross, Prod.fst_sub, Prod.snd_sub]
  ring

/-- The bends of a polygon do not become smaller when its vertices are put in counterclockwise order. -/
theorem band_orient {v : List (Pt ℝ)} (h3 : 3 ≤ v.length) (h : ∀ j < v.length, turn v j = 0 ∨ 1 / 10 ^ 10 < |turn v j|) :
    ∀ j < (orientRing v).length, turn (orientRing v) j = 0 ∨ 1 / 10 ^ 10 < |turn (orientRing v) j| := by
  intro j _
  rcases orient_cases v with ⟨-, e⟩ | ⟨-, k, e⟩
  · rw [e, ← turn_mod]
    exact h _ (Nat.mod_lt _ (by omega))
  · rw [e, turn_rotated, ← turn_mod, List.length_reverse]
    obtain ⟨m, hm, hr⟩ := turn_backwards h3 (Nat.mod_lt (j + k) (show 0 < v.length by omega))
    rw [hr, neg_eq_zero, abs_neg]
    exact h m hm

/-- C84 (partial): a convex polygon given by any ring that does not cross itself, in either order, with straight corners or without.
The constructor succeeds, the chosen reference point is an inner point of the polygon from where all of it is visible, and with it the
distance function is smaller than 1 exactly inside the polygon and 1 exactly on its boundary. Missing: polygons that are not convex,
see `C84_false`, and bends smaller than the threshold, see `C135_small_false`. -/
theorem C84_simple_partial (geo : AreaOps) (hg : IsArea geo) (argsort : List ℝ → List Nat) (ha : IsArgsort argsort) (mm : Option Pose)
    (v : List (Pt ℝ)) (h : SimpleRing v) (h01 : corner v 0 ≠ corner v 1)
    (hband : ∀ j < v.length, turn v j = 0 ∨ 1 / 10 ^ 10 < |turn v j|) (hc : Convex ℝ (filled v)) :
    ∃ s, constructDefault geo argsort mm (orientRing v) = .ok s ∧ s.xr ∈ interior (filled v) ∧ s.xr ∈ visKernel (filled v) ∧
      ∀ ix : Pt ℝ → Pt ℝ → Geom, (∀ b, GeomIs (ix s.xr b) (hits s.ring s.xr b)) → ∀ f : Frame, f.Valid → ∀ x, x ≠ s.xr →
        ∃ d, s.distanceFunction ix (inFrame s.mm f x) f = .ok d ∧ (d < 1 ↔ Inside v x) ∧ (d = 1 ↔ OnRing v x) := by
  obtain ⟨c, hci⟩ := simple_inside h (corners_differ h h01)
  have hk : visKernel (filled v) = filled v := by
    refine Set.Subset.antisymm (fun p hp => hp.1) fun p hp => ⟨hp, ?_⟩
    rintro q hq _ ⟨t, t0, t1, rfl⟩
    have := hc hp hq (a := 1 - t) (b := t) (by linarith) t0 (by ring)
    convert this using 1
    module
  have hcint : c ∈ interior (filled v) := mem_interior.2 ⟨_, fun _ hp => Or.inl hp, inside_open v, hci⟩
  have hstar : StarAbout c (orientRing v) := star_orient h (by rwa [hk])
  have hsimple := star_simple hstar
  have hw01 : corner (orientRing v) 0 ≠ corner (orientRing v) 1 := by
    intro e
    have := (star_sectors hstar).pos 0 (by have := hsimple.1; omega)
    rw [zero_add, ← e] at this
    simp [cross, mul_comm] at this
  have hkern := C75_simple_partial (orientRing v) hsimple hw01 (band_orient h.1 hband) (by rwa [filled_orient])
  refine ⟨StarPoly.make argsort mm (orientRing v) (defaultXr geo (orientRing v)), by simp only [constructDefault, hkern.1, ok_then], ?_⟩
  have hx : defaultXr geo (orientRing v) ∈ interior (filled v) := by
    rw [← filled_orient v]
    unfold defaultXr
    split
    · rename_i h; exact (hg.contains _ _).mp h
    · exact hg.representative _ ⟨c, by rwa [filled_orient]⟩
  refine ⟨hx, by rw [hk]; exact interior_subset hx, fun ix hix f hf x hx' => ?_⟩
  exact (C133_partial argsort ha mm h _ [] _ rfl (by rw [hk]; exact hx) ix hix f f hf hf x hx').1

/-- A pentagon given clockwise, with a straight corner (1, 0): the reference point is found, and the distance function is 1 at the
straight corner. -/
example (geo : AreaOps) (hg : IsArea geo) (argsort : List ℝ → List Nat) (ha : IsArgsort argsort) (mm : Option Pose) :
    ∃ s, constructDefault geo argsort mm (orientRing (clockwiseShape.map toReal)) = .ok s ∧
      ∀ ix : Pt ℝ → Pt ℝ → Geom, (∀ b, GeomIs (ix s.xr b) (hits s.ring s.xr b)) →
        s.distanceFunction ix (inFrame s.mm .global (1, 0)) .global = .ok 1 := by
  have hs : SimpleRing (clockwiseShape.map toReal) := simple_rat (by decide +kernel)
  have h01 : corner (clockwiseShape.map toReal) 0 ≠ corner (clockwiseShape.map toReal) 1 := by simp [clockwiseShape, corner, toReal]
  have hb := band_rat (v := clockwiseShape) (by decide +kernel)
  have e2 : checkConvexity (clockwiseShape.map toReal) = .ok true := by rw [checkConvexity_map toReal_turns]; decide +kernel
  obtain ⟨b, h1, h2, -⟩ := C36_simple_partial _ hs h01 hb
  rw [e2] at h1
  injection h1 with h1
  obtain ⟨s, h3, h4, -, h5⟩ := C84_simple_partial geo hg argsort ha mm _ hs h01 hb (h2.1 h1.symm)
  refine ⟨s, h3, fun ix hix => ?_⟩
  have hon : OnRing (clockwiseShape.map toReal) (1, 0) :=
    ⟨4, by simp [clockwiseShape], 1, by norm_num, by norm_num, by simp [clockwiseShape, corner, toReal]⟩
  have hne : ((1, 0) : Pt ℝ) ≠ s.xr := by
    intro e
    have := star_orient hs (c := s.xr) (by
      have hk : visKernel (filled (clockwiseShape.map toReal)) = filled (clockwiseShape.map toReal) := by
        refine Set.Subset.antisymm (fun p hp => hp.1) fun p hp => ⟨hp, ?_⟩
        rintro q hq _ ⟨t, t0, t1, rfl⟩
        have := (h2.1 h1.symm) hp hq (a := 1 - t) (b := t) (by linarith) t0 (by ring)
        convert this using 1
        module
      rwa [hk])
    refine star_centre_off this ((onRing_orient _ _).2 ?_)
    rwa [← e]
  obtain ⟨d, hd, -, h6⟩ := h5 ix hix .global (Or.inl rfl) (1, 0) hne
  rw [hd, h6.2 hon]

end Starworlds
