import Verif.Proofs.KernelCertificate
import Verif.Props.StarPolygonDistance
import Verif.Props.PolygonLocation

/-! # C83: point_location and distance_function of a StarshapedPolygon -/

namespace Starworlds

open Real Spec

/-- C83: whatever was called before, if the polygon is star-shaped about the current reference point then for every other point
`x` given in either frame both calls succeed, the value of `distance_function` is less than 1 exactly when `point_location` is -1 and
exactly when `x` is in the interior, it is 1 exactly when `x` is on the boundary, and when it is more than 1
`point_location` is 1. -/
theorem C83_agree (argsort : List ℝ → List Nat) (ha : IsArgsort argsort) (mm : Option Pose)
    (ring : List (Pt ℝ)) (xr : Pt ℝ) (ops : List StarOp) (s : StarPoly)
    (hs : s = (StarPoly.make argsort mm ring xr).run argsort ops) (hstar : StarAbout s.xr ring)
    (ix : Pt ℝ → Pt ℝ → Geom) (hix : ∀ b, GeomIs (ix s.xr b) (hits s.ring s.xr b)) (f : Frame) (hf : f.Valid)
    (x : Pt ℝ) (hx : x ≠ s.xr) :
    ∃ d l, s.distanceFunction ix (inFrame s.mm f x) f = .ok d ∧ polygonPointLocation s.mm s.ring (inFrame s.mm f x) f = .ok l ∧
      (d < 1 ↔ Inside ring x) ∧ (d = 1 ↔ OnRing ring x) ∧ (l = -1 ↔ d < 1) ∧ (1 < d → l = 1) ∧
      (d = 1 → (∃ p ∈ ring, p.1 < x.1) → (∃ p ∈ ring, x.1 < p.1) → (∃ p ∈ ring, p.2 < x.2) → (∃ p ∈ ring, x.2 < p.2) →
        l = 0) := by
  have hring : s.ring = ring := by
    rw [hs]; exact (run_sorted ha ops (update_sorted ha _ rfl (List.Perm.refl _))).hring
  obtain ⟨q, hq, ⟨w, hw, hqw⟩, huniq, d, hd, _, h1, h2⟩ :=
    C41_classify_partial argsort ha mm ring xr ops s hs hstar ix hix f hf x hx
  have hon : d = 1 ↔ OnRing ring x := by
    rw [h2]
    refine ⟨fun e => e ▸ hq, fun ho => huniq x ho ⟨1, zero_le_one, by simp⟩⟩
  have hin : d < 1 ↔ Inside ring x := by
    have hlen : ∀ t : ℝ, 0 ≤ t → len (t • (q - s.xr)) = t * len (q - s.xr) := by
      intro t ht
      unfold len normSq
      rw [show (t • (q - s.xr)).1 ^ 2 + (t • (q - s.xr)).2 ^ 2 = t ^ 2 * ((q - s.xr).1 ^ 2 + (q - s.xr).2 ^ 2) by
        simp only [Prod.smul_fst, Prod.smul_snd, smul_eq_mul]; ring, sqrt_mul (sq_nonneg t), sqrt_sq ht]
    have hfill : x ∈ filled ring ↔ ∃ t : ℝ, 0 ≤ t ∧ t ≤ 1 ∧ x = s.xr + t • (q - s.xr) := by
      rw [star_filled hstar]
      constructor
      · rintro ⟨q', hq', t, t0, t1, e⟩
        have t0' : 0 < t := by
          refine t0.lt_of_ne fun h0 => hx ?_
          rw [e, ← h0]; simp
        have : q' = q := huniq q' hq' ⟨1 / t, by positivity, by
          rw [e, add_sub_cancel_left, smul_smul, one_div, inv_mul_cancel₀ t0'.ne', one_smul, add_sub_cancel]⟩
        exact ⟨t, t0, t1, by rw [← this]; exact e⟩
      · rintro ⟨t, t0, t1, e⟩
        exact ⟨q, hq, t, t0, t1, e⟩
    have hqpos : 0 < len (q - s.xr) := by
      refine (sqrt_nonneg _).lt_of_ne fun h0 => star_centre_off hstar ?_
      have hz : normSq (q - s.xr) = 0 := (sqrt_eq_zero (by simp only [normSq]; positivity)).mp h0.symm
      have : q = s.xr := by
        simp only [normSq, Prod.fst_sub, Prod.snd_sub] at hz
        apply Prod.ext
        · nlinarith [sq_nonneg (q.1 - s.xr.1), sq_nonneg (q.2 - s.xr.2)]
        · nlinarith [sq_nonneg (q.1 - s.xr.1), sq_nonneg (q.2 - s.xr.2)]
      exact this ▸ hq
    constructor
    · intro hlt
      have hno : ¬ OnRing ring x := fun ho => absurd (hon.mpr ho) hlt.ne
      have hxq := h1.mp hlt
      have hw1 : 0 < w := by
        refine hw.lt_of_ne fun h0 => ?_
        rw [hqw, ← h0] at hqpos; simp [len, normSq] at hqpos
      have e : x = s.xr + (1 / w) • (q - s.xr) := by
        rw [hqw, add_sub_cancel_left, smul_smul, one_div, inv_mul_cancel₀ hw1.ne', one_smul, add_sub_cancel]
      have hle : 1 / w ≤ 1 := by
        have hxl : len (x - s.xr) = 1 / w * len (q - s.xr) := by
          rw [← hlen _ (by positivity)]
          congr 1
          rw [sub_eq_iff_eq_add']; exact e
        rw [hxl] at hxq
        by_contra hgt
        push Not at hgt
        nlinarith
      have : x ∈ filled ring := hfill.mpr ⟨1 / w, by positivity, hle, e⟩
      exact this.resolve_right hno
    · intro hi
      obtain ⟨t, t0, t1, e⟩ := hfill.mp (Or.inl hi)
      rw [h1, show x - s.xr = t • (q - s.xr) by rw [sub_eq_iff_eq_add']; exact e, hlen t t0]
      have : t ≠ 1 := by
        rintro rfl
        rw [one_smul, add_sub_cancel] at e
        exact hi.1 (e ▸ hq)
      nlinarith [lt_of_le_of_ne t1 this]
  refine ⟨d, polyLocation ring x, hd, ?_, hin, hon, ?_, ?_, ?_⟩
  · rw [hring, C37_placed _ _ _ hf]
  · rw [C37_interior, hin]
  · intro hgt
    exact C37_exterior ring x (fun h => absurd (hin.mpr h) (not_lt.mpr hgt.le)) (fun h => absurd (hon.mpr h) hgt.ne')
  · intro he
    exact C37_boundary_partial ring x (hon.mp he)

/-- C83 is false on the bounding box: every polygon that is star-shaped about its reference point has a corner where
`distance_function` is 1, so that it is on the boundary, and `point_location` is 1, so that it is outside. -/
theorem C83_box_false (argsort : List ℝ → List Nat) (ha : IsArgsort argsort) (mm : Option Pose)
    (ring : List (Pt ℝ)) (xr : Pt ℝ) (ops : List StarOp) (s : StarPoly)
    (hs : s = (StarPoly.make argsort mm ring xr).run argsort ops) (hstar : StarAbout s.xr ring)
    (ix : Pt ℝ → Pt ℝ → Geom) (hix : ∀ b, GeomIs (ix s.xr b) (hits s.ring s.xr b)) (f : Frame) (hf : f.Valid) :
    ∃ x ∈ ring, s.distanceFunction ix (inFrame s.mm f x) f = .ok 1 ∧ polygonPointLocation s.mm s.ring (inFrame s.mm f x) f = .ok 1 := by
  have hring : s.ring = ring := by
    rw [hs]; exact (run_sorted ha ops (update_sorted ha _ rfl (List.Perm.refl _))).hring
  obtain ⟨x, hx, ho, hl⟩ := C37_boundary_false ring (by
    rintro rfl
    obtain ⟨φ, _, _, h⟩ := hstar
    simp at h)
  have hne : x ≠ s.xr := by rintro rfl; exact star_centre_off hstar ho
  obtain ⟨d, l, hd, _, _, hon, _⟩ := C83_agree argsort ha mm ring xr ops s hs hstar ix hix f hf x hne
  refine ⟨x, hx, ?_, ?_⟩
  · rw [hd, hon.mpr ho]
  · rw [hring, C37_placed _ _ _ hf, hl]

/-- C83 is false at the reference point: `point_location` is -1, but the reference direction is not defined and
`distance_function` divides by zero. -/
theorem C83_centre_false (argsort : List ℝ → List Nat) (ha : IsArgsort argsort) (mm : Option Pose)
    (ring : List (Pt ℝ)) (xr : Pt ℝ) (ops : List StarOp) (s : StarPoly)
    (hs : s = (StarPoly.make argsort mm ring xr).run argsort ops) (hstar : StarAbout s.xr ring)
    (ix : Pt ℝ → Pt ℝ → Geom) (f : Frame) (hf : f.Valid) :
    s.distanceFunction ix (inFrame s.mm f s.xr) f = .error .nonFinite ∧
      polygonPointLocation s.mm s.ring (inFrame s.mm f s.xr) f = .ok (-1) := by
  have hring : s.ring = ring := by
    rw [hs]; exact (run_sorted ha ops (update_sorted ha _ rfl (List.Perm.refl _))).hring
  constructor
  · simp only [StarPoly.distanceFunction, StarPoly.boundaryMapping, transform_to_obstacle _ _ hf, bind, Except.bind]
    have ht : transform s.mm s.xr .obstacle .obstacle = .ok s.xr := by
      cases h : s.mm <;> simp [transform]
    simp only [ht, referenceDirection, bind, Except.bind]
    simp [norm2]
  · rw [hring, C37_placed _ _ _ hf, (C37_interior ring s.xr).mpr]
    have : s.xr ∈ filled ring := by
      obtain ⟨i, hi, _⟩ := (star_sectors hstar).cover s.xr
      exact (star_filled hstar _).mpr ⟨corner ring i, ⟨i, hi, 0, le_rfl, zero_le_one, by simp⟩, 0, le_rfl, zero_le_one, by simp⟩
    exact this.resolve_right (star_centre_off hstar)

/-- The notch (3/2, 3/2) of an L-shape is outside of it, for both. -/
example (argsort : List ℝ → List Nat) (ha : IsArgsort argsort) (s : StarPoly)
    (hs : s = StarPoly.make argsort none [(0, 0), (2, 0), (2, 1), (1, 1), (1, 2), (0, 2)] (1 / 2, 1 / 2))
    (ix : Pt ℝ → Pt ℝ → Geom) (hix : ∀ b, GeomIs (ix s.xr b) (hits s.ring s.xr b)) :
    ∃ d, s.distanceFunction ix (3 / 2, 3 / 2) .global = .ok d ∧ 1 < d := by
  have hxr : s.xr = (1 / 2, 1 / 2) := by rw [hs]; rfl
  have hmm : s.mm = none := by rw [hs]; rfl
  have hstar : StarAbout s.xr [(0, 0), (2, 0), (2, 1), (1, 1), (1, 2), (0, 2)] := by
    rw [hxr]
    have := starAbout_rat (c := (1 / 2, 1 / 2)) (v := [(0, 0), (2, 0), (2, 1), (1, 1), (1, 2), (0, 2)]) (by decide +kernel)
    simpa [toReal] using this
  obtain ⟨d, l, h1, h2, h3, h4, h5, -⟩ := C83_agree argsort ha none [(0, 0), (2, 0), (2, 1), (1, 1), (1, 2), (0, 2)] (1 / 2, 1 / 2) []
    s hs hstar ix hix .global (by simp [Frame.Valid]) (3 / 2, 3 / 2) (by rw [hxr]; norm_num)
  have e : inFrame s.mm .global ((3 / 2, 3 / 2) : Pt ℝ) = (3 / 2, 3 / 2) := by rw [hmm]; rfl
  rw [e] at h1
  have hnot : ((3 / 2, 3 / 2) : Pt ℝ) ∉ filled [(0, 0), (2, 0), (2, 1), (1, 1), (1, 2), (0, 2)] := by
    rw [star_filled_sector hstar (j := 2) (by simp) (by norm_num [hxr, corner, cross]) (by norm_num [hxr, corner, cross])]
    norm_num [corner, cross]
  refine ⟨d, h1, ?_⟩
  by_contra hle
  rcases (not_lt.mp hle).lt_or_eq with hlt | heq
  · exact hnot (Or.inl (h3.mp hlt))
  · exact hnot (Or.inr (h4.mp heq))

end Starworlds
