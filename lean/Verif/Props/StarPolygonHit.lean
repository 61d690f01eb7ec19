import Verif.Props.StarPolygon
import Verif.Proofs.StarRing

/-! # C39: the edge hit by the ray from the reference point -/

namespace Starworlds

open Real Spec

theorem polar_shift (c : Pt ℝ) (r t : ℝ) (k : ℤ) : polar c r (t + k * (2 * π)) = polar c r t := by
  simp only [polar, cos_add_int_mul_two_pi, sin_add_int_mul_two_pi]

/-- A multiple of a full turn that is smaller than a full turn is zero. -/
theorem turn_zero {k : ℤ} (h1 : (k : ℝ) * (2 * π) < 2 * π) (h2 : -(2 * π) < (k : ℝ) * (2 * π)) : k = 0 := by
  have hpi := pi_pos
  have h3 : (k : ℝ) < 1 := by
    by_contra h
    push Not at h
    nlinarith
  have h4 : (-1 : ℝ) < k := by
    by_contra h
    push Not at h
    nlinarith
  have h5 : k < 1 := by exact_mod_cast h3
  have h6 : -1 < k := by exact_mod_cast h4
  omega

/-- Between the angles of two consecutive corners of a star-shaped ring there is no other corner. -/
theorem ring_gap {c : Pt ℝ} {v : List (Pt ℝ)} {φ ρ : ℕ → ℝ}
    (h1 : ∀ i ≤ v.length, 0 < ρ i ∧ corner v i = polar c (ρ i) (φ i))
    (h2 : ∀ i < v.length, φ i < φ (i + 1) ∧ φ (i + 1) < φ i + π) (h3 : φ v.length = φ 0 + 2 * π)
    {j m : ℕ} (hj : j < v.length) (hm : m < v.length) {r δ : ℝ} (hr : 0 < r) (hδ : 0 < δ)
    (e : corner v m = polar c r (φ j + δ)) : φ (j + 1) ≤ φ j + δ := by
  by_contra hlt
  push Not at hlt
  have hmono := mono_angles h2
  have hle : ∀ i ≤ v.length, ∀ j ≤ i, φ j ≤ φ i := by
    intro i hi j hj
    rcases hj.eq_or_lt with rfl | h
    · exact le_rfl
    · exact (hmono i hi j h).le
  rw [(h1 m hm.le).2] at e
  obtain ⟨_, k, hk⟩ := polar_inj (h1 m hm.le).1 hr e
  have b1 := hle m hm.le 0 (Nat.zero_le _)
  have b2 := hmono v.length le_rfl m hm
  have b3 := hle (j + 1) hj 0 (Nat.zero_le _)
  have b4 := hle v.length le_rfl (j + 1) hj
  have b5 := hle j hj.le 0 (Nat.zero_le _)
  have hk0 : k = 0 := turn_zero (by linarith) (by linarith)
  rw [hk0] at hk
  simp only [Int.cast_zero, zero_mul, add_zero] at hk
  rcases Nat.lt_or_ge j m with h | h
  · have := hle m hm.le (j + 1) h
    linarith
  · have := hle j hj.le m h
    linarith

/-- Between two consecutive entries of the angle array there is no vertex. -/
theorem array_gap {ring : List (Pt ℝ)} (hr0 : ring ≠ []) {s : StarPoly} (h : Sorted ring s) {i : ℕ} (hi : i < ring.length)
    {p : Pt ℝ} (hp : p ∈ s.vertices) {r δ : ℝ} (hr : 0 < r) (hδ : 0 < δ)
    (e : p = polar s.xr r (s.vertexAngles.getD i 0 + δ)) :
    s.vertexAngles.getD (i + 1) 0 ≤ s.vertexAngles.getD i 0 + δ := by
  by_contra hlt
  push Not at hlt
  obtain ⟨_, hlen, hsort, hseen, hlast, hlarge⟩ := sorted_facts hr0 h
  have hl : s.vertices.length = ring.length := h.perm.length_eq
  obtain ⟨m, hm, hpm⟩ := List.mem_iff_getElem.1 hp
  rw [hl] at hm
  have hpm' : s.vertices.getD m 0 = p := by rw [List.getD_eq_getElem _ _ (by omega)]; exact hpm
  have hle : ∀ i j, i ≤ j → j ≤ ring.length → s.vertexAngles.getD i 0 ≤ s.vertexAngles.getD j 0 := by
    intro i j hij hj
    rcases hij.eq_or_lt with rfl | hlt
    · exact le_rfl
    · rw [List.getD_eq_getElem _ _ (by omega), List.getD_eq_getElem _ _ (by omega)]
      exact List.pairwise_iff_getElem.1 hsort i j (by omega) (by omega) hlt
  have hs := (hseen m hm).1
  rw [hpm'] at hs
  obtain ⟨r', hr', e'⟩ := seenAt_pos hs (by rw [e]; exact polar_ne hr.ne')
  rw [e] at e'
  obtain ⟨_, k, hk⟩ := polar_inj hr hr' e'
  have hpi := pi_pos
  have b0 := (hseen m hm).2
  have b1 := (hseen i hi).2
  have b2 := hle (i + 1) ring.length hi le_rfl
  have b3 := hle 0 m (Nat.zero_le _) hm.le
  have b4 := hle 0 i (Nat.zero_le _) hi.le
  have hk0 : k = 0 := turn_zero (by linarith) (by linarith)
  rw [hk0] at hk
  simp only [Int.cast_zero, zero_mul, add_zero] at hk
  rcases Nat.lt_or_ge i m with h | h
  · have := hle (i + 1) m h hm.le
    linarith
  · have := hle m i h hi.le
    linarith

/-- `normal` for sorted arrays of a star-shaped ring, see `C39_hit`. -/
theorem hit_of_sorted {ring : List (Pt ℝ)} (hr : ring ≠ []) {s : StarPoly} (hS : Sorted ring s) (f g : Frame)
    (hf : f.Valid) (hg : g.Valid) (x : Pt ℝ) (hstar : StarAbout s.xr ring) (hx : x ≠ s.xr) :
    ∃ j < ring.length, ∃ q n, OnRay s.xr x q ∧ OnSegment (corner ring j) (corner ring (j + 1)) q ∧
      (∀ q', OnRay s.xr x q' → OnRing ring q' → q' = q) ∧
      s.normal (inFrame s.mm f x) f g .edge = .ok (inFrame s.mm g n - inFrame s.mm g 0) ∧ normSq n = 1 ∧
      dot n (corner ring (j + 1) - corner ring j) = 0 ∧ dot n (q - s.xr) > 0 := by
  have hl : s.vertices.length = ring.length := hS.perm.length_eq
  obtain ⟨i, hi, t, ht, ht1, ht2, hn⟩ := edge_of_sorted hr hS f g hf hg x
  obtain ⟨_, hlen, hsort, hseen, hlast, hlarge⟩ := sorted_facts hr hS
  obtain ⟨φ, ρ, h1, h2, h3, hpos⟩ := starAbout_polar hstar
  -- every vertex is a corner of the ring
  have hcorner : ∀ p ∈ s.vertices, ∃ m < ring.length, p = corner ring m := by
    intro p hp
    obtain ⟨m, hm, e⟩ := List.mem_iff_getElem.1 (hS.perm.mem_iff.1 hp)
    exact ⟨m, hm, by rw [corner, Nat.mod_eq_of_lt hm, List.getD_eq_getElem _ _ hm, e]⟩
  have hvert : ∀ m, corner ring m ∈ s.vertices := fun m => hS.perm.mem_iff.2 (corner_mem hr m)
  have hvne : s.vertices ≠ [] := by
    intro h0; rw [h0] at hl; simp at hl; omega
  have hne : ∀ m, m ≤ ring.length → corner ring m ≠ s.xr := by
    intro m hm
    rw [(h1 m hm).2]; exact polar_ne (h1 m hm).1.ne'
  -- the two vertices in polar form
  set A := s.vertexAngles.getD i 0 with hA
  set B := s.vertexAngles.getD (i + 1) 0 with hB
  have hAB : A < B := by linarith
  have ea : corner s.vertices i = s.vertices.getD i 0 := by rw [corner, hl, Nat.mod_eq_of_lt hi]
  have hsa : SeenAt s.xr (corner s.vertices i) A := by rw [ea]; exact (hseen i hi).1
  have hsb : SeenAt s.xr (corner s.vertices (i + 1)) B := by
    rcases Nat.lt_or_ge (i + 1) ring.length with h | h
    · have e : corner s.vertices (i + 1) = s.vertices.getD (i + 1) 0 := by rw [corner, hl, Nat.mod_eq_of_lt h]
      rw [e]; exact (hseen (i + 1) h).1
    · have e1 : i + 1 = ring.length := by omega
      have e : corner s.vertices (i + 1) = s.vertices.getD 0 0 := by rw [corner, hl, e1, Nat.mod_self]
      rw [e, hB, e1, hlast]
      have := seenAt_add_two_pi (hseen 0 hpos).1 1
      simpa using this
  obtain ⟨j, hj, ej⟩ := hcorner _ (corner_mem hvne i)
  obtain ⟨m, hm, em⟩ := hcorner _ (corner_mem hvne (i + 1))
  obtain ⟨ra, hra, ea'⟩ := seenAt_pos hsa (by rw [ej]; exact hne j hj.le)
  obtain ⟨rb, hrb, eb'⟩ := seenAt_pos hsb (by rw [em]; exact hne m hm.le)
  have eja := (h1 j hj.le).2
  rw [← ej, ea'] at eja
  obtain ⟨hraj, k, hk⟩ := polar_inj hra (h1 j hj.le).1 eja
  -- the two gaps agree
  have hg1 : φ (j + 1) ≤ φ j + (B - A) := by
    refine ring_gap h1 h2 h3 hj hm hrb (by linarith) ?_
    rw [← em, eb', ← polar_shift _ _ (φ j + (B - A)) k]
    congr 1; linarith
  have hg2 : B ≤ A + (φ (j + 1) - φ j) := by
    refine array_gap hr hS hi (hvert (j + 1)) (h1 (j + 1) hj).1 (by linarith [(h2 j hj).1]) ?_
    rw [(h1 (j + 1) hj).2, ← hA, ← polar_shift _ _ (φ (j + 1)) k]
    congr 1; linarith
  have hgap : B - A = φ (j + 1) - φ j := by linarith
  have eb2 : corner s.vertices (i + 1) = polar s.xr rb (φ (j + 1)) := by
    rw [eb', ← polar_shift _ _ (φ (j + 1)) k]
    congr 1; linarith
  have hring : ∀ m, OnRing ring (corner ring m) := by
    intro m
    refine ⟨m % ring.length, Nat.mod_lt _ hpos, 0, le_rfl, zero_le_one, ?_⟩
    simp [corner]
  have hb : corner s.vertices (i + 1) = corner ring (j + 1) := by
    have e := star_unique hstar (θ := φ (j + 1)) hrb.le (h1 (j + 1) hj).1.le
      (by rw [← eb2, em]; exact hring m) (by rw [← (h1 (j + 1) hj).2]; exact hring _)
    rw [eb2, e, ← (h1 (j + 1) hj).2]
  -- the hit
  obtain ⟨rx, hrx, ex⟩ := seenAt_pos ht hx
  obtain ⟨r, hr0, hseg⟩ := ray_hits_edge (c := s.xr) hra hrb ht1 ht2.le hAB (by rw [show B = A + (B - A) by ring, hgap]; linarith [(h2 j hj).2])
  have hseg' : OnSegment (corner ring j) (corner ring (j + 1)) (polar s.xr r t) := by
    rw [← ej, ← hb, ea', eb']; exact hseg
  have hray : ∀ r', 0 ≤ r' → OnRay s.xr x (polar s.xr r' t) := by
    intro r' hr'
    refine ⟨r' / rx, by positivity, ?_⟩
    rw [ex]
    ext
    · simp only [polar_fst, Prod.fst_add, Prod.smul_fst, Prod.fst_sub, smul_eq_mul]; field_simp; ring
    · simp only [polar_snd, Prod.snd_add, Prod.smul_snd, Prod.snd_sub, smul_eq_mul]; field_simp; ring
  rcases hn with ⟨heq, _⟩ | ⟨n, hn1, hn2, hn3, hn4⟩
  · exfalso
    have := hne (j + 1) hj
    rw [← hb, ← heq, ea'] at this
    rw [eb', ea'] at heq
    obtain ⟨_, k', hk'⟩ := polar_inj hra hrb heq
    have hlt := (h2 j hj).2
    have hpi := pi_pos
    have : k' = 0 := turn_zero (by linarith) (by linarith)
    rw [this] at hk'
    simp at hk'
    linarith
  · refine ⟨j, hj, polar s.xr r t, n, hray r hr0.le, hseg', ?_, hn1, hn2, ?_, ?_⟩
    · rintro q' ⟨w, hw, rfl⟩ hq'
      have e : s.xr + w • (x - s.xr) = polar s.xr (w * rx) t := by
        rw [ex]
        ext
        · simp only [polar_fst, Prod.fst_add, Prod.smul_fst, Prod.fst_sub, smul_eq_mul]; ring
        · simp only [polar_snd, Prod.snd_add, Prod.smul_snd, Prod.snd_sub, smul_eq_mul]; ring
      rw [e] at hq' ⊢
      rw [star_unique hstar (mul_nonneg hw hrx.le) hr0.le hq' ⟨j, hj, hseg'⟩]
    · rw [← ej, ← hb]; exact hn3
    · -- the normal is perpendicular to the edge and to the right of it
      rw [hb, ej] at hn3 hn4
      obtain ⟨τ, _, _, eq⟩ := hseg'
      have eA := (h1 j hj.le).2
      have eB := (h1 (j + 1) hj).2
      have hsin : 0 < sin (φ (j + 1) - φ j) :=
        sin_pos_of_pos_of_lt_pi (by linarith [(h2 j hj).1]) (by linarith [(h2 j hj).2])
      have hcr : 0 < cross (corner ring j - s.xr) (corner ring (j + 1) - s.xr) := by
        rw [eA, eB]
        have : cross (polar s.xr (ρ j) (φ j) - s.xr) (polar s.xr (ρ (j + 1)) (φ (j + 1)) - s.xr) =
            ρ j * ρ (j + 1) * sin (φ (j + 1) - φ j) := by
          rw [sin_sub]; simp only [cross, Prod.fst_sub, Prod.snd_sub, polar_fst, polar_snd]; ring
        rw [this]
        exact mul_pos (mul_pos (h1 j hj.le).1 (h1 (j + 1) hj).1) hsin
      rw [eq]
      generalize corner ring j = a at *
      generalize corner ring (j + 1) = b at *
      -- `n` is a negative multiple of the left normal
      have hd : 0 < normSq (b - a) := by
        have h0 : 0 ≤ normSq (b - a) := by simp only [normSq]; positivity
        rcases h0.eq_or_lt with h0 | h0
        · exfalso
          have h5 : (b - a).1 = 0 := by
            simp only [normSq] at h0; nlinarith [sq_nonneg (b - a).1, sq_nonneg (b - a).2]
          have h6 : (b - a).2 = 0 := by
            simp only [normSq] at h0; nlinarith [sq_nonneg (b - a).1, sq_nonneg (b - a).2]
          simp only [cross, h5, h6] at hn4
          linarith
        · exact h0
      have key : normSq (b - a) * dot n (a + τ • (b - a) - s.xr) =
          -(cross (b - a) n) * cross (a - s.xr) (b - s.xr) := by
        simp only [dot, Prod.fst_sub, Prod.snd_sub] at hn3
        simp only [normSq, dot, cross, Prod.fst_add, Prod.snd_add, Prod.smul_fst, Prod.smul_snd, Prod.fst_sub,
          Prod.snd_sub, smul_eq_mul]
        linear_combination ((b.1 - a.1) * (a.1 + τ * (b.1 - a.1) - s.xr.1) + (b.2 - a.2) * (a.2 + τ * (b.2 - a.2) - s.xr.2)) * hn3
      have : 0 < -(cross (b - a) n) * cross (a - s.xr) (b - s.xr) := mul_pos (by linarith) hcr
      rw [← key] at this
      exact (mul_pos_iff_of_pos_left hd).1 this

/-- C39: if the ring is star-shaped about the current reference point then, for every `x` other than it, the ray
from it through `x` meets the ring in one point, and `normal` returns the outward unit normal of a polygon edge
through that point: a unit vector perpendicular to the edge, with the reference point strictly behind it. -/
theorem C39_hit (argsort : List ℝ → List Nat) (ha : IsArgsort argsort) (mm : Option Pose) (ring : List (Pt ℝ))
    (hr : ring ≠ []) (xr : Pt ℝ) (ops : List StarOp) (f g : Frame) (hf : f.Valid) (hg : g.Valid) (x : Pt ℝ)
    (s : StarPoly) (hs : s = (StarPoly.make argsort mm ring xr).run argsort ops) (hstar : StarAbout s.xr ring)
    (hx : x ≠ s.xr) :
    ∃ j < ring.length, ∃ q n, OnRay s.xr x q ∧ OnSegment (corner ring j) (corner ring (j + 1)) q ∧
      (∀ q', OnRay s.xr x q' → OnRing ring q' → q' = q) ∧
      s.normal (inFrame s.mm f x) f g .edge = .ok (inFrame s.mm g n - inFrame s.mm g 0) ∧ normSq n = 1 ∧
      dot n (corner ring (j + 1) - corner ring j) = 0 ∧ dot n (q - s.xr) > 0 :=
  hit_of_sorted hr (by rw [hs]; exact run_sorted ha ops (update_sorted ha _ rfl (List.Perm.refl _))) f g hf hg x hstar hx

end Starworlds
