import Verif.Proofs.Angles
import Verif.Proofs.Polygon
import Verif.Proofs.Ellipse
import Verif.Props.PolygonLocation

/-! # C38: Polygon.tangent_points -/

namespace Starworlds

open Real Spec

/-- The window of angles of a run that returns two points. -/
theorem polyTangents_window (v : List (Pt ℝ)) (hv : v ≠ []) (x t s : Pt ℝ) (h : polyTangents v x = [t, s]) :
    t ∈ v ∧ s ∈ v ∧ ∃ α ∈ unwrapAngles ((ringOf v).map (rawAngle x)), ∃ β ∈ unwrapAngles ((ringOf v).map (rawAngle x)),
      SeenAt x t β ∧ SeenAt x s α ∧ α ≤ β ∧ β < α + 2 * π ∧
      ∀ q, OnRing v q → ∃ θ, α ≤ θ ∧ θ ≤ β ∧ SeenAt x q θ := by
  have hchain := unwrap_chain x (ringOf v)
  simp only [polyTangents] at h
  set phi := unwrapAngles ((ringOf v).map (rawAngle x)) with hphi
  have hlen := hchain.length_eq
  rw [ringOf_length v hv] at hlen
  have hne : phi ≠ [] := by
    intro h0; rw [h0] at hlen; simp at hlen
  obtain ⟨hmin1, hmin2⟩ := argminIdx_spec phi hne
  obtain ⟨hmax1, hmax2⟩ := argmaxIdx_spec phi hne
  split at h
  · simp at h
  · split at h
    · simp at h
    · rename_i hw
      push Not at hw
      simp only [List.cons.injEq, and_true] at h
      obtain ⟨rfl, rfl⟩ := h
      have hpt : ∀ i, ptAt (ringOf v) i = (ringOf v).getD i 0 := fun _ => rfl
      have hcorner : ∀ i < phi.length, ptAt (ringOf v) i = corner v i := by
        intro i hi
        rw [hpt, ringOf_getD v hv (by omega)]
      have hseen : ∀ i < phi.length, SeenAt x (corner v i) (phi.getD i 0) := by
        intro i hi
        rw [← hcorner i hi, hpt]
        exact hchain.seen i (by rw [ringOf_length v hv]; omega)
      refine ⟨?_, ?_, phi.getD (argminIdx phi) 0, by rw [List.getD_eq_getElem _ 0 hmin1]; exact List.getElem_mem _,
        phi.getD (argmaxIdx phi) 0, by rw [List.getD_eq_getElem _ 0 hmax1]; exact List.getElem_mem _,
        ?_, ?_, ?_, by linarith, ?_⟩
      · rw [hcorner _ hmax1]; exact corner_mem hv _
      · rw [hcorner _ hmin1]; exact corner_mem hv _
      · rw [hcorner _ hmax1]; exact hseen _ hmax1
      · rw [hcorner _ hmin1]; exact hseen _ hmin1
      · exact hmin2 _ hmax1
      · rintro q ⟨i, hi, hq⟩
        have hi1 : i + 1 < phi.length := by omega
        obtain ⟨θ, h1, h2, h3⟩ := seenAt_segment (hseen i (by omega)) (hseen (i + 1) hi1)
          (hchain.step i (by rw [ringOf_length v hv]; omega)) hq
        refine ⟨θ, le_trans (le_min ?_ ?_) h1, h2.trans (max_le ?_ ?_), h3⟩
        · exact hmin2 i (by omega)
        · exact hmin2 (i + 1) hi1
        · exact hmax2 i (by omega)
        · exact hmax2 (i + 1) hi1

/-- A result has no or two points. -/
theorem polyTangents_shape (v : List (Pt ℝ)) (x : Pt ℝ) : polyTangents v x = [] ∨ ∃ t s, polyTangents v x = [t, s] := by
  simp only [polyTangents]
  split
  · exact Or.inl rfl
  · split
    · exact Or.inl rfl
    · exact Or.inr ⟨_, _, rfl⟩

/-- C38: whatever the polygon, the pose and the frames, if `tangent_points` returns points then there are two,
they are vertices, and every boundary point of the polygon is seen from `x` under an angle between theirs, in
one window of width less than `2π`. -/
theorem C38_window (mm : Option Pose) (v : List (Pt ℝ)) (hv : v ≠ []) (f g : Frame) (hf : f.Valid) (hg : g.Valid)
    (x : Pt ℝ) (L : List (Pt ℝ)) (h : polygonTangentPoints mm v (inFrame mm f x) f g = .ok L) (hL : L ≠ []) :
    ∃ t s, L = [inFrame mm g t, inFrame mm g s] ∧ t ∈ v ∧ s ∈ v ∧
      ∃ α β : ℝ, SeenAt x t β ∧ SeenAt x s α ∧ α ≤ β ∧ β < α + 2 * π ∧
        ∀ q, OnRing v q → ∃ θ, α ≤ θ ∧ θ ≤ β ∧ SeenAt x q θ := by
  simp only [polygonTangentPoints, transform_to_obstacle _ _ hf, bind, Except.bind, mapM_transform _ _ hg,
    Except.ok.injEq] at h
  rcases polyTangents_shape v x with h0 | ⟨t, s, h0⟩
  · rw [h0] at h; exact absurd h.symm hL
  · rw [h0] at h
    obtain ⟨ht, hs, α, _, β, _, hw⟩ := polyTangents_window v hv x t s h0
    exact ⟨t, s, h.symm, ht, hs, α, β, hw⟩

/-- C38: angles seen in the obstacle frame are angles seen in the world, shifted by the rotation. -/
theorem C38_rotated (p : Pose) (x q : Pt ℝ) (θ : ℝ) (h : SeenAt x q θ) :
    SeenAt (inFrame (some p) .global x) (inFrame (some p) .global q) (θ + p.rot) := by
  obtain ⟨r, hr, rfl⟩ := h
  refine ⟨r, hr, ?_⟩
  ext <;> simp only [inFrame, worldOf, Prod.fst_add, Prod.snd_add, Prod.smul_fst, Prod.smul_snd, smul_eq_mul, cos_add,
    sin_add] <;> ring

theorem seen_window {x p : Pt ℝ} {t γ : ℝ} (h : SeenAt x p t) (hp : 0 < (p.1 - x.1) * cos γ + (p.2 - x.2) * sin γ) :
    ∃ k : ℤ, |t - γ - k * (2 * π)| < π / 2 := by
  obtain ⟨r, hr, rfl⟩ := h
  have e : (x + r • ((cos t, sin t) : Pt ℝ)).1 - x.1 = r * cos t := by simp
  have e' : (x + r • ((cos t, sin t) : Pt ℝ)).2 - x.2 = r * sin t := by simp
  rw [e, e'] at hp
  have hc : 0 < cos (t - γ) := by
    have : r * cos t * cos γ + r * sin t * sin γ = r * cos (t - γ) := by rw [cos_sub]; ring
    rw [this] at hp
    by_contra hneg
    exact absurd hp (not_lt.2 (mul_nonpos_of_nonneg_of_nonpos hr (not_lt.1 hneg)))
  have hpi := pi_pos
  refine ⟨round ((t - γ) / (2 * π)), ?_⟩
  set k := round ((t - γ) / (2 * π)) with hk
  have h1 := abs_sub_round ((t - γ) / (2 * π))
  rw [← hk] at h1
  have h2 : |t - γ - k * (2 * π)| ≤ π := by
    have e2 : t - γ - k * (2 * π) = ((t - γ) / (2 * π) - k) * (2 * π) := by field_simp
    rw [e2, abs_mul, abs_of_pos (by linarith : (0 : ℝ) < 2 * π)]
    nlinarith
  have h3 : 0 < cos (|t - γ - k * (2 * π)|) := by
    rw [cos_abs, cos_sub_int_mul_two_pi]; exact hc
  by_contra h4
  push Not at h4
  have := cos_nonpos_of_pi_div_two_le_of_le h4 (by linarith)
  linarith

/-- The angles of a path that stays strictly on one side of a line through `x` stay in one window of width `π`. -/
theorem chain_window {x : Pt ℝ} {γ : ℝ} : ∀ {l : List (Pt ℝ)} {ts : List ℝ}, AngleChain x l ts →
    (∀ p ∈ l, 0 < (p.1 - x.1) * cos γ + (p.2 - x.2) * sin γ) → ∃ k : ℤ, ∀ t ∈ ts, |t - γ - k * (2 * π)| < π / 2
  | [], [], _, _ => ⟨0, by simp⟩
  | [p], [t], h, hp => by
    obtain ⟨k, hk⟩ := seen_window h (hp p List.mem_cons_self)
    exact ⟨k, by simpa using hk⟩
  | p :: q :: ps, t :: s :: ts, h, hp => by
    obtain ⟨k, hk⟩ := chain_window h.2.2 (fun r hr => hp r (List.mem_cons_of_mem _ hr))
    obtain ⟨k', hk'⟩ := seen_window h.1 (hp p List.mem_cons_self)
    have hs := hk s List.mem_cons_self
    have hst := h.2.1
    have hpi := pi_pos
    have hkk : k' = k := by
      rw [abs_lt] at hs hk'
      rw [abs_le] at hst
      have h1 : ((k' - k : ℤ) : ℝ) * (2 * π) < 1 * (2 * π) := by push_cast; linarith
      have h2 : (-1 : ℝ) * (2 * π) < ((k' - k : ℤ) : ℝ) * (2 * π) := by push_cast; linarith
      have h3 := lt_of_mul_lt_mul_right h1 (by linarith)
      have h4 := lt_of_mul_lt_mul_right h2 (by linarith)
      have h5 : k' - k < 1 := by exact_mod_cast h3
      have h6 : -1 < k' - k := by exact_mod_cast h4
      omega
    subst hkk
    refine ⟨k', ?_⟩
    intro r hr
    rcases List.mem_cons.1 hr with rfl | hr
    · exact hk'
    · exact hk r hr
  | [], _ :: _, h, _ => h.elim
  | [_], [], h, _ => h.elim
  | [_], _ :: _ :: _, h, _ => h.elim
  | _ :: _ :: _, [], h, _ => h.elim
  | _ :: _ :: _, [_], h, _ => h.elim

/-- C38: a point with the polygon strictly on one side of some line through it always gets two tangent points,
seen less than a half turn apart. -/
theorem C38_separated (mm : Option Pose) (v : List (Pt ℝ)) (hv : v ≠ []) (f g : Frame) (hf : f.Valid) (hg : g.Valid)
    (x u : Pt ℝ) (hu : ∀ p ∈ v, 0 < u.1 * (p.1 - x.1) + u.2 * (p.2 - x.2)) :
    ∃ t s, polygonTangentPoints mm v (inFrame mm f x) f g = .ok [inFrame mm g t, inFrame mm g s] ∧
      t ∈ v ∧ s ∈ v ∧ 0 ≤ cross (s - x) (t - x) ∧
      (∀ q, OnRing v q → 0 ≤ cross (s - x) (q - x) ∧ 0 ≤ cross (q - x) (t - x)) := by
  simp only [polygonTangentPoints, transform_to_obstacle _ _ hf, bind, Except.bind, mapM_transform _ _ hg,
    Except.ok.injEq]
  -- the direction of `u`
  set γ := arctan2 u.2 u.1 with hγ
  have huz : (⟨u.1, u.2⟩ : ℂ) ≠ 0 := by
    intro h0
    have e1 : u.1 = 0 := by simpa using congrArg Complex.re h0
    have e2 : u.2 = 0 := by simpa using congrArg Complex.im h0
    cases v with
    | nil => exact hv rfl
    | cons p v => have := hu p List.mem_cons_self; rw [e1, e2] at this; simp at this
  have hun : 0 < ‖(⟨u.1, u.2⟩ : ℂ)‖ := norm_pos_iff.2 huz
  have hu1 : ‖(⟨u.1, u.2⟩ : ℂ)‖ * cos γ = u.1 := Complex.norm_mul_cos_arg ⟨u.1, u.2⟩
  have hu2 : ‖(⟨u.1, u.2⟩ : ℂ)‖ * sin γ = u.2 := Complex.norm_mul_sin_arg ⟨u.1, u.2⟩
  have hside : ∀ p ∈ v, 0 < (p.1 - x.1) * cos γ + (p.2 - x.2) * sin γ := by
    intro p hp
    have := hu p hp
    have e : u.1 * (p.1 - x.1) + u.2 * (p.2 - x.2) =
        ‖(⟨u.1, u.2⟩ : ℂ)‖ * ((p.1 - x.1) * cos γ + (p.2 - x.2) * sin γ) := by
      linear_combination -(p.1 - x.1) * hu1 - (p.2 - x.2) * hu2
    rw [e] at this
    exact (mul_pos_iff_of_pos_left hun).1 this
  have hring : ∀ p ∈ ringOf v, p ∈ v := by
    intro p hp
    obtain ⟨i, hi, rfl⟩ := List.mem_iff_getElem.1 hp
    rw [← List.getD_eq_getElem _ 0 hi, ringOf_getD v hv (by rw [ringOf_length v hv] at hi; omega)]
    exact corner_mem hv i
  have hchain := unwrap_chain x (ringOf v)
  obtain ⟨k, hk⟩ := chain_window hchain (fun p hp => hside p (hring p hp))
  have hlen := hchain.length_eq
  rw [ringOf_length v hv] at hlen
  have hvl : 0 < v.length := List.length_pos_iff.2 hv
  have htwo : ∃ t s, polyTangents v x = [t, s] := by
    simp only [polyTangents]
    set phi := unwrapAngles ((ringOf v).map (rawAngle x)) with hphi
    have hne : phi ≠ [] := by
      intro h0; rw [h0] at hlen; simp at hlen
    obtain ⟨hmin1, _⟩ := argminIdx_spec phi hne
    obtain ⟨hmax1, _⟩ := argmaxIdx_spec phi hne
    have hb : ∀ i < phi.length, |phi.getD i 0 - γ - k * (2 * π)| < π / 2 := by
      intro i hi
      rw [List.getD_eq_getElem _ 0 hi]
      exact hk _ (List.getElem_mem _)
    have hends : phi.getD 0 0 = phi.getD (phi.length - 1) 0 := by
      have s1 := hchain.seen 0 (by rw [ringOf_length v hv]; omega)
      have s2 := hchain.seen (phi.length - 1) (by rw [ringOf_length v hv]; omega)
      rw [ringOf_getD v hv (by omega)] at s1 s2
      have hc : corner v (phi.length - 1) = corner v 0 := by
        rw [← hlen]
        simp [corner]
      rw [hc] at s2
      obtain ⟨r1, hr1, e1⟩ := s1
      obtain ⟨r2, hr2, e2⟩ := s2
      have hpos := hside _ (corner_mem hv 0)
      have b1 := hb 0 (by omega)
      have b2 := hb (phi.length - 1) (by omega)
      generalize phi.getD 0 0 = t1 at *
      generalize phi.getD (phi.length - 1) 0 = t2 at *
      generalize corner v 0 = p at *
      have a1 : p.1 - x.1 = r1 * cos t1 := by rw [e1]; simp
      have a2 : p.2 - x.2 = r1 * sin t1 := by rw [e1]; simp
      have a3 : p.1 - x.1 = r2 * cos t2 := by rw [e2]; simp
      have a4 : p.2 - x.2 = r2 * sin t2 := by rw [e2]; simp
      have hr1' : 0 < r1 := by
        rcases hr1.eq_or_lt with h | h
        · rw [a1, a2, ← h] at hpos; simp at hpos
        · exact h
      have hr2' : 0 < r2 := by
        rcases hr2.eq_or_lt with h | h
        · rw [a3, a4, ← h] at hpos; simp at hpos
        · exact h
      have hsin : sin (t1 - t2) = 0 := by
        have : r1 * (r2 * sin (t1 - t2)) = 0 := by
          rw [sin_sub]
          linear_combination -r2 * cos t2 * a2 + r2 * sin t2 * a1 + (p.1 - x.1) * a4 - (p.2 - x.2) * a3
        rcases mul_eq_zero.1 this with h | h
        · linarith
        · rcases mul_eq_zero.1 h with h | h
          · linarith
          · exact h
      rw [abs_lt] at b1 b2
      have h0 := (sin_eq_zero_iff_of_lt_of_lt (by linarith) (by linarith)).1 hsin
      linarith
    rw [if_neg, if_neg]
    · exact ⟨_, _, rfl⟩
    · have h1 := hb _ hmax1
      have h2 := hb _ hmin1
      rw [abs_lt] at h1 h2
      push Not
      linarith [pi_pos]
    · rw [hends]; norm_num
  obtain ⟨t, s, h0⟩ := htwo
  obtain ⟨ht, hs, α, hαm, β, hβm, hβ, hα, hαβ, hβ2, hall⟩ := polyTangents_window v hv x t s h0
  have hseen_cross : ∀ {p q : Pt ℝ} {a b : ℝ}, SeenAt x p a → SeenAt x q b → a ≤ b → b ≤ a + π →
      0 ≤ cross (p - x) (q - x) := by
    rintro p q a b ⟨r1, hr1, rfl⟩ ⟨r2, hr2, rfl⟩ hab hba
    have e : cross (x + r1 • ((cos a, sin a) : Pt ℝ) - x) (x + r2 • ((cos b, sin b) : Pt ℝ) - x) =
        r1 * r2 * sin (b - a) := by
      rw [sin_sub]; simp [cross]; ring
    rw [e]
    exact mul_nonneg (mul_nonneg hr1 hr2) (sin_nonneg_of_nonneg_of_le_pi (by linarith) (by linarith))
  have hwid : β ≤ α + π := by
    have h1 := abs_lt.1 (hk α hαm)
    have h2 := abs_lt.1 (hk β hβm)
    linarith [h1.1, h2.2]
  refine ⟨t, s, by rw [h0]; rfl, ht, hs, hseen_cross hα hβ hαβ hwid, ?_⟩
  intro q hq
  obtain ⟨θ, h1, h2, h3⟩ := hall q hq
  exact ⟨hseen_cross hα h3 h1 (by linarith), hseen_cross h3 hβ h2 (by linarith)⟩

/-- From (2, 0) the square with corners (0, ±1), (-2, ±1) has the tangent points (0, -1) and (0, 1). -/
example : polyTangents [(-2, -1), (0, -1), (0, 1), (-2, 1)] ((2, 0) : Pt ℝ) = [(0, -1), (0, 1)] := by
  obtain ⟨t, s, h, ht, hs, _, hq⟩ := C38_separated none [(-2, -1), (0, -1), (0, 1), (-2, 1)] (by simp) .obstacle
    .obstacle (.inr rfl) (.inr rfl) (2, 0) (-1, 0) (by
      intro p hp; simp only [List.mem_cons, List.not_mem_nil, or_false] at hp
      rcases hp with rfl | rfl | rfl | rfl <;> norm_num)
  have h1 := (hq (0, -1) ⟨1, by simp, 0, le_rfl, by norm_num, by simp [corner]⟩).2
  have h2 := (hq (0, 1) ⟨2, by simp, 0, le_rfl, by norm_num, by simp [corner]⟩).1
  have et : t = (0, -1) := by
    simp only [List.mem_cons, List.not_mem_nil, or_false] at ht
    rcases ht with rfl | rfl | rfl | rfl <;> first | (exfalso; norm_num [cross] at h1; done) | rfl
  have es : s = (0, 1) := by
    simp only [List.mem_cons, List.not_mem_nil, or_false] at hs
    rcases hs with rfl | rfl | rfl | rfl <;> first | (exfalso; norm_num [cross] at h2; done) | rfl
  simp only [polygonTangentPoints, transform_to_obstacle _ .obstacle (.inr rfl), bind, Except.bind,
    mapM_transform _ .obstacle (.inr rfl), Except.ok.injEq] at h
  rw [et, es] at h
  rcases polyTangents_shape [(-2, -1), (0, -1), (0, 1), (-2, 1)] ((2, 0) : Pt ℝ) with h0 | ⟨t', s', h0⟩
  · rw [h0] at h; simp at h
  · rw [h0] at h ⊢; simpa [inFrame] using h

end Starworlds
