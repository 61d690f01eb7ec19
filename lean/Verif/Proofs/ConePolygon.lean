import Verif.Props.Lines
import Verif.Model.CgReal
import Mathlib.Tactic.FinCases

/-! Lemmas about `Cone.polygon` (used by `Verif.Props.ConePolygon`). -/

namespace Starworlds

open Real Spec

theorem sin_add_quarter (θ : ℝ) : sin (θ + π / 4) = (sin θ + cos θ) * (√2 / 2) := by
  rw [sin_add, sin_pi_div_four, cos_pi_div_four]; ring

theorem cos_add_quarter (θ : ℝ) : cos (θ + π / 4) = (cos θ - sin θ) * (√2 / 2) := by
  rw [cos_add, sin_pi_div_four, cos_pi_div_four]; ring

/-- What the four angle sectors mean for the direction. -/
def SectorOk (d : Pt ℝ) : Fin 4 → Prop
  | 0 => d.1 ≤ -d.2 ∧ -d.1 ≤ -d.2
  | 1 => d.2 ≤ d.1 ∧ -d.2 ≤ d.1
  | 2 => d.1 ≤ d.2 ∧ -d.1 ≤ d.2
  | 3 => d.2 ≤ -d.1 ∧ -d.2 ≤ -d.1

theorem sectorIdx_spec (d : Pt ℝ) : SectorOk d (sectorIdx d) := by
  set z : ℂ := ⟨d.1, d.2⟩ with hz
  set θ := z.arg with hθ
  have h1 : -π < θ := Complex.neg_pi_lt_arg z
  have h2 : θ ≤ π := Complex.arg_le_pi z
  have hc : d.1 = ‖z‖ * cos θ := (Complex.norm_mul_cos_arg z).symm
  have hs : d.2 = ‖z‖ * sin θ := (Complex.norm_mul_sin_arg z).symm
  have hn : 0 ≤ ‖z‖ := norm_nonneg z
  have hsq : 0 < √2 / 2 := by positivity
  have hpi := pi_pos
  have ep := sin_add_quarter θ
  have em := cos_add_quarter θ
  -- signs of sin θ + cos θ and cos θ - sin θ from those of sin, cos of θ + π/4
  have sp : 0 ≤ sin (θ + π / 4) → 0 ≤ d.2 + d.1 := by
    intro h; rw [ep] at h
    have := nonneg_of_mul_nonneg_left h hsq
    rw [hc, hs, ← mul_add]; exact mul_nonneg hn this
  have sn : sin (θ + π / 4) ≤ 0 → d.2 + d.1 ≤ 0 := by
    intro h; rw [ep] at h
    have : sin θ + cos θ ≤ 0 := by
      by_contra hcon
      have := mul_pos (not_le.mp hcon) hsq
      linarith
    rw [hc, hs, ← mul_add]; exact mul_nonpos_of_nonneg_of_nonpos hn this
  have cp : 0 ≤ cos (θ + π / 4) → 0 ≤ d.1 - d.2 := by
    intro h; rw [em] at h
    have := nonneg_of_mul_nonneg_left h hsq
    rw [hc, hs, ← mul_sub]; exact mul_nonneg hn this
  have cn : cos (θ + π / 4) ≤ 0 → d.1 - d.2 ≤ 0 := by
    intro h; rw [em] at h
    have : cos θ - sin θ ≤ 0 := by
      by_contra hcon
      have := mul_pos (not_le.mp hcon) hsq
      linarith
    rw [hc, hs, ← mul_sub]; exact mul_nonpos_of_nonneg_of_nonpos hn this
  have hang : arctan2 d.2 d.1 = θ := rfl
  unfold sectorIdx
  simp only [hang]
  split
  · rename_i h
    have a := sn (sin_nonpos_of_nonpos_of_neg_pi_le (by linarith [h.2]) (by linarith [h.1]))
    have b := cp (cos_nonneg_of_neg_pi_div_two_le_of_le (by linarith [h.1]) (by linarith [h.2]))
    exact ⟨by linarith, by linarith⟩
  · split
    · rename_i h' h
      have a := sp (sin_nonneg_of_nonneg_of_le_pi (by linarith [h.1]) (by linarith [h.2]))
      have b := cp (cos_nonneg_of_neg_pi_div_two_le_of_le (by linarith [h.1]) (by linarith [h.2]))
      exact ⟨by linarith, by linarith⟩
    · split
      · rename_i h'' h' h
        have a := sp (sin_nonneg_of_nonneg_of_le_pi (by linarith [h.1]) (by linarith [h.2]))
        have b := cn (cos_nonpos_of_pi_div_two_le_of_le (by linarith [h.1]) (by linarith [h.2]))
        exact ⟨by linarith, by linarith⟩
      · rename_i h0 h1' h2'
        have : θ + π < π / 4 * 1 ∨ π / 4 * 7 ≤ θ + π := by
          by_contra hcon
          push Not at hcon
          rcases lt_or_ge (θ + π) (π / 4 * 3) with q | q
          · exact h0 ⟨hcon.1, q⟩
          · rcases lt_or_ge (θ + π) (π / 4 * 5) with q' | q'
            · exact h1' ⟨q, q'⟩
            · exact h2' ⟨q', hcon.2⟩
        rcases this with h | h
        · have a := sn (sin_nonpos_of_nonpos_of_neg_pi_le (by linarith) (by linarith))
          have b := cn (by
            rw [← cos_neg]
            exact cos_nonpos_of_pi_div_two_le_of_le (by linarith) (by linarith))
          exact ⟨by linarith, by linarith⟩
        · have a := sn (by
            rw [← sin_sub_two_pi]
            exact sin_nonpos_of_nonpos_of_neg_pi_le (by linarith) (by linarith))
          have b := cn (cos_nonpos_of_pi_div_two_le_of_le (by linarith) (by linarith))
          exact ⟨by linarith, by linarith⟩

/-- A returned ray intersection is on both rays. -/
theorem ray_some {l m : Line ℝ} {p : Pt ℝ} (h : l.rayIntersection m = some p) :
    OnRay l.p1 l.p2 p ∧ OnRay m.p1 m.p2 p := by
  rcases lt_or_ge |dirCross l m| (1 / 10 ^ 10) with hd | hd
  · rw [C06_parallel l m hd] at h; simp at h
  · exact (C06_some_iff l m hd p).mp h

theorem ray_hit {l m : Line ℝ} (hd : 1 / 10 ^ 10 ≤ |dirCross l m|) {t u : ℝ} (ht : 0 ≤ t) (hu : 0 ≤ u)
    (e : l.p1 + t • (l.p2 - l.p1) = m.p1 + u • (m.p2 - m.p1)) : ∃ p, l.rayIntersection m = some p :=
  ⟨_, (C06_some_iff l m hd _).mpr ⟨⟨t, ht, rfl⟩, ⟨u, hu, e⟩⟩⟩

/-- Sector 0 and its mirror images: from `a` strictly inside, moving along `(-dx, -dy)` with
`dx ≤ dy`: hit the bottom, or else the left side. -/
theorem two_sides {W ax ay dx dy : ℝ} (hx2 : -(W - 1) ≤ ax) (hy1 : ay ≤ W - 1)
    (hy2 : -(W - 1) ≤ ay) (hdy : 1 / 10 ^ 10 ≤ dy) :
    (∃ t x, 0 ≤ t ∧ -W ≤ x ∧ x = ax - t * dx ∧ -W = ay - t * dy) ∨
    (∃ t y, 0 ≤ t ∧ y ≤ W ∧ -W = ax - t * dx ∧ y = ay - t * dy ∧ -W ≤ y ∧
      1 / 10 ^ 10 ≤ 2 * W * dx) := by
  have hdyp : 0 < dy := lt_of_lt_of_le (by positivity) hdy
  by_cases hh : -W ≤ ax - (W + ay) / dy * dx
  · left
    refine ⟨(W + ay) / dy, _, div_nonneg (by linarith) hdyp.le, hh, rfl, ?_⟩
    field_simp; ring
  · right
    push Not at hh
    have h1 : 1 < (W + ay) / dy * dx := by linarith
    have htp : 0 ≤ (W + ay) / dy := div_nonneg (by linarith) hdyp.le
    have hdx : 0 < dx := by
      by_contra hc
      have := mul_nonpos_of_nonneg_of_nonpos htp (not_lt.mp hc)
      linarith
    have htle : (W + ay) / dy ≤ 2 * W / dy := by gcongr; linarith
    have h2 : 1 < 2 * W / dy * dx := lt_of_lt_of_le h1 (by gcongr)
    have h3 : dy < 2 * W * dx := by
      rw [div_mul_eq_mul_div, one_lt_div hdyp] at h2; exact h2
    refine ⟨(W + ax) / dx, ay - (W + ax) / dx * dy, div_nonneg (by linarith) hdx.le, ?_, ?_, rfl, ?_, by linarith⟩
    · have : 0 ≤ (W + ax) / dx * dy := by have := div_nonneg (by linarith : 0 ≤ W + ax) hdx.le; positivity
      linarith
    · field_simp; ring
    · have h4 : (W + ax) / dx ≤ (W + ay) / dy := by
        rw [div_le_iff₀ hdx]; linarith
      have h5 : (W + ax) / dx * dy ≤ (W + ay) / dy * dy := by gcongr
      rw [div_mul_cancel₀ _ hdyp.ne'] at h5
      linarith

theorem bbW : (bbWidth : ℝ) = 10 ^ 6 := rfl

theorem border_exists (a d : Pt ℝ) (hx : |a.1| ≤ 10 ^ 6 - 1) (hy : |a.2| ≤ 10 ^ 6 - 1)
    (hd : (1 / 10 ^ 9) ^ 2 ≤ normSq d) (idx : Fin 4) (hs : SectorOk d idx) :
    ∃ p, (borderPoint ⟨a, a + d⟩ idx).1 = some p := by
  have hsuff : (∃ p, (⟨a, a + d⟩ : Line ℝ).rayIntersection (bbEdge idx) = some p) ∨
      (∃ p, (⟨a, a + d⟩ : Line ℝ).rayIntersection (bbEdge (idx + 1)) = some p) ∨
      (∃ p, (⟨a, a + d⟩ : Line ℝ).rayIntersection (bbEdge (idx + 1 + 2)) = some p) →
      ∃ p, (borderPoint ⟨a, a + d⟩ idx).1 = some p := by
    rintro (⟨p, h⟩ | ⟨p, h⟩ | ⟨p, h⟩)
    · exact ⟨p, by simp only [borderPoint, h]⟩
    · cases h0 : (⟨a, a + d⟩ : Line ℝ).rayIntersection (bbEdge idx) with
      | some q => exact ⟨q, by simp only [borderPoint, h0]⟩
      | none => exact ⟨p, by simp only [borderPoint, h0, h]⟩
    · cases h0 : (⟨a, a + d⟩ : Line ℝ).rayIntersection (bbEdge idx) with
      | some q => exact ⟨q, by simp only [borderPoint, h0]⟩
      | none =>
        cases h1 : (⟨a, a + d⟩ : Line ℝ).rayIntersection (bbEdge (idx + 1)) with
        | some q => exact ⟨q, by simp only [borderPoint, h0, h1]⟩
        | none => exact ⟨p, by simp only [borderPoint, h0, h1, h]⟩
  apply hsuff
  obtain ⟨hx1, hx2⟩ := abs_le.mp hx
  obtain ⟨hy1, hy2⟩ := abs_le.mp hy
  -- the dominant component is large enough
  have hbig : ∀ u v : ℝ, u ≤ v → -u ≤ v → (1 / 10 ^ 9) ^ 2 ≤ v ^ 2 + u ^ 2 → 1 / 10 ^ 10 ≤ v := by
    intro u v h1 h2 h3
    by_contra hc
    push Not at hc
    have hv : 0 ≤ v := by linarith
    have hu : u ^ 2 ≤ v ^ 2 := by nlinarith
    have : v ^ 2 < (1 / 10 ^ 10) ^ 2 := by gcongr
    norm_num at h3 this
    linarith
  have hnd : normSq d = d.1 ^ 2 + d.2 ^ 2 := rfl
  have hdc : ∀ i, dirCross ⟨a, a + d⟩ (bbEdge i) =
      -d.1 * ((bbEdge i : Line ℝ).p1.2 - (bbEdge i : Line ℝ).p2.2) + d.2 * ((bbEdge i : Line ℝ).p1.1 - (bbEdge i : Line ℝ).p2.1) := by
    intro i; rw [dirCross_eq]; simp
  have fin : ∀ i t u, 1 / 10 ^ 10 ≤ |dirCross (⟨a, a + d⟩ : Line ℝ) (bbEdge i)| → 0 ≤ t → 0 ≤ u →
      a.1 + t * d.1 = (bbEdge i : Line ℝ).p1.1 + u * ((bbEdge i : Line ℝ).p2.1 - (bbEdge i : Line ℝ).p1.1) →
      a.2 + t * d.2 = (bbEdge i : Line ℝ).p1.2 + u * ((bbEdge i : Line ℝ).p2.2 - (bbEdge i : Line ℝ).p1.2) →
      ∃ p, (⟨a, a + d⟩ : Line ℝ).rayIntersection (bbEdge i) = some p := by
    intro i t u h1 h2 h3 h4 h5
    refine ray_hit h1 h2 h3 ?_
    ext
    · simpa using h4
    · simpa using h5
  fin_cases idx
  · -- down
    obtain ⟨s1, s2⟩ := hs
    have hb := hbig d.1 (-d.2) s1 s2 (by rw [hnd] at hd; linarith)
    rcases two_sides (W := 10 ^ 6) (ax := a.1) (ay := a.2) (dx := -d.1) (dy := -d.2) (by linarith) hy2 (by linarith) hb with
      ⟨t, x, ht, hxw, e1, e2⟩ | ⟨t, y, ht, hyw, e1, e2, hyl, e3⟩
    · left
      refine fin 0 t ((x + 10 ^ 6) / (2 * 10 ^ 6)) ?_ ht (div_nonneg (by linarith) (by norm_num)) ?_ ?_
      · rw [hdc, le_abs]; left; simp only [bbEdge, bbW]; linarith
      · simp only [bbEdge, bbW]; field_simp; linarith
      · simp only [bbEdge, bbW]; linarith
    · right; right
      refine fin 3 t ((10 ^ 6 - y) / (2 * 10 ^ 6)) ?_ ht (div_nonneg (by linarith) (by norm_num)) ?_ ?_
      · rw [hdc, le_abs]; left; simp only [bbEdge, bbW]; linarith
      · simp only [bbEdge, bbW]; linarith
      · simp only [bbEdge, bbW]; field_simp; linarith
  · -- right
    obtain ⟨s1, s2⟩ := hs
    have hb := hbig d.2 d.1 s1 s2 (by rw [hnd] at hd; linarith)
    rcases two_sides (W := 10 ^ 6) (ax := a.2) (ay := -a.1) (dx := -d.2) (dy := d.1) (by linarith)
        (by linarith) (by linarith) hb with
      ⟨t, x, ht, hxw, e1, e2⟩ | ⟨t, y, ht, hyw, e1, e2, hyl, e3⟩
    · left
      refine fin 1 t ((x + 10 ^ 6) / (2 * 10 ^ 6)) ?_ ht (div_nonneg (by linarith) (by norm_num)) ?_ ?_
      · rw [hdc, le_abs]; left; simp only [bbEdge, bbW]; linarith
      · simp only [bbEdge, bbW]; linarith
      · simp only [bbEdge, bbW]; field_simp; linarith
    · right; right
      refine fin 0 t ((10 ^ 6 - y) / (2 * 10 ^ 6)) ?_ ht (div_nonneg (by linarith) (by norm_num)) ?_ ?_
      · rw [hdc, le_abs]; left; simp only [bbEdge, bbW]; linarith
      · simp only [bbEdge, bbW]; field_simp; linarith
      · simp only [bbEdge, bbW]; linarith
  · -- up
    obtain ⟨s1, s2⟩ := hs
    have hb := hbig d.1 d.2 s1 s2 (by rw [hnd] at hd; linarith)
    rcases two_sides (W := 10 ^ 6) (ax := a.1) (ay := -a.2) (dx := -d.1) (dy := d.2) (by linarith)
        (by linarith) (by linarith) hb with
      ⟨t, x, ht, hxw, e1, e2⟩ | ⟨t, y, ht, hyw, e1, e2, hyl, e3⟩
    · left
      refine fin 2 t ((x + 10 ^ 6) / (2 * 10 ^ 6)) ?_ ht (div_nonneg (by linarith) (by norm_num)) ?_ ?_
      · rw [hdc, le_abs]; right; simp only [bbEdge, bbW]; linarith
      · simp only [bbEdge, bbW]; field_simp; linarith
      · simp only [bbEdge, bbW]; linarith
    · right; left
      refine fin 3 t ((10 ^ 6 + y) / (2 * 10 ^ 6)) ?_ ht ?_ ?_ ?_
      · rw [hdc, le_abs]; left; simp only [bbEdge, bbW]; linarith
      · apply div_nonneg _ (by norm_num); linarith
      · simp only [bbEdge, bbW]; linarith
      · simp only [bbEdge, bbW]; field_simp; linarith
  · -- left
    obtain ⟨s1, s2⟩ := hs
    have hb := hbig d.2 (-d.1) s1 s2 (by rw [hnd] at hd; linarith)
    rcases two_sides (W := 10 ^ 6) (ax := -a.2) (ay := a.1) (dx := d.2) (dy := -d.1) (by linarith)
        (by linarith) (by linarith) hb with
      ⟨t, x, ht, hxw, e1, e2⟩ | ⟨t, y, ht, hyw, e1, e2, hyl, e3⟩
    · left
      refine fin 3 t ((x + 10 ^ 6) / (2 * 10 ^ 6)) ?_ ht (div_nonneg (by linarith) (by norm_num)) ?_ ?_
      · rw [hdc, le_abs]; left; simp only [bbEdge, bbW]; linarith
      · simp only [bbEdge, bbW]; linarith
      · simp only [bbEdge, bbW]; field_simp; linarith
    · right; right
      refine fin 2 t ((10 ^ 6 + y) / (2 * 10 ^ 6)) ?_ ht ?_ ?_ ?_
      · rw [hdc, le_abs]; right; simp only [bbEdge, bbW]; linarith
      · apply div_nonneg _ (by norm_num); linarith
      · simp only [bbEdge, bbW]; field_simp; linarith
      · simp only [bbEdge, bbW]; linarith

/-- The corner walk visits `c, c+1, …, stop-1`. -/
theorem cornerWalk_spec {K : Type*} [Field K] (stop c : Fin 4) :
    ∃ m : Nat, 1 ≤ m ∧ m ≤ 4 ∧ c + (Fin.ofNat 4 m) = stop ∧ ∀ fuel, 4 ≤ fuel →
      (cornerWalk stop fuel c : Option (List (Pt K))) =
        some ((List.range m).map fun i => bbCorner (c + Fin.ofNat 4 i)) := by
  have key : ∀ stop c : Fin 4, ∃ m : Fin 4, c + (Fin.ofNat 4 (m.1 + 1)) = stop ∧
      ∀ k : Fin 4, k < m → c + Fin.ofNat 4 (k.1 + 1) ≠ stop := by decide
  obtain ⟨m, hm, hk⟩ := key stop c
  refine ⟨m.1 + 1, by omega, by omega, hm, ?_⟩
  have gen : ∀ (m fuel : Nat) (c : Fin 4), m + 1 ≤ fuel → c + Fin.ofNat 4 (m + 1) = stop →
      (∀ k, k < m → c + Fin.ofNat 4 (k + 1) ≠ stop) →
      (cornerWalk stop fuel c : Option (List (Pt K))) =
        some ((List.range (m + 1)).map fun i => bbCorner (c + Fin.ofNat 4 i)) := by
    intro m
    induction m with
    | zero =>
      intro fuel c hf h _
      obtain ⟨f, rfl⟩ : ∃ f, fuel = f + 1 := ⟨fuel - 1, by omega⟩
      rw [cornerWalk, if_pos (show c + 1 = stop from h)]
      simp
    | succ m ih =>
      intro fuel c hf h hne
      obtain ⟨f, rfl⟩ : ∃ f, fuel = f + 1 := ⟨fuel - 1, by omega⟩
      have h0 := hne 0 (by omega)
      rw [cornerWalk, if_neg (show ¬ c + 1 = stop from h0)]
      have e : ∀ k : Nat, (c + 1) + Fin.ofNat 4 k = c + Fin.ofNat 4 (k + 1) := by
        intro k
        ext
        simp only [Fin.val_add, Fin.val_ofNat, Fin.val_one]
        omega
      rw [ih f (c + 1) (by omega) (by rw [e]; exact h)
        (fun k hk => by rw [e]; exact hne (k + 1) (by omega))]
      simp only [Option.map_some]
      rw [List.range_succ_eq_map (n := m + 1)]
      simp only [List.map_cons, List.map_map]
      congr 2
      · simp
      · apply List.map_congr_left
        intro i _
        simp only [Function.comp, e]
  intro fuel hf
  exact gen m.1 fuel c (by omega) hm (fun k hk' => hk ⟨k, by omega⟩ (by exact hk'))

/-- A border point, when found, is on the ray and on the box edge with the returned index. -/
theorem border_sound {l : Line ℝ} {idx : Fin 4} {p : Pt ℝ} (h : (borderPoint l idx).1 = some p) :
    OnRay l.p1 l.p2 p ∧
      OnRay (bbEdge (K := ℝ) (borderPoint l idx).2).p1 (bbEdge (K := ℝ) (borderPoint l idx).2).p2 p := by
  unfold borderPoint at h ⊢
  cases h0 : l.rayIntersection (bbEdge idx) with
  | some q =>
    simp only [h0, Option.some.injEq] at h ⊢
    rw [← h]; exact ray_some h0
  | none =>
    simp only [h0] at h ⊢
    cases h1 : l.rayIntersection (bbEdge (idx + 1)) with
    | some q =>
      simp only [h1, Option.some.injEq] at h ⊢
      rw [← h]; exact ray_some h1
    | none =>
      simp only [h1] at h ⊢
      exact ray_some h

end Starworlds
