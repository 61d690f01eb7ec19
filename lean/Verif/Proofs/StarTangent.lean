import Verif.Model.StarTangent
import Verif.Props.PolygonVisible
import Verif.Props.StarPolygonHit
import Mathlib.Data.List.Rotate

/-! # Lemmas for C108: tangent points and the order of the vertices -/

namespace Starworlds

open Real Spec

/-- A sequence that is below `θ` at `a` and above at `b` passes `θ` in between. -/
theorem passes_between (f : ℕ → ℝ) (θ : ℝ) : ∀ (k a : ℕ), (f a ≤ θ ∧ θ ≤ f (a + k)) ∨ (f (a + k) ≤ θ ∧ θ ≤ f a) →
    f a = θ ∨ ∃ i, a ≤ i ∧ i < a + k ∧ ((f i ≤ θ ∧ θ ≤ f (i + 1)) ∨ (f (i + 1) ≤ θ ∧ θ ≤ f i))
  | 0, a, h => by
    left
    rcases h with ⟨h1, h2⟩ | ⟨h1, h2⟩ <;> exact le_antisymm (by assumption) (by assumption)
  | k + 1, a, h => by
    by_cases h1 : (f a ≤ θ ∧ θ ≤ f (a + 1)) ∨ (f (a + 1) ≤ θ ∧ θ ≤ f a)
    · exact Or.inr ⟨a, le_rfl, by omega, h1⟩
    · push Not at h1
      have e : a + (k + 1) = a + 1 + k := by omega
      rw [e] at h
      have h2 : (f (a + 1) ≤ θ ∧ θ ≤ f (a + 1 + k)) ∨ (f (a + 1 + k) ≤ θ ∧ θ ≤ f (a + 1)) := by
        rcases h with ⟨ha, hb⟩ | ⟨hb, ha⟩
        · exact Or.inl ⟨(h1.1 ha).le, hb⟩
        · right
          refine ⟨hb, ?_⟩
          by_contra h
          push Not at h
          exact absurd (h1.2 h.le) (by push Not; exact ha)
      rcases passes_between f θ k (a + 1) h2 with h3 | ⟨i, hi1, hi2, hi3⟩
      · refine Or.inr ⟨a, le_rfl, by omega, ?_⟩
        rcases le_total (f a) θ with h4 | h4
        · exact Or.inl ⟨h4, h3.ge⟩
        · exact Or.inr ⟨h3.le, h4⟩
      · exact Or.inr ⟨i, by omega, by omega, hi3⟩

/-- The window of `polyTangents_window`, with the fact that every direction in it meets the ring. -/
theorem tangents_swept (v : List (Pt ℝ)) (hv : v ≠ []) (x t s : Pt ℝ) (hx : ¬ OnRing v x) (h : polyTangents v x = [t, s]) :
    t ∈ v ∧ s ∈ v ∧ ∃ α β : ℝ, SeenAt x t β ∧ SeenAt x s α ∧ α ≤ β ∧ β < α + 2 * π ∧
      (∀ q, OnRing v q → ∃ θ, α ≤ θ ∧ θ ≤ β ∧ SeenAt x q θ) ∧ ∀ θ, α ≤ θ → θ ≤ β → ∃ q, OnRing v q ∧ SeenAt x q θ := by
  obtain ⟨ht, hs, α, hα, β, hβ, h1, h2, h3, h4, h5⟩ := polyTangents_window v hv x t s h
  refine ⟨ht, hs, α, β, h1, h2, h3, h4, h5, ?_⟩
  have hchain := unwrap_chain x (ringOf v)
  set phi := unwrapAngles ((ringOf v).map (rawAngle x)) with hphi
  have hlen := hchain.length_eq
  rw [ringOf_length v hv] at hlen
  have hpos : 0 < v.length := List.length_pos_iff.2 hv
  have hring : ∀ i, OnRing v (corner v i) := by
    intro i
    have : corner v i = corner v (i % v.length) := by simp [corner]
    rw [this]
    exact corner_onRing (Nat.mod_lt _ hpos)
  have hne : ∀ i, corner v i ≠ x := fun i h => hx (h ▸ hring i)
  have hseen : ∀ i, i < v.length + 1 → SeenAt x (corner v i) (phi.getD i 0) := by
    intro i hi
    have := hchain.seen i (by rw [ringOf_length v hv]; omega)
    rwa [ringOf_getD v hv (by omega)] at this
  obtain ⟨a, ha, ea⟩ := List.mem_iff_getElem.1 hα
  obtain ⟨b, hb, eb⟩ := List.mem_iff_getElem.1 hβ
  intro θ hθ1 hθ2
  have ea' : phi.getD a 0 = α := by rw [List.getD_eq_getElem _ _ ha, ea]
  have eb' : phi.getD b 0 = β := by rw [List.getD_eq_getElem _ _ hb, eb]
  have key : (∃ i, i < v.length + 1 ∧ phi.getD i 0 = θ) ∨ ∃ i, i < v.length ∧
      ((phi.getD i 0 ≤ θ ∧ θ ≤ phi.getD (i + 1) 0) ∨ (phi.getD (i + 1) 0 ≤ θ ∧ θ ≤ phi.getD i 0)) := by
    rcases Nat.le_total a b with hab | hab
    · obtain ⟨k, rfl⟩ := Nat.exists_eq_add_of_le hab
      rcases passes_between (fun i => phi.getD i 0) θ k a (Or.inl ⟨by rw [ea']; exact hθ1, by rw [eb']; exact hθ2⟩) with h | ⟨i, _, hi, h⟩
      · exact Or.inl ⟨a, by omega, h⟩
      · exact Or.inr ⟨i, by omega, h⟩
    · obtain ⟨k, rfl⟩ := Nat.exists_eq_add_of_le hab
      rcases passes_between (fun i => phi.getD i 0) θ k b (Or.inr ⟨by rw [ea']; exact hθ1, by rw [eb']; exact hθ2⟩) with h | ⟨i, _, hi, h⟩
      · exact Or.inl ⟨b, by omega, h⟩
      · exact Or.inr ⟨i, by omega, h⟩
  rcases key with ⟨i, hi, e⟩ | ⟨i, hi, h⟩
  · exact ⟨_, hring i, e ▸ hseen i hi⟩
  · have hst := abs_le.1 (hchain.step i (by rw [ringOf_length v hv]; omega))
    rcases h with ⟨ha, hb⟩ | ⟨hb, ha⟩
    · obtain ⟨q, hq, hq'⟩ := edge_sweeps (hseen i (by omega)) (hseen (i + 1) (by omega)) (hne _) (hne _) ha hb (by linarith)
      exact ⟨q, ⟨i, hi, hq⟩, hq'⟩
    · obtain ⟨q, hq, hq'⟩ := edge_sweeps (hseen (i + 1) (by omega)) (hseen i (by omega)) (hne _) (hne _) hb ha (by linarith)
      exact ⟨q, ⟨i, hi, onSegment_symm.1 hq⟩, hq'⟩

/-- Two angles of a point other than `x` differ by full turns. -/
theorem seen_twice {x p : Pt ℝ} {a b : ℝ} (hp : p ≠ x) (ha : SeenAt x p a) (hb : SeenAt x p b) : ∃ k : ℤ, a = b + k * (2 * π) := by
  obtain ⟨r, hr, e⟩ := seenAt_pos ha hp
  obtain ⟨r', hr', e'⟩ := seenAt_pos hb hp
  obtain ⟨_, k, hk⟩ := polar_inj hr hr' (e.symm.trans e')
  exact ⟨k, hk⟩

/-- Windows of the same set of directions have the same upper end, up to full turns. -/
theorem upper_end {D : ℝ → Prop} (hD : ∀ θ (k : ℤ), D θ → D (θ + k * (2 * π))) {α β α' β' : ℝ} (h1 : β < α + 2 * π) (hb : D β)
    (hin : ∀ θ, D θ → ∃ k : ℤ, α ≤ θ + k * (2 * π) ∧ θ + k * (2 * π) ≤ β)
    (hin' : ∀ θ, D θ → ∃ k : ℤ, α' ≤ θ + k * (2 * π) ∧ θ + k * (2 * π) ≤ β') (hall' : ∀ θ, α' ≤ θ → θ ≤ β' → D θ) :
    ∃ k : ℤ, β' = β + k * (2 * π) := by
  have hpi := pi_pos
  obtain ⟨k, hk1, hk2⟩ := hin' β hb
  refine ⟨k, ?_⟩
  by_contra hne
  have hlt : β + k * (2 * π) < β' := lt_of_le_of_ne hk2 (Ne.symm hne)
  -- a direction slightly beyond `β`
  obtain ⟨ε, hε, hε1, hε2⟩ : ∃ ε > 0, β + k * (2 * π) + ε ≤ β' ∧ β + ε < α + 2 * π := by
    refine ⟨min (β' - (β + k * (2 * π))) ((α + 2 * π - β) / 2), lt_min (by linarith) (by linarith), ?_, ?_⟩
    · linarith [min_le_left (β' - (β + k * (2 * π))) ((α + 2 * π - β) / 2)]
    · linarith [min_le_right (β' - (β + k * (2 * π))) ((α + 2 * π - β) / 2)]
  have hd := hD _ (-k) (hall' (β + k * (2 * π) + ε) (by linarith) hε1)
  rw [show β + k * (2 * π) + ε + ((-k : ℤ) : ℝ) * (2 * π) = β + ε by push_cast; ring] at hd
  obtain ⟨m, hm1, hm2⟩ := hin _ hd
  obtain ⟨j, hj1, hj2⟩ := hin _ hb
  have hm : m < 0 := by
    by_contra h
    push Not at h
    have : (0 : ℝ) ≤ m := by exact_mod_cast h
    nlinarith
  have hm' : (m : ℝ) ≤ -1 := by exact_mod_cast (by omega : m ≤ -1)
  nlinarith

/-- Windows of the same set of directions have the same lower end, up to full turns. -/
theorem lower_end {D : ℝ → Prop} (hD : ∀ θ (k : ℤ), D θ → D (θ + k * (2 * π))) {α β α' β' : ℝ} (h1 : β < α + 2 * π) (ha : D α)
    (hin : ∀ θ, D θ → ∃ k : ℤ, α ≤ θ + k * (2 * π) ∧ θ + k * (2 * π) ≤ β)
    (hin' : ∀ θ, D θ → ∃ k : ℤ, α' ≤ θ + k * (2 * π) ∧ θ + k * (2 * π) ≤ β') (hall' : ∀ θ, α' ≤ θ → θ ≤ β' → D θ) :
    ∃ k : ℤ, α' = α + k * (2 * π) := by
  have hneg : ∀ (θ : ℝ) (k : ℤ), -(θ + k * (2 * π)) = -θ + ((-k : ℤ) : ℝ) * (2 * π) := fun θ k => by push_cast; ring
  have flip : ∀ {a b : ℝ}, (∀ θ, D θ → ∃ k : ℤ, a ≤ θ + k * (2 * π) ∧ θ + k * (2 * π) ≤ b) →
      ∀ θ, D (-θ) → ∃ k : ℤ, -b ≤ θ + k * (2 * π) ∧ θ + k * (2 * π) ≤ -a := by
    intro a b h θ hθ
    obtain ⟨k, h1, h2⟩ := h _ hθ
    exact ⟨-k, by push_cast; linarith, by push_cast; linarith⟩
  obtain ⟨k, hk⟩ := upper_end (D := fun θ => D (-θ)) (α := -β) (β := -α) (α' := -β') (β' := -α')
    (fun θ k h => by
      have := hD _ (-k) h
      rwa [← hneg] at this)
    (by linarith) (by simpa using ha) (flip hin) (flip hin') (fun θ h1 h2 => hall' _ (by linarith) (by linarith))
  exact ⟨-k, by push_cast; linarith⟩

/-- The two points of two runs on vertex lists with the same boundary are seen under the same angles. -/
theorem tangents_same {v w : List (Pt ℝ)} (hv : v ≠ []) (hw : w ≠ []) (hvw : ∀ q, OnRing v q ↔ OnRing w q) {x t s t' s' : Pt ℝ}
    (hx : ¬ OnRing v x) (h : polyTangents v x = [t, s]) (h' : polyTangents w x = [t', s']) :
    (∃ θ, SeenAt x t θ ∧ SeenAt x t' θ) ∧ ∃ θ, SeenAt x s θ ∧ SeenAt x s' θ := by
  obtain ⟨ht, hs, α, β, h1, h2, h3, h4, h5, h6⟩ := tangents_swept v hv x t s hx h
  obtain ⟨ht', hs', α', β', h1', h2', h3', h4', h5', h6'⟩ := tangents_swept w hw x t' s' (by rwa [← hvw]) h'
  set D : ℝ → Prop := fun θ => ∃ q, OnRing v q ∧ SeenAt x q θ with hDdef
  have hD : ∀ θ (k : ℤ), D θ → D (θ + k * (2 * π)) := fun θ k ⟨q, hq, hs⟩ => ⟨q, hq, seenAt_add_two_pi hs k⟩
  have hne : ∀ q, OnRing v q → q ≠ x := fun q hq h => hx (h ▸ hq)
  have hin : ∀ θ, D θ → ∃ k : ℤ, α ≤ θ + k * (2 * π) ∧ θ + k * (2 * π) ≤ β := by
    rintro θ ⟨q, hq, hs⟩
    obtain ⟨θ', e1, e2, e3⟩ := h5 q hq
    obtain ⟨k, rfl⟩ := seen_twice (hne q hq) e3 hs
    exact ⟨k, e1, e2⟩
  have hin' : ∀ θ, D θ → ∃ k : ℤ, α' ≤ θ + k * (2 * π) ∧ θ + k * (2 * π) ≤ β' := by
    rintro θ ⟨q, hq, hs⟩
    obtain ⟨θ', e1, e2, e3⟩ := h5' q ((hvw q).1 hq)
    obtain ⟨k, rfl⟩ := seen_twice (hne q hq) e3 hs
    exact ⟨k, e1, e2⟩
  have hall' : ∀ θ, α' ≤ θ → θ ≤ β' → D θ := fun θ e1 e2 => by
    obtain ⟨q, hq, hs⟩ := h6' θ e1 e2
    exact ⟨q, (hvw q).2 hq, hs⟩
  obtain ⟨k, hk⟩ := upper_end hD h4 (h6 β h3 le_rfl) hin hin' hall'
  obtain ⟨m, hm⟩ := lower_end hD h4 (h6 α le_rfl h3) hin hin' hall'
  exact ⟨⟨β', hk ▸ seenAt_add_two_pi h1 k, h1'⟩, ⟨α', hm ▸ seenAt_add_two_pi h2 m, h2'⟩⟩

/-- The corners of a star-shaped ring are different. -/
theorem star_nodup {c : Pt ℝ} {v : List (Pt ℝ)} (h : StarAbout c v) : v.Nodup := by
  obtain ⟨φ, ρ, h1, h2, h3, hpos⟩ := starAbout_polar h
  have hmono := mono_angles h2
  rw [List.nodup_iff_getElem?_ne_getElem?]
  intro i j hij hj e
  rw [List.getElem?_eq_getElem hj, List.getElem?_eq_getElem (by omega), Option.some_inj] at e
  have c1 : corner v i = v[i]'(by omega) := by rw [corner, Nat.mod_eq_of_lt (by omega), List.getD_eq_getElem _ _ (by omega)]
  have c2 : corner v j = v[j] := by rw [corner, Nat.mod_eq_of_lt hj, List.getD_eq_getElem _ _ hj]
  have e' : polar c (ρ i) (φ i) = polar c (ρ j) (φ j) := by
    rw [← (h1 i (by omega)).2, ← (h1 j hj.le).2, c1, c2, e]
  obtain ⟨_, k, hk⟩ := polar_inj (h1 i (by omega)).1 (h1 j hj.le).1 e'
  have b1 := hmono j hj.le i hij
  have b2 := hmono v.length le_rfl j hj
  have b3 : φ 0 ≤ φ i := by
    rcases Nat.eq_zero_or_pos i with rfl | h0
    · exact le_rfl
    · exact (hmono i (by omega) 0 h0).le
  have hk0 : k = 0 := turn_zero (by linarith [pi_pos]) (by linarith)
  rw [hk0] at hk
  simp at hk
  linarith

/-- In the sorted array the corner after a corner is the one after it in the ring. -/
theorem next_corner {ring : List (Pt ℝ)} (hr : ring ≠ []) {s : StarPoly} (hS : Sorted ring s) (hstar : StarAbout s.xr ring)
    {i j : ℕ} (hi : i < ring.length) (hj : j < ring.length) (ej : corner s.vertices i = corner ring j) :
    corner s.vertices (i + 1) = corner ring (j + 1) := by
  have hl : s.vertices.length = ring.length := hS.perm.length_eq
  obtain ⟨_, hlen, hsort, hseen, hlast, hlarge⟩ := sorted_facts hr hS
  obtain ⟨φ, ρ, h1, h2, h3, hpos⟩ := starAbout_polar hstar
  have hcorner : ∀ p ∈ s.vertices, ∃ m < ring.length, p = corner ring m := by
    intro p hp
    obtain ⟨m, hm, e⟩ := List.mem_iff_getElem.1 (hS.perm.mem_iff.1 hp)
    exact ⟨m, hm, by rw [corner, Nat.mod_eq_of_lt hm, List.getD_eq_getElem _ _ hm, e]⟩
  have hvert : ∀ m, corner ring m ∈ s.vertices := fun m => hS.perm.mem_iff.2 (corner_mem hr m)
  have hvne : s.vertices ≠ [] := by
    intro h0; rw [h0] at hl; simp at hl; omega
  have hne : ∀ m, m ≤ ring.length → corner ring m ≠ s.xr := by
    intro m hm
    rw [(h1 m hm).2]; exact polar_ne (h1 m hm).1.ne'
  have hring : ∀ m, OnRing ring (corner ring m) := by
    intro m
    refine ⟨m % ring.length, Nat.mod_lt _ hpos, 0, le_rfl, zero_le_one, ?_⟩
    simp [corner]
  set A := s.vertexAngles.getD i 0 with hA
  set B := s.vertexAngles.getD (i + 1) 0 with hB
  have ea : corner s.vertices i = s.vertices.getD i 0 := by rw [corner, hl, Nat.mod_eq_of_lt hi]
  have hsa : SeenAt s.xr (corner s.vertices i) A := by rw [ea]; exact (hseen i hi).1
  have hsb : SeenAt s.xr (corner s.vertices (i + 1)) B := by
    rcases Nat.lt_or_ge (i + 1) ring.length with h | h
    · have e : corner s.vertices (i + 1) = s.vertices.getD (i + 1) 0 := by rw [corner, hl, Nat.mod_eq_of_lt h]
      rw [e]; exact (hseen (i + 1) h).1
    · have e1 : i + 1 = ring.length := by omega
      have e : corner s.vertices (i + 1) = s.vertices.getD 0 0 := by rw [corner, hl, e1, Nat.mod_self]
      rw [e, hB, e1, hlast]
      have := seenAt_add_two_pi (hseen 0 hpos).1 1
      simpa using this
  obtain ⟨m, hm, em⟩ := hcorner _ (corner_mem hvne (i + 1))
  obtain ⟨ra, hra, ea'⟩ := seenAt_pos hsa (by rw [ej]; exact hne j hj.le)
  obtain ⟨rb, hrb, eb'⟩ := seenAt_pos hsb (by rw [em]; exact hne m hm.le)
  -- the angles differ
  have hAB : A < B := by
    rcases Nat.lt_or_ge (i + 1) ring.length with h | h
    · have hle : A ≤ B := by
        rw [hA, hB, List.getD_eq_getElem _ _ (by omega), List.getD_eq_getElem _ _ (by omega)]
        exact List.pairwise_iff_getElem.1 hsort i (i + 1) (by omega) (by omega) (by omega)
      refine lt_of_le_of_ne hle fun hEq => ?_
      rw [← hEq] at eb'
      have hrr := star_unique hstar (θ := A) hra.le hrb.le (by rw [← ea', ej]; exact hring j) (by rw [← eb', em]; exact hring m)
      have hnd : s.vertices.Nodup := hS.perm.nodup_iff.2 (star_nodup hstar)
      have e2 : s.vertices[i]'(by omega) = s.vertices[i + 1]'(by omega) := by
        have := ea'.trans (by rw [hrr, ← eb'] : polar s.xr ra A = corner s.vertices (i + 1))
        rwa [corner, corner, hl, Nat.mod_eq_of_lt hi, Nat.mod_eq_of_lt h, List.getD_eq_getElem _ _ (by omega),
          List.getD_eq_getElem _ _ (by omega)] at this
      have := (List.Nodup.getElem_inj_iff hnd).1 e2
      omega
    · have e1 : i + 1 = ring.length := by omega
      rw [hB, e1]
      exact hlarge A (hseen i hi).2.2
  have eja := (h1 j hj.le).2
  rw [← ej, ea'] at eja
  obtain ⟨hraj, k, hk⟩ := polar_inj hra (h1 j hj.le).1 eja
  have hg1 : φ (j + 1) ≤ φ j + (B - A) := by
    refine ring_gap h1 h2 h3 hj hm hrb (by linarith) ?_
    rw [← em, eb', ← polar_shift _ _ (φ j + (B - A)) k]
    congr 1; linarith
  have hg2 : B ≤ A + (φ (j + 1) - φ j) := by
    refine array_gap hr hS hi (hvert (j + 1)) (h1 (j + 1) hj).1 (by linarith [(h2 j hj).1]) ?_
    rw [(h1 (j + 1) hj).2, ← hA, ← polar_shift _ _ (φ (j + 1)) k]
    congr 1; linarith
  have eb2 : corner s.vertices (i + 1) = polar s.xr rb (φ (j + 1)) := by
    rw [eb', ← polar_shift _ _ (φ (j + 1)) k]
    congr 1; linarith
  have e := star_unique hstar (θ := φ (j + 1)) hrb.le (h1 (j + 1) hj).1.le
    (by rw [← eb2, em]; exact hring m) (by rw [← (h1 (j + 1) hj).2]; exact hring _)
  rw [eb2, e, ← (h1 (j + 1) hj).2]

/-- The sorted array is a rotation of the ring. -/
theorem sorted_rotate {ring : List (Pt ℝ)} (hr : ring ≠ []) {s : StarPoly} (hS : Sorted ring s) (hstar : StarAbout s.xr ring) :
    ∃ k, s.vertices = ring.rotate k := by
  have hl : s.vertices.length = ring.length := hS.perm.length_eq
  have hpos : 0 < ring.length := List.length_pos_iff.2 hr
  have hvne : s.vertices ≠ [] := by
    intro h0; rw [h0] at hl; simp at hl; omega
  obtain ⟨k, hk, ek⟩ := List.mem_iff_getElem.1 (hS.perm.mem_iff.1 (corner_mem hvne 0))
  have e0 : corner s.vertices 0 = corner ring k := by
    rw [← ek, corner, Nat.mod_eq_of_lt hk, List.getD_eq_getElem _ _ hk]
  have hmod : ∀ j, corner ring (j % ring.length + 1) = corner ring (j + 1) := fun j => by simp [corner]
  have hmod0 : ∀ j, corner ring (j % ring.length) = corner ring j := fun j => by simp [corner]
  have hall : ∀ i ≤ ring.length, corner s.vertices i = corner ring (i + k) := by
    intro i
    induction i with
    | zero => intro _; rw [e0, zero_add]
    | succ i ih =>
      intro hi
      have := next_corner hr hS hstar (i := i) (j := (i + k) % ring.length) (by omega) (Nat.mod_lt _ hpos) (by rw [ih (by omega), hmod0])
      rw [this, hmod]
      congr 1; omega
  refine ⟨k, List.ext_getElem (by simp [hl]) fun i h1 h2 => ?_⟩
  have := hall i (by omega)
  rw [corner, Nat.mod_eq_of_lt h1, List.getD_eq_getElem _ _ h1, corner, List.getD_eq_getElem _ _ (Nat.mod_lt _ hpos)] at this
  rw [this, List.getElem_rotate]

/-- A rotation has the same corners, in the same cyclic order. -/
theorem corner_rotate (v : List (Pt ℝ)) (k i : ℕ) : corner (v.rotate k) i = corner v (i + k) := by
  rcases v.eq_nil_or_concat with rfl | ⟨l, a, e⟩
  · simp [corner]
  · have hpos : 0 < v.length := by rw [e]; simp
    rw [corner, corner, List.length_rotate, List.getD_eq_getElem _ _ (by rw [List.length_rotate]; exact Nat.mod_lt _ hpos),
      List.getD_eq_getElem _ _ (Nat.mod_lt _ hpos), List.getElem_rotate]
    simp

/-- A rotation has the same boundary. -/
theorem onRing_rotate (v : List (Pt ℝ)) (k : ℕ) (q : Pt ℝ) : OnRing (v.rotate k) q ↔ OnRing v q := by
  have step : ∀ (w : List (Pt ℝ)) (k : ℕ) (q : Pt ℝ), OnRing (w.rotate k) q → OnRing w q := by
    rintro w k q ⟨i, hi, h⟩
    rw [List.length_rotate] at hi
    rw [corner_rotate, corner_rotate] at h
    refine ⟨(i + k) % w.length, Nat.mod_lt _ (by omega), ?_⟩
    have e1 : corner w ((i + k) % w.length) = corner w (i + k) := by simp [corner]
    have e2 : corner w ((i + k) % w.length + 1) = corner w (i + 1 + k) := by
      rw [show i + 1 + k = i + k + 1 by omega]; simp [corner]
    rw [e1, e2]; exact h
  refine ⟨step v k q, fun h => ?_⟩
  rcases Nat.eq_zero_or_pos v.length with h0 | h0
  · obtain ⟨i, hi, _⟩ := h; omega
  · apply step (v.rotate k) (v.length - k % v.length) q
    rw [List.rotate_rotate, ← List.rotate_mod]
    have : (k + (v.length - k % v.length)) % v.length = 0 := by
      have h1 := Nat.mod_lt k h0
      have h2 := Nat.div_add_mod k v.length
      have : k + (v.length - k % v.length) = v.length * (k / v.length + 1) := by
        rw [Nat.mul_add]; omega
      rw [this, Nat.mul_mod_right]
    rwa [this, List.rotate_zero]

end Starworlds
