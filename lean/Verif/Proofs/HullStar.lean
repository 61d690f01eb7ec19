import Verif.Spec.HullMeaning
import Verif.Props.PolygonHull
import Verif.Proofs.StarKernel
import Verif.Proofs.StarTangent
import Verif.Proofs.Angles

/-! # Lemmas for C109: the star-shaped hull of a star-shaped polygon -/

namespace Starworlds

open Real Spec

theorem node_on_path {l : List (Pt ℝ)} (h : ∃ p ∈ l, ∃ q ∈ l, p ≠ q) {p : Pt ℝ} (hp : p ∈ l) : p ∈ pathPoints l := by
  have hl : 2 ≤ l.length := by
    obtain ⟨p, hp, q, hq, hne⟩ := h
    rcases l with _ | ⟨a, _ | ⟨b, l⟩⟩
    · cases hp
    · rw [List.mem_singleton] at hp hq; exact absurd (hp.trans hq.symm) hne
    · simp
  obtain ⟨i, hi, rfl⟩ := List.mem_iff_getElem.1 hp
  by_cases h1 : i + 1 < l.length
  · exact ⟨i, h1, 0, le_rfl, zero_le_one, by rw [List.getD_eq_getElem _ _ hi]; simp⟩
  · have e : i - 1 + 1 = i := by omega
    exact ⟨i - 1, by omega, 1, zero_le_one, le_rfl, by rw [e, List.getD_eq_getElem _ _ hi]; simp⟩

/-- The nodes of a geometry are points of it. -/
theorem meetIs_nodes {m : Meet} {S : Set (Pt ℝ)} (h : MeetIs m S) {p : Pt ℝ} (hp : p ∈ nodesOf m) : p ∈ S := by
  cases m with
  | empty => cases hp
  | point q => rw [nodesOf, List.mem_singleton] at hp; rw [show S = {q} from h, hp]; rfl
  | multiPoint l => rw [h.1]; exact hp
  | lineString l => rw [h.1]; exact node_on_path h.2 hp
  | multiLineString ls =>
    obtain ⟨l, hl, hp⟩ := List.mem_flatten.1 hp
    rw [h.1]; exact ⟨l, hl, node_on_path (h.2.2 l hl) hp⟩
  | collection ps ls =>
    rw [h.1]
    rcases List.mem_append.1 hp with hp | hp
    · exact Or.inl hp
    · obtain ⟨l, hl, hp⟩ := List.mem_flatten.1 hp
      exact Or.inr ⟨l, hl, node_on_path (h.2.2 l hl) hp⟩

/-- Only the empty geometry has no points. -/
theorem meetIs_empty {m : Meet} {S : Set (Pt ℝ)} (h : MeetIs m S) : m.isEmpty = true ↔ S = ∅ := by
  have key : (∃ p, p ∈ nodesOf m) → S ≠ ∅ := by
    rintro ⟨p, hp⟩ e
    have := meetIs_nodes h hp
    rw [e] at this; exact this
  have some : ∀ {α : Type} {l : List α}, l ≠ [] → ∃ p, p ∈ l := fun h => List.exists_mem_of_ne_nil _ h
  cases m with
  | empty => exact ⟨fun _ => h, fun _ => rfl⟩
  | point q => simp only [Meet.isEmpty, Bool.false_eq_true, false_iff]; exact key ⟨q, by simp [nodesOf]⟩
  | multiPoint l => simp only [Meet.isEmpty, Bool.false_eq_true, false_iff]; exact key (some h.2)
  | lineString l =>
    simp only [Meet.isEmpty, Bool.false_eq_true, false_iff]
    obtain ⟨p, hp, _⟩ := h.2
    exact key ⟨p, hp⟩
  | multiLineString ls =>
    simp only [Meet.isEmpty, Bool.false_eq_true, false_iff]
    obtain ⟨l, hl⟩ := some h.2.1
    obtain ⟨p, hp, _⟩ := h.2.2 l hl
    exact key ⟨p, List.mem_flatten.2 ⟨l, hl, hp⟩⟩
  | collection ps ls =>
    simp only [Meet.isEmpty, Bool.false_eq_true, false_iff]
    rcases h.2.1 with hn | hn
    · obtain ⟨p, hp⟩ := some hn
      exact key ⟨p, List.mem_append_left _ hp⟩
    · obtain ⟨l, hl⟩ := some hn
      obtain ⟨p, hp, _⟩ := h.2.2 l hl
      exact key ⟨p, List.mem_append_right _ (List.mem_flatten.2 ⟨l, hl, hp⟩)⟩

theorem hullMeaning_ok {ops : HullOps} {S : Set (Pt ℝ)} {ks : List (Pt ℝ)} (h : HullMeaning ops S ks) : HullOpsOk ops :=
  ⟨fun a b _ hp => (meetIs_nodes (h.polygon a b) hp).1, fun s t _ hp => meetIs_nodes (h.line s t) hp⟩

/-- Rotating the list of corners. -/
theorem starAbout_rotate {c : Pt ℝ} {v : List (Pt ℝ)} (h : StarAbout c v) (n : ℕ) : StarAbout c (v.rotate n) := by
  obtain ⟨φ, h1, h2, h3⟩ := h
  have hpos : 0 < v.length := by
    rcases Nat.eq_zero_or_pos v.length with h | h
    · rw [h] at h3; linarith [pi_pos]
    · exact h
  have seen : ∀ (q : Pt ℝ) (θ : ℝ) (m : ℕ), SeenAt c q θ → SeenAt c q (θ + m * (2 * π)) := by
    rintro q θ m ⟨r, hr, e⟩
    refine ⟨r, hr, ?_⟩
    rw [e]
    simp [cos_add_nat_mul_two_pi, sin_add_nat_mul_two_pi]
  refine ⟨fun i => φ ((i + n) % v.length) + ((i + n) / v.length : ℕ) * (2 * π), ?_, ?_, ?_⟩
  · intro i _
    have hm := Nat.mod_lt (i + n) hpos
    have e : corner (v.rotate n) i = corner v ((i + n) % v.length) := by rw [corner_rotate]; simp [corner]
    rw [e]
    exact ⟨seen _ _ _ (h1 _ hm).1, (h1 _ hm).2⟩
  · intro i _
    have hm := Nat.mod_lt (i + n) hpos
    have e0 : i + 1 + n = i + n + 1 := by omega
    simp only [e0]
    by_cases hl : (i + n) % v.length + 1 < v.length
    · have e1 : (i + n + 1) % v.length = (i + n) % v.length + 1 := by
        rw [Nat.add_mod, Nat.mod_eq_of_lt (show 1 < v.length by omega), Nat.mod_eq_of_lt hl]
      have e2 : (i + n + 1) / v.length = (i + n) / v.length := by
        rw [Nat.succ_div, if_neg]
        · rfl
        · intro hd
          have := Nat.mod_eq_zero_of_dvd hd
          omega
      simp only [e1, e2]
      have := h2 _ hm
      constructor <;> linarith
    · have el : (i + n) % v.length + 1 = v.length := by omega
      have e1 : (i + n + 1) % v.length = 0 := by
        rw [← Nat.mod_add_mod, el, Nat.mod_self]
      have e2 : (i + n + 1) / v.length = (i + n) / v.length + 1 := by
        rw [Nat.succ_div, if_pos (Nat.dvd_of_mod_eq_zero e1)]
      simp only [e1, e2]
      have := h2 _ hm
      rw [el, h3] at this
      push_cast
      constructor <;> linarith
  · rw [List.length_rotate]
    have e1 : (v.length + n) % v.length = (0 + n) % v.length := by simp
    have e2 : (v.length + n) / v.length = (0 + n) / v.length + 1 := by simp [Nat.add_div_left _ hpos]
    simp only [e1, e2]
    push_cast
    ring

theorem filled_rotate {c : Pt ℝ} {v : List (Pt ℝ)} (h : StarAbout c v) (n : ℕ) : filled (v.rotate n) = filled v := by
  ext p
  rw [star_filled (starAbout_rotate h n), star_filled h]
  simp only [onRing_rotate]

theorem star_centre_mem {c : Pt ℝ} {v : List (Pt ℝ)} (h : StarAbout c v) : c ∈ filled v := by
  obtain ⟨r, _, hq⟩ := star_exists h 0
  exact (star_filled h c).2 ⟨_, hq, 0, le_rfl, zero_le_one, by simp⟩

/-- All of the region is visible from the centre. -/
theorem star_visible {c : Pt ℝ} {v : List (Pt ℝ)} (h : StarAbout c v) {q : Pt ℝ} (hq : q ∈ filled v) {t : ℝ} (h0 : 0 ≤ t)
    (h1 : t ≤ 1) : c + t • (q - c) ∈ filled v := by
  obtain ⟨p, hp, s, hs0, hs1, rfl⟩ := (star_filled h q).1 hq
  refine (star_filled h _).2 ⟨p, hp, t * s, by positivity, mul_le_one₀ h1 hs0 hs1, ?_⟩
  rw [add_sub_cancel_left, smul_smul]

/-- The part of a ray from the centre beyond the ring is outside. -/
theorem star_beyond {c : Pt ℝ} {v : List (Pt ℝ)} (h : StarAbout c v) {q : Pt ℝ} (hq : OnRing v q) {s : ℝ} (hs : 1 < s) :
    c + s • (q - c) ∉ filled v := by
  intro hf
  obtain ⟨p, hp, t, h0, h1, e⟩ := (star_filled h _).1 hf
  have ht : 0 < t := by
    rcases h0.eq_or_lt with h0 | h0
    · exfalso
      rw [← h0, zero_smul, add_zero] at e
      have e' : s • (q - c) = 0 := by simpa using e
      rcases smul_eq_zero.1 e' with e' | e'
      · linarith
      · rw [sub_eq_zero] at e'
        rw [e'] at hq
        exact star_centre_off h hq
    · exact h0
  have ep : p = c + (s / t) • (q - c) := by
    have : t • (p - c) = s • (q - c) := (add_left_cancel e).symm
    have : p - c = (s / t) • (q - c) := by
      rw [div_eq_inv_mul, mul_smul, ← this, smul_smul, inv_mul_cancel₀ ht.ne', one_smul]
    rw [← this]; abel
  rw [ep] at hp
  have := star_ray_unique h (by positivity) hq hp
  rw [div_eq_one_iff_eq ht.ne'] at this
  linarith

theorem corner_on_ring {v : List (Pt ℝ)} {i : ℕ} (hi : i < v.length) : OnRing v (corner v i) :=
  ⟨i, hi, 0, le_rfl, zero_le_one, by simp⟩

theorem corner_eq_ptAt {v : List (Pt ℝ)} {i : ℕ} (hi : i < v.length) : corner v i = ptAt v i := by
  rw [corner, Nat.mod_eq_of_lt hi]; rfl

theorem mem_on_ring {v : List (Pt ℝ)} {p : Pt ℝ} (h : p ∈ v) : OnRing v p := by
  obtain ⟨i, hi, rfl⟩ := List.mem_iff_getElem.1 h
  have := corner_on_ring hi
  rwa [corner_eq_ptAt hi, ptAt, List.getD_eq_getElem _ _ hi] at this

/-- The corner with the largest `x` is convex. -/
theorem rightmost_convex {k v a b : Pt ℝ} (ha : a.1 ≤ v.1) (hb : b.1 ≤ v.1) (hk : k.1 < v.1) (h1 : 0 < cross (a - k) (v - k))
    (h2 : 0 < cross (v - k) (b - k)) : 0 ≤ cross (v - a) (b - v) := by
  simp only [cross, Prod.fst_sub, Prod.snd_sub] at *
  have key : ((v.1 - a.1) * (b.2 - v.2) - (v.2 - a.2) * (b.1 - v.1)) * (v.1 - k.1) =
      ((a.1 - k.1) * (v.2 - k.2) - (a.2 - k.2) * (v.1 - k.1)) * (v.1 - b.1) +
      ((v.1 - k.1) * (b.2 - k.2) - (v.2 - k.2) * (b.1 - k.1)) * (v.1 - a.1) := by ring
  by_contra hn
  push Not at hn
  have := mul_neg_of_neg_of_pos hn (sub_pos.2 hk)
  have g1 := mul_nonneg h1.le (sub_nonneg.2 hb)
  have g2 := mul_nonneg h2.le (sub_nonneg.2 ha)
  linarith

theorem onRing_le {v : List (Pt ℝ)} {m : ℝ} (h : ∀ p ∈ v, p.1 ≤ m) {q : Pt ℝ} (hq : OnRing v q) : q.1 ≤ m := by
  obtain ⟨i, hi, t, h0, h1, rfl⟩ := hq
  have hv : v ≠ [] := by rintro rfl; simp at hi
  have g1 := h _ (corner_mem hv i)
  have g2 := h _ (corner_mem hv (i + 1))
  simp only [Prod.fst_add, Prod.smul_fst, Prod.fst_sub, smul_eq_mul]
  nlinarith [mul_nonneg h0 (sub_nonneg.2 g2), mul_nonneg (sub_nonneg.2 h1) (sub_nonneg.2 g1)]

theorem star_length {c : Pt ℝ} {v : List (Pt ℝ)} (h : StarAbout c v) : 3 ≤ v.length := by
  obtain ⟨φ, _, h2, h3⟩ := h
  by_contra hn
  have hpi := pi_pos
  have : v.length = 0 ∨ v.length = 1 ∨ v.length = 2 := by omega
  rcases this with e | e | e <;> rw [e] at h2 h3
  · linarith
  · linarith [(h2 0 (by omega)).2]
  · have g1 := (h2 0 (by omega)).2
    have g2 := (h2 1 (by omega)).2
    norm_num at g1 g2
    linarith

/-- The vertices of a star-shaped polygon in counter-clockwise order are only rotated. -/
theorem orderVertices_star {c : Pt ℝ} {v : List (Pt ℝ)} (h : StarAbout c v) :
    orderVertices v = v.rotate (argmaxIdx (v.map Prod.fst)) := by
  have hlen := star_length h
  unfold orderVertices
  simp only
  rw [if_neg]
  obtain ⟨n, hn⟩ : ∃ n, argmaxIdx (v.map Prod.fst) = n := ⟨_, rfl⟩
  obtain ⟨hlt, hmax⟩ := argmaxIdx_spec (v.map Prod.fst) (by rw [Ne, List.map_eq_nil_iff]; rintro rfl; simp at hlen)
  rw [hn] at hlt hmax ⊢
  rw [List.length_map] at hlt hmax
  have hw := starAbout_rotate h n
  obtain ⟨w, ew⟩ : ∃ w, w = v.rotate n := ⟨_, rfl⟩
  rw [← ew] at hw ⊢
  have hwl : w.length = v.length := by rw [ew, List.length_rotate]
  have h0 : ptAt w 0 = ptAt v n := by
    rw [← corner_eq_ptAt (by omega), ew, corner_rotate, zero_add, corner_eq_ptAt hlt]
  have hle : ∀ p ∈ w, p.1 ≤ (ptAt w 0).1 := by
    intro p hp
    rw [ew, List.mem_rotate] at hp
    obtain ⟨i, hi, rfl⟩ := List.mem_iff_getElem.1 hp
    have := hmax i hi
    rw [List.getD_eq_getElem _ _ (by simpa using hi), List.getD_eq_getElem _ _ (by simpa using hlt), List.getElem_map,
      List.getElem_map] at this
    rw [h0, ptAt, List.getD_eq_getElem _ _ hlt]
    exact this
  have hk : c.1 < (ptAt w 0).1 := by
    obtain ⟨r, hr, hq⟩ := star_exists hw 0
    have := onRing_le hle hq
    simp [polar] at this
    linarith
  have hpos := (star_sectors hw).pos
  have hne : w ≠ [] := by rintro rfl; simp at hwl; omega
  have hlast : w.getLastD (0, 0) = corner w (w.length - 1) := by
    rw [corner_eq_ptAt (by omega), ptAt, List.getD_eq_getElem _ _ (by omega), List.getLastD_eq_getLast?,
      List.getLast?_eq_getElem?, List.getElem?_eq_getElem (by omega)]
    rfl
  have g1 := hpos (w.length - 1) (by omega)
  have e1 : corner w (w.length - 1 + 1) = corner w 0 := by
    rw [show w.length - 1 + 1 = w.length by omega]; simp [corner]
  rw [e1, ← hlast, corner_eq_ptAt (by omega)] at g1
  have g2 := hpos 0 (by omega)
  rw [corner_eq_ptAt (by omega), zero_add, corner_eq_ptAt (by omega)] at g2
  have hmem : ∀ i < w.length, ptAt w i ∈ w := by
    intro i hi
    rw [ptAt, List.getD_eq_getElem _ _ hi]; exact List.getElem_mem _
  have hl' : w.getLastD (0, 0) ∈ w := by
    rw [hlast, corner_eq_ptAt (by omega)]; exact hmem _ (by omega)
  have := rightmost_convex (hle _ hl') (hle _ (hmem 1 (by omega))) hk g1 g2
  simp only [isCw, orientationVal, collinearThreshold, decide_eq_true_eq, gt_iff_lt, not_lt]
  simp only [cross, Prod.fst_sub, Prod.snd_sub] at this
  have : (0 : ℝ) < 1 / 10 ^ 10 := by positivity
  linarith

theorem foldlM_fixed {α β : Type} {f : α → β → Except PyErr α} {a : α} {l : List β} (h : ∀ b ∈ l, f a b = .ok a) :
    l.foldlM f a = .ok a := by
  induction l with
  | nil => rfl
  | cons b l ih =>
    rw [List.foldlM_cons, h b (by simp)]
    exact ih fun b hb => h b (List.mem_cons_of_mem _ hb)

theorem foldl_fixed {α β : Type} {f : α → β → α} {a : α} {l : List β} (h : ∀ b ∈ l, f a b = a) : l.foldl f a = a := by
  induction l with
  | nil => rfl
  | cons b l ih =>
    rw [List.foldl_cons, h b (by simp)]
    exact ih fun b hb => h b (List.mem_cons_of_mem _ hb)

/-- The points of `line(a, b)`. -/
theorem onOpenLine {a b x : Pt ℝ} (h : OnSegment (openLine a b).1 (openLine a b).2 x) :
    ∃ t : ℝ, 0 < t ∧ t < 1 ∧ x = a + t • (b - a) := by
  obtain ⟨t, h0, h1, rfl⟩ := h
  refine ⟨1 / 10 ^ 4 + t * (9998 / 10 ^ 4), by positivity, by linarith, ?_⟩
  simp only [openLine]
  module

/-- The points of `ray(a, b, c)`. -/
theorem onOpenRay {a b c x : Pt ℝ} (h : OnSegment (openRay a b c).1 (openRay a b c).2 x) : ∃ t : ℝ, 0 < t ∧ x = a + t • (c - b) := by
  obtain ⟨t, h0, h1, rfl⟩ := h
  refine ⟨1 / 10 ^ 4 + t * (10 ^ 5 - 1 / 10 ^ 4), by nlinarith, ?_⟩
  simp only [openRay]
  module

theorem onOpenLine_left (a b : Pt ℝ) : OnSegment (openLine a b).1 (openLine a b).2 (openLine a b).1 :=
  ⟨0, le_rfl, zero_le_one, by simp⟩

/-- One vertex of a polygon that is star-shaped about the kernel points: it is added and nothing else happens. -/
theorem star_visit {ops : HullOps} {ks v : List (Pt ℝ)} (ho : HullMeaning ops (filled v) ks) (hstar : ∀ k ∈ ks, StarAbout k v)
    (hks : ks ≠ []) {st : HullState} (h1 : st.e1 = 0) (h2 : st.e2 = 0) (hst : ∀ p ∈ st.star, p ∈ v) {q w : Pt ℝ} (hq : q ∈ v) :
    visitVertex ops ks st q w = .ok { st with star := st.star ++ [q], vBar := q } := by
  have hr := mem_on_ring hq
  have hqf : q ∈ filled v := Or.inr hr
  obtain ⟨k0, hk0⟩ := List.exists_mem_of_ne_nil _ hks
  have hray : ∀ k ∈ ks, ops.disjoint (openRay q k q).1 (openRay q k q).2 = true := by
    intro k hk
    rw [ho.disjoint]
    intro x hx
    obtain ⟨t, ht, rfl⟩ := onOpenRay hx
    have := star_beyond (hstar k hk) hr (s := 1 + t) (by linarith)
    rwa [show k + (1 + t) • (q - k) = q + t • (q - k) by module] at this
  have hadd : addVertex ops ks st.star q = st.star ++ [q] := by
    unfold addVertex
    rw [if_pos]
    rw [Bool.or_eq_true, Bool.not_eq_true', ← Bool.not_eq_true, ho.kernel]
    right
    intro hi
    have hin := interior_subset hi
    have hconv : convexHull ℝ {k | k ∈ ks} ⊆ {p | ∀ i < v.length, 0 < cross (corner v (i + 1) - corner v i) (p - corner v i)} := by
      apply convexHull_min
      · intro k hk i hi
        have := (star_sectors (hstar k hk)).pos i hi
        simp only [cross, Prod.fst_sub, Prod.snd_sub] at this ⊢
        linarith
      · intro x hx y hy s t hs ht hst i hi
        have gx := hx i hi
        have gy := hy i hi
        have e : cross (corner v (i + 1) - corner v i) (s • x + t • y - corner v i) =
            s * cross (corner v (i + 1) - corner v i) (x - corner v i) + t * cross (corner v (i + 1) - corner v i) (y - corner v i) := by
          have : corner v i = s • corner v i + t • corner v i := by rw [← add_smul, hst, one_smul]
          obtain ⟨d, hd⟩ : ∃ d, d = corner v (i + 1) - corner v i := ⟨_, rfl⟩
          rw [← hd]
          conv_lhs => rw [this]
          simp only [cross, Prod.fst_sub, Prod.snd_sub, Prod.fst_add, Prod.snd_add, Prod.smul_fst, Prod.smul_snd, smul_eq_mul]
          ring
        rw [e]
        rcases hs.eq_or_lt with h | h
        · have : t = 1 := by linarith
          rw [← h, this]; linarith
        · exact add_pos_of_pos_of_nonneg (mul_pos h gx) (mul_nonneg ht gy.le)
    obtain ⟨i, hi, e⟩ := List.mem_iff_getElem.1 hq
    have := hconv hin i hi
    rw [corner_eq_ptAt hi, ptAt, List.getD_eq_getElem _ _ hi, e] at this
    simp [cross] at this
  have hfree : ∀ k ∈ ks, ∀ p ∈ v, ∀ t : ℝ, 0 < t → t < 1 → p ≠ k + t • (q - k) := by
    intro k hk p hp t h0 h1 e
    have := mem_on_ring hp
    rw [e] at this
    have := star_ray_unique (hstar k hk) h0.le hr this
    linarith
  have hadj : adjustEdge ops ks (st.star ++ [q]) st.e1 st.e2 q = .ok (st.star ++ [q], false) := by
    unfold adjustEdge
    rw [if_neg (by simp), h1, h2]
    obtain ⟨p, hp⟩ := pyGet_ok (l := st.star ++ [q]) (i := 0) le_rfl (by simp)
    rw [hp]
    simp only [bind, Except.bind]
    have hpv : p ∈ v := by
      rcases List.mem_append.1 (pyGet_mem hp) with h | h
      · exact hst p h
      · rw [List.mem_singleton.1 h]; exact hq
    apply foldlM_fixed
    intro k hk
    unfold adjustOne
    simp only
    rw [if_pos]
    rw [meetIs_empty (ho.line _ _), Set.eq_empty_iff_forall_notMem]
    rintro x ⟨g1, g2⟩
    obtain ⟨t, h0, h1, rfl⟩ := onOpenLine g1
    obtain ⟨s, _, _, e⟩ := onOpenLine g2
    rw [sub_self, smul_zero, add_zero] at e
    exact hfree k hk p hpv t h0 h1 e.symm
  have haug : ∀ st' : HullState, augment ops ks q w false st' = .ok st' := by
    intro st'
    unfold augment
    rw [if_neg (by simp)]
    apply foldlM_fixed
    intro i hi
    have hk : ptAt ks i ∈ ks := by
      rw [ptAt, List.getD_eq_getElem _ _ (List.mem_range.1 hi)]; exact List.getElem_mem _
    have hS := hstar _ hk
    unfold augmentOne
    simp only
    rw [if_pos]
    · have : ((ops.meetPolygon (openLine (ptAt ks i) q).1 (openLine (ptAt ks i) q).2).candidates.find? fun u =>
          ops.disjoint (openLine u q).1 (openLine u q).2) = none := by
        rw [List.find?_eq_none]
        intro u hu hd
        obtain ⟨t, h0, h1, rfl⟩ := onOpenLine (meetIs_nodes (ho.polygon _ _) (candidates_nodes hu)).1
        rw [ho.disjoint] at hd
        apply hd _ (onOpenLine_left _ _)
        have := star_visible hS hqf (t := t + 1 / 10 ^ 4 * (1 - t)) (by nlinarith) (by nlinarith)
        convert this using 1
        simp only [openLine]
        module
      rw [this]
    · rw [Bool.not_eq_true', ← Bool.not_eq_true, meetIs_empty (ho.polygon _ _)]
      intro e
      have : (openLine (ptAt ks i) q).1 ∈ (∅ : Set (Pt ℝ)) := by
        rw [← e]
        exact ⟨onOpenLine_left _ _, star_visible hS hqf (by norm_num) (by norm_num)⟩
      exact this
  unfold visitVertex
  rw [if_pos (by rw [List.all_eq_true]; exact hray), hadd, hadj]
  simp only [bind, Except.bind, haug]
  have : pyGet (st.star ++ [q]) (-1) = .ok q := by
    unfold pyGet
    simp
  rw [this]

/-- The main loop. -/
theorem star_loop {ops : HullOps} {ks v : List (Pt ℝ)} (ho : HullMeaning ops (filled v) ks) (hstar : ∀ k ∈ ks, StarAbout k v)
    (hks : ks ≠ []) (prev : ℕ → Pt ℝ) (b : Pt ℝ) (inc : List Bool) (n : ℕ) (hn : n ≤ v.length) :
    ∃ b', (List.range n).foldlM (fun st i => visitVertex ops ks st (ptAt v i) (prev i)) ⟨[], b, 0, 0, inc⟩ =
      .ok ⟨v.take n, b', 0, 0, inc⟩ := by
  induction n with
  | zero => exact ⟨b, rfl⟩
  | succ n ih =>
    obtain ⟨b', e⟩ := ih (by omega)
    have hm : ptAt v n ∈ v := by
      rw [ptAt, List.getD_eq_getElem _ _ (by omega)]; exact List.getElem_mem _
    refine ⟨ptAt v n, ?_⟩
    rw [List.range_succ, List.foldlM_append, e]
    simp only [bind, Except.bind, List.foldlM_cons, List.foldlM_nil]
    rw [star_visit ho hstar hks (st := ⟨v.take n, b', 0, 0, inc⟩) rfl rfl (fun p hp => List.mem_of_mem_take hp) hm]
    have : v.take (n + 1) = v.take n ++ [ptAt v n] := by
      rw [List.take_add_one, List.getElem?_eq_getElem (by omega), ptAt, List.getD_eq_getElem _ _ (by omega)]; rfl
    rw [this]; rfl

/-- No kernel point is inserted. -/
theorem star_insert {ks v : List (Pt ℝ)} (hstar : ∀ k ∈ ks, StarAbout k v) (inc : List Bool) : insertKernels ks v inc = v := by
  unfold insertKernels
  rw [foldl_fixed]
  intro j hj
  rw [List.mem_range] at hj
  simp only
  apply foldl_fixed
  intro i hi
  have hk : ptAt ks i ∈ ks := by
    rw [ptAt, List.getD_eq_getElem _ _ (List.mem_range.1 hi)]; exact List.getElem_mem _
  have hpos := (star_sectors (hstar _ hk)).pos
  unfold insertKernel
  rw [if_neg]
  rw [Bool.and_eq_true, not_and_or]
  right
  have hc : 0 < cross ((if j = 0 then v.getLastD (0, 0) else ptAt v (j - 1)) - ptAt ks i) (ptAt v j - ptAt ks i) := by
    split
    · rename_i h0
      have hlast : v.getLastD (0, 0) = corner v (v.length - 1) := by
        rw [corner_eq_ptAt (by omega), ptAt, List.getD_eq_getElem _ _ (by omega), List.getLastD_eq_getLast?,
          List.getLast?_eq_getElem?, List.getElem?_eq_getElem (by omega)]
        rfl
      have e1 : corner v (v.length - 1 + 1) = corner v 0 := by
        rw [show v.length - 1 + 1 = v.length by omega]; simp [corner]
      have := hpos (v.length - 1) (by omega)
      rwa [e1, ← hlast, corner_eq_ptAt (by omega), ← h0] at this
    · have := hpos (j - 1) (by omega)
      rwa [show j - 1 + 1 = j by omega, corner_eq_ptAt (by omega), corner_eq_ptAt hj] at this
  simp only [isCw, orientationVal, collinearThreshold, decide_eq_true_eq, gt_iff_lt, not_lt]
  simp only [cross, Prod.fst_sub, Prod.snd_sub] at hc
  have : (0 : ℝ) < 1 / 10 ^ 10 := by positivity
  linarith

/-- The star-shaped hull of a polygon that is star-shaped about the kernel points: the same vertices, starting with the rightmost
one. -/
theorem star_hull_self {ops : HullOps} {ks v : List (Pt ℝ)} (ho : HullMeaning ops (filled v) ks) (hks : ks ≠ [])
    (hstar : ∀ k ∈ ks, StarAbout k v) : ∃ n, polygonKernelHull ops v ks = .ok (v.rotate n) := by
  obtain ⟨k0, l, e⟩ := List.exists_cons_of_ne_nil hks
  have h0 := hstar k0 (by simp [e])
  refine ⟨argmaxIdx (v.map Prod.fst), ?_⟩
  obtain ⟨n, hn⟩ : ∃ n, argmaxIdx (v.map Prod.fst) = n := ⟨_, rfl⟩
  have hord := orderVertices_star h0
  rw [hn] at hord ⊢
  have hs' : ∀ k ∈ ks, StarAbout k (v.rotate n) := fun k hk => starAbout_rotate (hstar k hk) n
  have ho' : HullMeaning ops (filled (v.rotate n)) ks := by rwa [filled_rotate h0]
  have hlen := star_length (hs' k0 (by simp [e]))
  obtain ⟨b, hb⟩ := star_loop ho' hs' hks (fun i => if i = 0 then (v.rotate n).getLastD (0, 0) else ptAt (v.rotate n) (i - 1)) k0
    (ks.map fun _ => false) (v.rotate n).length le_rfl
  rw [List.take_length] at hb
  have hins := star_insert hs' (ks.map fun _ => false)
  unfold polygonKernelHull
  rw [hord]
  rw [e] at hb hins ⊢
  simp only
  rw [hb]
  simp only [bind, Except.bind, hins]
  rw [if_neg (by omega)]

end Starworlds
