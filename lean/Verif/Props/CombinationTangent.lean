import Verif.Props.Combination
import Verif.Props.AdmissibleKernel

/-! # C72: tangent points of a combination -/

namespace Starworlds

open Real Spec

namespace Spec

/-- Seen from `x`, all points of the list other than the one at index `i` are to the left of it, by more than the
tolerance of the orientation test. -/
def Rightmost (x : Pt ℝ) (l : List (Pt ℝ)) (i : ℕ) : Prop :=
  ∀ (j : ℕ) (p q : Pt ℝ), j ≠ i → l[i]? = some p → l[j]? = some q → 1 / 10 ^ 10 < cross (p - x) (q - x)

/-- The same for the right. -/
def Leftmost (x : Pt ℝ) (l : List (Pt ℝ)) (i : ℕ) : Prop :=
  ∀ (j : ℕ) (p q : Pt ℝ), j ≠ i → l[i]? = some p → l[j]? = some q → 1 / 10 ^ 10 < cross (q - x) (p - x)

end Spec

theorem isCw_cross (x s t : Pt ℝ) : isCw x s t = true ↔ 1 / 10 ^ 10 < cross (t - x) (s - x) := by
  unfold isCw
  rw [decide_eq_true_iff]
  simp only [orientationVal, collinearThreshold, cross, Prod.fst_sub, Prod.snd_sub]
  constructor <;> intro h <;> linarith

theorem mapM_known {α β : Type} {f : α → Except PyErr β} {g : α → β} : ∀ {l : List α}, (∀ a ∈ l, f a = .ok (g a)) →
    l.mapM f = .ok (l.map g)
  | [], _ => rfl
  | a :: l, h => by
    simp [List.mapM_cons, h a List.mem_cons_self, mapM_known (l := l) fun b hb => h b (List.mem_cons_of_mem _ hb), bind,
      Except.bind, pure, Except.pure]

/-- C72: the result consists of the tangent points of the members for which all others are strictly on one side. -/
theorem C72_extreme (c : Combination) (x : Pt ℝ) (T : Member → List (Pt ℝ))
    (hT : ∀ o ∈ c.members, o.tangentPoints x = .ok (T o)) :
    ∃ L, c.tangentPoints x = .ok L ∧ ∀ p, p ∈ L ↔ ∃ i, (c.members.map T).flatten[i]? = some p ∧
      (Rightmost x (c.members.map T).flatten i ∨ Leftmost x (c.members.map T).flatten i) := by
  simp only [Combination.tangentPoints, mapM_known hT, bind, Except.bind]
  set l := (c.members.map T).flatten
  refine ⟨_, rfl, fun p => ?_⟩
  have hpt : ∀ i p, l[i]? = some p → ptAt l i = p := by
    intro i p h
    simp [ptAt, List.getD, h]
  have hlt : ∀ i p, l[i]? = some p → i < l.length := by
    intro i p h
    by_contra hc
    rw [List.getElem?_eq_none (by omega)] at h
    exact absurd h (by simp)
  have hget : ∀ i, i < l.length → l[i]? = some (ptAt l i) := by
    intro i h
    simp [ptAt, List.getD, List.getElem?_eq_getElem h]
  simp only [List.mem_map, List.mem_filter, List.mem_range, Bool.or_eq_true, List.all_eq_true, bne_iff_ne, ne_eq,
    isCcw_cross, isCw_cross, and_imp]
  constructor
  · rintro ⟨i, ⟨hi, h⟩, rfl⟩
    refine ⟨i, hget i hi, ?_⟩
    rcases h with h | h
    · left
      intro j p q hj hp hq
      have := h j (hlt j q hq) hj
      rwa [hpt i p hp, hpt j q hq] at this
    · right
      intro j p q hj hp hq
      have := h j (hlt j q hq) hj
      rwa [hpt i p hp, hpt j q hq] at this
  · rintro ⟨i, hi, h⟩
    refine ⟨i, ⟨hlt i p hi, ?_⟩, hpt i p hi⟩
    rcases h with h | h
    · left
      intro j hj hji
      exact h j _ _ hji (hget i (hlt i p hi)) (hget j hj)
    · right
      intro j hj hji
      exact h j _ _ hji (hget i (hlt i p hi)) (hget j hj)

/-- Between two directions less than a half turn apart. -/
theorem between_nonneg {u a b q : Pt ℝ} (hab : 0 < cross b a) (h1 : 0 ≤ cross b q) (h2 : 0 ≤ cross q a)
    (ha : 0 ≤ cross u a) (hb : 0 ≤ cross u b) : 0 ≤ cross u q := by
  have e : cross b a * cross u q = cross b q * cross u a + cross q a * cross u b := by simp only [cross]; ring
  have : 0 ≤ cross b a * cross u q := by rw [e]; positivity
  exact nonneg_of_mul_nonneg_right this hab

theorem between_nonpos {u a b q : Pt ℝ} (hab : 0 < cross b a) (h1 : 0 ≤ cross b q) (h2 : 0 ≤ cross q a)
    (ha : 0 ≤ cross a u) (hb : 0 ≤ cross b u) : 0 ≤ cross q u := by
  have e : cross b a * cross q u = cross b q * cross a u + cross q a * cross b u := by simp only [cross]; ring
  have : 0 ≤ cross b a * cross q u := by rw [e]; positivity
  exact nonneg_of_mul_nonneg_right this hab

theorem cross_self_zero (u : Pt ℝ) : cross u u = 0 := by simp only [cross]; ring

/-- What is assumed of the members: the region `O o` of each is seen from `x` between `t o` on the left and `s o` on the
right, less than a half turn apart, and these are the tangent points of the member. -/
structure Spec.MembersSeen (c : Combination) (x : Pt ℝ) (O : Member → Set (Pt ℝ)) (t s : Member → Pt ℝ) : Prop where
  points : ∀ o ∈ c.members, o.tangentPoints x = .ok [t o, s o]
  seen : ∀ o ∈ c.members, SeenBetween (O o) x (t o) (s o)
  open_ : ∀ o ∈ c.members, 0 < cross (s o - x) (t o - x)

theorem mem_candidates {c : Combination} {t s : Member → Pt ℝ} {p : Pt ℝ} :
    p ∈ (c.members.map fun o => [t o, s o]).flatten ↔ ∃ o ∈ c.members, p = t o ∨ p = s o := by
  simp only [List.mem_flatten, List.mem_map]
  constructor
  · rintro ⟨_, ⟨o, ho, rfl⟩, hp⟩
    exact ⟨o, ho, by simpa using hp⟩
  · rintro ⟨o, ho, hp⟩
    exact ⟨_, ⟨o, ho, rfl⟩, by simpa using hp⟩

/-- All candidates are on the left of the rightmost. -/
theorem rightmost_all {x : Pt ℝ} {l : List (Pt ℝ)} {i : ℕ} {p : Pt ℝ} (h : Rightmost x l i) (hp : l[i]? = some p) :
    ∀ q ∈ l, 0 ≤ cross (p - x) (q - x) := by
  intro q hq
  obtain ⟨j, hj⟩ := List.mem_iff_getElem?.1 hq
  by_cases hji : j = i
  · subst hji
    rw [hp] at hj
    injection hj with hj
    rw [hj, cross_self_zero]
  · have := h j p q hji hp hj
    have h0 : (0 : ℝ) < 1 / 10 ^ 10 := by norm_num
    linarith

theorem leftmost_all {x : Pt ℝ} {l : List (Pt ℝ)} {i : ℕ} {p : Pt ℝ} (h : Leftmost x l i) (hp : l[i]? = some p) :
    ∀ q ∈ l, 0 ≤ cross (q - x) (p - x) := by
  intro q hq
  obtain ⟨j, hj⟩ := List.mem_iff_getElem?.1 hq
  by_cases hji : j = i
  · subst hji
    rw [hp] at hj
    injection hj with hj
    rw [hj, cross_self_zero]
  · have := h j p q hji hp hj
    have h0 : (0 : ℝ) < 1 / 10 ^ 10 := by norm_num
    linarith

/-- C72: every returned point is a point of a member, and the line from `x` through it has all members on one side. -/
theorem C72_sides (c : Combination) (x : Pt ℝ) (O : Member → Set (Pt ℝ)) (t s : Member → Pt ℝ)
    (h : MembersSeen c x O t s) :
    ∃ L, c.tangentPoints x = .ok L ∧ ∀ p ∈ L, (∃ o ∈ c.members, p ∈ O o) ∧
      ((∀ o ∈ c.members, ∀ q ∈ O o, 0 ≤ cross (p - x) (q - x)) ∨ (∀ o ∈ c.members, ∀ q ∈ O o, 0 ≤ cross (q - x) (p - x))) := by
  obtain ⟨L, hL, hmem⟩ := C72_extreme c x (fun o => [t o, s o]) h.points
  refine ⟨L, hL, fun p hp => ?_⟩
  obtain ⟨i, hi, hside⟩ := (hmem p).1 hp
  constructor
  · obtain ⟨o, ho, rfl | rfl⟩ := mem_candidates.1 (List.mem_of_getElem? hi)
    · exact ⟨o, ho, (h.seen o ho).left_mem⟩
    · exact ⟨o, ho, (h.seen o ho).right_mem⟩
  · rcases hside with hr | hr
    · left
      intro o ho q hq
      exact between_nonneg (h.open_ o ho) ((h.seen o ho).right q hq) ((h.seen o ho).left q hq)
        (rightmost_all hr hi _ (mem_candidates.2 ⟨o, ho, Or.inl rfl⟩))
        (rightmost_all hr hi _ (mem_candidates.2 ⟨o, ho, Or.inr rfl⟩))
    · right
      intro o ho q hq
      exact between_nonpos (h.open_ o ho) ((h.seen o ho).right q hq) ((h.seen o ho).left q hq)
        (leftmost_all hr hi _ (mem_candidates.2 ⟨o, ho, Or.inl rfl⟩))
        (leftmost_all hr hi _ (mem_candidates.2 ⟨o, ho, Or.inr rfl⟩))

/-- In a half plane one of the directions is the rightmost. -/
theorem exists_rightmost (x u : Pt ℝ) : ∀ l : List (Pt ℝ), l ≠ [] → (∀ p ∈ l, 0 < dot u (p - x)) →
    ∃ p ∈ l, ∀ q ∈ l, 0 ≤ cross (p - x) (q - x)
  | [], h, _ => absurd rfl h
  | [a], _, _ => ⟨a, by simp, by simp [cross_self_zero]⟩
  | a :: b :: l, _, hu => by
    obtain ⟨p, hp, hall⟩ := exists_rightmost x u (b :: l) (by simp) fun p hp => hu p (List.mem_cons_of_mem _ hp)
    rcases le_total 0 (cross (p - x) (a - x)) with h | h
    · refine ⟨p, List.mem_cons_of_mem _ hp, fun q hq => ?_⟩
      rcases List.mem_cons.1 hq with rfl | hq
      · exact h
      · exact hall q hq
    · refine ⟨a, List.mem_cons_self, fun q hq => ?_⟩
      rcases List.mem_cons.1 hq with rfl | hq
      · rw [cross_self_zero]
      · have e : dot u (p - x) * cross (a - x) (q - x) =
            dot u (q - x) * (-cross (p - x) (a - x)) + dot u (a - x) * cross (p - x) (q - x) := by
          simp only [cross, dot]; ring
        have h1 := hu p (List.mem_cons_of_mem _ hp)
        have h2 := hu q (List.mem_cons_of_mem _ hq)
        have h3 := hu a List.mem_cons_self
        have h4 := hall q hq
        have : 0 ≤ dot u (p - x) * cross (a - x) (q - x) := by
          rw [e]
          exact add_nonneg (mul_nonneg h2.le (by linarith)) (mul_nonneg h3.le h4)
        exact nonneg_of_mul_nonneg_right this h1

theorem exists_leftmost (x u : Pt ℝ) : ∀ l : List (Pt ℝ), l ≠ [] → (∀ p ∈ l, 0 < dot u (p - x)) →
    ∃ p ∈ l, ∀ q ∈ l, 0 ≤ cross (q - x) (p - x)
  | [], h, _ => absurd rfl h
  | [a], _, _ => ⟨a, by simp, by simp [cross_self_zero]⟩
  | a :: b :: l, _, hu => by
    obtain ⟨p, hp, hall⟩ := exists_leftmost x u (b :: l) (by simp) fun p hp => hu p (List.mem_cons_of_mem _ hp)
    rcases le_total 0 (cross (a - x) (p - x)) with h | h
    · refine ⟨p, List.mem_cons_of_mem _ hp, fun q hq => ?_⟩
      rcases List.mem_cons.1 hq with rfl | hq
      · exact h
      · exact hall q hq
    · refine ⟨a, List.mem_cons_self, fun q hq => ?_⟩
      rcases List.mem_cons.1 hq with rfl | hq
      · rw [cross_self_zero]
      · have e : dot u (p - x) * cross (q - x) (a - x) =
            dot u (q - x) * (-cross (a - x) (p - x)) + dot u (a - x) * cross (q - x) (p - x) := by
          simp only [cross, dot]; ring
        have h1 := hu p (List.mem_cons_of_mem _ hp)
        have h2 := hu q (List.mem_cons_of_mem _ hq)
        have h3 := hu a List.mem_cons_self
        have h4 := hall q hq
        have : 0 ≤ dot u (p - x) * cross (q - x) (a - x) := by
          rw [e]
          exact add_nonneg (mul_nonneg h2.le (by linarith)) (mul_nonneg h3.le h4)
        exact nonneg_of_mul_nonneg_right this h1

/-- C72, partial: when the tangent points of all members are in a half plane as seen from `x`, and no two of them are near
collinear with `x`, the result consists of two points between which all members are seen. Missing: the order of the two,
and tangent points in the same direction; for both it is false. -/
theorem C72_between_partial (c : Combination) (hne : c.members ≠ []) (x u : Pt ℝ) (O : Member → Set (Pt ℝ))
    (t s : Member → Pt ℝ) (h : MembersSeen c x O t s)
    (hu : ∀ o ∈ c.members, 0 < dot u (t o - x) ∧ 0 < dot u (s o - x))
    (hgen : ∀ (i j : ℕ) (p q : Pt ℝ), i ≠ j → (c.members.map fun o => [t o, s o]).flatten[i]? = some p →
      (c.members.map fun o => [t o, s o]).flatten[j]? = some q → 1 / 10 ^ 10 < |cross (p - x) (q - x)|) :
    ∃ L a b, c.tangentPoints x = .ok L ∧ (∀ p, p ∈ L ↔ p = a ∨ p = b) ∧ a ≠ b ∧
      SeenBetween {q | ∃ o ∈ c.members, q ∈ O o} x a b := by
  obtain ⟨L, hL, hmem⟩ := C72_extreme c x (fun o => [t o, s o]) h.points
  have hpos : ∀ p ∈ (c.members.map fun o => [t o, s o]).flatten, 0 < dot u (p - x) := by
    intro p hp
    obtain ⟨o, ho, rfl | rfl⟩ := mem_candidates.1 hp
    · exact (hu o ho).1
    · exact (hu o ho).2
  obtain ⟨o0, ho0⟩ := List.exists_mem_of_ne_nil _ hne
  have hlne : (c.members.map fun o => [t o, s o]).flatten ≠ [] :=
    List.ne_nil_of_mem (mem_candidates.2 ⟨o0, ho0, Or.inl rfl⟩)
  have hmc : ∀ p, p ∈ (c.members.map fun o => [t o, s o]).flatten ↔ ∃ o ∈ c.members, p = t o ∨ p = s o :=
    fun p => mem_candidates
  generalize (c.members.map fun o => [t o, s o]).flatten = l at *
  obtain ⟨b, hb, hball⟩ := exists_rightmost x u l hlne hpos
  obtain ⟨a, ha, haall⟩ := exists_leftmost x u l hlne hpos
  obtain ⟨i, hi⟩ := List.mem_iff_getElem?.1 hb
  obtain ⟨k, hk⟩ := List.mem_iff_getElem?.1 ha
  have h0 : (0 : ℝ) < 1 / 10 ^ 10 := by norm_num
  have hri : Rightmost x l i := by
    intro j p q hj hp hq
    rw [hi] at hp
    injection hp with hp
    subst hp
    have h1 := hgen i j _ _ (Ne.symm hj) hi hq
    rwa [abs_of_nonneg (hball q (List.mem_of_getElem? hq))] at h1
  have hlk : Leftmost x l k := by
    intro j p q hj hp hq
    rw [hk] at hp
    injection hp with hp
    subst hp
    have h1 := hgen j k _ _ hj hq hk
    rwa [abs_of_nonneg (haall q (List.mem_of_getElem? hq))] at h1
  have hopen := h.open_ o0 ho0
  have hab : a ≠ b := by
    rintro rfl
    have h1 := hball _ ((hmc _).2 ⟨o0, ho0, Or.inl rfl⟩)
    have h2 := hball _ ((hmc _).2 ⟨o0, ho0, Or.inr rfl⟩)
    have h3 := haall _ ((hmc _).2 ⟨o0, ho0, Or.inl rfl⟩)
    have h4 := haall _ ((hmc _).2 ⟨o0, ho0, Or.inr rfl⟩)
    have e : dot u (a - x) * cross (s o0 - x) (t o0 - x) =
        dot u (s o0 - x) * cross (a - x) (t o0 - x) + dot u (t o0 - x) * cross (s o0 - x) (a - x) := by
      simp only [cross, dot]; ring
    have n1 : cross (t o0 - x) (a - x) = - cross (a - x) (t o0 - x) := by simp only [cross]; ring
    have n2 : cross (s o0 - x) (a - x) = - cross (a - x) (s o0 - x) := by simp only [cross]; ring
    have z1 : cross (a - x) (t o0 - x) = 0 := by linarith
    have z2 : cross (s o0 - x) (a - x) = 0 := by linarith
    rw [z1, z2, mul_zero, mul_zero, add_zero] at e
    exact absurd e (mul_pos (hpos a ha) hopen).ne'
  refine ⟨L, a, b, hL, fun p => ⟨fun hp => ?_, ?_⟩, hab, ?_, ?_, ?_, ?_⟩
  · obtain ⟨j, hj, hr | hl⟩ := (hmem p).1 hp
    · right
      by_contra hne
      have hji : j ≠ i := by rintro rfl; rw [hi] at hj; injection hj with hj; exact hne hj.symm
      have h1 := hri j b p hji hi hj
      have h2 := hr i p b (Ne.symm hji) hj hi
      have n : cross (p - x) (b - x) = - cross (b - x) (p - x) := by simp only [cross]; ring
      linarith
    · left
      by_contra hne
      have hjk : j ≠ k := by rintro rfl; rw [hk] at hj; injection hj with hj; exact hne hj.symm
      have h1 := hlk j a p hjk hk hj
      have h2 := hl k p a (Ne.symm hjk) hj hk
      have n : cross (p - x) (a - x) = - cross (a - x) (p - x) := by simp only [cross]; ring
      linarith
  · rintro (rfl | rfl)
    · exact (hmem _).2 ⟨k, hk, Or.inr hlk⟩
    · exact (hmem _).2 ⟨i, hi, Or.inl hri⟩
  · obtain ⟨o, ho, rfl | rfl⟩ := (hmc _).1 ha
    · exact ⟨o, ho, (h.seen o ho).left_mem⟩
    · exact ⟨o, ho, (h.seen o ho).right_mem⟩
  · obtain ⟨o, ho, rfl | rfl⟩ := (hmc _).1 hb
    · exact ⟨o, ho, (h.seen o ho).left_mem⟩
    · exact ⟨o, ho, (h.seen o ho).right_mem⟩
  · rintro q ⟨o, ho, hq⟩
    exact between_nonneg (h.open_ o ho) ((h.seen o ho).right q hq) ((h.seen o ho).left q hq)
      (hball _ ((hmc _).2 ⟨o, ho, Or.inl rfl⟩)) (hball _ ((hmc _).2 ⟨o, ho, Or.inr rfl⟩))
  · rintro q ⟨o, ho, hq⟩
    exact between_nonpos (h.open_ o ho) ((h.seen o ho).right q hq) ((h.seen o ho).left q hq)
      (haall _ ((hmc _).2 ⟨o, ho, Or.inl rfl⟩)) (haall _ ((hmc _).2 ⟨o, ho, Or.inr rfl⟩))

/-! ## Witnesses -/

theorem right_hull {v : List (Pt ℝ)} (h : ∀ p ∈ v, 0 < p.1) : (0 : Pt ℝ) ∉ convexHull ℝ {p | p ∈ v} := by
  intro h0
  have hconv : Convex ℝ {q : Pt ℝ | 0 < q.1} := by
    intro a ha b hb r w hr hw hrw
    simp only [Set.mem_ofPred_eq, Prod.fst_add, Prod.smul_fst, smul_eq_mul] at *
    rcases hr.eq_or_lt with rfl | hr
    · rw [zero_add] at hrw; subst hrw; linarith
    · have := mul_pos hr ha
      have := mul_nonneg hw hb.le
      linarith
  have := convexHull_min (s := {p | p ∈ v}) (t := {q : Pt ℝ | 0 < q.1}) (fun p hp => h p hp) hconv h0
  simp at this

/-- The tangent points from the origin of a polygon on the right, when no two corners compete. -/
theorem tangents_eq {v : List (Pt ℝ)} (h : ∀ p ∈ v, 0 < p.1) {t s : Pt ℝ} (ht : t ∈ v) (hs : s ∈ v)
    (hl : ∀ p ∈ v, p = t ∨ 0 < cross p t) (hr : ∀ p ∈ v, p = s ∨ 0 < cross s p) :
    polyTangents v 0 = [t, s] ∧ SeenBetween (polyRegion none v) 0 t s := by
  obtain ⟨t', s', h1, ht', hs', h2⟩ := polygon_seen none v (List.ne_nil_of_mem ht) 0 (right_hull h)
  have e : ∀ p : Pt ℝ, inFrame none .global p = p := fun p => rfl
  simp only [e] at h1 h2
  have m : ∀ p ∈ v, p ∈ polyRegion none v := fun p hp => ⟨p, subset_convexHull ℝ _ hp, rfl⟩
  have r1 := h2.left t (m _ ht)
  have r2 := h2.right s (m _ hs)
  rw [sub_zero, sub_zero] at r1 r2
  have et : t' = t := by
    rcases hl t' ht' with h | h
    · exact h
    · have n : cross t' t = - cross t t' := by simp only [cross]; ring
      linarith
  have es : s' = s := by
    rcases hr s' hs' with h | h
    · exact h
    · have n : cross s s' = - cross s' s := by simp only [cross]; ring
      linarith
  subst et es
  have hm : ∀ l : List (Pt ℝ), (l.mapM fun p => transform none p .obstacle .global) = .ok l := by
    intro l
    induction l with
    | nil => rfl
    | cons a l ih => simp only [List.mapM_cons, ih]; rfl
  have : polygonTangentPoints none v 0 .global .global = .ok (polyTangents v 0) := by
    change ((polyTangents v 0).mapM fun p => transform none p .obstacle .global) = _
    exact hm _
  rw [this] at h1
  injection h1 with h1
  exact ⟨h1, h2⟩

/-- A box below the axis and one above it, both on the right. -/
def lowBox : List (Pt ℝ) := [(1, -3), (2, -3), (2, -2), (1, -2)]
def highBox : List (Pt ℝ) := [(1, 2), (2, 2), (2, 3), (1, 3)]

theorem lowBox_tangents : polyTangents lowBox 0 = [(2, -2), (1, -3)] ∧ SeenBetween (polyRegion none lowBox) 0 (2, -2) (1, -3) := by
  refine tangents_eq ?_ (by simp [lowBox]) (by simp [lowBox]) ?_ ?_ <;>
    · intro p hp
      simp only [lowBox, List.mem_cons, List.not_mem_nil, or_false] at hp
      rcases hp with rfl | rfl | rfl | rfl <;> norm_num [cross]

theorem highBox_tangents : polyTangents highBox 0 = [(1, 3), (2, 2)] ∧ SeenBetween (polyRegion none highBox) 0 (1, 3) (2, 2) := by
  refine tangents_eq ?_ (by simp [highBox]) (by simp [highBox]) ?_ ?_ <;>
    · intro p hp
      simp only [highBox, List.mem_cons, List.not_mem_nil, or_false] at hp
      rcases hp with rfl | rfl | rfl | rfl <;> norm_num [cross]

/-- The combination of the two boxes; nothing depends on the intersections. -/
noncomputable def twoBoxes : Combination :=
  ⟨[polygonMember lowBox (fun _ _ => .empty) 0, polygonMember highBox (fun _ _ => .empty) 0], none, 0⟩

theorem tangents_two {c : Combination} {m1 m2 : Member} (hc : c.members = [m1, m2]) {x t1 s1 t2 s2 : Pt ℝ}
    (h1 : m1.tangentPoints x = .ok [t1, s1]) (h2 : m2.tangentPoints x = .ok [t2, s2]) :
    c.tangentPoints x = .ok (((List.range 4).filter fun i =>
      (((List.range 4).filter fun j => j != i).all fun j => isCcw x (ptAt [t1, s1, t2, s2] i) (ptAt [t1, s1, t2, s2] j)) ||
      (((List.range 4).filter fun j => j != i).all fun j => isCw x (ptAt [t1, s1, t2, s2] i) (ptAt [t1, s1, t2, s2] j))).map
        (ptAt [t1, s1, t2, s2])) := by
  simp [Combination.tangentPoints, hc, List.mapM_cons, h1, h2, bind, Except.bind, pure, Except.pure]

theorem twoBoxes_tangents : twoBoxes.tangentPoints 0 = .ok [(1, -3), (1, 3)] := by
  rw [tangents_two rfl (x := 0) (t1 := (2, -2)) (s1 := (1, -3)) (t2 := (1, 3)) (s2 := (2, 2))
    (by simp only [polygonMember, lowBox_tangents.1]) (by simp only [polygonMember, highBox_tangents.1])]
  norm_num [List.range_succ, ptAt, isCcw, isCw, orientationVal, collinearThreshold, List.filter_cons]

/-- C72 is false for the order: for the two boxes seen from the origin the result is (1, -3), (1, 3), the right one first,
while each of the boxes gives the left one first. The admissible kernel is then on the wrong side: (-2, -2) is in it, but
the origin is between this point and the corner (2, 2). -/
theorem C72_order_false :
    twoBoxes.tangentPoints 0 = .ok [(1, -3), (1, 3)] ∧
    polyTangents lowBox 0 = [(2, -2), (1, -3)] ∧ polyTangents highBox 0 = [(1, 3), (2, 2)] ∧
    (∃ c, admissibleKernel twoBoxes.tangentPoints 0 = .ok (some c) ∧ c.pointInCone (-2, -2) = true) ∧
    (2, 2) ∈ polyRegion none highBox ∧ OnSegment ((-2, -2) : Pt ℝ) (2, 2) 0 := by
  refine ⟨twoBoxes_tangents, lowBox_tangents.1, highBox_tangents.1,
    ⟨⟨0, 0 - (1, -3), 0 - (1, 3)⟩, by simp only [admissibleKernel, twoBoxes_tangents, bind, Except.bind], ?_⟩,
    highBox_tangents.2.right_mem, 1 / 2, by norm_num, by norm_num, by ext <;> norm_num⟩
  norm_num [Cone.pointInCone, Cone.isConvex, Cone.ray1, Cone.ray2, isCcw, isCw, orientationVal, collinearThreshold]

/-- Two triangles standing on the axis. -/
def nearTri : List (Pt ℝ) := [(1, 0), (2, 1), (1, 1)]
def farTri : List (Pt ℝ) := [(3, 0), (4, 1), (3, 1)]

noncomputable def twoTris : Combination :=
  ⟨[polygonMember nearTri (fun _ _ => .empty) 0, polygonMember farTri (fun _ _ => .empty) 0], none, 0⟩

theorem nearTri_tangents : polyTangents nearTri 0 = [(1, 1), (1, 0)] ∧ SeenBetween (polyRegion none nearTri) 0 (1, 1) (1, 0) := by
  refine tangents_eq ?_ (by simp [nearTri]) (by simp [nearTri]) ?_ ?_ <;>
    · intro p hp
      simp only [nearTri, List.mem_cons, List.not_mem_nil, or_false] at hp
      rcases hp with rfl | rfl | rfl <;> norm_num [cross]

theorem farTri_tangents : polyTangents farTri 0 = [(3, 1), (3, 0)] ∧ SeenBetween (polyRegion none farTri) 0 (3, 1) (3, 0) := by
  refine tangents_eq ?_ (by simp [farTri]) (by simp [farTri]) ?_ ?_ <;>
    · intro p hp
      simp only [farTri, List.mem_cons, List.not_mem_nil, or_false] at hp
      rcases hp with rfl | rfl | rfl <;> norm_num [cross]

/-- C72 is false for members with a common tangent: the two triangles touch the axis, and from the origin only the left
tangent point is returned; the admissible kernel cannot be computed. -/
theorem C72_common_false : twoTris.tangentPoints 0 = .ok [(1, 1)] ∧
    admissibleKernel twoTris.tangentPoints 0 = .error .indexError := by
  have h : twoTris.tangentPoints 0 = .ok [(1, 1)] := by
    rw [tangents_two rfl (x := 0) (t1 := (1, 1)) (s1 := (1, 0)) (t2 := (3, 1)) (s2 := (3, 0))
      (by simp only [polygonMember, nearTri_tangents.1]) (by simp only [polygonMember, farTri_tangents.1])]
    norm_num [List.range_succ, ptAt, isCcw, isCw, orientationVal, collinearThreshold, List.filter_cons]
  exact ⟨h, by simp only [admissibleKernel, h, bind, Except.bind]⟩

/-- The hypotheses of the theorems above hold for the two boxes. -/
example : ∃ t s O, MembersSeen twoBoxes 0 O t s ∧
    ∃ L a b, twoBoxes.tangentPoints 0 = .ok L ∧ (∀ p, p ∈ L ↔ p = a ∨ p = b) ∧ a ≠ b ∧
      SeenBetween {q | ∃ o ∈ twoBoxes.members, q ∈ O o} 0 a b := by
  classical
  set m1 := polygonMember lowBox (fun _ _ => .empty) 0 with hm1
  set m2 := polygonMember highBox (fun _ _ => .empty) 0 with hm2
  have e1 : m1.tangentPoints 0 = .ok [(2, -2), (1, -3)] := by simp only [hm1, polygonMember, lowBox_tangents.1]
  have e2 : m2.tangentPoints 0 = .ok [(1, 3), (2, 2)] := by simp only [hm2, polygonMember, highBox_tangents.1]
  have hne : m2 ≠ m1 := by
    intro h
    rw [h, e1] at e2
    injection e2 with e2
    norm_num at e2
  have hmem : twoBoxes.members = [m1, m2] := rfl
  have hseen : MembersSeen twoBoxes 0 (fun o => if o = m1 then polyRegion none lowBox else polyRegion none highBox)
      (fun o => if o = m1 then (2, -2) else (1, 3)) (fun o => if o = m1 then (1, -3) else (2, 2)) := by
    constructor <;> intro o ho <;> rw [hmem] at ho <;>
      simp only [List.mem_cons, List.not_mem_nil, or_false] at ho <;> rcases ho with rfl | rfl
    · simp [e1]
    · simp [e2, hne]
    · simpa using lowBox_tangents.2
    · simpa [hne] using highBox_tangents.2
    · norm_num [cross]
    · norm_num [cross, hne]
  refine ⟨_, _, _, hseen, C72_between_partial twoBoxes (by simp [hmem]) 0 (1, 0) _ _ _ hseen ?_ ?_⟩
  · intro o ho
    rw [hmem] at ho
    simp only [List.mem_cons, List.not_mem_nil, or_false] at ho
    rcases ho with rfl | rfl
    · norm_num [dot]
    · norm_num [dot, hne]
  · intro i j p q hij hp hq
    simp only [hmem, List.map_cons, List.map_nil, List.flatten_cons, List.flatten_nil, if_true, if_neg hne, List.cons_append,
      List.nil_append, List.append_nil] at hp hq
    have hlt : ∀ (n : ℕ) (z : Pt ℝ), ([(2, -2), (1, -3), (1, 3), (2, 2)] : List (Pt ℝ))[n]? = some z → n < 4 := by
      intro n z hz
      by_contra hc
      rw [List.getElem?_eq_none (by simp; omega)] at hz
      exact absurd hz (by simp)
    have hi := hlt i p hp
    have hj := hlt j q hq
    interval_cases i <;> interval_cases j <;> first | (exact absurd rfl hij) | skip
    all_goals
      simp only [List.getElem?_cons_zero, List.getElem?_cons_succ, Option.some.injEq] at hp hq
      subst hp hq
      norm_num [cross, abs_of_pos, abs_of_neg]

end Starworlds
