import Verif.Proofs.HullExists
import Verif.Proofs.KernelCertificate

/-! # Computing the intersections of segments with unions of triangles -/

namespace Starworlds

open Spec

/-- A triangle with rational corners. -/
structure TriQ where
  a : Pt ℚ
  b : Pt ℚ
  c : Pt ℚ

/-- The triangle, for corners in counter-clockwise order. -/
def TriQ.Has (T : TriQ) (x : Pt ℝ) : Prop :=
  0 ≤ cross (toReal T.b - toReal T.a) (x - toReal T.a) ∧ 0 ≤ cross (toReal T.c - toReal T.b) (x - toReal T.b) ∧
    0 ≤ cross (toReal T.a - toReal T.c) (x - toReal T.c)

/-- The parameters of `I` with `0 ≤ α + t β`. -/
def clipQ (α β : ℚ) (I : ℚ × ℚ) : ℚ × ℚ :=
  if 0 < β then (max I.1 (-α / β), I.2) else if β < 0 then (I.1, min I.2 (-α / β)) else if 0 ≤ α then I else (1, 0)

/-- The parameter is in the interval. -/
def InI (I : ℚ × ℚ) (t : ℝ) : Prop := (I.1 : ℝ) ≤ t ∧ t ≤ (I.2 : ℝ)

theorem clipQ_iff (α β : ℚ) (I : ℚ × ℚ) (t : ℝ) : InI (clipQ α β I) t ↔ InI I t ∧ 0 ≤ (α : ℝ) + t * β := by
  unfold clipQ InI
  split
  · rename_i h
    have h' : (0 : ℝ) < β := by exact_mod_cast h
    push_cast
    rw [max_le_iff, div_le_iff₀ h']
    constructor
    · rintro ⟨⟨h1, h2⟩, h3⟩; exact ⟨⟨h1, h3⟩, by linarith⟩
    · rintro ⟨⟨h1, h3⟩, h2⟩; exact ⟨⟨h1, by linarith⟩, h3⟩
  · split
    · rename_i h
      have h' : (β : ℝ) < 0 := by exact_mod_cast h
      push_cast
      rw [le_min_iff, le_div_iff_of_neg h']
      constructor
      · rintro ⟨h1, h2, h3⟩; exact ⟨⟨h1, h2⟩, by linarith⟩
      · rintro ⟨⟨h1, h3⟩, h2⟩; exact ⟨h1, h3, by linarith⟩
    · rename_i h1 h2
      have hb : β = 0 := le_antisymm (not_lt.1 h1) (not_lt.1 h2)
      subst hb
      split
      · rename_i h
        have h' : (0 : ℝ) ≤ α := by exact_mod_cast h
        simp [h']
      · rename_i h
        have h' : (α : ℝ) < 0 := by exact_mod_cast not_le.1 h
        simp only [Rat.cast_one, Rat.cast_zero, mul_zero, add_zero]
        constructor
        · rintro ⟨h1, h2⟩; linarith
        · rintro ⟨_, h2⟩; linarith

/-- The point of the segment. -/
def atQ (a b : Pt ℚ) (t : ℚ) : Pt ℚ := a + t • (b - a)

/-- The point of the segment, for real parameters. -/
noncomputable def atR (a b : Pt ℚ) (t : ℝ) : Pt ℝ := toReal a + t • (toReal b - toReal a)

theorem toReal_atQ (a b : Pt ℚ) (t : ℚ) : toReal (atQ a b t) = atR a b t := by
  simp [atQ, atR, toReal]

theorem onSegment_atR {a b : Pt ℚ} {x : Pt ℝ} : OnSegment (toReal a) (toReal b) x ↔ ∃ t : ℝ, (0 ≤ t ∧ t ≤ 1) ∧ x = atR a b t := by
  constructor
  · rintro ⟨t, h0, h1, rfl⟩; exact ⟨t, ⟨h0, h1⟩, rfl⟩
  · rintro ⟨t, ⟨h0, h1⟩, rfl⟩; exact ⟨t, h0, h1, rfl⟩

/-- One half plane. -/
def clipEdge (p q a b : Pt ℚ) (I : ℚ × ℚ) : ℚ × ℚ := clipQ (cross (q - p) (a - p)) (cross (q - p) (b - a)) I

theorem cross_atR (p q a b : Pt ℚ) (t : ℝ) : cross (toReal q - toReal p) (atR a b t - toReal p) =
    ((cross (q - p) (a - p) : ℚ) : ℝ) + t * ((cross (q - p) (b - a) : ℚ) : ℝ) := by
  simp [cross, atR, toReal]; ring

theorem clipEdge_iff (p q a b : Pt ℚ) (I : ℚ × ℚ) (t : ℝ) :
    InI (clipEdge p q a b I) t ↔ InI I t ∧ 0 ≤ cross (toReal q - toReal p) (atR a b t - toReal p) := by
  unfold clipEdge
  rw [clipQ_iff, cross_atR]

/-- The part of the segment in the triangle. -/
def pieceQ (T : TriQ) (a b : Pt ℚ) : ℚ × ℚ := clipEdge T.c T.a a b (clipEdge T.b T.c a b (clipEdge T.a T.b a b (0, 1)))

theorem pieceQ_iff (T : TriQ) (a b : Pt ℚ) (t : ℝ) : InI (pieceQ T a b) t ↔ (0 ≤ t ∧ t ≤ 1) ∧ T.Has (atR a b t) := by
  unfold pieceQ TriQ.Has
  rw [clipEdge_iff, clipEdge_iff, clipEdge_iff]
  simp only [InI, Rat.cast_zero, Rat.cast_one]
  tauto

/-- The parts of the segment in the triangles. -/
def piecesQ (Ts : List TriQ) (a b : Pt ℚ) : List (ℚ × ℚ) := (Ts.map fun T => pieceQ T a b).filter fun I => decide (I.1 ≤ I.2)

theorem piecesQ_iff (Ts : List TriQ) (a b : Pt ℚ) (t : ℝ) :
    (∃ I ∈ piecesQ Ts a b, InI I t) ↔ (0 ≤ t ∧ t ≤ 1) ∧ ∃ T ∈ Ts, T.Has (atR a b t) := by
  unfold piecesQ
  simp only [List.mem_filter, List.mem_map, decide_eq_true_eq]
  constructor
  · rintro ⟨_, ⟨⟨T, hT, rfl⟩, _⟩, h⟩
    have := (pieceQ_iff T a b t).1 h
    exact ⟨this.1, T, hT, this.2⟩
  · rintro ⟨h, T, hT, hx⟩
    have := (pieceQ_iff T a b t).2 ⟨h, hx⟩
    exact ⟨_, ⟨⟨T, hT, rfl⟩, by exact_mod_cast this.1.trans this.2⟩, this⟩

theorem piecesQ_le {Ts : List TriQ} {a b : Pt ℚ} {I : ℚ × ℚ} (h : I ∈ piecesQ Ts a b) : I.1 ≤ I.2 := by
  unfold piecesQ at h
  simpa using (List.mem_filter.1 h).2

/-- The set consists of the triangles. -/
def UnionOf (Ts : List TriQ) (S : Set (Pt ℝ)) : Prop := ∀ x, x ∈ S ↔ ∃ T ∈ Ts, T.Has x

/-- The segment does not meet the triangles. -/
def apartQ (Ts : List TriQ) (s : Pt ℚ × Pt ℚ) : Bool := (piecesQ Ts s.1 s.2).isEmpty

section
variable {Ts : List TriQ} {S : Set (Pt ℝ)} (hS : UnionOf Ts S)
include hS

theorem meet_iff (a b : Pt ℚ) (x : Pt ℝ) : (OnSegment (toReal a) (toReal b) x ∧ x ∈ S) ↔
    ∃ t : ℝ, (∃ I ∈ piecesQ Ts a b, InI I t) ∧ x = atR a b t := by
  simp only [onSegment_atR, piecesQ_iff]
  constructor
  · rintro ⟨⟨t, ht, rfl⟩, hx⟩
    exact ⟨t, ⟨ht, (hS _).1 hx⟩, rfl⟩
  · rintro ⟨t, ⟨ht, hx⟩, rfl⟩
    exact ⟨⟨t, ht, rfl⟩, (hS _).2 hx⟩

theorem apartQ_iff (s : Pt ℚ × Pt ℚ) : apartQ Ts s = true ↔ ∀ x, OnSegment (toReal s.1) (toReal s.2) x → x ∉ S := by
  unfold apartQ
  rw [List.isEmpty_iff, List.eq_nil_iff_forall_not_mem]
  constructor
  · intro h x hx hxS
    obtain ⟨t, ⟨I, hI, _⟩, _⟩ := (meet_iff hS s.1 s.2 x).1 ⟨hx, hxS⟩
    exact h I hI
  · intro h I hI
    obtain ⟨h1, h2⟩ := (meet_iff hS s.1 s.2 (atR s.1 s.2 I.1)).2 ⟨I.1, ⟨I, hI, le_rfl, by exact_mod_cast piecesQ_le hI⟩, rfl⟩
    exact h _ h1 h2

end

theorem atR_injective {a b : Pt ℚ} (h : a ≠ b) : Function.Injective (atR a b) := by
  intro s t e
  unfold atR at e
  have e' := add_left_cancel e
  have : (s - t) • (toReal b - toReal a) = 0 := by rw [sub_smul, e', sub_self]
  rcases smul_eq_zero.1 this with h' | h'
  · linarith
  · exact absurd (toReal_injective (sub_eq_zero.1 h')).symm h

theorem atR_comb (a b : Pt ℚ) (s t u : ℝ) : atR a b s + u • (atR a b t - atR a b s) = atR a b (s + u * (t - s)) := by
  unfold atR; module

/-- A strict inner point of a triangle is an inner point. -/
theorem tri_interior {Ts : List TriQ} {S : Set (Pt ℝ)} (hS : UnionOf Ts S) {T : TriQ} (hT : T ∈ Ts) {x : Pt ℝ}
    (h1 : 0 < cross (toReal T.b - toReal T.a) (x - toReal T.a)) (h2 : 0 < cross (toReal T.c - toReal T.b) (x - toReal T.b))
    (h3 : 0 < cross (toReal T.a - toReal T.c) (x - toReal T.c)) : x ∈ interior S := by
  rw [mem_interior]
  refine ⟨{y | 0 < cross (toReal T.b - toReal T.a) (y - toReal T.a) ∧ 0 < cross (toReal T.c - toReal T.b) (y - toReal T.b) ∧
    0 < cross (toReal T.a - toReal T.c) (y - toReal T.c)}, ?_, ?_, ⟨h1, h2, h3⟩⟩
  · rintro y ⟨g1, g2, g3⟩
    exact (hS y).2 ⟨T, hT, g1.le, g2.le, g3.le⟩
  · have hc : ∀ p q : Pt ℝ, IsOpen {y : Pt ℝ | 0 < cross q (y - p)} := by
      intro p q
      apply isOpen_lt continuous_const
      unfold cross
      fun_prop
    exact (hc _ _).inter ((hc _ _).inter (hc _ _))

/-- The parameter of the crossing with a line, if there is one. -/
def crossingQ (p q a b : Pt ℚ) : ℚ := -cross (q - p) (a - p) / cross (q - p) (b - a)

/-- The line through `p` and `q` does not contain the segment. -/
def notAlong (p q a b : Pt ℚ) : Bool := decide (cross (q - p) (b - a) ≠ 0 ∨ cross (q - p) (a - p) ≠ 0)

theorem crossingQ_eq {p q a b : Pt ℚ} (h : notAlong p q a b = true) {t : ℝ}
    (ht : cross (toReal q - toReal p) (atR a b t - toReal p) = 0) : t = crossingQ p q a b := by
  unfold notAlong at h
  rw [decide_eq_true_eq] at h
  rw [cross_atR] at ht
  have hb : cross (q - p) (b - a) ≠ 0 := by
    intro h0
    rw [h0] at ht
    rcases h with h | h
    · exact h h0
    · simp only [Rat.cast_zero, mul_zero, add_zero] at ht
      exact h (by exact_mod_cast ht)
  unfold crossingQ
  have hb' : ((cross (q - p) (b - a) : ℚ) : ℝ) ≠ 0 := by exact_mod_cast hb
  push_cast
  rw [eq_div_iff hb']
  linarith

/-- The edges of the triangles. -/
def edgesQ (Ts : List TriQ) : List (Pt ℚ × Pt ℚ) := Ts.flatMap fun T => [(T.a, T.b), (T.b, T.c), (T.c, T.a)]

/-- The parameters of the nodes that shapely may put on the segment. -/
def nodesQ (Ts : List TriQ) (a b : Pt ℚ) : List ℚ := [0, 1] ++ (edgesQ Ts).map fun e => crossingQ e.1 e.2 a b

theorem node_param {Ts : List TriQ} {S : Set (Pt ℝ)} (hS : UnionOf Ts S) {a b : Pt ℚ}
    (hal : (edgesQ Ts).all (fun e => notAlong e.1 e.2 a b) = true) {t : ℝ} (hx : atR a b t ∈ S)
    (h : atR a b t ∈ frontier S) : ∃ q ∈ nodesQ Ts a b, t = (q : ℝ) := by
  obtain ⟨T, hT, h1, h2, h3⟩ := (hS _).1 hx
  have edge : ∀ p q : Pt ℚ, (p, q) ∈ [(T.a, T.b), (T.b, T.c), (T.c, T.a)] →
      cross (toReal q - toReal p) (atR a b t - toReal p) = 0 → ∃ q ∈ nodesQ Ts a b, t = (q : ℝ) := by
    intro p q hpq h0
    have hm : (p, q) ∈ edgesQ Ts := List.mem_flatMap.2 ⟨T, hT, hpq⟩
    refine ⟨crossingQ p q a b, ?_, crossingQ_eq (List.all_eq_true.1 hal _ hm) h0⟩
    unfold nodesQ
    exact List.mem_append_right _ (List.mem_map.2 ⟨_, hm, rfl⟩)
  by_contra hno
  have g1 := lt_of_le_of_ne h1 (fun e => hno (edge _ _ (by simp) e.symm))
  have g2 := lt_of_le_of_ne h2 (fun e => hno (edge _ _ (by simp) e.symm))
  have g3 := lt_of_le_of_ne h3 (fun e => hno (edge _ _ (by simp) e.symm))
  exact h.2 (tri_interior hS hT g1 g2 g3)

/-- The triangles of a star-shaped polygon. -/
def fanQ (c : Pt ℚ) (v : List (Pt ℚ)) : List TriQ := (List.range v.length).map fun i => ⟨c, corner v i, corner v (i + 1)⟩

theorem tri_hull {a b c : Pt ℝ} (h : 0 < cross (b - a) (c - a)) (x : Pt ℝ) : x ∈ convexHull ℝ {a, b, c} ↔
    0 ≤ cross (b - a) (x - a) ∧ 0 ≤ cross (c - b) (x - b) ∧ 0 ≤ cross (a - c) (x - c) := by
  constructor
  · intro hx
    have half : ∀ p q : Pt ℝ, Convex ℝ {x : Pt ℝ | 0 ≤ cross (q - p) (x - p)} := by
      intro p q x hx y hy s t hs ht hst
      simp only [Set.mem_ofPred_eq] at *
      have : cross (q - p) (s • x + t • y - p) = s * cross (q - p) (x - p) + t * cross (q - p) (y - p) := by
        have ht' : t = 1 - s := by linarith
        subst ht'
        simp [cross]; ring
      rw [this]; positivity
    have g := fun (p q : Pt ℝ) (h1 : 0 ≤ cross (q - p) (a - p)) (h2 : 0 ≤ cross (q - p) (b - p)) (h3 : 0 ≤ cross (q - p) (c - p)) =>
      convexHull_min (s := {a, b, c}) (t := {x : Pt ℝ | 0 ≤ cross (q - p) (x - p)})
        (by rintro y (rfl | rfl | rfl) <;> assumption) (half p q) hx
    simp only [cross, Prod.fst_sub, Prod.snd_sub] at h
    refine ⟨g a b ?_ ?_ ?_, g b c ?_ ?_ ?_, g c a ?_ ?_ ?_⟩ <;> simp only [cross, Prod.fst_sub, Prod.snd_sub] <;> nlinarith
  · rintro ⟨h1, h2, h3⟩
    obtain ⟨d, hd⟩ : ∃ d, cross (b - a) (c - a) = d := ⟨_, rfl⟩
    rw [hd] at h
    have hr := convex_convexHull ℝ ({a, b, c} : Set (Pt ℝ))
    have ha : a ∈ convexHull ℝ ({a, b, c} : Set (Pt ℝ)) := subset_convexHull ℝ _ (by simp)
    have hb : b ∈ convexHull ℝ ({a, b, c} : Set (Pt ℝ)) := subset_convexHull ℝ _ (by simp)
    have hc : c ∈ convexHull ℝ ({a, b, c} : Set (Pt ℝ)) := subset_convexHull ℝ _ (by simp)
    have hsum : cross (c - b) (x - b) + cross (a - c) (x - c) + cross (b - a) (x - a) = d := by
      rw [← hd]; simp [cross]; ring
    have hx : x = (cross (c - b) (x - b) / d) • a + (cross (a - c) (x - c) / d) • b + (cross (b - a) (x - a) / d) • c := by
      have hd0 := h.ne'
      ext
      · simp only [Prod.fst_add, Prod.smul_fst, smul_eq_mul]
        field_simp
        rw [← hd]; simp [cross]; ring
      · simp only [Prod.snd_add, Prod.smul_snd, smul_eq_mul]
        field_simp
        rw [← hd]; simp [cross]; ring
    have := hr.sum_mem (t := (Finset.univ : Finset (Fin 3))) (w := ![cross (c - b) (x - b) / d, cross (a - c) (x - c) / d, cross (b - a) (x - a) / d])
      (z := ![a, b, c]) (by intro i _; fin_cases i <;> simp <;> positivity)
      (by simp [Fin.sum_univ_three]; rw [← add_div, ← add_div, hsum, div_self h.ne'])
      (by intro i _; fin_cases i <;> simp <;> assumption)
    rw [hx]
    simpa [Fin.sum_univ_three] using this

theorem fan_union {c : Pt ℚ} {v : List (Pt ℚ)} (h : goesAround c v = true) : UnionOf (fanQ c v) (filled (v.map toReal)) := by
  have hs := starAbout_rat h
  intro x
  rw [star_triangles hs]
  unfold fanQ
  simp only [List.mem_map, List.mem_range, List.length_map]
  constructor
  · rintro ⟨i, hi, hx⟩
    refine ⟨_, ⟨i, hi, rfl⟩, ?_⟩
    have hp := (star_sectors hs).pos i (by simpa using hi)
    exact (by simpa only [corner_toReal, TriQ.Has] using (tri_hull hp x).1 hx)
  · rintro ⟨_, ⟨i, hi, rfl⟩, hx⟩
    refine ⟨i, hi, ?_⟩
    have hp := (star_sectors hs).pos i (by simpa using hi)
    exact (tri_hull hp x).2 (by simpa only [corner_toReal, TriQ.Has] using hx)

end Starworlds
