import Verif.Proofs.HullStar
import Mathlib.Analysis.Convex.Topology
import Mathlib.Analysis.Convex.Join
import Mathlib.Topology.Order.IntermediateValue

/-! # Shapely operations with the right meaning exist -/

namespace Starworlds

open Real Spec

/-- Finitely many points and paths. -/
def FinitePaths (S : Set (Pt ℝ)) : Prop :=
  ∃ (ps : List (Pt ℝ)) (ls : List (List (Pt ℝ))), S = {p | p ∈ ps ∨ ∃ l ∈ ls, p ∈ pathPoints l} ∧ ∀ l ∈ ls, ∃ p ∈ l, ∃ q ∈ l, p ≠ q

theorem finitePaths_empty : FinitePaths ∅ := ⟨[], [], by ext; simp, by simp⟩

theorem finitePaths_union {S T : Set (Pt ℝ)} (h : FinitePaths S) (h' : FinitePaths T) : FinitePaths (S ∪ T) := by
  obtain ⟨ps, ls, rfl, hl⟩ := h
  obtain ⟨ps', ls', rfl, hl'⟩ := h'
  refine ⟨ps ++ ps', ls ++ ls', ?_, ?_⟩
  · ext p
    simp only [Set.mem_union, Set.mem_ofPred_eq, List.mem_append, or_and_right, exists_or]
    exact or_or_or_comm
  · intro l hm
    rcases List.mem_append.1 hm with hm | hm
    · exact hl l hm
    · exact hl' l hm

theorem finitePaths_meet {S : Set (Pt ℝ)} (h : FinitePaths S) : ∃ m, MeetIs m S := by
  obtain ⟨ps, ls, e, hl⟩ := h
  by_cases h0 : ps = [] ∧ ls = []
  · exact ⟨.empty, by rw [e, h0.1, h0.2]; simp [MeetIs]⟩
  · exact ⟨.collection ps ls, e, by tauto, hl⟩

theorem path_pair (p q : Pt ℝ) : pathPoints [p, q] = {x | OnSegment p q x} := by
  ext x
  constructor
  · rintro ⟨i, hi, h⟩
    have : i = 0 := by simp at hi; omega
    subst this
    simpa using h
  · intro h
    exact ⟨0, by simp, by simpa using h⟩

theorem finitePaths_segment (p q : Pt ℝ) : FinitePaths {x | OnSegment p q x} := by
  by_cases h : p = q
  · refine ⟨[p], [], ?_, by simp⟩
    ext x
    subst h
    constructor
    · rintro ⟨t, _, _, rfl⟩; simp
    · intro hx
      have : x = p := by simpa using hx
      exact ⟨0, le_rfl, zero_le_one, by simp [this]⟩
  · refine ⟨[], [[p, q]], ?_, ?_⟩
    · ext x; simp [path_pair]
    · intro l hl
      rw [List.mem_singleton.1 hl]
      exact ⟨p, by simp, q, by simp, h⟩

theorem finitePaths_convex {C : Set (Pt ℝ)} (hc : IsCompact C) (hC : Convex ℝ C) (a b : Pt ℝ) :
    FinitePaths {x | OnSegment a b x ∧ x ∈ C} := by
  obtain ⟨f, hf⟩ : ∃ f : ℝ → Pt ℝ, f = fun t => a + t • (b - a) := ⟨_, rfl⟩
  have hcont : Continuous f := by rw [hf]; fun_prop
  obtain ⟨T, hT⟩ : ∃ T : Set ℝ, T = Set.Icc 0 1 ∩ f ⁻¹' C := ⟨_, rfl⟩
  have hTc : IsCompact T := by rw [hT]; exact isCompact_Icc.inter_right (hc.isClosed.preimage hcont)
  have hTx : Convex ℝ T := by
    rw [hT]
    refine (convex_Icc 0 1).inter ?_
    intro s hs t ht m n hm hn hmn
    rw [Set.mem_preimage] at *
    have := hC hs ht hm hn hmn
    convert this using 1
    have hn' : n = 1 - m := by linarith
    rw [hf, hn']
    simp only [smul_eq_mul]
    module
  have e : {x | OnSegment a b x ∧ x ∈ C} = f '' T := by
    ext x
    rw [hT, hf]
    constructor
    · rintro ⟨⟨t, h0, h1, rfl⟩, hx⟩
      exact ⟨t, ⟨⟨h0, h1⟩, hx⟩, rfl⟩
    · rintro ⟨t, ⟨⟨h0, h1⟩, hx⟩, rfl⟩
      exact ⟨⟨t, h0, h1, rfl⟩, hx⟩
  rw [e]
  rcases T.eq_empty_or_nonempty with h | h
  · rw [h, Set.image_empty]; exact finitePaths_empty
  · have hI := eq_Icc_of_connected_compact ⟨h, hTx.isPreconnected⟩ hTc
    have hle : sInf T ≤ sSup T := by
      have := h
      rw [hI, Set.nonempty_Icc] at this
      exact this
    have : f '' T = {x | OnSegment (f (sInf T)) (f (sSup T)) x} := by
      obtain ⟨s, hs⟩ : ∃ s, sInf T = s := ⟨_, rfl⟩
      obtain ⟨u, hu⟩ : ∃ u, sSup T = u := ⟨_, rfl⟩
      rw [hs, hu] at hI hle ⊢
      rw [hI]
      ext x
      constructor
      · rintro ⟨t, ⟨h0, h1⟩, rfl⟩
        rcases hle.eq_or_lt with heq | hlt
        · have : t = s := le_antisymm (by linarith) h0
          exact ⟨0, le_rfl, zero_le_one, by rw [this]; simp⟩
        · have hd : 0 < u - s := sub_pos.2 hlt
          refine ⟨(t - s) / (u - s), div_nonneg (by linarith) hd.le, by rw [div_le_one hd]; linarith, ?_⟩
          have : t = s + (t - s) / (u - s) * (u - s) := by rw [div_mul_cancel₀ _ hd.ne']; ring
          rw [hf]
          simp only
          conv_lhs => rw [this]
          module
      · rintro ⟨t, h0, h1, rfl⟩
        refine ⟨s + t * (u - s), ⟨by nlinarith, by nlinarith⟩, ?_⟩
        rw [hf]
        simp only
        module
    rw [this]
    exact finitePaths_segment _ _

theorem segment_set (a b : Pt ℝ) : {x | OnSegment a b x} = segment ℝ a b := by
  rw [segment_eq_image']
  ext x
  constructor
  · rintro ⟨t, h0, h1, rfl⟩; exact ⟨t, ⟨h0, h1⟩, rfl⟩
  · rintro ⟨t, ⟨h0, h1⟩, rfl⟩; exact ⟨t, h0, h1, rfl⟩

/-- A star-shaped polygon consists of the triangles with a corner in the centre. -/
theorem star_triangles {c : Pt ℝ} {v : List (Pt ℝ)} (h : StarAbout c v) (p : Pt ℝ) :
    p ∈ filled v ↔ ∃ i < v.length, p ∈ convexHull ℝ {c, corner v i, corner v (i + 1)} := by
  rw [star_filled h]
  have key : ∀ i, p ∈ convexHull ℝ {c, corner v i, corner v (i + 1)} ↔
      ∃ q, OnSegment (corner v i) (corner v (i + 1)) q ∧ ∃ t : ℝ, 0 ≤ t ∧ t ≤ 1 ∧ p = c + t • (q - c) := by
    intro i
    rw [convexHull_insert (by simp), convexHull_pair, mem_convexJoin]
    simp only [Set.mem_singleton_iff, exists_eq_left, ← segment_set, Set.mem_ofPred_eq]
    rfl
  constructor
  · rintro ⟨q, ⟨i, hi, hq⟩, ht⟩
    exact ⟨i, hi, (key i).2 ⟨q, hq, ht⟩⟩
  · rintro ⟨i, hi, hp⟩
    obtain ⟨q, hq, ht⟩ := (key i).1 hp
    exact ⟨q, ⟨i, hi, hq⟩, ht⟩

theorem finitePaths_star {c : Pt ℝ} {v : List (Pt ℝ)} (h : StarAbout c v) (a b : Pt ℝ) :
    FinitePaths {x | OnSegment a b x ∧ x ∈ filled v} := by
  have key : ∀ n, FinitePaths {x | OnSegment a b x ∧ ∃ i < n, x ∈ convexHull ℝ {c, corner v i, corner v (i + 1)}} := by
    intro n
    induction n with
    | zero => simpa using finitePaths_empty
    | succ n ih =>
      have e : {x | OnSegment a b x ∧ ∃ i < n + 1, x ∈ convexHull ℝ {c, corner v i, corner v (i + 1)}} =
          {x | OnSegment a b x ∧ ∃ i < n, x ∈ convexHull ℝ {c, corner v i, corner v (i + 1)}} ∪
          {x | OnSegment a b x ∧ x ∈ convexHull ℝ {c, corner v n, corner v (n + 1)}} := by
        ext x
        simp only [Set.mem_union, Set.mem_ofPred_eq, Nat.lt_succ_iff_lt_or_eq, or_and_right, exists_or, exists_eq_left]
        exact and_or_left
      rw [e]
      exact finitePaths_union ih (finitePaths_convex ((Set.toFinite _).isCompact_convexHull ℝ) (convex_convexHull ℝ _) a b)
  have := key v.length
  simpa only [← star_triangles h] using this

open scoped Classical in
/-- The shapely operations exist for every star-shaped polygon and all kernel points. -/
theorem hullMeaning_exists {c : Pt ℝ} {v : List (Pt ℝ)} (h : StarAbout c v) (ks : List (Pt ℝ)) :
    ∃ ops, HullMeaning ops (filled v) ks := by
  have h1 := fun a b => finitePaths_meet (finitePaths_star h a b)
  have h2 : ∀ s t : Pt ℝ × Pt ℝ, ∃ m, MeetIs m {x | OnSegment s.1 s.2 x ∧ OnSegment t.1 t.2 x} := by
    intro s t
    have hset : {x | OnSegment s.1 s.2 x ∧ OnSegment t.1 t.2 x} = {x | OnSegment s.1 s.2 x ∧ x ∈ segment ℝ t.1 t.2} := by
      rw [← segment_set]; rfl
    rw [hset]
    refine finitePaths_meet (finitePaths_convex ?_ (convex_segment _ _) _ _)
    rw [← convexHull_pair]
    exact (Set.toFinite _).isCompact_convexHull ℝ
  choose f hf using h1
  choose g hg using h2
  exact ⟨⟨fun a b => decide (∀ x, OnSegment a b x → x ∉ filled v), f, g,
    fun p => decide (p ∈ interior (convexHull ℝ {k | k ∈ ks}))⟩, ⟨fun a b => decide_eq_true_iff, hf, hg, fun p => decide_eq_true_iff⟩⟩

end Starworlds
