import Verif.Proofs.HullRunGeometry
import Mathlib.Tactic.Rify

/-!
# Running polygon_kernel_starshaped_hull on rational polygons

`hullQ` follows `polygonKernelHull` on rational points, with shapely's operations replaced by exact computation. It gives up (`none`) where
shapely's answer is not determined by its meaning, and where the model raises an error.
-/

namespace Starworlds

open Spec

/-! ## Intersections of two segments -/

/-- The intersection of two segments: nothing, or one point. -/
def meetLineQ (s t : Pt ℚ × Pt ℚ) : Option (Option (Pt ℚ)) :=
  let d := s.2 - s.1
  let f := t.2 - t.1
  let g := t.1 - s.1
  if cross d f ≠ 0 then
    if 0 ≤ cross g f / cross d f ∧ cross g f / cross d f ≤ 1 ∧ 0 ≤ cross g d / cross d f ∧ cross g d / cross d f ≤ 1 then
      some (some (s.1 + (cross g f / cross d f) • d))
    else some none
  else if cross g d ≠ 0 ∨ cross g f ≠ 0 then some none
  else if (dot g d < 0 ∧ dot (t.2 - s.1) d < 0) ∨ (dot d d < dot g d ∧ dot d d < dot (t.2 - s.1) d) then some none
  else none

/-- The segment with real end points. -/
noncomputable def segR (s : Pt ℚ × Pt ℚ) : Pt ℝ × Pt ℝ := (toReal s.1, toReal s.2)

theorem meetLineQ_none {s t : Pt ℚ × Pt ℚ} (h : meetLineQ s t = some none) :
    {x | OnSegment (segR s).1 (segR s).2 x ∧ OnSegment (segR t).1 (segR t).2 x} = ∅ := by
  rw [Set.eq_empty_iff_forall_notMem]
  rintro x ⟨⟨u, hu0, hu1, e1⟩, ⟨w, hw0, hw1, e2⟩⟩
  simp only [segR] at e1 e2
  have e : toReal t.1 - toReal s.1 = u • (toReal s.2 - toReal s.1) - w • (toReal t.2 - toReal t.1) := by
    exact (congrArg₂ (· - ·) (eq_sub_of_add_eq e2.symm) (eq_sub_of_add_eq e1.symm)).trans (by abel)
  have c1 : cross (toReal t.1 - toReal s.1) (toReal t.2 - toReal t.1) =
      u * cross (toReal s.2 - toReal s.1) (toReal t.2 - toReal t.1) := by
    rw [e]; simp [cross]; ring
  have c2 : cross (toReal t.1 - toReal s.1) (toReal s.2 - toReal s.1) =
      w * cross (toReal s.2 - toReal s.1) (toReal t.2 - toReal t.1) := by
    rw [e]; simp [cross]; ring
  have c3 : dot (toReal t.1 - toReal s.1) (toReal s.2 - toReal s.1) + w * dot (toReal t.2 - toReal t.1) (toReal s.2 - toReal s.1) =
      u * dot (toReal s.2 - toReal s.1) (toReal s.2 - toReal s.1) := by
    rw [e]; simp [dot]; ring
  have c4 : dot (toReal t.2 - toReal s.1) (toReal s.2 - toReal s.1) =
      dot (toReal t.1 - toReal s.1) (toReal s.2 - toReal s.1) + dot (toReal t.2 - toReal t.1) (toReal s.2 - toReal s.1) := by
    simp [dot]; ring
  simp only [← toReal_sub, cross_toReal, dot_toReal] at c1 c2 c3 c4
  unfold meetLineQ at h
  simp only at h
  split at h
  · rename_i hd
    have hd' : ((cross (s.2 - s.1) (t.2 - t.1) : ℚ) : ℝ) ≠ 0 := by exact_mod_cast hd
    rw [← div_eq_iff hd'] at c1 c2
    split at h
    · simp at h
    · rename_i hn
      apply hn
      refine ⟨?_, ?_, ?_, ?_⟩ <;> rify
      · rw [c1]; exact hu0
      · rw [c1]; exact hu1
      · rw [c2]; exact hw0
      · rw [c2]; exact hw1
  · rename_i hd
    rw [not_not] at hd
    rw [hd] at c1 c2
    split at h
    · rename_i hn
      simp only [Rat.cast_zero, mul_zero, Rat.cast_eq_zero] at c1 c2
      rcases hn with hn | hn
      · exact hn c2
      · exact hn c1
    · split at h
      · rename_i hn
        have hdd : (0 : ℝ) ≤ ((dot (s.2 - s.1) (s.2 - s.1) : ℚ) : ℝ) := by
          have : 0 ≤ dot (s.2 - s.1) (s.2 - s.1) := by simp only [dot]; exact add_nonneg (mul_self_nonneg _) (mul_self_nonneg _)
          exact_mod_cast this
        rcases hn with ⟨g1, g2⟩ | ⟨g1, g2⟩
        · rify at g1 g2
          have hp := mul_nonneg hu0 hdd
          rcases le_total 0 ((dot (t.2 - t.1) (s.2 - s.1) : ℚ) : ℝ) with hD | hD
          · have := mul_le_of_le_one_left hD hw1
            linarith
          · have := mul_nonpos_of_nonneg_of_nonpos hw0 hD
            linarith
        · rify at g1 g2
          have hp := mul_le_of_le_one_left hdd hu1
          rcases le_total 0 ((dot (t.2 - t.1) (s.2 - s.1) : ℚ) : ℝ) with hD | hD
          · have := mul_nonneg hw0 hD
            linarith
          · have := mul_le_mul_of_nonpos_right hw1 hD
            linarith
      · simp at h

theorem meetLineQ_some {s t : Pt ℚ × Pt ℚ} {p : Pt ℚ} (h : meetLineQ s t = some (some p)) :
    {x | OnSegment (segR s).1 (segR s).2 x ∧ OnSegment (segR t).1 (segR t).2 x} = {toReal p} := by
  unfold meetLineQ at h
  simp only at h
  split at h
  · rename_i hd
    split at h
    · rename_i hn
      obtain ⟨n1, n2, n3, n4⟩ := hn
      have hp : p = s.1 + (cross (t.1 - s.1) (t.2 - t.1) / cross (s.2 - s.1) (t.2 - t.1)) • (s.2 - s.1) := by
        have := h; simp only [Option.some.injEq] at this; exact this.symm
      have hp' : p = t.1 + (cross (t.1 - s.1) (s.2 - s.1) / cross (s.2 - s.1) (t.2 - t.1)) • (t.2 - t.1) := by
        rw [hp]
        ext
        · simp only [Prod.fst_add, Prod.smul_fst, smul_eq_mul]
          field_simp
          simp [cross]; ring
        · simp only [Prod.snd_add, Prod.smul_snd, smul_eq_mul]
          field_simp
          simp [cross]; ring
      ext x
      constructor
      · rintro ⟨⟨u, hu0, hu1, e1⟩, ⟨w, hw0, hw1, e2⟩⟩
        simp only [segR] at e1 e2
        have c1 : cross (toReal t.1 - toReal s.1) (toReal t.2 - toReal t.1) =
            u * cross (toReal s.2 - toReal s.1) (toReal t.2 - toReal t.1) := by
          have e : toReal t.1 = toReal s.1 + u • (toReal s.2 - toReal s.1) - w • (toReal t.2 - toReal t.1) := by
            rw [eq_sub_iff_add_eq, ← e1, e2]
          have : toReal t.1 - toReal s.1 = u • (toReal s.2 - toReal s.1) - w • (toReal t.2 - toReal t.1) := by
            rw [sub_eq_iff_eq_add]
            refine e.trans ?_
            abel
          rw [this]; simp [cross]; ring
        simp only [← toReal_sub, cross_toReal] at c1
        have hd' : ((cross (s.2 - s.1) (t.2 - t.1) : ℚ) : ℝ) ≠ 0 := by exact_mod_cast hd
        rw [← div_eq_iff hd'] at c1
        rw [Set.mem_singleton_iff, e1, hp, ← c1]
        simp [toReal]
      · rintro rfl
        constructor
        · refine ⟨((cross (t.1 - s.1) (t.2 - t.1) / cross (s.2 - s.1) (t.2 - t.1) : ℚ) : ℝ), by exact_mod_cast n1, by exact_mod_cast n2, ?_⟩
          conv_lhs => rw [hp]
          simp [toReal, segR]
        · refine ⟨((cross (t.1 - s.1) (s.2 - s.1) / cross (s.2 - s.1) (t.2 - t.1) : ℚ) : ℝ), by exact_mod_cast n3, by exact_mod_cast n4, ?_⟩
          conv_lhs => rw [hp']
          simp [toReal, segR]
    · simp at h
  · split at h
    · simp at h
    · split at h <;> simp at h

/-- A plain description of a single point is that point. -/
theorem meet_single {m : Meet} {p : Pt ℝ} (h : MeetIs m {p}) (hp : MeetPlain m {p}) : m = .point p := by
  have two : ∀ q r, q ∈ nodesOf m → r ∈ nodesOf m → q ≠ r → False := by
    intro q r hq hr hne
    have h1 := meetIs_nodes h hq
    have h2 := meetIs_nodes h hr
    rw [Set.mem_singleton_iff] at h1 h2
    exact hne (h1.trans h2.symm)
  cases m with
  | empty => exact absurd (show ({p} : Set (Pt ℝ)) = ∅ from h) (Set.singleton_ne_empty p)
  | point q =>
    have : p ∈ ({q} : Set (Pt ℝ)) := by rw [← show ({p} : Set (Pt ℝ)) = {q} from h]; rfl
    rw [Set.mem_singleton_iff.1 this]
  | multiPoint l =>
    obtain ⟨q, hq, r, hr, hne⟩ := hp
    exact (two q r hq hr hne).elim
  | lineString l =>
    obtain ⟨q, hq, r, hr, hne⟩ := h.2
    exact (two q r hq hr hne).elim
  | multiLineString ls =>
    obtain ⟨l, hl⟩ := List.exists_mem_of_ne_nil _ h.2.1
    obtain ⟨q, hq, r, hr, hne⟩ := h.2.2 l hl
    exact (two q r (List.mem_flatten.2 ⟨l, hl, hq⟩) (List.mem_flatten.2 ⟨l, hl, hr⟩) hne).elim
  | collection ps ls =>
    obtain ⟨l, hl⟩ := List.exists_mem_of_ne_nil _ hp.2.1
    obtain ⟨q, hq, r, hr, hne⟩ := h.2.2 l hl
    exact (two q r (List.mem_append_right _ (List.mem_flatten.2 ⟨l, hl, hq⟩)) (List.mem_append_right _ (List.mem_flatten.2 ⟨l, hl, hr⟩)) hne).elim

/-! ## The point from which the rest of the line is free -/

/-- The largest parameter in the intervals. -/
def lastQ (l : List (ℚ × ℚ)) : ℚ := l.foldl (fun m I => max m I.2) 0

theorem lastQ_le_aux (l : List (ℚ × ℚ)) (m : ℚ) : m ≤ l.foldl (fun m I => max m I.2) m := by
  induction l generalizing m with
  | nil => exact le_rfl
  | cons a l ih => exact (le_max_left _ _).trans (ih _)

theorem lastQ_le {l : List (ℚ × ℚ)} {I : ℚ × ℚ} (h : I ∈ l) : I.2 ≤ lastQ l := by
  unfold lastQ
  generalize (0 : ℚ) = m
  induction l generalizing m with
  | nil => cases h
  | cons a l ih =>
    rcases List.mem_cons.1 h with rfl | h
    · exact (le_max_right _ _).trans (lastQ_le_aux _ _)
    · exact ih h _

/-- utils/cg.py:28-29 on rational points. -/
def openLineQ (a b : Pt ℚ) : Pt ℚ × Pt ℚ := (a + (1 / 10 ^ 4 : ℚ) • (b - a), a + (9999 / 10 ^ 4 : ℚ) • (b - a))

/-- utils/cg.py:43-44 on rational points. -/
def openRayQ (a b c : Pt ℚ) : Pt ℚ × Pt ℚ := (a + (1 / 10 ^ 4 : ℚ) • (c - b), a + (10 ^ 5 : ℚ) • (c - b))

theorem openLineQ_real (a b : Pt ℚ) : openLine (toReal a) (toReal b) = segR (openLineQ a b) := by
  simp [openLine, openLineQ, segR, toReal]

theorem openRayQ_real (a b c : Pt ℚ) : openRay (toReal a) (toReal b) (toReal c) = segR (openRayQ a b c) := by
  simp [openRay, openRayQ, segR, toReal]

/-- The `u` of starshaped_hull.py:107-120 for the segment `s` and the vertex `v`. -/
def findU (Ts : List TriQ) (s : Pt ℚ × Pt ℚ) (v : Pt ℚ) : Option (Option (Pt ℚ)) :=
  let ps := piecesQ Ts s.1 s.2
  if s.1 ≠ s.2 ∧ (ps.all fun I => ps.any fun J => decide (J.1 < J.2 ∧ J.1 ≤ I.1 ∧ I.2 ≤ J.2)) = true ∧
      ((edgesQ Ts).all fun e => notAlong e.1 e.2 s.1 s.2) = true then
    let good := (nodesQ Ts s.1 s.2).filter fun t =>
      (ps.any fun I => decide (I.1 ≤ t ∧ t ≤ I.2)) && apartQ Ts (openLineQ (atQ s.1 s.2 t) v)
    if good = [] then some none
    else if (good.all fun t => decide (t = lastQ ps)) = true then some (some (atQ s.1 s.2 (lastQ ps)))
    else none
  else none

section
variable {Ts : List TriQ} {S : Set (Pt ℝ)} (hS : UnionOf Ts S)
include hS

/-- Without isolated points the description consists of lines. -/
theorem meet_lines {s : Pt ℚ × Pt ℚ} (hne : s.1 ≠ s.2) (h0 : piecesQ Ts s.1 s.2 ≠ [])
    (hlong : (piecesQ Ts s.1 s.2).all (fun I => (piecesQ Ts s.1 s.2).any fun J => decide (J.1 < J.2 ∧ J.1 ≤ I.1 ∧ I.2 ≤ J.2)) = true)
    {m : Meet} (hm : MeetIs m {x | OnSegment (toReal s.1) (toReal s.2) x ∧ x ∈ S})
    (hp : MeetPlain m {x | OnSegment (toReal s.1) (toReal s.2) x ∧ x ∈ S}) :
    ∃ ls : List (List (Pt ℝ)), {x | OnSegment (toReal s.1) (toReal s.2) x ∧ x ∈ S} = {p | ∃ l ∈ ls, p ∈ pathPoints l} ∧
      (∀ l ∈ ls, ∃ p ∈ l, ∃ q ∈ l, p ≠ q) ∧ m.candidates = ls.flatten := by
  have inj := atR_injective hne
  have near : ∀ x, OnSegment (toReal s.1) (toReal s.2) x ∧ x ∈ S → ∃ J : ℚ × ℚ, J ∈ piecesQ Ts s.1 s.2 ∧ J.1 < J.2 ∧
      ∃ t : ℝ, InI J t ∧ x = atR s.1 s.2 t := by
    intro x hx
    obtain ⟨t, ⟨I, hI, h1, h2⟩, rfl⟩ := (meet_iff hS s.1 s.2 x).1 hx
    obtain ⟨J, hJ, hJ'⟩ := List.any_eq_true.1 (List.all_eq_true.1 hlong I hI)
    rw [decide_eq_true_eq] at hJ'
    obtain ⟨j1, j2, j3⟩ := hJ'
    rify at j2 j3
    exact ⟨J, hJ, j1, t, ⟨j2.trans h1, h2.trans j3⟩, rfl⟩
  have mem : ∀ J ∈ piecesQ Ts s.1 s.2, ∀ t : ℝ, InI J t → atR s.1 s.2 t ∈ {x | OnSegment (toReal s.1) (toReal s.2) x ∧ x ∈ S} :=
    fun J hJ t ht => (meet_iff hS s.1 s.2 _).2 ⟨t, ⟨J, hJ, ht⟩, rfl⟩
  have hinf : Set.Infinite {x | OnSegment (toReal s.1) (toReal s.2) x ∧ x ∈ S} := by
    obtain ⟨I, hI⟩ := List.exists_mem_of_ne_nil _ h0
    obtain ⟨J, hJ, hJ'⟩ := List.any_eq_true.1 (List.all_eq_true.1 hlong I hI)
    rw [decide_eq_true_eq] at hJ'
    have hlt : (J.1 : ℝ) < J.2 := by exact_mod_cast hJ'.1
    have := (Set.Icc_infinite hlt).image inj.injOn
    refine this.mono ?_
    rintro _ ⟨t, ht, rfl⟩
    exact mem J hJ t ht
  cases m with
  | empty => exact absurd Set.finite_empty ((show {x | OnSegment (toReal s.1) (toReal s.2) x ∧ x ∈ S} = ∅ from hm) ▸ hinf)
  | point q => exact absurd (Set.finite_singleton q) ((show {x | OnSegment (toReal s.1) (toReal s.2) x ∧ x ∈ S} = {q} from hm) ▸ hinf)
  | multiPoint l => rw [hm.1] at hinf; exact absurd (List.finite_toSet l) hinf
  | lineString l => exact ⟨[l], by rw [hm.1]; simp, by simpa using hm.2, by simp [Meet.candidates]⟩
  | multiLineString ls => exact ⟨ls, hm.1, hm.2.2, rfl⟩
  | collection ps ls =>
    exfalso
    obtain ⟨p, hpm⟩ := List.exists_mem_of_ne_nil _ hp.1
    obtain ⟨ε, hε, hiso⟩ := hp.2.2 p hpm
    have hpS : p ∈ {x | OnSegment (toReal s.1) (toReal s.2) x ∧ x ∈ S} := by rw [hm.1]; exact Or.inl hpm
    obtain ⟨J, hJ, hlt, t, ht, rfl⟩ := near p hpS
    have hlt' : (J.1 : ℝ) < J.2 := by exact_mod_cast hlt
    have hcont : Continuous (atR s.1 s.2) := by unfold atR; fun_prop
    obtain ⟨δ, hδ, hδ'⟩ := Metric.continuous_iff.1 hcont t ε hε
    obtain ⟨u, hu, hne', hdist⟩ : ∃ u, InI J u ∧ u ≠ t ∧ dist u t < δ := by
      rcases lt_or_ge t J.2 with h | h
      · refine ⟨min (t + δ / 2) J.2, ⟨le_min (by linarith [ht.1]) hlt'.le, min_le_right _ _⟩, ?_, ?_⟩
        · exact (lt_min (by linarith) h).ne'
        · rw [Real.dist_eq, abs_of_nonneg (sub_nonneg.2 (le_min (by linarith) h.le))]
          have := min_le_left (t + δ / 2) (J.2 : ℝ)
          linarith
      · have e : t = J.2 := le_antisymm ht.2 h
        refine ⟨max (t - δ / 2) J.1, ⟨le_max_right _ _, max_le (by linarith) hlt'.le⟩, ?_, ?_⟩
        · exact (max_lt (by linarith) (by linarith)).ne
        · rw [Real.dist_eq, abs_of_nonpos (sub_nonpos.2 (max_le (by linarith) (by linarith)))]
          have := le_max_left (t - δ / 2) (J.1 : ℝ)
          linarith
    exact hne' (inj (hiso _ (mem J hJ u hu) (hδ' u hdist)))

theorem findU_sound {ops : HullOps} {ks : List (Pt ℝ)} (ho : HullMeaning ops S ks) (hpl : HullPlain ops S) {s : Pt ℚ × Pt ℚ} {v : Pt ℚ}
    (h0 : piecesQ Ts s.1 s.2 ≠ []) {r : Option (Pt ℚ)} (h : findU Ts s v = some r) :
    (ops.meetPolygon (segR s).1 (segR s).2).candidates.find?
      (fun u => ops.disjoint (openLine u (toReal v)).1 (openLine u (toReal v)).2) = r.map toReal := by
  unfold findU at h
  simp only at h
  split at h
  swap
  · simp at h
  rename_i hc
  obtain ⟨hne, hlong, hal⟩ := hc
  have inj := atR_injective hne
  obtain ⟨ls, hset, htwo, hcand⟩ := meet_lines hS hne h0 hlong (ho.polygon _ _) (hpl.polygon _ _)
  have hdis : ∀ t : ℚ, ops.disjoint (openLine (toReal (atQ s.1 s.2 t)) (toReal v)).1 (openLine (toReal (atQ s.1 s.2 t)) (toReal v)).2 =
      apartQ Ts (openLineQ (atQ s.1 s.2 t) v) := by
    intro t
    rw [openLineQ_real, Bool.eq_iff_iff, ho.disjoint, apartQ_iff hS]
    rfl
  -- every candidate is one of the nodes
  have cand : ∀ x ∈ (ops.meetPolygon (toReal s.1) (toReal s.2)).candidates, ∃ q ∈ nodesQ Ts s.1 s.2, x = toReal (atQ s.1 s.2 q) ∧
      ((piecesQ Ts s.1 s.2).any fun I => decide (I.1 ≤ q ∧ q ≤ I.2)) = true := by
    intro x hx
    have hn : x ∈ nodesOf (ops.meetPolygon (toReal s.1) (toReal s.2)) := by
      revert hx
      cases ops.meetPolygon (toReal s.1) (toReal s.2) <;> simp +contextual [Meet.candidates, nodesOf]
    have hxS := meetIs_nodes (ho.polygon _ _) hn
    obtain ⟨t, ⟨I, hI, ht⟩, rfl⟩ := (meet_iff hS s.1 s.2 x).1 hxS
    have : ∃ q ∈ nodesQ Ts s.1 s.2, t = (q : ℝ) := by
      rcases hpl.nodes _ _ _ hn with e | e | e
      · refine ⟨0, by simp [nodesQ], ?_⟩
        apply inj
        rw [e]; simp [atR]
      · refine ⟨1, by simp [nodesQ], ?_⟩
        apply inj
        rw [e]; simp [atR]
      · exact node_param hS hal hxS.2 e
    obtain ⟨q, hq, rfl⟩ := this
    refine ⟨q, hq, (toReal_atQ _ _ _).symm, List.any_eq_true.2 ⟨I, hI, ?_⟩⟩
    rw [decide_eq_true_eq]
    exact ⟨by exact_mod_cast ht.1, by exact_mod_cast ht.2⟩
  split at h
  · rename_i hg
    have hr : r = none := by simpa using h.symm
    subst hr
    rw [Option.map_none, List.find?_eq_none]
    intro x hx
    obtain ⟨q, hq, rfl, hany⟩ := cand x hx
    rw [hdis q]
    intro hap
    have : q ∈ (nodesQ Ts s.1 s.2).filter fun t =>
      ((piecesQ Ts s.1 s.2).any fun I => decide (I.1 ≤ t ∧ t ≤ I.2)) && apartQ Ts (openLineQ (atQ s.1 s.2 t) v) :=
      List.mem_filter.2 ⟨hq, by rw [hany, hap]; rfl⟩
    rw [hg] at this
    cases this
  · rename_i hg
    split at h
    swap
    · simp at h
    rename_i hall
    have hr : r = some (atQ s.1 s.2 (lastQ (piecesQ Ts s.1 s.2))) := by simpa using h.symm
    subst hr
    obtain ⟨q0, hq0⟩ := List.exists_mem_of_ne_nil _ hg
    have e0 := List.all_eq_true.1 hall q0 hq0
    rw [decide_eq_true_eq] at e0
    obtain ⟨_, hq0'⟩ := List.mem_filter.1 hq0
    rw [Bool.and_eq_true, e0] at hq0'
    obtain ⟨hin, hap⟩ := hq0'
    obtain ⟨I, hI, hI'⟩ := List.any_eq_true.1 hin
    rw [decide_eq_true_eq] at hI'
    -- the last point is a node
    have hlast : toReal (atQ s.1 s.2 (lastQ (piecesQ Ts s.1 s.2))) ∈ (ops.meetPolygon (toReal s.1) (toReal s.2)).candidates := by
      obtain ⟨T, hT⟩ : ∃ T, lastQ (piecesQ Ts s.1 s.2) = T := ⟨_, rfl⟩
      rw [hT] at hI' ⊢
      have hmem : toReal (atQ s.1 s.2 T) ∈ {x | OnSegment (toReal s.1) (toReal s.2) x ∧ x ∈ S} := by
        refine (meet_iff hS s.1 s.2 _).2 ⟨T, ⟨I, hI, by exact_mod_cast hI'.1, by exact_mod_cast hI'.2⟩, toReal_atQ _ _ _⟩
      have bound : ∀ x, x ∈ {x | OnSegment (toReal s.1) (toReal s.2) x ∧ x ∈ S} → ∃ t : ℝ, t ≤ T ∧ x = atR s.1 s.2 t := by
        intro x hx
        obtain ⟨t, ⟨J, hJ, ht⟩, rfl⟩ := (meet_iff hS s.1 s.2 x).1 hx
        have hle : (J.2 : ℝ) ≤ T := by rw [← hT]; exact_mod_cast lastQ_le hJ
        exact ⟨t, ht.2.trans hle, rfl⟩
      rw [hcand]
      have hmem' := hmem
      rw [hset] at hmem'
      obtain ⟨l, hl, i, hi, w, hw0, hw1, e⟩ := hmem'
      have m1 : l.getD i 0 ∈ l := by rw [List.getD_eq_getElem _ _ (by omega)]; exact List.getElem_mem _
      have m2 : l.getD (i + 1) 0 ∈ l := by rw [List.getD_eq_getElem _ _ hi]; exact List.getElem_mem _
      have s1 : l.getD i 0 ∈ {x | OnSegment (toReal s.1) (toReal s.2) x ∧ x ∈ S} := by
        rw [hset]; exact ⟨l, hl, node_on_path (htwo l hl) m1⟩
      have s2 : l.getD (i + 1) 0 ∈ {x | OnSegment (toReal s.1) (toReal s.2) x ∧ x ∈ S} := by
        rw [hset]; exact ⟨l, hl, node_on_path (htwo l hl) m2⟩
      obtain ⟨t1, ht1, e1⟩ := bound _ s1
      obtain ⟨t2, ht2, e2⟩ := bound _ s2
      rw [e1, e2, atR_comb, toReal_atQ] at e
      have e' := inj e
      have hor : (T : ℝ) = t1 ∨ (T : ℝ) = t2 := by
        rcases hw0.eq_or_lt with hw | hw
        · left; rw [e', ← hw]; ring
        · right
          have : w * (t2 - T) = (1 - w) * (T - t1) := by linarith
          have h1 : 0 ≤ (1 - w) * (T - t1) := mul_nonneg (by linarith) (by linarith)
          have h2 : w * (t2 - T) ≤ 0 := mul_nonpos_of_nonneg_of_nonpos hw.le (by linarith)
          have h3 : w * (t2 - T) = 0 := le_antisymm h2 (this ▸ h1)
          rcases mul_eq_zero.1 h3 with h | h <;> linarith
      rw [toReal_atQ, List.mem_flatten]
      rcases hor with h | h
      · exact ⟨l, hl, by rw [h, ← e1]; exact m1⟩
      · exact ⟨l, hl, by rw [h, ← e2]; exact m2⟩
    have hex : ((ops.meetPolygon (toReal s.1) (toReal s.2)).candidates.find?
        (fun u => ops.disjoint (openLine u (toReal v)).1 (openLine u (toReal v)).2)).isSome := by
      rw [List.find?_isSome]
      exact ⟨_, hlast, by rw [hdis]; exact hap⟩
    obtain ⟨x, hx⟩ := Option.isSome_iff_exists.1 hex
    have hx1 := List.mem_of_find?_eq_some hx
    have hx2 := List.find?_some hx
    obtain ⟨q, hq, rfl, hany⟩ := cand x hx1
    rw [hdis q] at hx2
    have : q ∈ (nodesQ Ts s.1 s.2).filter fun t =>
      ((piecesQ Ts s.1 s.2).any fun I => decide (I.1 ≤ t ∧ t ≤ I.2)) && apartQ Ts (openLineQ (atQ s.1 s.2 t) v) :=
      List.mem_filter.2 ⟨hq, by rw [hany, hx2]; rfl⟩
    have eq := List.all_eq_true.1 hall q this
    rw [decide_eq_true_eq] at eq
    rw [eq] at hx
    simpa [segR] using hx

end

end Starworlds
