import Verif.Proofs.CgLemmas
import Mathlib.Dynamics.PeriodicPts.Lemmas
import Mathlib.Analysis.Convex.Hull

/-! Lemmas about the gift-wrapping loop (used by `Verif.Props.Hull`). -/

namespace Starworlds

open Spec

set_option linter.unusedSectionVars false

variable {K : Type*} [Field K] [LinearOrder K] [IsStrictOrderedRing K]

/-- Three points by index: signed area. -/
def crossIdx (pts : List (Pt K)) (i j k : Nat) : K :=
  cross (ptAt pts j - ptAt pts i) (ptAt pts k - ptAt pts i)

theorem crossIdx_cyc (pts : List (Pt K)) (i j k : Nat) : crossIdx pts j k i = crossIdx pts i j k := by
  simp only [crossIdx, cross, Prod.fst_sub, Prod.snd_sub]; ring

theorem crossIdx_swap (pts : List (Pt K)) (i j k : Nat) : crossIdx pts i k j = -crossIdx pts i j k := by
  simp only [crossIdx, cross, Prod.fst_sub, Prod.snd_sub]; ring

/-- No three distinct indices are within the collinearity threshold. -/
def GenPos (pts : List (Pt K)) : Prop :=
  ∀ i j k, i < pts.length → j < pts.length → k < pts.length → i ≠ j → j ≠ k → i ≠ k →
    collinearThreshold < |crossIdx pts i j k|

theorem GenPos.ccw_of_pos {pts : List (Pt K)} (h : GenPos pts) {i j k : Nat} (hi : i < pts.length)
    (hj : j < pts.length) (hk : k < pts.length) (hij : i ≠ j) (hjk : j ≠ k) (hik : i ≠ k)
    (hp : 0 < crossIdx pts i j k) : isCcw (ptAt pts i) (ptAt pts j) (ptAt pts k) = true := by
  rw [isCcw_iff]
  have := h i j k hi hj hk hij hjk hik
  rwa [abs_of_pos hp] at this

theorem GenPos.pos_of_not_ccw {pts : List (Pt K)} (h : GenPos pts) {i j k : Nat} (hi : i < pts.length)
    (hj : j < pts.length) (hk : k < pts.length) (hij : i ≠ j) (hjk : j ≠ k) (hik : i ≠ k)
    (hp : isCcw (ptAt pts i) (ptAt pts j) (ptAt pts k) = false) : 0 < crossIdx pts i k j := by
  rw [crossIdx_swap]
  have h1 := h i j k hi hj hk hij hjk hik
  by_contra hc
  have hnn : 0 ≤ crossIdx pts i j k := by linarith
  rw [abs_of_nonneg hnn] at h1
  have := (isCcw_iff (ptAt pts i) (ptAt pts j) (ptAt pts k)).mpr h1
  rw [hp] at this; simp at this

theorem ccw_pos {pts : List (Pt K)} {i j k : Nat}
    (hp : isCcw (ptAt pts i) (ptAt pts j) (ptAt pts k) = true) : 0 < crossIdx pts i j k := by
  rw [isCcw_iff] at hp
  have := thr_pos (K := K)
  unfold crossIdx; linarith

/-- `p` is an extreme index: some linear functional is non-negative on all other points as seen
from `p`, and zero on at most one of them. -/
def Extreme (pts : List (Pt K)) (p : Nat) : Prop :=
  ∃ a b : K, (∀ i, i < pts.length → i ≠ p →
      0 ≤ a * ((ptAt pts i).1 - (ptAt pts p).1) + b * ((ptAt pts i).2 - (ptAt pts p).2)) ∧
    ∀ i j, i < pts.length → j < pts.length → i ≠ p → j ≠ p →
      a * ((ptAt pts i).1 - (ptAt pts p).1) + b * ((ptAt pts i).2 - (ptAt pts p).2) = 0 →
      a * ((ptAt pts j).1 - (ptAt pts p).1) + b * ((ptAt pts j).2 - (ptAt pts p).2) = 0 → i = j

theorem Extreme.trans {pts : List (Pt K)} {p : Nat} (h : Extreme pts p) {i j k : Nat}
    (hi : i < pts.length) (hj : j < pts.length) (hk : k < pts.length) (hip : i ≠ p) (hjp : j ≠ p)
    (hkp : k ≠ p) (hik : i ≠ k) (h1 : 0 < crossIdx pts p i j) (h2 : 0 < crossIdx pts p j k) :
    0 < crossIdx pts p i k := by
  obtain ⟨a, b, hnn, huniq⟩ := h
  set H : Nat → K := fun i => a * ((ptAt pts i).1 - (ptAt pts p).1) + b * ((ptAt pts i).2 - (ptAt pts p).2) with hH
  have hI : 0 ≤ H i := hnn i hi hip
  have hJ : 0 ≤ H j := hnn j hj hjp
  have hKk : 0 ≤ H k := hnn k hk hkp
  have key : crossIdx pts p i j * H k + crossIdx pts p j k * H i = crossIdx pts p i k * H j := by
    simp only [crossIdx, cross, Prod.fst_sub, Prod.snd_sub, hH]; ring
  have hpos : 0 < crossIdx pts p i j * H k + crossIdx pts p j k * H i := by
    rcases hI.lt_or_eq with hI' | hI'
    · have := mul_pos h2 hI'
      have := mul_nonneg h1.le hKk
      linarith
    · rcases hKk.lt_or_eq with hK' | hK'
      · have := mul_pos h1 hK'
        have := mul_nonneg h2.le hI
        linarith
      · exact absurd (huniq i k hi hk hip hkp hI'.symm hK'.symm) hik
  rw [key] at hpos
  by_contra hc
  have := mul_nonpos_of_nonpos_of_nonneg (not_lt.mp hc) hJ
  linarith

/-- Fold invariant of the inner loop. -/
theorem wrap_fold {pts : List (Pt K)} (hg : GenPos pts) {p : Nat} (hp : p < pts.length)
    (hE : Extreme pts p) {q0 : Nat} (hq : q0 < pts.length) (hqp : q0 ≠ p) :
    ∀ k, k ≤ pts.length →
      let q := (List.range k).foldl (wrapStep pts p) q0
      q < pts.length ∧ q ≠ p ∧ ∀ i, i < k → i ≠ p → i ≠ q → 0 < crossIdx pts p q i := by
  intro k
  induction k with
  | zero => intro _; simp [hq, hqp]
  | succ k ih =>
    intro hk
    obtain ⟨h1, h2, h3⟩ := ih (by omega)
    rw [List.range_succ, List.foldl_append]
    simp only [List.foldl_cons, List.foldl_nil]
    set q := (List.range k).foldl (wrapStep pts p) q0
    unfold wrapStep
    split
    · rename_i hc
      have hpos := ccw_pos hc
      have hkp : k ≠ p := by
        rintro rfl
        simp [crossIdx, cross] at hpos
      have hkq : k ≠ q := by
        intro e
        rw [← e] at hpos
        simp only [crossIdx, cross] at hpos
        have : (0 : K) < 0 := by linarith
        exact lt_irrefl _ this
      refine ⟨by omega, hkp, fun i hi hip hik => ?_⟩
      by_cases hiq : i = q
      · rw [hiq]; exact hpos
      · have hik' : i < k := by omega
        exact hE.trans (by omega) h1 (by omega) hkp h2 hip (Ne.symm hik) hpos (h3 i hik' hip hiq)
    · rename_i hc
      refine ⟨h1, h2, fun i hi hip hiq => ?_⟩
      by_cases hik : i = k
      · subst hik
        exact hg.pos_of_not_ccw hp (by omega) h1 (Ne.symm hip) hiq (Ne.symm h2) (by simpa using hc)
      · exact h3 i (by omega) hip hiq

theorem wrapNext_spec {pts : List (Pt K)} (hg : GenPos pts) (hn : 2 ≤ pts.length) {p : Nat}
    (hp : p < pts.length) (hE : Extreme pts p) :
    wrapNext pts p < pts.length ∧ wrapNext pts p ≠ p ∧
    ∀ i, i < pts.length → i ≠ p → i ≠ wrapNext pts p → 0 < crossIdx pts p (wrapNext pts p) i := by
  have hne : (p + 1) % pts.length ≠ p := by
    rcases Nat.lt_or_ge (p + 1) pts.length with h | h
    · rw [Nat.mod_eq_of_lt h]; omega
    · have : p + 1 = pts.length := by omega
      rw [this, Nat.mod_self]; omega
  exact wrap_fold hg hp hE (Nat.mod_lt _ (by omega)) hne pts.length le_rfl

theorem extreme_next {pts : List (Pt K)} (hg : GenPos pts) (hn : 2 ≤ pts.length) {p : Nat}
    (hp : p < pts.length) (hE : Extreme pts p) : Extreme pts (wrapNext pts p) := by
  obtain ⟨h1, h2, h3⟩ := wrapNext_spec hg hn hp hE
  set q := wrapNext pts p
  refine ⟨-((ptAt pts q).2 - (ptAt pts p).2), (ptAt pts q).1 - (ptAt pts p).1, ?_, ?_⟩
  · intro i hi hiq
    have e : -((ptAt pts q).2 - (ptAt pts p).2) * ((ptAt pts i).1 - (ptAt pts q).1) +
        ((ptAt pts q).1 - (ptAt pts p).1) * ((ptAt pts i).2 - (ptAt pts q).2) = crossIdx pts p q i := by
      simp only [crossIdx, cross, Prod.fst_sub, Prod.snd_sub]; ring
    rw [e]
    by_cases hip : i = p
    · subst hip; simp [crossIdx, cross]
    · exact (h3 i hi hip hiq).le
  · have e : ∀ i, -((ptAt pts q).2 - (ptAt pts p).2) * ((ptAt pts i).1 - (ptAt pts q).1) +
        ((ptAt pts q).1 - (ptAt pts p).1) * ((ptAt pts i).2 - (ptAt pts q).2) = crossIdx pts p q i := by
      intro i
      simp only [crossIdx, cross, Prod.fst_sub, Prod.snd_sub]; ring
    intro i j hi hj hiq hjq
    rw [e, e]
    intro ei ej
    have key : ∀ i, i < pts.length → i ≠ q → crossIdx pts p q i = 0 → i = p := by
      intro i hi hiq hz
      by_contra hip
      exact (h3 i hi hip hiq).ne' hz
    rw [key i hi hiq ei, key j hj hjq ej]

/-- Two different extreme indices never share their successor. -/
theorem next_inj {pts : List (Pt K)} (hg : GenPos pts) (hn : 2 ≤ pts.length) {p p' : Nat}
    (hp : p < pts.length) (hE : Extreme pts p) (hp' : p' < pts.length) (hE' : Extreme pts p')
    (e : wrapNext pts p = wrapNext pts p') : p = p' := by
  by_contra hne
  obtain ⟨_, h2, h3⟩ := wrapNext_spec hg hn hp hE
  obtain ⟨_, h2', h3'⟩ := wrapNext_spec hg hn hp' hE'
  have a := h3 p' hp' (Ne.symm hne) (by rw [e]; exact Ne.symm h2')
  have b := h3' p hp hne (by rw [← e]; exact Ne.symm h2)
  rw [← e] at b
  have d : crossIdx pts p p' (wrapNext pts p) = - crossIdx pts p (wrapNext pts p) p' := crossIdx_swap _ _ _ _
  have f : crossIdx pts p' (wrapNext pts p) p = crossIdx pts p p' (wrapNext pts p) := crossIdx_cyc _ _ _ _
  linarith

/-- The spec of the starting point: leftmost, and topmost among the leftmost. -/
def IsLeftmost (pts : List (Pt K)) (l : Nat) : Prop :=
  l < pts.length ∧ ∀ i, i < pts.length → (ptAt pts l).1 < (ptAt pts i).1 ∨
    ((ptAt pts l).1 = (ptAt pts i).1 ∧ (ptAt pts i).2 ≤ (ptAt pts l).2)

theorem leftmost_spec (pts : List (Pt K)) (hn : 0 < pts.length) : IsLeftmost pts (leftmost pts) := by
  have key : ∀ k, k + 1 ≤ pts.length →
      let l := (List.range' 1 k).foldl (leftmostStep pts) 0
      l < pts.length ∧ ∀ i, i < k + 1 → (ptAt pts l).1 < (ptAt pts i).1 ∨
        ((ptAt pts l).1 = (ptAt pts i).1 ∧ (ptAt pts i).2 ≤ (ptAt pts l).2) := by
    intro k
    induction k with
    | zero =>
      intro _
      refine ⟨hn, fun i hi => ?_⟩
      have : i = 0 := by omega
      subst this
      right; exact ⟨rfl, le_rfl⟩
    | succ k ih =>
      intro hk
      obtain ⟨h1, h2⟩ := ih (by omega)
      rw [List.range'_concat, List.foldl_append]
      simp only [List.foldl_cons, List.foldl_nil, Nat.one_mul]
      set l := (List.range' 1 k).foldl (leftmostStep pts) 0
      unfold leftmostStep
      split
      · rename_i hc
        refine ⟨by omega, fun i hi => ?_⟩
        by_cases hik : i = 1 + k
        · subst hik; right; exact ⟨rfl, le_rfl⟩
        · rcases h2 i (by omega) with h | h
          · left; exact lt_trans hc h
          · left; rw [← h.1]; exact hc
      · split
        · split
          · rename_i hc he hy
            refine ⟨by omega, fun i hi => ?_⟩
            by_cases hik : i = 1 + k
            · subst hik; right; exact ⟨rfl, le_rfl⟩
            · rcases h2 i (by omega) with h | h
              · left; rw [he]; exact h
              · right; exact ⟨he.trans h.1, h.2.trans hy.le⟩
          · rename_i hc he hy
            refine ⟨h1, fun i hi => ?_⟩
            by_cases hik : i = 1 + k
            · subst hik; right; exact ⟨he.symm, not_lt.mp hy⟩
            · exact h2 i (by omega)
        · rename_i hc he
          refine ⟨h1, fun i hi => ?_⟩
          by_cases hik : i = 1 + k
          · subst hik; left; exact lt_of_le_of_ne (not_lt.mp hc) (Ne.symm he)
          · exact h2 i (by omega)
  have := key (pts.length - 1) (by omega)
  rw [Nat.sub_add_cancel hn] at this
  exact this

theorem extreme_leftmost {pts : List (Pt K)} (hg : GenPos pts) {l : Nat} (hl : IsLeftmost pts l) :
    Extreme pts l := by
  refine ⟨1, 0, fun i hi _ => ?_, fun i j hi hj hil hjl ei ej => ?_⟩
  · rcases hl.2 i hi with h | h
    · linarith
    · linarith [h.1]
  · by_contra hij
    have h1 := hg l i j hl.1 hi hj (Ne.symm hil) hij (Ne.symm hjl)
    have e1 : (ptAt pts i).1 = (ptAt pts l).1 := by linarith
    have e2 : (ptAt pts j).1 = (ptAt pts l).1 := by linarith
    have : crossIdx pts l i j = 0 := by
      simp only [crossIdx, cross, Prod.fst_sub, Prod.snd_sub, e1, e2]; ring
    have h0 := thr_pos (K := K)
    rw [this, abs_zero] at h1
    linarith

/-- The loop follows the iterates of `wrapNext` until it is back at `l`. -/
theorem wrapLoop_iter (pts : List (Pt K)) (l : Nat) :
    ∀ (m p fuel : Nat), 0 < m → m ≤ fuel → (wrapNext pts)^[m] p = l →
      (∀ k, 0 < k → k < m → (wrapNext pts)^[k] p ≠ l) →
      wrapLoop pts l fuel p = some ((List.range m).map fun k => (wrapNext pts)^[k] p) := by
  intro m
  induction m with
  | zero => intro p fuel h; omega
  | succ m ih =>
    intro p fuel _ hf hl hne
    obtain ⟨fuel, rfl⟩ : ∃ f, fuel = f + 1 := ⟨fuel - 1, by omega⟩
    rw [wrapLoop]
    rcases Nat.eq_zero_or_pos m with rfl | hm
    · have : wrapNext pts p = l := by simpa using hl
      simp [this]
    · have h1 : wrapNext pts p ≠ l := by
        have := hne 1 (by omega) (by omega)
        simpa using this
      simp only [h1, if_false]
      rw [ih (wrapNext pts p) fuel hm (by omega) (by simpa using hl)
        (fun k hk hkm => by
          have := hne (k + 1) (by omega) (by omega)
          simpa using this)]
      simp only [Option.map_some, List.range_succ_eq_map, List.map_cons, List.map_map,
        Function.iterate_zero, id_eq]
      congr 1

/-- The hull walk in general position. -/
theorem hull_walk {pts : List (Pt K)} (hg : GenPos pts) (hn : 0 < pts.length) :
    ∃ m, 0 < m ∧ m ≤ pts.length ∧ (wrapNext pts)^[m] (leftmost pts) = leftmost pts ∧
      (∀ k, (wrapNext pts)^[k] (leftmost pts) < pts.length ∧
        Extreme pts ((wrapNext pts)^[k] (leftmost pts))) ∧
      (∀ j k, j < m → k < m → (wrapNext pts)^[j] (leftmost pts) = (wrapNext pts)^[k] (leftmost pts) → j = k) := by
  have hl := leftmost_spec pts hn
  rcases Nat.lt_or_ge pts.length 2 with h2 | h2
  · have hlen : pts.length = 1 := by omega
    have hl0 : leftmost pts = 0 := by have := hl.1; omega
    have hext : Extreme pts 0 := by rw [← hl0]; exact extreme_leftmost hg hl
    have hnx : wrapNext pts 0 = 0 := by
      simp [wrapNext, hlen, wrapStep]
    have hit : ∀ k, (wrapNext pts)^[k] 0 = 0 := fun k => Function.iterate_fixed hnx k
    refine ⟨1, by omega, by omega, ?_, ?_, ?_⟩
    · rw [hl0, hit]
    · intro k; rw [hl0, hit]; exact ⟨by omega, hext⟩
    · intro j k hj hk _; omega
  · let S := {p : Fin pts.length // Extreme pts p.1}
    let f : S → S := fun p => ⟨⟨wrapNext pts p.1.1, (wrapNext_spec hg h2 p.1.2 p.2).1⟩,
      extreme_next hg h2 p.1.2 p.2⟩
    have hf : Function.Injective f := by
      rintro ⟨⟨p, hp⟩, hE⟩ ⟨⟨p', hp'⟩, hE'⟩ e
      have e' : wrapNext pts p = wrapNext pts p' := by
        have := congrArg (fun s : S => s.1.1) e
        simpa [f] using this
      have := next_inj hg h2 hp hE hp' hE' e'
      subst this; rfl
    let x : S := ⟨⟨leftmost pts, hl.1⟩, extreme_leftmost hg hl⟩
    have hit : ∀ k, ((f^[k] x).1.1 : Nat) = (wrapNext pts)^[k] (leftmost pts) := by
      intro k
      induction k with
      | zero => rfl
      | succ k ih => rw [Function.iterate_succ_apply', Function.iterate_succ_apply', ← ih]
    have hper := hf.mem_periodicPts x
    classical
    refine ⟨Function.minimalPeriod f x, Function.minimalPeriod_pos_of_mem_periodicPts hper, ?_, ?_, ?_, ?_⟩
    · refine Function.minimalPeriod_le_card.trans ?_
      refine (Fintype.card_subtype_le _).trans ?_
      simp
    · rw [← hit, Function.iterate_minimalPeriod]
    · intro k; rw [← hit]; exact ⟨(f^[k] x).1.2, (f^[k] x).2⟩
    · intro j k hj hk e
      rw [← hit, ← hit] at e
      exact Function.iterate_injOn_Iio_minimalPeriod hj hk (Subtype.ext (Fin.ext e))

theorem hull_result {pts : List (Pt K)} {m fuel : Nat} (hm : 0 < m) (hf : m ≤ fuel)
    (hl : (wrapNext pts)^[m] (leftmost pts) = leftmost pts)
    (hinj : ∀ j k, j < m → k < m → (wrapNext pts)^[j] (leftmost pts) = (wrapNext pts)^[k] (leftmost pts) → j = k) :
    convexHullIdx pts fuel = some ((List.range m).map fun k => (wrapNext pts)^[k] (leftmost pts)) := by
  refine wrapLoop_iter pts _ m _ fuel hm hf hl fun k hk hkm e => ?_
  have := hinj k 0 hkm hm (by simpa using e)
  omega

/-- A point weakly left of the three edges of a non-degenerate triangle is in the triangle. -/
theorem inTriangle_of_left {a b c x : Pt K} (hD : 0 < cross (b - a) (c - a))
    (h1 : 0 ≤ cross (b - a) (x - a)) (h2 : 0 ≤ cross (c - b) (x - b))
    (h3 : cross (c - a) (x - a) ≤ 0) : InTriangle a b c x := by
  set D := cross (b - a) (c - a) with hDd
  refine ⟨cross (c - b) (x - b) / D, -cross (c - a) (x - a) / D, cross (b - a) (x - a) / D,
    div_nonneg h2 hD.le, div_nonneg (by linarith) hD.le, div_nonneg h1 hD.le, ?_, ?_⟩
  · rw [← add_div, ← add_div, div_eq_one_iff_eq hD.ne']
    simp only [hDd, cross, Prod.fst_sub, Prod.snd_sub]; ring
  · have e : ∀ u v w t : K, D * t = cross (c - b) (x - b) * u + -cross (c - a) (x - a) * v + cross (b - a) (x - a) * w →
        t = cross (c - b) (x - b) / D * u + -cross (c - a) (x - a) / D * v + cross (b - a) (x - a) / D * w := by
      intro u v w t h
      have hD' := hD.ne'
      field_simp
      linarith
    ext
    · simp only [Prod.fst_add, Prod.smul_fst, smul_eq_mul]
      apply e
      simp only [hDd, cross, Prod.fst_sub, Prod.snd_sub]; ring
    · simp only [Prod.snd_add, Prod.smul_snd, smul_eq_mul]
      apply e
      simp only [hDd, cross, Prod.fst_sub, Prod.snd_sub]; ring

/-- A sign change between `1` and `M`. -/
theorem sign_change (g : Nat → K) (M : Nat) (hM : 2 ≤ M) (h1 : 0 ≤ g 1) (h2 : g M ≤ 0) :
    ∃ k, 1 ≤ k ∧ k + 1 ≤ M ∧ 0 ≤ g k ∧ g (k + 1) ≤ 0 := by
  by_contra hc
  push Not at hc
  have : ∀ k, 1 ≤ k → k ≤ M → 0 ≤ g k := by
    intro k hk
    induction k, hk using Nat.le_induction with
    | base => intro _; exact h1
    | succ k hk ih => intro hkM; exact (hc k hk hkM (ih (by omega))).le
  have h3 := hc (M - 1) (by omega) (by omega) (this _ (by omega) (by omega))
  rw [Nat.sub_add_cancel (by omega)] at h3
  linarith

theorem convex_three {S : Set (Pt K)} (h : Convex K S) {s t u : K} {a b c : Pt K} (hs : 0 ≤ s)
    (ht : 0 ≤ t) (hu : 0 ≤ u) (hsum : s + t + u = 1) (ha : a ∈ S) (hb : b ∈ S) (hc : c ∈ S) :
    s • a + t • b + u • c ∈ S := by
  rcases (add_nonneg hs ht).eq_or_lt with h0 | h0
  · have hs0 : s = 0 := by linarith
    have ht0 : t = 0 := by linarith
    have hu1 : u = 1 := by linarith
    simpa [hs0, ht0, hu1] using hc
  · have h1 : (s / (s + t)) • a + (t / (s + t)) • b ∈ S :=
      h ha hb (div_nonneg hs h0.le) (div_nonneg ht h0.le) (by rw [← add_div, div_self h0.ne'])
    have h2 := h h1 hc h0.le hu hsum
    have e : (s + t) • ((s / (s + t)) • a + (t / (s + t)) • b) = s • a + t • b := by
      rw [smul_add, smul_smul, smul_smul, mul_div_cancel₀ _ h0.ne', mul_div_cancel₀ _ h0.ne']
    rwa [e] at h2

end Starworlds
