import Verif.Proofs.StarFrontier

/-! # Shapely operations with plain descriptions exist -/

namespace Starworlds

open Spec

/-- The parameter is in one of the intervals. -/
def InList (l : List (ℝ × ℝ)) (t : ℝ) : Prop := ∃ I ∈ l, I.1 ≤ t ∧ t ≤ I.2

/-- Different intervals have no point in common. -/
def Apart (I J : ℝ × ℝ) : Prop := I.2 < J.1 ∨ J.2 < I.1

theorem merge_one (n : ℕ) : ∀ (l : List (ℝ × ℝ)) (I : ℝ × ℝ), l.length = n → (∀ J ∈ l, J.1 ≤ J.2) → l.Pairwise Apart → I.1 ≤ I.2 →
    ∃ l', (∀ J ∈ l', J.1 ≤ J.2) ∧ l'.Pairwise Apart ∧ ∀ t, InList l' t ↔ InList (I :: l) t := by
  induction n with
  | zero =>
    intro l I hl _ _ hI
    rw [List.length_eq_zero_iff] at hl
    subst hl
    exact ⟨[I], by simpa using hI, by simp, fun t => Iff.rfl⟩
  | succ n ih =>
    intro l I hl hle hp hI
    by_cases h : ∃ J ∈ l, ¬ Apart I J
    · obtain ⟨J, hJ, hm⟩ := h
      unfold Apart at hm
      rw [not_or, not_lt, not_lt] at hm
      obtain ⟨l1, l2, rfl⟩ := List.append_of_mem hJ
      have hJle := hle J hJ
      obtain ⟨l', h1, h2, h3⟩ := ih (l1 ++ l2) (min I.1 J.1, max I.2 J.2) (by simp at hl ⊢; omega)
        (fun K hK => hle K (by rcases List.mem_append.1 hK with h | h <;> simp [h]))
        (hp.sublist (by simp)) (by simp [hI])
      refine ⟨l', h1, h2, fun t => ?_⟩
      rw [h3]
      unfold InList
      constructor
      · rintro ⟨K, hK, k1, k2⟩
        rcases List.mem_cons.1 hK with rfl | hK
        · simp only [min_le_iff, le_max_iff] at k1 k2
          by_cases hc : I.1 ≤ t ∧ t ≤ I.2
          · exact ⟨I, List.mem_cons_self, hc⟩
          · refine ⟨J, by simp, ?_⟩
            rw [not_and_or, not_le, not_le] at hc
            rcases hc with hc | hc
            · have hJ1 : J.1 ≤ t := by
                rcases k1 with k1 | k1
                · linarith
                · exact k1
              exact ⟨hJ1, by linarith [hm.2]⟩
            · have hJ2 : t ≤ J.2 := by
                rcases k2 with k2 | k2
                · linarith
                · exact k2
              exact ⟨by linarith [hm.1], hJ2⟩
        · exact ⟨K, by rcases List.mem_append.1 hK with h | h <;> simp [h], k1, k2⟩
      · rintro ⟨K, hK, k1, k2⟩
        rcases List.mem_cons.1 hK with rfl | hK
        · exact ⟨_, List.mem_cons_self, (min_le_left _ _).trans k1, k2.trans (le_max_left _ _)⟩
        · rcases List.mem_append.1 hK with h | h
          · exact ⟨K, by simp [h], k1, k2⟩
          · rcases List.mem_cons.1 h with rfl | h
            · exact ⟨_, List.mem_cons_self, (min_le_right _ _).trans k1, k2.trans (le_max_right _ _)⟩
            · exact ⟨K, by simp [h], k1, k2⟩
    · push Not at h
      refine ⟨I :: l, ?_, List.pairwise_cons.2 ⟨h, hp⟩, fun t => Iff.rfl⟩
      intro J hJ
      rcases List.mem_cons.1 hJ with rfl | hJ
      · exact hI
      · exact hle J hJ

/-- Finitely many intervals are finitely many intervals without common points. -/
theorem merge_all (l : List (ℝ × ℝ)) (hle : ∀ J ∈ l, J.1 ≤ J.2) :
    ∃ l', (∀ J ∈ l', J.1 ≤ J.2) ∧ l'.Pairwise Apart ∧ ∀ t, InList l' t ↔ InList l t := by
  induction l with
  | nil => exact ⟨[], by simp, by simp, fun t => Iff.rfl⟩
  | cons I l ih =>
    obtain ⟨l', h1, h2, h3⟩ := ih fun J hJ => hle J (List.mem_cons_of_mem _ hJ)
    obtain ⟨l'', g1, g2, g3⟩ := merge_one _ l' I rfl h1 h2 (hle I List.mem_cons_self)
    refine ⟨l'', g1, g2, fun t => ?_⟩
    rw [g3]
    have : ∀ m, InList (I :: m) t ↔ (I.1 ≤ t ∧ t ≤ I.2) ∨ InList m t := by
      intro m
      unfold InList
      simp
    rw [this, this, h3]

theorem apart_symm {I J : ℝ × ℝ} (h : Apart I J) : Apart J I := h.symm

theorem apart_of {l : List (ℝ × ℝ)} (hp : l.Pairwise Apart) {I J : ℝ × ℝ} (hI : I ∈ l) (hJ : J ∈ l) (hne : I ≠ J) : Apart I J :=
  haveI : Std.Symm Apart := ⟨fun _ _ h => apart_symm h⟩
  hp.forall hI hJ hne

/-- Near a point of an interval there are only points of this interval. -/
theorem interval_near {l : List (ℝ × ℝ)} (hp : l.Pairwise Apart) {I : ℝ × ℝ} (hI : I ∈ l) {s : ℝ} (h1 : I.1 ≤ s) (h2 : s ≤ I.2) :
    ∃ ε > 0, ∀ t, InList l t → |t - s| < ε → I.1 ≤ t ∧ t ≤ I.2 := by
  have key : ∀ m : List (ℝ × ℝ), (∀ J ∈ m, J = I ∨ Apart I J) → ∃ ε > 0, ∀ t, InList m t → |t - s| < ε → I.1 ≤ t ∧ t ≤ I.2 := by
    intro m
    induction m with
    | nil => intro _; exact ⟨1, one_pos, by rintro t ⟨J, hJ, _⟩; cases hJ⟩
    | cons J m ih =>
      intro h
      obtain ⟨ε, hε, g⟩ := ih fun K hK => h K (List.mem_cons_of_mem _ hK)
      rcases h J List.mem_cons_self with rfl | hA
      · refine ⟨ε, hε, ?_⟩
        rintro t ⟨K, hK, k⟩ ht
        rcases List.mem_cons.1 hK with rfl | hK
        · exact k
        · exact g t ⟨K, hK, k⟩ ht
      · rcases hA with hA | hA
        · refine ⟨min ε (J.1 - I.2), lt_min hε (by linarith), ?_⟩
          rintro t ⟨K, hK, k⟩ ht
          rcases List.mem_cons.1 hK with rfl | hK
          · have := (abs_lt.1 (lt_of_lt_of_le ht (min_le_right _ _))).2
            linarith [k.1]
          · exact g t ⟨K, hK, k⟩ (lt_of_lt_of_le ht (min_le_left _ _))
        · refine ⟨min ε (I.1 - J.2), lt_min hε (by linarith), ?_⟩
          rintro t ⟨K, hK, k⟩ ht
          rcases List.mem_cons.1 hK with rfl | hK
          · have := (abs_lt.1 (lt_of_lt_of_le ht (min_le_right _ _))).1
            linarith [k.2]
          · exact g t ⟨K, hK, k⟩ (lt_of_lt_of_le ht (min_le_left _ _))
  apply key
  intro J hJ
  by_cases h : J = I
  · exact Or.inl h
  · exact Or.inr (apart_of hp hI hJ (Ne.symm h))

/-- The plain description of intervals on a line. -/
theorem plain_meet {a b : Pt ℝ} (hab : a ≠ b) {l : List (ℝ × ℝ)} (hle : ∀ J ∈ l, J.1 ≤ J.2) (hp : l.Pairwise Apart) {S : Set (Pt ℝ)}
    (hS : ∀ x, x ∈ S ↔ ∃ t, InList l t ∧ x = a + t • (b - a)) :
    ∃ m, MeetIs m S ∧ MeetPlain m S ∧ ∀ p ∈ nodesOf m, ∃ I ∈ l, p = a + I.1 • (b - a) ∨ p = a + I.2 • (b - a) := by
  obtain ⟨f, hf⟩ : ∃ f : ℝ → Pt ℝ, ∀ t, f t = a + t • (b - a) := ⟨fun t => a + t • (b - a), fun _ => rfl⟩
  have hd : 0 < ‖b - a‖ := norm_pos_iff.2 (sub_ne_zero.2 hab.symm)
  have hdist : ∀ s t, dist (f s) (f t) = |s - t| * ‖b - a‖ := by
    intro s t
    rw [dist_eq_norm, hf, hf, add_sub_add_left_eq_sub, ← sub_smul, norm_smul, Real.norm_eq_abs]
  have inj : Function.Injective f := by
    intro s t e
    have := hdist s t
    rw [e, dist_self] at this
    rcases mul_eq_zero.1 this.symm with h | h
    · linarith [abs_eq_zero.1 h]
    · exact absurd h hd.ne'
  simp only [← hf] at hS ⊢
  have hseg : ∀ s u x, s ≤ u → (OnSegment (f s) (f u) x ↔ ∃ t, s ≤ t ∧ t ≤ u ∧ x = f t) := by
    intro s u x hsu
    constructor
    · rintro ⟨t, h0, h1, rfl⟩
      refine ⟨s + t * (u - s), by nlinarith, by nlinarith, ?_⟩
      rw [hf, hf, hf]; module
    · rintro ⟨t, h0, h1, rfl⟩
      rcases hsu.eq_or_lt with rfl | hlt
      · exact ⟨0, le_rfl, zero_le_one, by rw [le_antisymm h1 h0]; simp⟩
      · have hd' : 0 < u - s := sub_pos.2 hlt
        refine ⟨(t - s) / (u - s), div_nonneg (by linarith) hd'.le, by rw [div_le_one hd']; linarith, ?_⟩
        have e : t = s + (t - s) / (u - s) * (u - s) := by rw [div_mul_cancel₀ _ hd'.ne']; ring
        rw [hf, hf, hf]
        conv_lhs => rw [e]
        module
  classical
  obtain ⟨ps, hps⟩ : ∃ ps, ps = (l.filter fun I => decide (I.1 = I.2)).map fun I => f I.1 := ⟨_, rfl⟩
  obtain ⟨ls, hls⟩ : ∃ ls, ls = (l.filter fun I => decide (I.1 < I.2)).map fun I => [f I.1, f I.2] := ⟨_, rfl⟩
  have memps : ∀ p, p ∈ ps ↔ ∃ I ∈ l, I.1 = I.2 ∧ f I.1 = p := by
    intro p; rw [hps]; simp [and_assoc]
  have memls : ∀ q, q ∈ ls ↔ ∃ I ∈ l, I.1 < I.2 ∧ [f I.1, f I.2] = q := by
    intro q; rw [hls]; simp [and_assoc]
  have hset : S = {p | p ∈ ps ∨ ∃ q ∈ ls, p ∈ pathPoints q} := by
    ext x
    rw [hS]
    constructor
    · rintro ⟨t, ⟨I, hI, h1, h2⟩, rfl⟩
      rcases (hle I hI).eq_or_lt with h | h
      · left
        rw [memps]
        exact ⟨I, hI, h, by rw [le_antisymm h1 (by linarith)]⟩
      · right
        refine ⟨_, (memls _).2 ⟨I, hI, h, rfl⟩, ?_⟩
        rw [path_pair]
        exact (hseg _ _ _ h.le).2 ⟨t, h1, h2, rfl⟩
    · rintro (h | ⟨q, hq, h⟩)
      · obtain ⟨I, hI, e, rfl⟩ := (memps x).1 h
        exact ⟨I.1, ⟨I, hI, le_rfl, e.le⟩, rfl⟩
      · obtain ⟨I, hI, hlt, rfl⟩ := (memls q).1 hq
        rw [path_pair] at h
        obtain ⟨t, h1, h2, rfl⟩ := (hseg _ _ _ hlt.le).1 h
        exact ⟨t, ⟨I, hI, h1, h2⟩, rfl⟩
  have htwo : ∀ q ∈ ls, ∃ p ∈ q, ∃ r ∈ q, p ≠ r := by
    intro q hq
    obtain ⟨I, hI, hlt, rfl⟩ := (memls q).1 hq
    exact ⟨f I.1, by simp, f I.2, by simp, fun e => hlt.ne (inj e)⟩
  have hnode : ∀ p, p ∈ ps ∨ p ∈ ls.flatten → ∃ I ∈ l, p = f I.1 ∨ p = f I.2 := by
    rintro p (h | h)
    · obtain ⟨I, hI, _, rfl⟩ := (memps p).1 h
      exact ⟨I, hI, Or.inl rfl⟩
    · obtain ⟨q, hq, h⟩ := List.mem_flatten.1 h
      obtain ⟨I, hI, _, rfl⟩ := (memls q).1 hq
      refine ⟨I, hI, ?_⟩
      simpa using h
  have hiso : ∀ p ∈ ps, ∃ ε > 0, ∀ x ∈ S, dist x p < ε → x = p := by
    intro p h
    obtain ⟨I, hI, e, rfl⟩ := (memps p).1 h
    obtain ⟨ε, hε, g⟩ := interval_near hp hI le_rfl e.le
    refine ⟨ε * ‖b - a‖, by positivity, ?_⟩
    intro x hx hxd
    obtain ⟨t, ht, rfl⟩ := (hS x).1 hx
    rw [hdist] at hxd
    obtain ⟨g1, g2⟩ := g t ht (lt_of_mul_lt_mul_right hxd hd.le)
    rw [le_antisymm (g2.trans e.ge) g1]
  rcases hl0 : ls with _ | ⟨q, qs⟩
  · rcases hp0 : ps with _ | ⟨p, _ | ⟨p', ps'⟩⟩
    · refine ⟨.empty, ?_, trivial, by simp [nodesOf]⟩
      rw [hset, hp0, hl0]; simp [MeetIs]
    · refine ⟨.point p, ?_, trivial, ?_⟩
      · rw [hset, hp0, hl0]; simp [MeetIs]
      · intro x hx
        exact hnode x (Or.inl (by rw [hp0]; exact hx))
    · refine ⟨.multiPoint (p :: p' :: ps'), ?_, ?_, ?_⟩
      · refine ⟨?_, by simp⟩
        rw [hset, hp0, hl0]; simp
      · refine ⟨p, by simp, p', by simp, ?_⟩
        intro e
        have hnd : ps.Pairwise (· ≠ ·) := by
          rw [hps, List.pairwise_map]
          refine (hp.sublist List.filter_sublist).imp_of_mem ?_
          intro I J hI hJ hA e
          have e1 := inj e
          have i1 := of_decide_eq_true (List.mem_filter.1 hI).2
          have j1 := of_decide_eq_true (List.mem_filter.1 hJ).2
          rcases hA with h | h <;> linarith
        rw [hp0] at hnd
        exact (List.pairwise_cons.1 hnd).1 p' (by simp) e
      · intro x hx
        exact hnode x (Or.inl (by rw [hp0]; exact hx))
  · rcases hp0 : ps with _ | ⟨p, ps'⟩
    · refine ⟨.multiLineString ls, ⟨?_, by rw [hl0]; simp, htwo⟩, trivial, fun x hx => hnode x (Or.inr hx)⟩
      rw [hset, hp0]; simp
    · exact ⟨.collection ps ls, ⟨hset, Or.inr (by rw [hl0]; simp), htwo⟩, ⟨by rw [hp0]; simp, by rw [hl0]; simp, hiso⟩,
        fun x hx => hnode x (List.mem_append.1 hx)⟩

/-- The part of a segment in a convex compact set. -/
theorem convex_piece {C : Set (Pt ℝ)} (hc : IsCompact C) (hC : Convex ℝ C) (a b : Pt ℝ) :
    ∃ l : List (ℝ × ℝ), (∀ J ∈ l, J.1 ≤ J.2) ∧ ∀ t, InList l t ↔ (0 ≤ t ∧ t ≤ 1) ∧ a + t • (b - a) ∈ C := by
  obtain ⟨f, hf⟩ : ∃ f : ℝ → Pt ℝ, f = fun t => a + t • (b - a) := ⟨_, rfl⟩
  have hcont : Continuous f := by rw [hf]; fun_prop
  obtain ⟨T, hT⟩ : ∃ T : Set ℝ, T = Set.Icc 0 1 ∩ f ⁻¹' C := ⟨_, rfl⟩
  have hTc : IsCompact T := by rw [hT]; exact isCompact_Icc.inter_right (hc.isClosed.preimage hcont)
  have hTx : Convex ℝ T := by
    rw [hT]
    refine (convex_Icc 0 1).inter ?_
    intro s hs t ht m n hm hn hmn
    rw [Set.mem_preimage] at *
    have := hC hs ht hm hn hmn
    convert this using 1
    have hn' : n = 1 - m := by linarith
    rw [hf, hn']
    simp only [smul_eq_mul]
    module
  have e : ∀ t, ((0 ≤ t ∧ t ≤ 1) ∧ a + t • (b - a) ∈ C) ↔ t ∈ T := by
    intro t; rw [hT, hf]; rfl
  rcases T.eq_empty_or_nonempty with h | h
  · refine ⟨[], by simp, fun t => ?_⟩
    rw [e, h]
    simp [InList]
  · have hI := eq_Icc_of_connected_compact ⟨h, hTx.isPreconnected⟩ hTc
    have hle : sInf T ≤ sSup T := by
      have := h
      rw [hI, Set.nonempty_Icc] at this
      exact this
    refine ⟨[(sInf T, sSup T)], by simpa using hle, fun t => ?_⟩
    rw [e]
    conv_rhs => rw [hI]
    simp [InList]

theorem star_pieces {c : Pt ℝ} {v : List (Pt ℝ)} (h : StarAbout c v) (a b : Pt ℝ) :
    ∃ l : List (ℝ × ℝ), (∀ J ∈ l, J.1 ≤ J.2) ∧ ∀ t, InList l t ↔ (0 ≤ t ∧ t ≤ 1) ∧ a + t • (b - a) ∈ filled v := by
  have key : ∀ n, ∃ l : List (ℝ × ℝ), (∀ J ∈ l, J.1 ≤ J.2) ∧
      ∀ t, InList l t ↔ (0 ≤ t ∧ t ≤ 1) ∧ ∃ i < n, a + t • (b - a) ∈ convexHull ℝ {c, corner v i, corner v (i + 1)} := by
    intro n
    induction n with
    | zero => exact ⟨[], by simp, fun t => by simp [InList]⟩
    | succ n ih =>
      obtain ⟨l, h1, h2⟩ := ih
      obtain ⟨l', g1, g2⟩ := convex_piece (C := convexHull ℝ {c, corner v n, corner v (n + 1)})
        ((Set.toFinite _).isCompact_convexHull ℝ) (convex_convexHull ℝ _) a b
      refine ⟨l ++ l', ?_, fun t => ?_⟩
      · intro J hJ
        rcases List.mem_append.1 hJ with hJ | hJ
        · exact h1 J hJ
        · exact g1 J hJ
      · have : InList (l ++ l') t ↔ InList l t ∨ InList l' t := by
          unfold InList
          simp only [List.mem_append, or_and_right, exists_or]
        rw [this, h2, g2, ← and_or_left]
        simp only [Nat.lt_succ_iff_lt_or_eq, or_and_right, exists_or, exists_eq_left]
  obtain ⟨l, h1, h2⟩ := key v.length
  refine ⟨l, h1, fun t => ?_⟩
  rw [h2, star_triangles h]

open scoped Classical in
/-- There are shapely operations with the right meaning and plain descriptions, for every star-shaped polygon and all kernel points. -/
theorem hullPlain_exists {c : Pt ℝ} {v : List (Pt ℝ)} (h : StarAbout c v) (ks : List (Pt ℝ)) :
    ∃ ops, HullMeaning ops (filled v) ks ∧ HullPlain ops (filled v) := by
  have general : ∀ (a b : Pt ℝ) (C : Set (Pt ℝ)), (∃ l : List (ℝ × ℝ), (∀ J ∈ l, J.1 ≤ J.2) ∧
      ∀ t, InList l t ↔ (0 ≤ t ∧ t ≤ 1) ∧ a + t • (b - a) ∈ C) → ∃ m, MeetIs m {x | OnSegment a b x ∧ x ∈ C} ∧
      MeetPlain m {x | OnSegment a b x ∧ x ∈ C} ∧ ∀ p ∈ nodesOf m, p = a ∨ p = b ∨ p ∈ frontier C := by
    intro a b C hl
    by_cases hab : a = b
    · subst hab
      have e : ∀ x, OnSegment a a x ↔ x = a := by
        intro x
        constructor
        · rintro ⟨t, _, _, rfl⟩; simp
        · rintro rfl; exact ⟨0, le_rfl, zero_le_one, by simp⟩
      by_cases ha : a ∈ C
      · refine ⟨.point a, ?_, trivial, ?_⟩
        · show {x | OnSegment a a x ∧ x ∈ C} = {a}
          ext x
          simp only [e, Set.mem_ofPred_eq, Set.mem_singleton_iff]
          constructor
          · exact fun h => h.1
          · rintro rfl; exact ⟨rfl, ha⟩
        · intro p hp
          left; simpa [nodesOf] using hp
      · refine ⟨.empty, ?_, trivial, by simp [nodesOf]⟩
        show {x | OnSegment a a x ∧ x ∈ C} = ∅
        rw [Set.eq_empty_iff_forall_notMem]
        rintro x ⟨hx, hxC⟩
        rw [e] at hx
        subst hx; exact ha hxC
    · obtain ⟨l0, h0, hl0⟩ := hl
      obtain ⟨l, h1, h2, h3⟩ := merge_all l0 h0
      have hU : ∀ t, InList l t ↔ (0 ≤ t ∧ t ≤ 1) ∧ a + t • (b - a) ∈ C := fun t => (h3 t).trans (hl0 t)
      obtain ⟨m, m1, m2, m3⟩ := plain_meet hab h1 h2 (S := {x | OnSegment a b x ∧ x ∈ C}) (by
        intro x
        constructor
        · rintro ⟨⟨t, g0, g1, rfl⟩, hx⟩
          exact ⟨t, (hU t).2 ⟨⟨g0, g1⟩, hx⟩, rfl⟩
        · rintro ⟨t, ht, rfl⟩
          have := (hU t).1 ht
          exact ⟨⟨t, this.1.1, this.1.2, rfl⟩, this.2⟩)
      refine ⟨m, m1, m2, fun p hp => ?_⟩
      obtain ⟨I, hI, hpI⟩ := m3 p hp
      have hcont : Continuous fun t : ℝ => a + t • (b - a) := by fun_prop
      have inner : ∀ s : ℝ, a + s • (b - a) ∈ interior C → ∃ δ > 0, ∀ t : ℝ, |t - s| < δ → a + t • (b - a) ∈ C := by
        intro s hs
        obtain ⟨δ, hδ, hb⟩ := Metric.isOpen_iff.1 (isOpen_interior.preimage hcont) s hs
        exact ⟨δ, hδ, fun t ht => interior_subset (s := C) (hb (by rw [Metric.mem_ball, Real.dist_eq]; exact ht))⟩
      have m1' := (hU I.1).1 ⟨I, hI, le_rfl, h1 I hI⟩
      have m2' := (hU I.2).1 ⟨I, hI, h1 I hI, le_rfl⟩
      rcases hpI with rfl | rfl
      · by_cases hz : I.1 = 0
        · left; rw [hz]; simp
        · right; right
          refine ⟨subset_closure m1'.2, fun hin => ?_⟩
          obtain ⟨δ, hδ, hb⟩ := inner _ hin
          obtain ⟨ε, hε, g⟩ := interval_near h2 hI le_rfl (h1 I hI)
          have hpos : 0 < I.1 := lt_of_le_of_ne m1'.1.1 (Ne.symm hz)
          obtain ⟨r, hr0, hr1, hr2, hr3⟩ : ∃ r, 0 < r ∧ r < δ ∧ r < ε ∧ r ≤ I.1 :=
            ⟨min (min δ ε / 2) I.1, lt_min (by positivity) hpos,
              lt_of_le_of_lt (min_le_left _ _) (by have := min_le_left δ ε; linarith [lt_min hδ hε]),
              lt_of_le_of_lt (min_le_left _ _) (by have := min_le_right δ ε; linarith [lt_min hδ hε]), min_le_right _ _⟩
          have habs : |I.1 - r - I.1| = r := by rw [show I.1 - r - I.1 = -r by ring, abs_neg, abs_of_pos hr0]
          have := g (I.1 - r) ((hU _).2 ⟨⟨by linarith, by linarith [m1'.1.2]⟩, hb _ (by rw [habs]; exact hr1)⟩) (by rw [habs]; exact hr2)
          linarith [this.1]
      · by_cases hz : I.2 = 1
        · right; left; rw [hz]; simp
        · right; right
          refine ⟨subset_closure m2'.2, fun hin => ?_⟩
          obtain ⟨δ, hδ, hb⟩ := inner _ hin
          obtain ⟨ε, hε, g⟩ := interval_near h2 hI (h1 I hI) le_rfl
          have hpos : I.2 < 1 := lt_of_le_of_ne m2'.1.2 hz
          obtain ⟨r, hr0, hr1, hr2, hr3⟩ : ∃ r, 0 < r ∧ r < δ ∧ r < ε ∧ r ≤ 1 - I.2 :=
            ⟨min (min δ ε / 2) (1 - I.2), lt_min (by positivity) (by linarith),
              lt_of_le_of_lt (min_le_left _ _) (by have := min_le_left δ ε; linarith [lt_min hδ hε]),
              lt_of_le_of_lt (min_le_left _ _) (by have := min_le_right δ ε; linarith [lt_min hδ hε]), min_le_right _ _⟩
          have habs : |I.2 + r - I.2| = r := by rw [add_sub_cancel_left, abs_of_pos hr0]
          have := g (I.2 + r) ((hU _).2 ⟨⟨by linarith [m2'.1.1], by linarith⟩, hb _ (by rw [habs]; exact hr1)⟩) (by rw [habs]; exact hr2)
          linarith [this.2]
  have h1 := fun a b => general a b (filled v) (star_pieces h a b)
  have h2 : ∀ s t : Pt ℝ × Pt ℝ, ∃ m, MeetIs m {x | OnSegment s.1 s.2 x ∧ OnSegment t.1 t.2 x} ∧
      MeetPlain m {x | OnSegment s.1 s.2 x ∧ OnSegment t.1 t.2 x} := by
    intro s t
    have hset : {x | OnSegment s.1 s.2 x ∧ OnSegment t.1 t.2 x} = {x | OnSegment s.1 s.2 x ∧ x ∈ segment ℝ t.1 t.2} := by
      rw [← segment_set]; rfl
    rw [hset]
    have hc : IsCompact (segment ℝ t.1 t.2) := by
      rw [← convexHull_pair]
      exact (Set.toFinite _).isCompact_convexHull ℝ
    obtain ⟨m, m1, m2, _⟩ := general s.1 s.2 _ (convex_piece hc (convex_segment _ _) s.1 s.2)
    exact ⟨m, m1, m2⟩
  choose f f1 f2 f3 using h1
  choose g g1 g2 using h2
  exact ⟨⟨fun a b => decide (∀ x, OnSegment a b x → x ∉ filled v), f, fun s t => g s t,
    fun p => decide (p ∈ interior (convexHull ℝ {k | k ∈ ks}))⟩, ⟨fun a b => decide_eq_true_iff, f1, fun s t => g1 s t, fun p => decide_eq_true_iff⟩,
    ⟨f2, fun s t => g2 s t, f3⟩⟩

end Starworlds
