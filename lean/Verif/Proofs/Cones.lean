import Verif.Proofs.CgLemmas
import Mathlib.Data.Fintype.Basic
import Mathlib.Tactic.FinCases
import Mathlib.Data.Fin.VecNotation

/-! Lemmas about cones (used by `Verif.Props.Cones`). -/

namespace Starworlds

open Spec

set_option linter.unusedSectionVars false

variable {K : Type*} [Field K] [LinearOrder K] [IsStrictOrderedRing K]

/-- Direction `v` is counter-clockwise of `u` beyond the threshold. -/
def ccwDir (u v : Pt K) : Bool := decide (collinearThreshold < cross u v)

/-- The two directions are not within the collinearity threshold. -/
def GenDir (u v : Pt K) : Prop := collinearThreshold < |cross u v|

theorem cross_swap (u v : Pt K) : cross v u = - cross u v := by simp only [cross]; ring

theorem GenDir.symm {u v : Pt K} (h : GenDir u v) : GenDir v u := by
  unfold GenDir at *; rwa [cross_swap, abs_neg]

theorem ccwDir_self (u : Pt K) : ccwDir u u = false := by
  have h0 := thr_pos (K := K)
  have : cross u u = 0 := by simp only [cross]; ring
  simp [ccwDir, this, h0.le]

theorem ccwDir_pos {u v : Pt K} (h : ccwDir u v = true) : 0 < cross u v := by
  have h0 := thr_pos (K := K)
  simp only [ccwDir, decide_eq_true_eq] at h
  linarith

theorem ccwDir_of_pos {u v : Pt K} (hg : GenDir u v) (h : 0 < cross u v) : ccwDir u v = true := by
  unfold GenDir at hg
  rw [abs_of_pos h] at hg
  simpa [ccwDir] using hg

theorem ccwDir_anti {u v : Pt K} (hg : GenDir u v) : ccwDir v u = !ccwDir u v := by
  have h0 := thr_pos (K := K)
  have hne : cross u v ≠ 0 := by
    intro h; unfold GenDir at hg; rw [h, abs_zero] at hg; linarith
  rcases lt_or_gt_of_ne hne with h | h
  · have h1 : ccwDir v u = true := ccwDir_of_pos hg.symm (by rw [cross_swap]; linarith)
    have h2 : ccwDir u v = false := by
      by_contra hc
      have := ccwDir_pos (by simpa using hc : ccwDir u v = true)
      linarith
    rw [h1, h2]; rfl
  · have h1 : ccwDir u v = true := ccwDir_of_pos hg h
    have h2 : ccwDir v u = false := by
      by_contra hc
      have := ccwDir_pos (by simpa using hc : ccwDir v u = true)
      rw [cross_swap] at this
      linarith
    rw [h1, h2]; rfl

theorem neg_of_not_ccwDir {u v : Pt K} (hg : GenDir u v) (h : ccwDir u v = false) : cross u v < 0 := by
  have : ccwDir v u = true := by rw [ccwDir_anti hg, h]; rfl
  have := ccwDir_pos this
  rw [cross_swap] at this
  linarith

theorem isCcw_apex (a d v : Pt K) : isCcw a (a + d) (a + v) = ccwDir d v := by
  rw [Bool.eq_iff_iff, isCcw_iff]
  simp [ccwDir]

theorem isCw_apex (a d v : Pt K) : isCw a (a + d) (a + v) = ccwDir v d := by
  rw [Bool.eq_iff_iff, isCw_iff]
  simp only [add_sub_cancel_left, ccwDir, decide_eq_true_eq]
  rw [cross_swap v d]
  constructor <;> intro h <;> linarith

theorem isConvex_eq (c : Cone K) : c.isConvex = ccwDir c.dir1 c.dir2 := by
  have := isCcw_apex (0 : Pt K) c.dir1 c.dir2
  simp only [zero_add] at this
  exact this

theorem pointInCone_eq (c : Cone K) (v : Pt K) :
    c.pointInCone (c.apex + v) = if ccwDir c.dir1 c.dir2 then ccwDir c.dir1 v && ccwDir v c.dir2
      else !(ccwDir c.dir2 v && ccwDir v c.dir1) := by
  simp only [Cone.pointInCone, Cone.ray1, Cone.ray2, isCcw_apex, isCw_apex, isConvex_eq]

/-! ### The finite core -/

/-- Cone membership in terms of an abstract "counter-clockwise of" table. -/
def tabMem (L : Fin 5 → Fin 5 → Bool) (d1 d2 x : Fin 5) : Bool :=
  if L d1 d2 then L d1 x && L x d2 else !(L d2 x && L x d1)

/-- `0,1` are the directions of the first cone, `2,3` of the second, `4` is the query: membership
in the union of the returned cones. -/
def tabInter (L : Fin 5 → Fin 5 → Bool) : Bool :=
  if tabMem L 0 1 2 && tabMem L 0 1 3 then
    if tabMem L 2 3 0 then tabMem L 0 3 4 || tabMem L 2 1 4 else tabMem L 2 3 4
  else if tabMem L 0 1 2 then tabMem L 2 1 4
  else if tabMem L 0 1 3 then tabMem L 0 3 4
  else if tabMem L 2 3 0 then tabMem L 0 1 4
  else false

/-- No directed triangle among the directions on one side of `v`. -/
def tabOk (L : Fin 5 → Fin 5 → Bool) (v a b c : Fin 5) : Bool :=
  !(L v a && L v b && L v c && L a b && L b c && L c a) &&
  !(L a v && L b v && L c v && L a b && L b c && L c a)

def mkTab (b01 b02 b03 b04 b12 b13 b14 b23 b24 b34 : Bool) (i j : Fin 5) : Bool :=
  match i, j with
  | 0, 1 => b01 | 0, 2 => b02 | 0, 3 => b03 | 0, 4 => b04 | 1, 2 => b12 | 1, 3 => b13 | 1, 4 => b14
  | 2, 3 => b23 | 2, 4 => b24 | 3, 4 => b34
  | 1, 0 => !b01 | 2, 0 => !b02 | 3, 0 => !b03 | 4, 0 => !b04 | 2, 1 => !b12 | 3, 1 => !b13
  | 4, 1 => !b14 | 3, 2 => !b23 | 4, 2 => !b24 | 4, 3 => !b34
  | _, _ => false

def allOk (L : Fin 5 → Fin 5 → Bool) : Bool :=
  [((0, 1, 4, 3) : Fin 5 × Fin 5 × Fin 5 × Fin 5), (1, 0, 2, 4), (3, 0, 4, 2), (2, 1, 3, 4), (4, 1, 3, 2), (0, 1, 2, 4),
    (1, 0, 4, 3), (4, 0, 3, 2), (0, 1, 2, 3), (1, 0, 2, 3), (2, 0, 4, 3), (0, 1, 3, 4), (3, 0, 2, 4),
    (2, 0, 3, 1), (4, 0, 2, 1), (4, 0, 2, 3)].all fun t => tabOk L t.1 t.2.1 t.2.2.1 t.2.2.2

theorem tab_core : ∀ b01 b02 b03 b04 b12 b13 b14 b23 b24 b34 : Bool,
    allOk (mkTab b01 b02 b03 b04 b12 b13 b14 b23 b24 b34) = true →
    tabInter (mkTab b01 b02 b03 b04 b12 b13 b14 b23 b24 b34) =
      (tabMem (mkTab b01 b02 b03 b04 b12 b13 b14 b23 b24 b34) 0 1 4 &&
       tabMem (mkTab b01 b02 b03 b04 b12 b13 b14 b23 b24 b34) 2 3 4) := by
  decide +kernel

theorem tabOk_of {d : Fin 5 → Pt K} (v a b c : Fin 5) :
    tabOk (fun i j => ccwDir (d i) (d j)) v a b c = true := by
  have key : ∀ h p q r : Pt K, 0 < cross p q → 0 < cross q r → 0 < cross r p →
      ¬ (0 < cross h p ∧ 0 < cross h q ∧ 0 < cross h r) ∧
      ¬ (0 < cross p h ∧ 0 < cross q h ∧ 0 < cross r h) := by
    intro h p q r h1 h2 h3
    have e : cross p q * cross h r + cross q r * cross h p = cross p r * cross h q := by
      simp only [cross]; ring
    constructor
    · rintro ⟨hp, hq, hr⟩
      have := mul_pos h1 hr
      have := mul_pos h2 hp
      have := mul_pos h3 hq
      rw [cross_swap p r] at this
      linarith
    · rintro ⟨hp, hq, hr⟩
      have a1 := mul_pos h1 hr
      have a2 := mul_pos h2 hp
      have a3 := mul_pos h3 hq
      rw [cross_swap p r] at a3
      rw [cross_swap h r] at a1
      rw [cross_swap h p] at a2
      rw [cross_swap h q] at a3
      linarith
  unfold tabOk
  rw [Bool.and_eq_true, Bool.not_eq_true', Bool.not_eq_true']
  constructor
  · by_contra hc
    simp only [Bool.not_eq_false, Bool.and_eq_true] at hc
    obtain ⟨⟨⟨⟨⟨x1, x2⟩, x3⟩, x4⟩, x5⟩, x6⟩ := hc
    exact (key (d v) _ _ _ (ccwDir_pos x4) (ccwDir_pos x5) (ccwDir_pos x6)).1
      ⟨ccwDir_pos x1, ccwDir_pos x2, ccwDir_pos x3⟩
  · by_contra hc
    simp only [Bool.not_eq_false, Bool.and_eq_true] at hc
    obtain ⟨⟨⟨⟨⟨x1, x2⟩, x3⟩, x4⟩, x5⟩, x6⟩ := hc
    exact (key (d v) _ _ _ (ccwDir_pos x4) (ccwDir_pos x5) (ccwDir_pos x6)).2
      ⟨ccwDir_pos x1, ccwDir_pos x2, ccwDir_pos x3⟩

theorem dir_core (d : Fin 5 → Pt K) (hg : ∀ i j, i ≠ j → GenDir (d i) (d j)) :
    tabInter (fun i j => ccwDir (d i) (d j)) =
      (tabMem (fun i j => ccwDir (d i) (d j)) 0 1 4 && tabMem (fun i j => ccwDir (d i) (d j)) 2 3 4) := by
  have e : (fun i j => ccwDir (d i) (d j)) =
      mkTab (ccwDir (d 0) (d 1)) (ccwDir (d 0) (d 2)) (ccwDir (d 0) (d 3)) (ccwDir (d 0) (d 4))
        (ccwDir (d 1) (d 2)) (ccwDir (d 1) (d 3)) (ccwDir (d 1) (d 4))
        (ccwDir (d 2) (d 3)) (ccwDir (d 2) (d 4)) (ccwDir (d 3) (d 4)) := by
    funext i j
    by_cases hij : i = j
    · subst hij
      rw [ccwDir_self]
      fin_cases i <;> rfl
    · by_cases hlt : i < j
      · fin_cases i <;> fin_cases j <;> first | rfl | exact absurd rfl hij | exact absurd hlt (by decide)
      · rw [ccwDir_anti (hg j i (Ne.symm hij))]
        fin_cases i <;> fin_cases j <;> first | rfl | exact absurd rfl hij | exact absurd (by decide) hlt
  have hok : allOk (fun i j => ccwDir (d i) (d j)) = true := by
    unfold allOk
    rw [List.all_eq_true]
    intro t _
    exact tabOk_of t.1 t.2.1 t.2.2.1 t.2.2.2
  rw [e] at hok ⊢
  exact tab_core _ _ _ _ _ _ _ _ _ _ hok

/-- Membership in the union of the cones returned by `intersection_same_apex`. -/
theorem inter_any {s o : Cone K} (ha : s.apex = o.apex) (v : Pt K)
    (h01 : GenDir s.dir1 s.dir2) (h02 : GenDir s.dir1 o.dir1) (h03 : GenDir s.dir1 o.dir2)
    (h04 : GenDir s.dir1 v) (h12 : GenDir s.dir2 o.dir1) (h13 : GenDir s.dir2 o.dir2)
    (h14 : GenDir s.dir2 v) (h23 : GenDir o.dir1 o.dir2) (h24 : GenDir o.dir1 v) (h34 : GenDir o.dir2 v) :
    ((s.intersectionSameApex o).any fun c => c.pointInCone (s.apex + v)) =
      (s.pointInCone (s.apex + v) && o.pointInCone (s.apex + v)) := by
  have hd := dir_core ![s.dir1, s.dir2, o.dir1, o.dir2, v] (by
    intro i j hij
    fin_cases i <;> fin_cases j <;>
      first
        | exact absurd rfl hij
        | assumption
        | (apply GenDir.symm; assumption))
  obtain ⟨a, d1, d2⟩ := s
  obtain ⟨a', e1, e2⟩ := o
  simp only at ha
  subst ha
  have hp : ∀ (p q w : Pt K), (⟨a, p, q⟩ : Cone K).pointInCone (a + w) =
      if ccwDir p q then ccwDir p w && ccwDir w q else !(ccwDir q w && ccwDir w p) :=
    fun p q w => pointInCone_eq ⟨a, p, q⟩ w
  simp only [tabInter, tabMem] at hd
  simp only [hp]
  refine Eq.trans ?_ hd
  simp only [Cone.intersectionSameApex, hp]
  have z0 : (![d1, d2, e1, e2, v] : Fin 5 → Pt K) 0 = d1 := rfl
  have z1 : (![d1, d2, e1, e2, v] : Fin 5 → Pt K) 1 = d2 := rfl
  have z2 : (![d1, d2, e1, e2, v] : Fin 5 → Pt K) 2 = e1 := rfl
  have z3 : (![d1, d2, e1, e2, v] : Fin 5 → Pt K) 3 = e2 := rfl
  have z4 : (![d1, d2, e1, e2, v] : Fin 5 → Pt K) 4 = v := rfl
  simp only [z0, z1, z2, z3, z4]
  generalize hA : (if ccwDir d1 d2 = true then ccwDir d1 e1 && ccwDir e1 d2
    else !(ccwDir d2 e1 && ccwDir e1 d1)) = A
  generalize hB : (if ccwDir d1 d2 = true then ccwDir d1 e2 && ccwDir e2 d2
    else !(ccwDir d2 e2 && ccwDir e2 d1)) = B
  generalize hC : (if ccwDir e1 e2 = true then ccwDir e1 d1 && ccwDir d1 e2
    else !(ccwDir e2 d1 && ccwDir d1 e1)) = C
  cases A <;> cases B <;> cases C <;> simp [hp]

/-- The two directions of every cone of a list. -/
def coneDirs (cs : List (Cone K)) : List (Pt K) := cs.flatMap fun c => [c.dir1, c.dir2]

/-- A cone whose directions come from `D` and whose apex is `a`. -/
def FromDirs (a : Pt K) (D : List (Pt K)) (c : Cone K) : Prop :=
  c.apex = a ∧ c.dir1 ∈ D ∧ c.dir2 ∈ D ∧ GenDir c.dir1 c.dir2

theorem fromDirs_inter {a : Pt K} {D : List (Pt K)} {s o : Cone K} (hs : FromDirs a D s)
    (ho : o.apex = a) (hoo : GenDir o.dir1 o.dir2)
    (h1 : ∀ d ∈ D, GenDir d o.dir1) (h2 : ∀ d ∈ D, GenDir d o.dir2) :
    ∀ c ∈ s.intersectionSameApex o, FromDirs a (D ++ [o.dir1, o.dir2]) c := by
  obtain ⟨ha, hd1, hd2, hg⟩ := hs
  have m1 : s.dir1 ∈ D ++ [o.dir1, o.dir2] := by simp [hd1]
  have m2 : s.dir2 ∈ D ++ [o.dir1, o.dir2] := by simp [hd2]
  have m3 : o.dir1 ∈ D ++ [o.dir1, o.dir2] := by simp
  have m4 : o.dir2 ∈ D ++ [o.dir1, o.dir2] := by simp
  have c1 : FromDirs a (D ++ [o.dir1, o.dir2]) ⟨s.apex, s.dir1, o.dir2⟩ := ⟨ha, m1, m4, h2 _ hd1⟩
  have c2 : FromDirs a (D ++ [o.dir1, o.dir2]) ⟨s.apex, o.dir1, s.dir2⟩ := ⟨ha, m3, m2, (h1 _ hd2).symm⟩
  have c3 : FromDirs a (D ++ [o.dir1, o.dir2]) s := ⟨ha, m1, m2, hg⟩
  have c4 : FromDirs a (D ++ [o.dir1, o.dir2]) o := ⟨ho, m3, m4, hoo⟩
  intro c hc
  unfold Cone.intersectionSameApex at hc
  simp only at hc
  split at hc
  · split at hc
    · simp only [List.mem_cons, List.not_mem_nil, or_false] at hc
      rcases hc with rfl | rfl <;> assumption
    · simp only [List.mem_cons, List.not_mem_nil, or_false] at hc
      rw [hc]; exact c4
  · split at hc
    · simp only [List.mem_cons, List.not_mem_nil, or_false] at hc
      rw [hc]; exact c2
    · split at hc
      · simp only [List.mem_cons, List.not_mem_nil, or_false] at hc
        rw [hc]; exact c1
      · split at hc
        · simp only [List.mem_cons, List.not_mem_nil, or_false] at hc
          rw [hc]; exact c3
        · simp at hc

theorem loop_mem (a v : Pt K) : ∀ (cs : List (Cone K)) (D : List (Pt K)) (cur : List (Cone K)),
    (∀ c ∈ cs, c.apex = a) →
    List.Pairwise GenDir (D ++ coneDirs cs) → (∀ d ∈ D ++ coneDirs cs, GenDir d v) →
    (∀ c ∈ cur, FromDirs a D c) →
    ((∃ c ∈ Cone.listIntersectionLoop cur cs, c.pointInCone (a + v) = true) ↔
      (∃ c ∈ cur, c.pointInCone (a + v) = true) ∧ ∀ c ∈ cs, c.pointInCone (a + v) = true) := by
  intro cs
  induction cs with
  | nil => intro D cur _ _ _ _; simp [Cone.listIntersectionLoop]
  | cons o cs ih =>
    intro D cur ha hg hv hcur
    have e : D ++ coneDirs (o :: cs) = (D ++ [o.dir1, o.dir2]) ++ coneDirs cs := by
      simp [coneDirs]
    rw [e] at hg hv
    have hgl := (List.pairwise_append.mp hg).1
    have hgD := List.pairwise_append.mp hgl
    have hoo : GenDir o.dir1 o.dir2 := by
      have := hgD.2.1
      simp only [List.pairwise_cons, List.mem_cons, List.not_mem_nil, or_false, forall_eq] at this
      exact this.1
    have h1 : ∀ d ∈ D, GenDir d o.dir1 := fun d hd => hgD.2.2 d hd _ (by simp)
    have h2 : ∀ d ∈ D, GenDir d o.dir2 := fun d hd => hgD.2.2 d hd _ (by simp)
    have hvD : ∀ d ∈ D, GenDir d v := fun d hd => hv d (by simp [hd])
    have hv1 : GenDir o.dir1 v := hv _ (by simp)
    have hv2 : GenDir o.dir2 v := hv _ (by simp)
    have hoa : o.apex = a := ha o (by simp)
    rw [Cone.listIntersectionLoop, ih (D ++ [o.dir1, o.dir2]) _ (fun c hc => ha c (by simp [hc])) hg hv]
    · constructor
      · rintro ⟨⟨c, hc, hx⟩, hcs⟩
        obtain ⟨s, hs, hcs'⟩ := List.mem_flatMap.mp hc
        obtain ⟨hsa, hs1, hs2, hsg⟩ := hcur s hs
        have := inter_any (s := s) (o := o) (hsa.trans hoa.symm) v hsg (h1 _ hs1) (h2 _ hs1)
          (hvD _ hs1) (h1 _ hs2) (h2 _ hs2) (hvD _ hs2) hoo hv1 hv2
        rw [hsa] at this
        have hany : ((s.intersectionSameApex o).any fun c => c.pointInCone (a + v)) = true :=
          List.any_eq_true.mpr ⟨c, hcs', hx⟩
        rw [this, Bool.and_eq_true] at hany
        refine ⟨⟨s, hs, hany.1⟩, ?_⟩
        intro c' hc'
        rcases List.mem_cons.mp hc' with rfl | h
        · exact hany.2
        · exact hcs c' h
      · rintro ⟨⟨s, hs, hx⟩, hcs⟩
        refine ⟨?_, fun c hc => hcs c (by simp [hc])⟩
        obtain ⟨hsa, hs1, hs2, hsg⟩ := hcur s hs
        have := inter_any (s := s) (o := o) (hsa.trans hoa.symm) v hsg (h1 _ hs1) (h2 _ hs1)
          (hvD _ hs1) (h1 _ hs2) (h2 _ hs2) (hvD _ hs2) hoo hv1 hv2
        rw [hsa, hx, hcs o (by simp), Bool.and_self, List.any_eq_true] at this
        obtain ⟨c, hc, hcx⟩ := this
        exact ⟨c, List.mem_flatMap.mpr ⟨s, hs, hc⟩, hcx⟩
    · intro c hc
      obtain ⟨s, hs, hcs'⟩ := List.mem_flatMap.mp hc
      exact fromDirs_inter (hcur s hs) hoa hoo h1 h2 c hcs'

end Starworlds
