import Verif.Proofs.GroupsLoop

/-! # Helper lemmas for C124: the whole call -/

namespace Starworlds

open Spec

variable {Ob Star KP P : Type} {g : Geo Ob Star KP P} {A B : List Ob} {prev : Option (List (Cl Ob Star KP P))}

/-- The result of a call without make_convex and with the history, from the end of the loop. -/
def endResult (g : Geo Ob Star KP P) (A : List Ob) : LoopEnd Ob Star KP P → Res Ob Star KP P
  | .incomplete n it => defaultResult g ⟨none, false, true⟩ A n it
  | .done cls n it => ⟨cls, .complete, n, some (.iters it)⟩

theorem call_cases {fuel : Nat} {r : Res Ob Star KP P} (h : clusterAndStarify g ⟨none, false, true⟩ prev fuel A = some (.ok r)) :
    (initLoop g 0 A = .ok false ∧ r = defaultResult g ⟨none, false, true⟩ A 0 []) ∨
    (initLoop g 0 A = .ok true ∧ ∃ cls0 cls1 ex e, A.mapM (firstCluster g prev) = .ok cls0 ∧
      getIntersectionClusters g cls0 = .ok (cls1, ex) ∧
      clusterLoop g ⟨none, false, true⟩ prev fuel cls1 ex (firstHistory cls0) 1 [cls0] = some (.ok e) ∧ r = endResult g A e) := by
  simp only [clusterAndStarify] at h
  split at h
  · cases h
  · rename_i hi
    injection h with h; injection h with h
    exact Or.inl ⟨hi, h.symm⟩
  · rename_i hi
    refine Or.inr ⟨hi, ?_⟩
    split at h
    · cases h
    · rename_i cls0 h0
      split at h
      · cases h
      · rename_i cls1 ex h1
        simp only [if_true] at h
        split at h
        · cases h
        · cases h
        · rename_i n it he
          injection h with h; injection h with h
          exact ⟨cls0, cls1, ex, _, h0, h1, he, h.symm⟩
        · rename_i cls n it he
          simp only [Bool.false_eq_true, if_false] at h
          injection h with h; injection h with h
          exact ⟨cls0, cls1, ex, _, h0, h1, he, h.symm⟩

theorem recorded_end {par : Params} {fuel : Nat} {cls : List (Cl Ob Star KP P)} {ex : Bool} {h : History Ob Star KP P}
    {it : List (List (Cl Ob Star KP P))} {e : LoopEnd Ob Star KP P} (he : clusterLoop g par prev fuel cls ex h 1 it = some (.ok e)) :
    recorded (endResult g A e) = e.iters.flatten := by
  cases e with
  | done => rfl
  | incomplete m j =>
    have : 0 < m := (clusterLoop_iters _ he).2 m j rfl
    simp [endResult, defaultResult, recorded, this, LoopEnd.iters]

theorem initLoop_two (htm : ∀ i, g.timeoutInit i = false) (i j : Nat) : initLoop g i (A ++ B) =
    match initLoop g i A with
    | .error e => .error e
    | .ok false => .ok false
    | .ok true => initLoop g j B := by
  have hsh : ∀ (l : List Ob) (i j : Nat), initLoop g i l = initLoop g j l := by
    intro l
    induction l with
    | nil => intro i j; rfl
    | cons o l ih => intro i j; simp only [initLoop, htm, Bool.false_eq_true, if_false, ih (i + 1) (j + 1)]
  induction A generalizing i with
  | nil => exact hsh B i j
  | cons o A ih =>
    simp only [List.cons_append, initLoop, htm, Bool.false_eq_true, if_false, bind, Except.bind]
    cases g.robotFree o with
    | error e => rfl
    | ok a => cases g.goalFree o with
      | error e => rfl
      | ok b =>
        simp only []
        cases (!a || !b) with
        | true => rfl
        | false =>
          simp only [Bool.false_eq_true, if_false]
          cases g.exclude o with
          | error e => rfl
          | ok _ => exact ih (i + 1)

theorem mapM_two {α β : Type} {f : α → Except PyErr β} {l m : List α} {a b : List β} (hl : l.mapM f = .ok a) (hm : m.mapM f = .ok b) :
    (l ++ m).mapM f = .ok (a ++ b) := by
  rw [List.mapM_append, hl, hm]
  rfl

theorem foldl_insert_other (cls : List (Cl Ob Star KP P)) (h : History Ob Star KP P) {nm : String} (hn : ∀ d ∈ cls, d.name ≠ nm) :
    (cls.foldl History.insert h) nm = h nm := by
  induction cls generalizing h with
  | nil => rfl
  | cons c cls ih =>
    rw [List.foldl_cons, ih _ fun d hd => hn d (by simp [hd]), History.insert, if_neg]
    exact (hn c (by simp)).symm

theorem foldl_insert_agree (cls : List (Cl Ob Star KP P)) (h k : History Ob Star KP P) {nm : String} (hn : h nm = k nm) :
    (cls.foldl History.insert h) nm = (cls.foldl History.insert k) nm := by
  induction cls generalizing h k with
  | nil => exact hn
  | cons c cls ih =>
    rw [List.foldl_cons, List.foldl_cons]
    exact ih _ _ (by simp only [History.insert, hn])

theorem first_side (hs : IsSetList g.setList) (hid : (A.map g.id).Nodup) {cls0 cls1 : List (Cl Ob Star KP P)} {ex : Bool}
    (h0 : A.mapM (firstCluster g prev) = .ok cls0) (h1 : getIntersectionClusters g cls0 = .ok (cls1, ex)) :
    Side g A 1 cls1 ex (firstHistory cls0) 1 [cls0] := by
  obtain ⟨hg, ho, _⟩ := mapM_first A (fun _ h => h) h0
  refine side_of_gic hs (histOk_first cls0 hg) hg ?_ (List.Perm.of_eq ho) h1 (by simp)
  refine firstHistory_mem cls0 _ ?_
  rw [mapM_first_names A h0]
  have : (A.map g.id).map (fun i => clusterName [i]) = A.map fun o => clusterName [g.id o] := by rw [List.map_map]; rfl
  rw [← this]
  refine hid.map fun i j hij => ?_
  simpa using clusterName_inj (by simp) (by simp) hij

/-- The call for both groups, up to the make_convex stage. -/
theorem call_two (hs : IsSetList g.setList) (hsh : ShiftFree (A ++ B).length g.setList) (hti : ∀ i, g.timeoutInit i = false)
    (htm : ∀ n, g.timeoutIter n = false) (hid : ((A ++ B).map g.id).Nodup) {fuel : Nat} {rA rB : Res Ob Star KP P}
    (hA : clusterAndStarify g ⟨none, false, true⟩ prev fuel A = some (.ok rA))
    (hB : clusterAndStarify g ⟨none, false, true⟩ prev fuel B = some (.ok rB))
    (hap : ∀ c ∈ recorded rA, ∀ d ∈ recorded rB, ApartFrom g c d) {par : Params} (hmax : par.maxIterations = none) :
    (rA.flag = .complete ∧ rB.flag = .complete ∧ initLoop g 0 (A ++ B) = .ok true ∧
      ∃ cls0 cls1 ex it, (A ++ B).mapM (firstCluster g prev) = .ok cls0 ∧ getIntersectionClusters g cls0 = .ok (cls1, ex) ∧
        clusterLoop g par prev fuel cls1 ex (firstHistory cls0) 1 (if par.returnHistory then [cls0] else []) =
          some (.ok (.done (rA.clusters ++ rB.clusters) (max rA.nIter rB.nIter) it))) ∨
    ((rA.flag = .incomplete ∨ rB.flag = .incomplete) ∧
      ∃ n it, clusterAndStarify g par prev fuel (A ++ B) = some (.ok (defaultResult g par (A ++ B) n it))) := by
  have hi := initLoop_two (A := A) (B := B) hti 0 0
  rcases call_cases hA with ⟨iA, rfl⟩ | ⟨iA, c0, c1, exA, eA, a1, a2, a3, rfl⟩
  · rw [iA] at hi
    refine Or.inr ⟨Or.inl rfl, 0, [], ?_⟩
    simp only [clusterAndStarify, hi]
  · rw [iA] at hi
    rcases call_cases hB with ⟨iB, rfl⟩ | ⟨iB, d0, d1, exB, eB, b1, b2, b3, rfl⟩
    · simp only [iB] at hi
      refine Or.inr ⟨Or.inr rfl, 0, [], ?_⟩
      simp only [clusterAndStarify, hi]
    · simp only [iB] at hi
      rw [recorded_end a3, recorded_end b3] at hap
      have hap' : ∀ x ∈ eA.iters, ∀ y ∈ eB.iters, ∀ c ∈ x, ∀ d ∈ y, ApartFrom g c d := fun x hx y hy c hc d hd =>
        hap c (List.mem_flatten.2 ⟨x, hx, hc⟩) d (List.mem_flatten.2 ⟨y, hy, hd⟩)
      have idA : (A.map g.id).Nodup := by rw [List.map_append] at hid; exact hid.of_append_left
      have idB : (B.map g.id).Nodup := by rw [List.map_append] at hid; exact hid.of_append_right
      have hm := mapM_two a1 b1
      obtain ⟨gA, _, lA⟩ := mapM_first A (fun _ h => h) a1
      obtain ⟨gB, _, lB⟩ := mapM_first B (fun _ h => h) b1
      have hg := gic_two hs hsh (by rw [List.length_append, lA, lB]) gA gB
        (hap' c0 ((clusterLoop_iters _ a3).1 _ (by simp)) d0 ((clusterLoop_iters _ b3).1 _ (by simp))) a2 b2
      have hkA : ∀ nm, NameOf g A nm → firstHistory (c0 ++ d0) nm = firstHistory c0 nm := by
        intro nm hnm
        rw [firstHistory, List.foldl_append, foldl_insert_other]
        · rfl
        · rintro d hd rfl
          exact nameOf_apart hid hnm (gB d hd).nameOf
      have hkB : ∀ nm, NameOf g B nm → firstHistory (c0 ++ d0) nm = firstHistory d0 nm := by
        intro nm hnm
        rw [firstHistory, List.foldl_append]
        refine foldl_insert_agree _ _ _ (foldl_insert_other _ _ ?_)
        rintro d hd rfl
        exact nameOf_apart hid (gA d hd).nameOf hnm
      obtain ⟨e, he, hj⟩ : ∃ e, clusterLoop g par prev fuel (if exA || exB then c1.map (renew g) ++ d1.map (renew g) else c1 ++ d1) (exA || exB)
          (firstHistory (c0 ++ d0)) 1 (if par.returnHistory then [c0 ++ d0] else []) = some (.ok e) ∧ Joined eA eB e := by
        cases hx : exA || exB with
        | true =>
          simp only [if_true]
          exact loop_two hs hsh htm hid rfl rfl hmax fuel hx (first_side hs idA a1 a2) (first_side hs idB b1 b2) hkA hkB a3 b3 hap'
        | false =>
          rw [Bool.or_eq_false_iff] at hx
          obtain ⟨rfl, rfl⟩ := hx
          have eA' : eA = .done c1 1 [c0] := by
            cases fuel <;> simp only [clusterLoop] at a3 <;> (injection a3 with a3; injection a3 with a3; exact a3.symm)
          have eB' : eB = .done d1 1 [d0] := by
            cases fuel <;> simp only [clusterLoop] at b3 <;> (injection b3 with b3; injection b3 with b3; exact b3.symm)
          subst eA' eB'
          simp only [Bool.false_eq_true, if_false]
          refine ⟨.done (c1 ++ d1) 1 (if par.returnHistory then [c0 ++ d0] else []), ?_, rfl, rfl⟩
          cases fuel <;> simp only [clusterLoop]
      have hinc : ∀ n it, e = .incomplete n it →
          clusterAndStarify g par prev fuel (A ++ B) = some (.ok (defaultResult g par (A ++ B) n it)) := by
        rintro n it rfl
        simp only [clusterAndStarify, hi, hm, hg, he]
      cases eA with
      | done oA mA jA => cases eB with
        | done oB mB jB => cases e with
          | done o m j =>
            obtain ⟨rfl, rfl⟩ := hj
            exact Or.inl ⟨rfl, rfl, hi, _, _, _, j, hm, hg, he⟩
          | incomplete => cases hj
        | incomplete mB jB => cases e with
          | done => cases hj
          | incomplete n it => exact Or.inr ⟨Or.inr rfl, n, it, hinc n it rfl⟩
      | incomplete mA jA => cases e with
        | done => cases eB <;> cases hj
        | incomplete n it => exact Or.inr ⟨Or.inl rfl, n, it, hinc n it rfl⟩

end Starworlds
