import Verif.Model.RoundedGlobalAle
import Verif.Props.RoundedAle
import Verif.Props.AleUnits
set_option linter.unusedSectionVars false
/-
C182, second part: `global_ALE` in floating point.
-/
namespace Geo
section
variable {K : Type} [Field K] [LinearOrder K] [IsStrictOrderedRing K] {a : Arith K}
variable {shape : List (Num K) → SumTree K}

theorem groupMeansR_notNeg (ha : a.Ok) (hs : SumsAll shape) (idx : List Nat) (ps : List (K × K))
    (h : ∀ i, (ps.getD i (0, 0)).1 ≤ (ps.getD i (0, 0)).2) :
    ∀ v ∈ groupMeansR a shape idx ps, v.NotNeg ∧ v.IsFl a := by
  intro v hv
  obtain ⟨k, -, rfl⟩ := List.mem_map.1 hv
  refine ⟨divR_notNeg ha (sumR_notNeg ha hs _ fun z hz => ?_) (.inr (.inr ⟨_, rfl, Nat.cast_nonneg _⟩)), rnd_isFl ha _⟩
  obtain ⟨j, -, rfl⟩ := List.mem_map.1 hz
  exact .inr (ha.op.nonneg (by have := h j; linarith))

theorem groupMeansR_zero (ha : a.Ok) (hs : SumsAll shape) (idx : List Nat) (ps : List (K × K))
    (h : ∀ i, (ps.getD i (0, 0)).1 = (ps.getD i (0, 0)).2) :
    ∀ v ∈ groupMeansR a shape idx ps, v = .fin 0 := by
  intro v hv
  obtain ⟨k, hk, rfl⟩ := List.mem_map.1 hv
  have hlen : (((members idx k).length : Nat) : K) ≠ 0 := by
    refine Nat.cast_ne_zero.2 fun h0 => ?_
    obtain ⟨i, hi, e⟩ := List.getElem_of_mem (mem_uniqueL.1 hk)
    have : i ∈ members idx k := by
      unfold members
      rw [List.mem_filter, List.mem_range]
      exact ⟨hi, by simp [hi, e]⟩
    rw [List.length_eq_zero_iff.1 h0] at this
    cases this
  have h1 : sumR a shape ((members idx k).map fun i =>
      Num.rnd a.op (.sub (.fin (ps.getD i (0, 0)).2) (.fin (ps.getD i (0, 0)).1))) = .fin 0 := by
    unfold sumR
    split_ifs with h2
    · rfl
    · refine SumTree.value_zero ha _ fun z hz => ?_
      obtain ⟨j, -, rfl⟩ := List.mem_map.1 ((hs _ h2).mem_iff.1 hz)
      rw [h j]
      simp [Num.sub, Num.neg, Num.add, Num.rnd, ha.op.zero]
  rw [h1]
  simp only [Num.div, hlen, if_false, zero_div, Num.rnd, ha.op.zero]

end

section
variable {K F C : Type} [Field K] [LinearOrder K] [IsStrictOrderedRing K] [FloorRing K]
variable {fmt : Fmt} {shape : List (Num K) → SumTree K}

theorem adaptiveGridR_nil (m : ℤ) : ∃ e, adaptiveGridR fmt ([] : List K) m = .error e := by
  unfold adaptiveGridR
  rw [bisectFun]
  simp [getQuantilesR, bisectAux]

theorem globalAleR_ok {L : Learner K F} {st : WMState K F C} {feature : Nat} {q : List K} {ale : List (Num K)}
    (h : globalAleR fmt shape L st feature = .ok (q, ale)) (R : K → K → Prop) (h0 : R 0 0)
    (hR : ∀ es f, st.estimators = some es → some f ∈ es → ∀ (row : List K) (u v : K), u ≤ v →
      R (L.predict f (row.set feature u)) (L.predict f (row.set feature v))) :
    ∃ idx ps, idx ≠ [] ∧ (∀ i, R (ps.getD i (0, 0)).1 (ps.getD i (0, 0)).2) ∧
      ps.length = idx.length ∧
      aleFinishR fmt.arith shape true (.fin 0) (bincount idx) (accumulateR fmt.arith (groupMeansR fmt.arith shape idx ps)) =
        .ok ale := by
  unfold globalAleR at h
  split at h
  · rename_i X es hX hes
    split_ifs at h
    split at h
    · cases h
    · rename_i q' n hq
      split at h
      · cases h
      · rename_i lows h1
        split at h
        · cases h
        · rename_i highs h2
          split at h
          · cases h
          · rename_i ps hps
            have hsorted : q'.Pairwise (· < ·) := by
              unfold adaptiveGridR at hq
              split at hq
              · cases hq
              · split at hq
                · cases hq
                · cases hq
                  exact uniqueL_pairwise _
            cases hr : globalFinishR fmt.arith shape (aleIdx q' (X.col feature)) ps with
            | error e => rw [hr] at h; cases h
            | ok ale' =>
              rw [hr] at h
              cases h
              unfold globalFinishR at hr
              split_ifs at hr with hl
              refine ⟨_, ps, fun h0 => ?_, fun i => ?_, not_ne_iff.1 hl, hr⟩
              · have h3 : X.col feature = [] := by
                  have := congrArg List.length h0
                  simpa [aleIdx] using this
                rw [h3] at hq
                obtain ⟨e, he⟩ := adaptiveGridR_nil (K := K) (fmt := fmt) 1
                rw [he] at hq
                cases hq
              have f1 := List.forall₂_iff_get.1 (mapE_ok_iff.1 hps)
              by_cases hi : i < ps.length
              · have g := f1.2 i (by rw [f1.1]; exact hi) hi
                rw [List.getD_eq_getElem _ _ hi]
                simp only [List.get_eq_getElem, List.getElem_range] at g
                have hi' : i < es.length := by rw [← f1.1, List.length_range] at hi; exact hi
                rw [List.getD_eq_getElem _ _ hi'] at g
                unfold globalPair at g
                split_ifs at g
                split at g
                · cases g
                · rename_i f hf
                  have := hR es f hes (hf ▸ List.getElem_mem hi')
                  cases hpi : ps[i] with
                  | mk u v =>
                    rw [hpi] at g
                    cases g
                    exact this _ _ _ (lookups_le hsorted h1 h2 i)
              · rw [List.getD_eq_default _ _ (by omega)]
                exact h0
  · cases h

/-- C182: `global_ALE` of a feature that no local model uses is exactly zero in every IEEE format and order of
summation. -/
theorem C182_global_flat (hF : fmt.Ok) (hs : SumsAll shape) (L : Learner K F) (st : WMState K F C) (feature : Nat)
    (hp : ∀ es f, st.estimators = some es → some f ∈ es → ∀ (row : List K) (u v : K),
      L.predict f (row.set feature u) = L.predict f (row.set feature v)) (q : List K) (ale : List (Num K))
    (h : globalAleR fmt shape L st feature = .ok (q, ale)) :
    ∀ x ∈ ale, x = .fin 0 := by
  obtain ⟨idx, ps, hne, hR, -, hfin⟩ := globalAleR_ok h (fun u v => u = v) rfl
    fun es f h1 h2 row u v _ => hp es f h1 h2 row u v
  obtain ⟨b, h1, h2⟩ := aleFinishR_flat (Fmt.arith_ok hF) hs hne
    (groupMeansR_zero (Fmt.arith_ok hF) hs idx ps hR) hfin
  intro x hx
  rw [h1 x hx, h2 rfl]

/-- C182: if no local model falls in the feature, neither does `global_ALE`, in every IEEE format and order of
summation: each value is at most the next one unless one of the two is NaN, and if the last value is finite none is
NaN. -/
theorem C182_global_monotone (hF : fmt.Ok) (hs : SumsAll shape) (L : Learner K F) (st : WMState K F C) (feature : Nat)
    (hp : ∀ es f, st.estimators = some es → some f ∈ es → ∀ (row : List K) (u v : K), u ≤ v →
      L.predict f (row.set feature u) ≤ L.predict f (row.set feature v)) (q : List K) (ale : List (Num K))
    (h : globalAleR fmt shape L st feature = .ok (q, ale)) :
    ale.IsChain (fun x y => x = .nan ∨ y = .nan ∨ Num.le x y) ∧
    ∀ (hne : ale ≠ []) (v : K), ale.getLast hne = .fin v → ale.IsChain Num.le ∧ ∀ x ∈ ale, x ≠ .nan := by
  obtain ⟨idx, ps, -, hR, -, hfin⟩ := globalAleR_ok h (fun u v => u ≤ v) le_rfl hp
  have := aleFinishR_rising (Fmt.arith_ok hF) (groupMeansR_notNeg (Fmt.arith_ok hF) hs idx ps hR) hfin
  exact ⟨this.step, this.last⟩

end

/-- `global_ALE` of a fitted model in double precision: the local models do not fall in the first feature (their
first target is 1, their last 2) and do not use the second. -/
example :
    let st := (wmFit edgeLearner lastRng edP {} 0 alX edY none (some (.dense edW))).state
    (∀ es f, st.estimators = some es → some f ∈ es → ∀ (row : List ℚ) (u v : ℚ), u ≤ v →
      edgeLearner.predict f (row.set 0 u) ≤ edgeLearner.predict f (row.set 0 v)) ∧
    (∀ es f, st.estimators = some es → some f ∈ es → ∀ (row : List ℚ) (u v : ℚ),
      edgeLearner.predict f (row.set 1 u) = edgeLearner.predict f (row.set 1 v)) ∧
    okAnd (globalAleR double leftTree edgeLearner st 0) (fun r => r.2.getD 0 .nan != r.2.getD 6 .nan) = true ∧
    okAnd (globalAleR double leftTree edgeLearner st 1) (fun r => r.2.all (· == .fin 0)) = true := by
  intro st
  have hes : st.estimators = some (List.replicate 12 (some (1, 2))) := by decide +kernel
  refine ⟨?_, ?_, by decide +kernel, by decide +kernel⟩
  · intro es f h1 h2 row u v h
    rw [hes] at h1
    cases h1
    cases List.eq_of_mem_replicate h2
    cases row with
    | nil => simp [edgeLearner]
    | cons x l =>
      simp only [edgeLearner, List.set_cons_zero, List.getD_cons_zero]
      split_ifs with h1 h2 h2
      · exact le_rfl
      · norm_num
      · exact absurd (h.trans h2) h1
      · exact le_rfl
  · intro es f _ _ row u v
    cases row with
    | nil => rfl
    | cons x l => rfl

end Geo
