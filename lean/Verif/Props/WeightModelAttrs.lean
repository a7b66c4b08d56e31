import Verif.Props.Importance
/-
C76: the attributes of a fitted model.
-/
set_option linter.unusedSectionVars false
namespace Geo
variable {K : Type} [Field K] [LinearOrder K] [IsStrictOrderedRing K] [FloorRing K]
variable {F C S : Type}

theorem R2Of_congr {n : Nat} {y y' p p' : Nat → K} (hy : ∀ k < n, y k = y' k)
    (hp : ∀ k < n, p k = p' k) : R2Of n y p = R2Of n y' p' := by
  have h1 : ∑ i ∈ Finset.range n, y i = ∑ i ∈ Finset.range n, y' i :=
    Finset.sum_congr rfl fun k hk => hy k (Finset.mem_range.1 hk)
  have h2 : ∑ i ∈ Finset.range n, (y i - p i) ^ 2 = ∑ i ∈ Finset.range n, (y' i - p' i) ^ 2 :=
    Finset.sum_congr rfl fun k hk => by
      rw [hy k (Finset.mem_range.1 hk), hp k (Finset.mem_range.1 hk)]
  have h3 : ∀ m : K, ∑ i ∈ Finset.range n, (y i - m) ^ 2 = ∑ i ∈ Finset.range n, (y' i - m) ^ 2 :=
    fun m => Finset.sum_congr rfl fun k hk => by rw [hy k (Finset.mem_range.1 hk)]
  unfold R2Of
  simp only [h1, h2, h3]

theorem skR2_lists {ys ps : List K} {v : K} (h : skR2 ys ps = .ok v) :
    v = R2Of ys.length (fun k => ys.getD k 0) fun k => ps.getD k 0 := by
  have hl := (skR2_ok h).1
  have e : ∀ l : List K, l = (List.range l.length).map fun k => l.getD k 0 := by
    intro l
    apply List.ext_getElem (by simp)
    intro i h1 h2
    simp [h1]
  have h' : skR2 ((List.range ys.length).map fun k => ys.getD k 0)
      ((List.range ys.length).map fun k => ps.getD k 0) = .ok v := by
    rw [← e ys, hl, ← e ps]; exact h
  exact skR2_value h'

/-- C76: after a successful fit `llocv_score_` is the coefficient of determination of
`local_predict_` for the targets at `local_indices_`, and `y_sample_` are these targets. -/
theorem C76_score (L : Learner K F) (rng : Rng S) (p : WMParams K C) (st : WMState K F C)
    (s : S) (X : Mat K) (y : List K) (coords : Option C) (W : Option (WMat K))
    (hok : (wmFit L rng p st s X y coords W).result = .ok ()) :
    let o := (wmFit L rng p st s X y coords W).state
    ∃ idx ps, o.localIndices = some idx ∧ o.localPredict = some ps ∧ ps.length = idx.length ∧
      o.ySample = some (idx.map fun i => y.getD i 0) ∧
      o.score = some (R2Of idx.length (fun k => y.getD (idx.getD k 0) 0) fun k => ps.getD k 0) := by
  obtain ⟨W0, idx, s', res, score, hxy, hW0, hsamp, hfa, hlen, h2, hsc, heq⟩ := wmFit_ok hok
  rw [heq]
  refine ⟨idx, res.map Prod.fst, rfl, rfl, by simpa using hlen, rfl, ?_⟩
  simp only [Option.some.injEq]
  rw [skR2_lists hsc]
  simp only [List.length_map]
  refine R2Of_congr (fun k hk => ?_) fun _ _ => rfl
  rw [List.getD_eq_getElem _ _ (by simpa using hk), List.getD_eq_getElem idx _ hk]
  simp

/-- The entry of a boolean matrix. -/
def BMat.at : BMat → Nat → Nat → Bool
  | .dense M, i, j => M.get i j
  | .sparse M, i, j => decide (j ∈ M.rowIdx i)

/-- C76: `neighbour_matrix_` marks the positive entries of `weight_matrix_`. -/
theorem C76_neighbour_matrix (L : Learner K F) (rng : Rng S) (p : WMParams K C) (st : WMState K F C)
    (s : S) (X : Mat K) (y : List K) (coords : Option C) (W : Option (WMat K))
    (hcan : ∀ A, W = some (.sparse A) → A.Canonical)
    (hok : (wmFit L rng p st s X y coords W).result = .ok ()) :
    let o := (wmFit L rng p st s X y coords W).state
    ∃ Wm B, o.weightMatrix = some Wm ∧ o.neighbourMatrix = some B ∧
      ∀ i < Wm.toMat.r, ∀ j < Wm.toMat.c, (B.at i j = true ↔ 0 < Wm.toMat.get i j) := by
  obtain ⟨W0, idx, s', res, score, hxy, hW0, hsamp, hfa, hlen, h2, hsc, heq⟩ := wmFit_ok hok
  rw [heq]
  refine ⟨_, _, rfl, rfl, ?_⟩
  have hWok : (leaveOut p W0).Ok := (chosenWeights_ok hW0 hcan).leaveOut p
  generalize leaveOut p W0 = Wm at hWok
  intro i hi j hj
  cases Wm with
  | dense D => simp [WMat.gt0, BMat.at, gt0, Mat.map, WMat.toMat]
  | sparse A =>
    have hA : A.Canonical := hWok
    have hi' : i < A.r := hi
    simp only [WMat.gt0, BMat.at, Csr.gt0, decide_eq_true_eq, WMat.toMat]
    rw [hA.mem_keep_rowIdx _ _ hi']
    simp only [decide_eq_true_eq]
    constructor
    · exact fun h => h.2
    · intro h
      refine ⟨?_, h⟩
      by_contra hn
      have : A.dense.get i j = 0 := Csr.entry_of_not_mem hn
      rw [this] at h
      exact lt_irrefl _ h

/-- C76: `local_indices_` are increasing row numbers: all rows without sampling, and
`int(rate * N)` of them for a rate in `[0,1]`. -/
theorem C76_locations (L : Learner K F) (rng : Rng S) (hrng : rng.Valid) (p : WMParams K C)
    (st : WMState K F C)
    (s : S) (X : Mat K) (y : List K) (coords : Option C) (W : Option (WMat K))
    (hrate : ∀ r, p.sampleRate = some r → 0 ≤ r ∧ r ≤ 1)
    (hok : (wmFit L rng p st s X y coords W).result = .ok ()) :
    ∃ idx, (wmFit L rng p st s X y coords W).state.localIndices = some idx ∧
      idx.Pairwise (· < ·) ∧ (∀ i ∈ idx, i < X.r) ∧
      (p.sampleRate = none → idx.length = X.r) ∧
      ∀ r, p.sampleRate = some r → (idx.length : ℤ) = ⌊r * (X.r : K)⌋ := by
  obtain ⟨W0, idx, s', res, score, hxy, hW0, hsamp, hfa, hlen, h2, hsc, heq⟩ := wmFit_ok hok
  refine ⟨idx, by rw [heq], ?_⟩
  unfold sampleLocations at hsamp
  cases hr : p.sampleRate with
  | none =>
    rw [hr] at hsamp
    cases hsamp
    exact ⟨List.pairwise_lt_range, fun i hi => by simpa using hi, fun _ => by simp, fun r h => by cases h⟩
  | some r =>
    rw [hr] at hsamp
    simp only at hsamp
    obtain ⟨h0, h1⟩ := hrate r hr
    have hnn : (0 : K) ≤ r * (X.r : K) := mul_nonneg h0 (Nat.cast_nonneg _)
    have ht : truncInt (r * (X.r : K)) = ⌊r * (X.r : K)⌋ := if_pos hnn
    have hfl : 0 ≤ ⌊r * (X.r : K)⌋ := Int.floor_nonneg.2 hnn
    have hle : ⌊r * (X.r : K)⌋ ≤ (X.r : ℤ) := by
      rw [← Int.cast_le (R := K)]
      refine (Int.floor_le _).trans ?_
      rw [Int.cast_natCast]
      exact mul_le_of_le_one_left (Nat.cast_nonneg _) h1
    obtain ⟨m, hm⟩ := Int.eq_ofNat_of_zero_le hfl
    rw [ht, hm] at hsamp
    obtain ⟨c, hc1, hc2, hc3⟩ := hrng s (List.range X.r) m (by simp; omega)
    cases hch : rng.choice s (List.range X.r) (m : ℤ) with
    | mk a b =>
      rw [hch] at hsamp hc1
      simp only at hc1
      subst hc1
      simp only [Prod.mk.injEq, Except.ok.injEq] at hsamp
      obtain ⟨rfl, -⟩ := hsamp
      have hperm : (sortNat c).Perm c := List.perm_insertionSort _ _
      have hnd : (sortNat c).Nodup := hperm.nodup_iff.2 (by
        obtain ⟨l, h1, h2⟩ := hc3
        exact h1.nodup_iff.1 (h2.nodup List.nodup_range))
      have hle : (sortNat c).Pairwise (· ≤ ·) := List.pairwise_insertionSort _ _
      refine ⟨?_, ?_, (fun h => nomatch h), ?_⟩
      · exact (hle.and hnd).imp fun h => lt_of_le_of_ne h.1 h.2
      · intro i hi
        have := hc3.subset (mem_sortNat.1 hi)
        simpa using this
      · intro r' hr'
        cases hr'
        rw [hm, hperm.length_eq, hc2]

/-- The hypotheses are met by a fit at three of four locations. -/
example :
    let p := { exP with sampleRate := some (3 / 4 : ℚ) }
    (wmFit meanLearner lastRng p {} 0 exX2 exY4 none (some (.dense exW4))).result = .ok () := by
  decide +kernel

end Geo
