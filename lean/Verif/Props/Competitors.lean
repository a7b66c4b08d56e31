import Verif.Props.Penalty
/-
C166: what the meta estimator of a stacking model is at least as good as, on what it is fitted on.
-/
set_option linter.unusedSectionVars false
namespace Geo
variable {F C S : Type}

/-- A ridge regression on the columns `x j`, `j` in `sel`, compared with any combination of them. -/
theorem ridge_competitors {alpha : ℝ} {M : Learner ℝ (List ℝ × ℝ)} (hM : IsRidge alpha M)
    {nb sel : List Nat} (hnb : nb ≠ []) (hsel : 0 < sel.length) (x : Nat → Nat → ℝ) (y w : Nat → ℝ)
    (hw : ∀ k ∈ nb, 0 < w k) {g : List ℝ × ℝ}
    (h : M.fit 0 (nb.map fun k => sel.map fun j => x j k) (nb.map y) (nb.map w) = .ok g)
    (d : Nat → ℝ) (v : ℝ) :
    (nb.map fun k => w k * (y k - M.predict g (sel.map fun j => x j k)) ^ 2).sum +
        alpha * (g.1.map (· ^ 2)).sum ≤
      (nb.map fun k => w k * (y k - ((sel.map fun j => d j * x j k).sum + v)) ^ 2).sum +
        alpha * (sel.map fun j => d j ^ 2).sum := by
  have hr : ∀ r ∈ nb.map fun k => sel.map fun j => x j k, r.length = sel.length := by
    intro r hr
    obtain ⟨k, -, rfl⟩ := List.mem_map.1 hr
    simp
  obtain ⟨c, b, h1, h2, h3⟩ := hM.fit (nb.map fun k => sel.map fun j => x j k) (nb.map y)
    (nb.map w) sel.length (by simpa using hnb) hsel hr (by simp) (by simp)
    (by intro u hu; obtain ⟨k, hk, rfl⟩ := List.mem_map.1 hu; exact hw k hk)
  rw [h] at h1
  cases h1
  have e : ∀ (c' : List ℝ) (b' : ℝ),
      ridgeCost alpha (nb.map fun k => sel.map fun j => x j k) (nb.map y) (nb.map w) c' b' =
      (nb.map fun k => w k * (y k - ((List.zipWith (· * ·) (sel.map fun j => x j k) c').sum + b')) ^ 2).sum +
        alpha * (c'.map (· ^ 2)).sum := by
    intro c' b'
    unfold ridgeCost
    congr 2
    apply List.ext_getElem (by simp)
    intro t t1 t2
    have ht : t < nb.length := by simpa using t2
    simp [ht, sub_sub]
  have := h3 (sel.map d) v (by simp)
  rw [e, e] at this
  simp only [hM.predict]
  refine le_trans this (le_of_eq ?_)
  congr 2
  · refine List.map_congr_left fun k _ => ?_
    congr 5
    rw [List.zipWith_map, List.zipWith_self]
    exact List.map_congr_left fun j _ => mul_comm _ _
  · rw [List.map_map]
    rfl

/-- C166: the meta estimator of a location, compared with any combination of the base estimators left out
for the location, on the neighbours it is fitted on. -/
theorem C166_combinations (alpha : ℝ) (L : Learner ℝ F)
    (M Mn : Learner ℝ (List ℝ × ℝ)) (hM : IsRidge alpha M) (hMn : IsRidge alpha Mn)
    (rng : Rng S) (p : SParams ℝ C) (st : SState ℝ F (List ℝ × ℝ) C) (s : S) (X : Mat ℝ)
    (y : List ℝ) (coords : Option C) (W : Option (WMat ℝ))
    (hest : p.estimatorRate = none ∨ ∃ A, W = some (.sparse A)) (hW : SparseFine rng p W)
    (W0 : WMat ℝ) (W1 : Mat ℝ) (hW0 : chosenWeights p.toWMParams coords W = .ok W0)
    (hW1 : shrinkMetaDense p.metaShrink W0.toMat = .ok W1)
    (h : (stackFit L M Mn rng p st s X y coords W).result = .ok ()) :
    ∃ (fs : List F) (es : List (StackedEst F (List ℝ × ℝ))) (rate : ℝ) (Sm : Mat Bool),
      (stackFit L M Mn rng p st s X y coords W).state.base = some fs ∧
      (stackFit L M Mn rng p st s X y coords W).state.wm.estimators = some (es.map some) ∧
      p.leaveOutRate = some rate ∧
      (sampleNeighbourDense rng s W0.toMat rate p.leaveOutShrink).result = .ok Sm ∧
      ∀ i < X.r,
        let nb := (List.range X.r).filter fun k => decide (0 < W1.get i k ∧ k ≠ i)
        let sel := (List.range X.r).filter fun j => Sm.get i j
        nb ≠ [] ∧ i ∈ sel ∧ ∃ c b gs, es[i]? = some (.stacked (c, b) gs) ∧ ∀ (d : Nat → ℝ) (v : ℝ),
          (nb.map fun k => W1.get i k * (y.getD k 0 -
              stackPredict L (if p.useNumba then Mn else M) (.stacked (c, b) gs) (X.row k)) ^ 2).sum +
            alpha * (c.map (· ^ 2)).sum ≤
          (nb.map fun k => W1.get i k * (y.getD k 0 -
              ((sel.map fun j => d j * basePred L X fs j k).sum + v)) ^ 2).sum +
            alpha * (sel.map fun j => d j ^ 2).sum := by
  obtain ⟨V0, rate, Sm, V1, fs, ps, es, q1, q2, q3, q4, q5, q6, q7, q8⟩ :=
    C50_genuine_predictions L M Mn rng p st s X y coords W hest hW h
  rw [hW0] at q1
  cases q1
  rw [hW1] at q4
  cases q4
  have hMM : IsRidge alpha (if p.useNumba then Mn else M) := by
    split
    · exact hMn
    · exact hM
  refine ⟨fs, es, rate, Sm, q5, q7, q2, q3, fun i hi => ?_⟩
  obtain ⟨⟨c, b⟩, ⟨h1, h2⟩, ⟨gs, h3, h4⟩, -⟩ := q8.fitted i hi
  refine ⟨h1, q8.self i hi, c, b, gs, h3, fun d v => ?_⟩
  have key := ridge_competitors hMM h1 (List.length_pos_of_mem (q8.self i hi)) (basePred L X fs)
    (fun k => y.getD k 0) (W1.get i)
    (fun k hk => (of_decide_eq_true (List.mem_filter.1 hk).2).1) h2 d v
  have e : ∀ k, stackPredict L (if p.useNumba then Mn else M) (.stacked (c, b) gs) (X.row k) =
      (if p.useNumba then Mn else M).predict (c, b)
        (((List.range X.r).filter fun j => Sm.get i j).map fun j => basePred L X fs j k) := by
    intro k
    have := congrArg (List.map fun o : Option F => (o.map fun f => L.predict f (X.row k)).getD 0) h4
    rw [List.map_map, List.map_map] at this
    exact congrArg ((if p.useNumba then Mn else M).predict (c, b))
      (by simpa [Function.comp_def, basePred] using this)
  simp only [e]
  exact key

/-- C166: what follows. On the neighbours it is fitted on, the weighted squared error of the stacked
model of a location is at most that of each base estimator left out for it, corrected by any constant,
plus `alpha`; at most that of their plain average, corrected by any constant, plus `alpha` divided by their
number; and at most that of any constant, in particular the local mean. -/
theorem C166_competitors (alpha : ℝ) (hal : 0 ≤ alpha) (L : Learner ℝ F)
    (M Mn : Learner ℝ (List ℝ × ℝ)) (hM : IsRidge alpha M) (hMn : IsRidge alpha Mn)
    (rng : Rng S) (p : SParams ℝ C) (st : SState ℝ F (List ℝ × ℝ) C) (s : S) (X : Mat ℝ)
    (y : List ℝ) (coords : Option C) (W : Option (WMat ℝ))
    (hest : p.estimatorRate = none ∨ ∃ A, W = some (.sparse A)) (hW : SparseFine rng p W)
    (W0 : WMat ℝ) (W1 : Mat ℝ) (hW0 : chosenWeights p.toWMParams coords W = .ok W0)
    (hW1 : shrinkMetaDense p.metaShrink W0.toMat = .ok W1)
    (h : (stackFit L M Mn rng p st s X y coords W).result = .ok ()) :
    ∃ (fs : List F) (es : List (StackedEst F (List ℝ × ℝ))) (rate : ℝ) (Sm : Mat Bool),
      (stackFit L M Mn rng p st s X y coords W).state.base = some fs ∧
      (stackFit L M Mn rng p st s X y coords W).state.wm.estimators = some (es.map some) ∧
      p.leaveOutRate = some rate ∧
      (sampleNeighbourDense rng s W0.toMat rate p.leaveOutShrink).result = .ok Sm ∧
      ∀ i < X.r, ∃ e, es[i]? = some e ∧
        let err := fun f : Nat → ℝ => (((List.range X.r).filter fun k =>
          decide (0 < W1.get i k ∧ k ≠ i)).map fun k => W1.get i k * (y.getD k 0 - f k) ^ 2).sum
        let sel := (List.range X.r).filter fun j => Sm.get i j
        let stacked := fun k => stackPredict L (if p.useNumba then Mn else M) e (X.row k)
        (∀ j ∈ sel, ∀ v, err stacked ≤ err (fun k => basePred L X fs j k + v) + alpha) ∧
        (∀ v, err stacked ≤ err (fun k => (sel.map fun j => basePred L X fs j k).sum / sel.length + v) +
          alpha / sel.length) ∧
        ∀ v, err stacked ≤ err fun _ => v := by
  obtain ⟨fs, es, rate, Sm, q1, q2, q3, q4, q5⟩ := C166_combinations alpha L M Mn hM hMn rng p st s X y
    coords W hest hW W0 W1 hW0 hW1 h
  refine ⟨fs, es, rate, Sm, q1, q2, q3, q4, fun i hi => ?_⟩
  obtain ⟨-, hself, c, b, gs, h1, h2⟩ := q5 i hi
  refine ⟨_, h1, ?_⟩
  simp only at h2 ⊢
  have hc : 0 ≤ alpha * (c.map (· ^ 2)).sum := by
    refine mul_nonneg hal (List.sum_nonneg ?_)
    intro u hu
    obtain ⟨a, -, rfl⟩ := List.mem_map.1 hu
    exact sq_nonneg a
  have hnd : ((List.range X.r).filter fun j => Sm.get i j).Nodup := List.nodup_range.filter _
  generalize hsel : ((List.range X.r).filter fun j => Sm.get i j) = sel at *
  refine ⟨fun j hj v => ?_, fun v => ?_, fun v => ?_⟩
  · have := h2 (fun t => if t = j then 1 else 0) v
    have e1 : ∀ k, (sel.map fun t => (if t = j then 1 else 0) * basePred L X fs t k).sum =
        basePred L X fs j k := by
      intro k
      have : (sel.map fun t => (if t = j then (1 : ℝ) else 0) * basePred L X fs t k) =
          sel.map fun t => if t = j then basePred L X fs t k else 0 :=
        List.map_congr_left fun t _ => by split <;> simp
      rw [this, ← List.sum_toFinset _ hnd, Finset.sum_ite_eq' sel.toFinset j,
        if_pos (List.mem_toFinset.2 hj)]
    have e2 : (sel.map fun t => (if t = j then (1 : ℝ) else 0) ^ 2).sum = 1 := by
      have : (sel.map fun t => (if t = j then (1 : ℝ) else 0) ^ 2) =
          sel.map fun t => if t = j then (1 : ℝ) else 0 :=
        List.map_congr_left fun t _ => by split <;> simp
      rw [this, ← List.sum_toFinset _ hnd, Finset.sum_ite_eq' sel.toFinset j,
        if_pos (List.mem_toFinset.2 hj)]
    simp only [e1, e2, mul_one] at this
    linarith
  · have := h2 (fun _ => 1 / (sel.length : ℝ)) v
    have hn : (sel.length : ℝ) ≠ 0 := by
      have := List.length_pos_of_mem hself
      positivity
    have e1 : ∀ k, (sel.map fun t => 1 / (sel.length : ℝ) * basePred L X fs t k).sum =
        (sel.map fun t => basePred L X fs t k).sum / sel.length := by
      intro k
      rw [List.sum_map_mul_left, one_div, div_eq_inv_mul]
    have e2 : (sel.map fun _ : Nat => (1 / (sel.length : ℝ)) ^ 2).sum = 1 / (sel.length : ℝ) := by
      rw [List.map_const', List.sum_replicate, nsmul_eq_mul]
      field_simp
    simp only [e1, e2] at this
    rw [mul_one_div] at this
    linarith
  · have := h2 (fun _ => 0) v
    have e1 : ∀ k, (sel.map fun t => (0 : ℝ) * basePred L X fs t k).sum = 0 := by
      intro k
      simp
    have e2 : (sel.map fun _ : Nat => (0 : ℝ) ^ 2).sum = 0 := by simp
    simp only [e1, e2, mul_zero, add_zero, zero_add] at this
    linarith

/-- The hypotheses are met: three locations, averages as base regressors, `ridge_cholesky` as meta
regressor, for every penalty. -/
example : (∀ alpha > 0, IsRidge alpha (numbaRidge alpha)) ∧
    SparseFine rotRng realP (some (.dense realOnes)) ∧
    (∀ alpha > 0, (stackFit realMean (numbaRidge alpha) (numbaRidge alpha) rotRng realP {} 0
      ⟨3, 1, fun i _ => i⟩ [1, 5, 6] none (some (.dense realOnes))).result = .ok ()) :=
  ⟨fun _ h => numbaRidge_isRidge h, fun _ h => (by cases h), realFit⟩

end Geo
