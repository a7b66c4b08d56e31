import Verif.Props.StackingUnits
import Verif.Props.FitSucceeds
import Mathlib.Algebra.Order.BigOperators.Ring.Finset
/-
C137: what the penalty `alpha` of a stacking model does. Everything is stated for any learner that does
what ridge regression promises (`IsRidge`), so for both solvers.
-/
set_option linter.unusedSectionVars false
namespace Geo

/-! ### A minimiser of the penalised sum of squares -/

section Fin
variable {m n : Nat} {X : Fin m → Fin n → ℝ} {y : Fin m → ℝ} {alpha : ℝ} {w : Fin m → ℝ}
  {c : Fin n → ℝ} {b : ℝ}

/-- The weighted sum of squared residuals. -/
noncomputable def weightedRss (X : Fin m → Fin n → ℝ) (y w : Fin m → ℝ) (c : Fin n → ℝ) (b : ℝ) : ℝ :=
  ∑ i, w i * (y i - (∑ k, X i k * c k) - b) ^ 2

theorem minimiser_balanced
    (h : ∀ b', ridgeObjective X y alpha w c b ≤ ridgeObjective X y alpha w c b')
    (hw : 0 < ∑ i, w i) : ∑ i, w i * (y i - (∑ k, X i k * c k) - b) = 0 := by
  set r : Fin m → ℝ := fun i => y i - (∑ k, X i k * c k) - b with hr
  set T := ∑ i, w i * r i with hT
  set s := ∑ i, w i with hs
  have key : ∀ t : ℝ, 0 ≤ s * t ^ 2 - 2 * t * T := by
    intro t
    have h1 := h (b + t)
    unfold ridgeObjective at h1
    have e : ∑ i, w i * (y i - (∑ k, X i k * c k) - (b + t)) ^ 2 =
        (∑ i, w i * (y i - (∑ k, X i k * c k) - b) ^ 2) + (s * t ^ 2 - 2 * t * T) := by
      rw [hT, hs, Finset.sum_mul, Finset.mul_sum, ← Finset.sum_sub_distrib,
        ← Finset.sum_add_distrib]
      refine Finset.sum_congr rfl fun i _ => ?_
      simp only [hr]
      ring
    rw [e] at h1
    linarith
  have h2 := key (T / s)
  have h3 : s * (T / s) ^ 2 - 2 * (T / s) * T = -(T ^ 2 / s) := by
    field_simp
    ring
  rw [h3] at h2
  have h4 : T ^ 2 / s = 0 := le_antisymm (by linarith) (by positivity)
  have h5 : T ^ 2 = 0 := by
    rcases div_eq_zero_iff.mp h4 with h | h
    · exact h
    · exact absurd h hw.ne'
  exact pow_eq_zero_iff two_ne_zero |>.mp h5

theorem minimiser_norm
    (h : ∀ c' b', ridgeObjective X y alpha w c b ≤ ridgeObjective X y alpha w c' b') (v : ℝ) :
    weightedRss X y w c b + alpha * ∑ k, c k ^ 2 ≤ ∑ i, w i * (y i - v) ^ 2 := by
  have h1 := h (fun _ => 0) v
  unfold ridgeObjective at h1
  simpa [weightedRss] using h1

theorem minimiser_near_mean (hal : 0 < alpha) (hw0 : ∀ i, 0 ≤ w i) (hw : 0 < ∑ i, w i)
    (h : ∀ c' b', ridgeObjective X y alpha w c b ≤ ridgeObjective X y alpha w c' b')
    (x : Fin n → ℝ) :
    alpha * ((∑ k, x k * c k) + b - (∑ i, w i * y i) / ∑ i, w i) ^ 2 ≤
      (∑ i, w i * (y i - (∑ i, w i * y i) / ∑ i, w i) ^ 2) *
        ∑ k, (x k - (∑ i, w i * X i k) / ∑ i, w i) ^ 2 := by
  set s := ∑ i, w i with hs
  set m0 := (∑ i, w i * y i) / s with hm
  have hbal := minimiser_balanced (h c) hw
  have hb : b = m0 - ∑ k, (∑ i, w i * X i k) / s * c k := by
    have e : ∑ i, w i * (y i - (∑ k, X i k * c k) - b) =
        (∑ i, w i * y i) - (∑ k, (∑ i, w i * X i k) * c k) - s * b := by
      have e1 : ∑ k, (∑ i, w i * X i k) * c k = ∑ i, w i * ∑ k, X i k * c k := by
        simp only [Finset.sum_mul, Finset.mul_sum]
        rw [Finset.sum_comm]
        exact Finset.sum_congr rfl fun i _ => Finset.sum_congr rfl fun k _ => by ring
      rw [e1, hs, Finset.sum_mul, ← Finset.sum_sub_distrib, ← Finset.sum_sub_distrib]
      exact Finset.sum_congr rfl fun i _ => by ring
    rw [e] at hbal
    have e2 : ∑ k, (∑ i, w i * X i k) / s * c k = (∑ k, (∑ i, w i * X i k) * c k) / s := by
      rw [Finset.sum_div]
      exact Finset.sum_congr rfl fun k _ => by ring
    rw [e2, hm, ← sub_div, eq_div_iff hw.ne']
    linarith
  have e : (∑ k, x k * c k) + b - m0 = ∑ k, (x k - (∑ i, w i * X i k) / s) * c k := by
    rw [hb]
    simp only [sub_mul, Finset.sum_sub_distrib]
    ring
  rw [e]
  have hcs := Finset.sum_mul_sq_le_sq_mul_sq Finset.univ
    (fun k => x k - (∑ i, w i * X i k) / s) c
  have hn := minimiser_norm h m0
  have hr : 0 ≤ weightedRss X y w c b :=
    Finset.sum_nonneg fun i _ => mul_nonneg (hw0 i) (sq_nonneg _)
  have hx : 0 ≤ ∑ k, (x k - (∑ i, w i * X i k) / s) ^ 2 := Finset.sum_nonneg fun k _ => sq_nonneg _
  calc alpha * (∑ k, (x k - (∑ i, w i * X i k) / s) * c k) ^ 2
      ≤ alpha * ((∑ k, (x k - (∑ i, w i * X i k) / s) ^ 2) * ∑ k, c k ^ 2) :=
        mul_le_mul_of_nonneg_left hcs hal.le
    _ = (alpha * ∑ k, c k ^ 2) * ∑ k, (x k - (∑ i, w i * X i k) / s) ^ 2 := by ring
    _ ≤ _ := mul_le_mul_of_nonneg_right (by linarith) hx

end Fin

theorem sum_map_fin {α : Type} (l : List α) (d : α) (f : α → ℝ) :
    (l.map f).sum = ∑ i : Fin l.length, f (l.getD i d) := by
  rw [← sum_range_fin l.length fun i => f (l.getD i d)]
  congr 1
  apply List.ext_getElem
  · simp
  · intro i h1 h2
    have : i < l.length := by simpa using h1
    simp [List.getD_eq_getElem?_getD, List.getElem?_eq_getElem this]

/-- The weighted mean of `f` over the listed indices. -/
noncomputable def weightedAverage (l : List Nat) (w f : Nat → ℝ) : ℝ :=
  (l.map fun k => w k * f k).sum / (l.map w).sum

theorem getD_map_nat {α : Type} (l : List Nat) (f : Nat → α) (d : α) {i : Nat} (h : i < l.length) :
    (l.map f).getD i d = f (l.getD i 0) := by
  simp [List.getD_eq_getElem?_getD, List.getElem?_eq_getElem h]

theorem getD_mem_nat (l : List Nat) {i : Nat} (h : i < l.length) : l.getD i 0 ∈ l := by
  rw [List.getD_eq_getElem?_getD, List.getElem?_eq_getElem h]
  exact List.getElem_mem h

/-- What is said of a ridge regression fitted on the rows `x · k` of the listed indices `nb`. -/
theorem ridge_near_mean {alpha : ℝ} (hal : 0 < alpha) {M : Learner ℝ (List ℝ × ℝ)}
    (hM : IsRidge alpha M) {nb sel : List Nat} (hnb : nb ≠ []) (hsel : 0 < sel.length)
    (x : Nat → Nat → ℝ) (y w : Nat → ℝ) (hw : ∀ k ∈ nb, 0 < w k) {g : List ℝ × ℝ}
    (h : M.fit 0 (nb.map fun k => sel.map fun j => x j k) (nb.map y) (nb.map w) = .ok g)
    (i : Nat) :
    alpha * (M.predict g (sel.map fun j => x j i) - weightedAverage nb w y) ^ 2 ≤
      (nb.map fun k => w k * (y k - weightedAverage nb w y) ^ 2).sum *
        (sel.map fun j => (x j i - weightedAverage nb w (x j)) ^ 2).sum := by
  have hr : ∀ r ∈ nb.map fun k => sel.map fun j => x j k, r.length = sel.length := by
    intro r hr
    obtain ⟨k, -, rfl⟩ := List.mem_map.1 hr
    simp
  obtain ⟨c, b, h1, h2, h3⟩ := hM.fit (nb.map fun k => sel.map fun j => x j k) (nb.map y)
    (nb.map w) sel.length (by simpa using hnb) hsel hr (by simp) (by simp)
    (by intro u hu; obtain ⟨k, hk, rfl⟩ := List.mem_map.1 hu; exact hw k hk)
  rw [h] at h1
  cases h1
  have hmin : ∀ (c' : Fin sel.length → ℝ) (b' : ℝ),
      ridgeObjective (m := nb.length) (n := sel.length) (fun i k => x (sel.getD k 0) (nb.getD i 0))
        (fun i => y (nb.getD i 0)) alpha (fun i => w (nb.getD i 0)) (fun k => c.getD k 0) b ≤
      ridgeObjective (m := nb.length) (n := sel.length) (fun i k => x (sel.getD k 0) (nb.getD i 0))
        (fun i => y (nb.getD i 0)) alpha (fun i => w (nb.getD i 0)) c' b' := by
    have e : ∀ (d : List ℝ) (β : ℝ), d.length = sel.length →
        ridgeCost alpha (nb.map fun k => sel.map fun j => x j k) (nb.map y) (nb.map w) d β =
        ridgeObjective (m := nb.length) (n := sel.length) (fun i k => x (sel.getD k 0) (nb.getD i 0))
        (fun i => y (nb.getD i 0)) alpha (fun i => w (nb.getD i 0))
        (fun k : Fin sel.length => d.getD k 0) β := by
      intro d β hd
      unfold ridgeCost ridgeObjective
      rw [List.length_map, sum_range_fin]
      congr 1
      · refine Finset.sum_congr rfl fun i _ => ?_
        rw [getD_map_nat _ _ _ i.2, getD_map_nat _ _ _ i.2, getD_map_nat _ _ _ i.2,
          dot_fin _ d (n := sel.length) (by simp) hd]
        congr 4
        refine Finset.sum_congr rfl fun k _ => ?_
        rw [getD_map_nat _ _ _ k.2]
      · conv_lhs => rw [list_eq_range d hd]
        rw [List.map_map, sum_range_fin]
        rfl
    intro c' b'
    have := h3 (List.ofFn c') b' (by simp)
    rw [e c b h2, e (List.ofFn c') b' (by simp)] at this
    simpa only [ofFn_getD] using this
  have hpos : 0 < ∑ i : Fin nb.length, w (nb.getD i 0) := by
    have : Nonempty (Fin nb.length) := ⟨⟨0, List.length_pos_of_ne_nil hnb⟩⟩
    exact Finset.sum_pos (fun i _ => hw _ (getD_mem_nat nb i.2)) Finset.univ_nonempty
  have key := minimiser_near_mean hal (fun i => (hw _ (getD_mem_nat nb i.2)).le) hpos hmin
    (fun k : Fin sel.length => x (sel.getD k 0) i)
  rw [hM.predict, dot_fin _ c (n := sel.length) (by simp) h2]
  unfold weightedAverage
  rw [sum_map_fin nb 0, sum_map_fin nb 0, sum_map_fin nb 0, sum_map_fin sel 0]
  simp only [sum_map_fin nb 0]
  have e : ∑ k : Fin sel.length, (sel.map fun j => x j i).getD k 0 * c.getD k 0 =
      ∑ k : Fin sel.length, x (sel.getD k 0) i * c.getD k 0 :=
    Finset.sum_congr rfl fun k _ => by rw [getD_map_nat _ _ _ k.2]
  rw [e]
  exact key

/-- C137: how far a stacked prediction is from a local mean. Let `nb` be the neighbours of location
`i` that the meta estimator is fitted on (those with a positive, possibly shrunk, weight, without
`i`), `ȳ` the weighted mean of their targets, and `x̄ j` the weighted mean of the predictions of base
estimator `j` at them. Then `alpha` times the squared distance of the stacked prediction of `i` from
`ȳ` is at most the weighted sum of squares of the neighbours' targets around `ȳ` times the sum, over
the base estimators used at `i`, of the squared distance of their prediction at `i` from `x̄ j`.
So with a growing penalty every stacked prediction tends to the local mean of the target. -/
theorem C137_near_local_mean {F C S : Type} (alpha : ℝ) (hal : 0 < alpha) (L : Learner ℝ F)
    (M Mn : Learner ℝ (List ℝ × ℝ)) (hM : IsRidge alpha M) (hMn : IsRidge alpha Mn)
    (rng : Rng S) (p : SParams ℝ C) (st : SState ℝ F (List ℝ × ℝ) C) (s : S) (X : Mat ℝ)
    (y : List ℝ) (coords : Option C) (W : Option (WMat ℝ))
    (hest : p.estimatorRate = none ∨ ∃ A, W = some (.sparse A)) (hW : SparseFine rng p W)
    (W0 : WMat ℝ) (W1 : Mat ℝ) (hW0 : chosenWeights p.toWMParams coords W = .ok W0)
    (hW1 : shrinkMetaDense p.metaShrink W0.toMat = .ok W1)
    (h : (stackFit L M Mn rng p st s X y coords W).result = .ok ()) :
    ∃ fs ps rate Sm, (stackFit L M Mn rng p st s X y coords W).state.base = some fs ∧
      (stackFit L M Mn rng p st s X y coords W).state.stackPredictions = some ps ∧
      p.leaveOutRate = some rate ∧
      (sampleNeighbourDense rng s W0.toMat rate p.leaveOutShrink).result = .ok Sm ∧
      ∀ i < X.r, 0 < W1.get i i →
        let nb := (List.range X.r).filter fun k => decide (0 < W1.get i k ∧ k ≠ i)
        let ybar := weightedAverage nb (W1.get i) fun k => y.getD k 0
        nb ≠ [] ∧ ∃ q, ps[i]? = some q ∧ alpha * (q - ybar) ^ 2 ≤
          (nb.map fun k => W1.get i k * (y.getD k 0 - ybar) ^ 2).sum *
          (((List.range X.r).filter fun j => Sm.get i j).map fun j =>
            (basePred L X fs j i - weightedAverage nb (W1.get i) (basePred L X fs j)) ^ 2).sum := by
  obtain ⟨V0, rate, Sm, V1, fs, ps, es, q1, q2, q3, q4, q5, q6, -, q8⟩ :=
    C50_genuine_predictions L M Mn rng p st s X y coords W hest hW h
  rw [hW0] at q1
  cases q1
  rw [hW1] at q4
  cases q4
  have hMM : IsRidge alpha (if p.useNumba then Mn else M) := by
    split
    · exact hMn
    · exact hM
  refine ⟨fs, ps, rate, Sm, q5, q6, q2, q3, fun i hi hpos => ?_⟩
  obtain ⟨g, ⟨h1, h2⟩, -, h3⟩ := q8.fitted i hi
  refine ⟨h1, _, h3 hpos, ?_⟩
  refine ridge_near_mean hal hMM h1 (List.length_pos_of_mem (q8.self i hi)) (basePred L X fs)
    (fun k => y.getD k 0) (W1.get i) ?_ h2 i
  intro k hk
  exact (of_decide_eq_true (List.mem_filter.1 hk).2).1

/-- C137, for the solver on its own: a larger penalty never gives larger coefficients and never fits
the training rows better. -/
theorem C137_penalty_shrinks (alpha alpha' : ℝ) (h0 : 0 ≤ alpha) (hlt : alpha < alpha')
    (M M' : Learner ℝ (List ℝ × ℝ)) (hM : IsRidge alpha M) (hM' : IsRidge alpha' M')
    (rows : List (List ℝ)) (ys ws : List ℝ) (n : Nat) (hne : rows ≠ []) (hn : 0 < n)
    (hr : ∀ r ∈ rows, r.length = n) (hy : ys.length = rows.length) (hw : ws.length = rows.length)
    (hpos : ∀ w ∈ ws, 0 < w) :
    ∃ c b c' b', M.fit 0 rows ys ws = .ok (c, b) ∧ M'.fit 0 rows ys ws = .ok (c', b') ∧
      (c'.map (· ^ 2)).sum ≤ (c.map (· ^ 2)).sum ∧
      ((List.range rows.length).map fun i => ws.getD i 0 *
        (ys.getD i 0 - M.predict (c, b) (rows.getD i [])) ^ 2).sum ≤
      ((List.range rows.length).map fun i => ws.getD i 0 *
        (ys.getD i 0 - M'.predict (c', b') (rows.getD i [])) ^ 2).sum := by
  obtain ⟨c, b, h1, h2, h3⟩ := hM.fit rows ys ws n hne hn hr hy hw hpos
  obtain ⟨c', b', h1', h2', h3'⟩ := hM'.fit rows ys ws n hne hn hr hy hw hpos
  have a1 := h3 c' b' h2'
  have a2 := h3' c b h2
  unfold ridgeCost at a1 a2
  have e : (c'.map (· ^ 2)).sum ≤ (c.map (· ^ 2)).sum := by
    by_contra hne
    push Not at hne
    nlinarith [mul_pos (sub_pos.mpr hlt) (sub_pos.mpr hne)]
  refine ⟨c, b, c', b', h1, h1', e, ?_⟩
  simp only [hM.predict, hM'.predict, ← sub_sub]
  have := mul_le_mul_of_nonneg_left e h0
  linarith

theorem spec_bases_eq {K : Type} [Field K] [LinearOrder K] [IsStrictOrderedRing K] [FloorRing K]
    {F G : Type} {L : Learner K F} {M M' : Learner K G} {ll : Bool} {X : Mat K}
    {y : Nat → K} {W W1 : Mat K} {sel : Nat → List Nat} {bs bs' : List F} {ps ps' : List K}
    {es es' : List (StackedEst F G)} (h : StackSpec L M ll X y W W1 sel bs ps es)
    (h' : StackSpec L M' ll X y W W1 sel bs' ps' es') : bs = bs' := by
  apply List.ext_getElem?
  intro j
  by_cases hj : j < X.r
  · obtain ⟨f, h1, h2⟩ := h.base j hj
    obtain ⟨f', h3, h4⟩ := h'.base j hj
    simp only at h2 h4
    rw [h2] at h4
    cases h4
    rw [h1, h3]
  · rw [List.getElem?_eq_none (by have := h.lenBases; omega),
      List.getElem?_eq_none (by have := h'.lenBases; omega)]

/-- C137, for the whole model: fit the same stacking model on the same data once with the penalty
`alpha` and once with a larger one. The base estimators are the same, and at every location the meta
estimator of the larger penalty has coefficients whose sum of squares is not larger. -/
theorem C137_stacking_shrinks {F C S : Type} (alpha alpha' : ℝ) (h0 : 0 ≤ alpha)
    (hlt : alpha < alpha') (L : Learner ℝ F) (M Mn M' Mn' : Learner ℝ (List ℝ × ℝ))
    (hM : IsRidge alpha M) (hMn : IsRidge alpha Mn) (hM' : IsRidge alpha' M')
    (hMn' : IsRidge alpha' Mn')
    (rng : Rng S) (p : SParams ℝ C) (st : SState ℝ F (List ℝ × ℝ) C) (s : S) (X : Mat ℝ)
    (y : List ℝ) (coords : Option C) (W : Option (WMat ℝ))
    (hest : p.estimatorRate = none ∨ ∃ A, W = some (.sparse A)) (hW : SparseFine rng p W) :
    let o := stackFit L M Mn rng p st s X y coords W
    let o' := stackFit L M' Mn' rng p st s X y coords W
    o.result = .ok () → o'.result = .ok () →
    ∃ es es' : List (StackedEst F (List ℝ × ℝ)), o.state.base = o'.state.base ∧
      o.state.wm.estimators = some (es.map some) ∧
      o'.state.wm.estimators = some (es'.map some) ∧
      es.length = X.r ∧ es'.length = X.r ∧
      ∀ i < X.r, ∃ c b c' b' fs, es[i]? = some (.stacked (c, b) fs) ∧
        es'[i]? = some (.stacked (c', b') fs) ∧
        (c'.map (· ^ 2)).sum ≤ (c.map (· ^ 2)).sum := by
  intro o o' h h'
  obtain ⟨V0, rate, Sm, V1, fs, ps, es, q1, q2, q3, q4, q5, q6, q7, q8⟩ :=
    C50_genuine_predictions L M Mn rng p st s X y coords W hest hW h
  obtain ⟨V0', rate', Sm', V1', fs', ps', es', r1, r2, r3, r4, r5, r6, r7, r8⟩ :=
    C50_genuine_predictions L M' Mn' rng p st s X y coords W hest hW h'
  rw [q1] at r1
  cases r1
  rw [q4] at r4
  cases r4
  rw [q2] at r2
  cases r2
  rw [q3] at r3
  cases r3
  have e := spec_bases_eq q8 r8
  subst e
  refine ⟨es, es', q5.trans r5.symm, q7, r7, q8.lenEs, r8.lenEs, fun i hi => ?_⟩
  obtain ⟨g, ⟨h1, h2⟩, ⟨gs, h3, h4⟩, -⟩ := q8.fitted i hi
  obtain ⟨g', ⟨-, h2'⟩, ⟨gs', h3', h4'⟩, -⟩ := r8.fitted i hi
  have eg : gs = gs' := by
    have := h4.trans h4'.symm
    exact List.map_injective_iff.2 (Option.some_injective _) this
  subst eg
  have hN : IsRidge alpha (if p.useNumba then Mn else M) := by
    split
    · exact hMn
    · exact hM
  have hN' : IsRidge alpha' (if p.useNumba then Mn' else M') := by
    split
    · exact hMn'
    · exact hM'
  obtain ⟨c, b, c', b', k1, k2, k3, -⟩ := C137_penalty_shrinks alpha alpha' h0 hlt _ _ hN hN'
    (((List.range X.r).filter fun k => decide (0 < V1.get i k ∧ k ≠ i)).map fun k =>
      ((List.range X.r).filter fun j => Sm.get i j).map fun j => basePred L X fs j k)
    (((List.range X.r).filter fun k => decide (0 < V1.get i k ∧ k ≠ i)).map (yfun y))
    (((List.range X.r).filter fun k => decide (0 < V1.get i k ∧ k ≠ i)).map (V1.get i))
    ((List.range X.r).filter fun j => Sm.get i j).length (by simpa using h1)
    (List.length_pos_of_mem (q8.self i hi)) (by
      intro r hr
      obtain ⟨k, -, rfl⟩ := List.mem_map.1 hr
      simp) (by simp) (by simp) (by
      intro w hw
      obtain ⟨k, hk, rfl⟩ := List.mem_map.1 hw
      exact (of_decide_eq_true (List.mem_filter.1 hk).2).1)
  · rw [h2] at k1
    rw [h2'] at k2
    cases k1
    cases k2
    exact ⟨c, b, c', b', gs, h3, h3', k3⟩

theorem base_of_any_meta {K : Type} [Field K] [LinearOrder K] [IsStrictOrderedRing K] [FloorRing K]
    {F G C S : Type} (L : Learner K F) (M Mn M' Mn' : Learner K G) (rng : Rng S)
    (p : SParams K C) (st : SState K F G C) (s : S) (X : Mat K) (y : List K) (coords : Option C)
    (W : Option (WMat K)) (hest : p.estimatorRate = none ∨ ∃ A, W = some (.sparse A))
    (hW : SparseFine rng p W)
    (h : (stackFit L M Mn rng p st s X y coords W).result = .ok ())
    (h' : (stackFit L M' Mn' rng p st s X y coords W).result = .ok ()) :
    (stackFit L M Mn rng p st s X y coords W).state.base =
      (stackFit L M' Mn' rng p st s X y coords W).state.base := by
  obtain ⟨V0, rate, Sm, V1, fs, ps, es, q1, q2, q3, q4, q5, q6, q7, q8⟩ :=
    C50_genuine_predictions L M Mn rng p st s X y coords W hest hW h
  obtain ⟨V0', rate', Sm', V1', fs', ps', es', r1, r2, r3, r4, r5, r6, r7, r8⟩ :=
    C50_genuine_predictions L M' Mn' rng p st s X y coords W hest hW h'
  rw [q1] at r1
  cases r1
  rw [q4] at r4
  cases r4
  rw [q2] at r2
  cases r2
  rw [q3] at r3
  cases r3
  rw [q5, r5, spec_bases_eq q8 r8]

/-- C137: the limit of a large penalty is local averaging. For every tolerance there is a penalty
from which on every stacked prediction, of every location that keeps a positive weight for itself,
is within the tolerance of the weighted mean of the targets of the neighbours of the location. -/
theorem C137_large_penalty {F C S : Type} (L : Learner ℝ F)
    (M Mn : ℝ → Learner ℝ (List ℝ × ℝ)) (hM : ∀ alpha > 0, IsRidge alpha (M alpha))
    (hMn : ∀ alpha > 0, IsRidge alpha (Mn alpha))
    (rng : Rng S) (p : SParams ℝ C) (st : SState ℝ F (List ℝ × ℝ) C) (s : S) (X : Mat ℝ)
    (y : List ℝ) (coords : Option C) (W : Option (WMat ℝ))
    (hest : p.estimatorRate = none ∨ ∃ A, W = some (.sparse A)) (hW : SparseFine rng p W)
    (W0 : WMat ℝ) (W1 : Mat ℝ) (hW0 : chosenWeights p.toWMParams coords W = .ok W0)
    (hW1 : shrinkMetaDense p.metaShrink W0.toMat = .ok W1) (eps : ℝ) (heps : 0 < eps) :
    ∃ A > 0, ∀ alpha ≥ A,
      (stackFit L (M alpha) (Mn alpha) rng p st s X y coords W).result = .ok () →
      ∃ ps, (stackFit L (M alpha) (Mn alpha) rng p st s X y coords W).state.stackPredictions =
          some ps ∧
        ∀ i < X.r, 0 < W1.get i i → ∃ q, ps[i]? = some q ∧
          |q - weightedAverage ((List.range X.r).filter fun k => decide (0 < W1.get i k ∧ k ≠ i))
            (W1.get i) fun k => y.getD k 0| < eps := by
  by_cases hany : ∃ alpha > 0,
      (stackFit L (M alpha) (Mn alpha) rng p st s X y coords W).result = .ok ()
  · obtain ⟨a0, ha0, h0⟩ := hany
    obtain ⟨fs, ps0, rate, Sm, k1, -, k3, k4, -⟩ := C137_near_local_mean a0 ha0 L _ _ (hM a0 ha0)
      (hMn a0 ha0) rng p st s X y coords W hest hW W0 W1 hW0 hW1 h0
    set nb : Nat → List Nat := fun i =>
      (List.range X.r).filter fun k => decide (0 < W1.get i k ∧ k ≠ i) with hnb
    set ybar : Nat → ℝ := fun i => weightedAverage (nb i) (W1.get i) fun k => y.getD k 0 with hyb
    set B : Nat → ℝ := fun i =>
      ((nb i).map fun k => W1.get i k * (y.getD k 0 - ybar i) ^ 2).sum *
        (((List.range X.r).filter fun j => Sm.get i j).map fun j =>
          (basePred L X fs j i - weightedAverage (nb i) (W1.get i) (basePred L X fs j)) ^ 2).sum
      with hB
    have hB0 : ∀ i, 0 ≤ B i := by
      intro i
      apply mul_nonneg
      · apply List.sum_nonneg
        intro u hu
        obtain ⟨k, hk, rfl⟩ := List.mem_map.1 hu
        have := (of_decide_eq_true (List.mem_filter.1 hk).2).1
        positivity
      · apply List.sum_nonneg
        intro u hu
        obtain ⟨k, -, rfl⟩ := List.mem_map.1 hu
        positivity
    have hBs : ∀ i < X.r, B i ≤ ∑ i ∈ Finset.range X.r, B i := fun i hi =>
      Finset.single_le_sum (fun i _ => hB0 i) (Finset.mem_range.2 hi)
    have hT : 0 ≤ ∑ i ∈ Finset.range X.r, B i := Finset.sum_nonneg fun i _ => hB0 i
    have hA : 0 < ((∑ i ∈ Finset.range X.r, B i) + 1) / eps ^ 2 := by positivity
    refine ⟨_, hA, fun alpha hal h => ?_⟩
    have hpos : 0 < alpha := lt_of_lt_of_le hA hal
    obtain ⟨fs', ps, rate', Sm', l1, l2, l3, l4, l5⟩ := C137_near_local_mean alpha hpos L _ _
      (hM alpha hpos) (hMn alpha hpos) rng p st s X y coords W hest hW W0 W1 hW0 hW1 h
    rw [k3] at l3
    cases l3
    rw [k4] at l4
    cases l4
    have e := base_of_any_meta L _ _ _ _ rng p st s X y coords W hest hW h0 h
    rw [k1, l1] at e
    cases e
    refine ⟨ps, l2, fun i hi hii => ?_⟩
    obtain ⟨-, q, hq, hle⟩ := l5 i hi hii
    refine ⟨q, hq, ?_⟩
    have h1 : (∑ i ∈ Finset.range X.r, B i) + 1 ≤ alpha * eps ^ 2 := by
      rwa [ge_iff_le, div_le_iff₀ (by positivity)] at hal
    have h2 : alpha * (q - ybar i) ^ 2 ≤ B i := hle
    have h3 : alpha * (q - ybar i) ^ 2 < alpha * eps ^ 2 := by linarith [hBs i hi]
    exact abs_lt_of_sq_lt_sq (lt_of_mul_lt_mul_left h3 hpos.le) heps.le
  · push Not at hany
    exact ⟨1, one_pos, fun alpha hal h => absurd h (hany alpha (lt_of_lt_of_le one_pos hal))⟩

/-- The hypotheses are met: three locations, averages as base regressors, `ridge_cholesky` as meta
regressor, for every penalty. The stacked predictions tend to the mean of the two other targets. -/
example : (∀ alpha > 0, IsRidge alpha (numbaRidge alpha)) ∧
    SparseFine rotRng realP (some (.dense realOnes)) ∧
    (∀ alpha > 0, (stackFit realMean (numbaRidge alpha) (numbaRidge alpha) rotRng realP {} 0
      ⟨3, 1, fun i _ => i⟩ [1, 5, 6] none (some (.dense realOnes))).result = .ok ()) ∧
    (∀ i < 3, 0 < realOnes.get i i) ∧
    weightedAverage ((List.range 3).filter fun k => decide (0 < realOnes.get 0 k ∧ k ≠ 0))
      (realOnes.get 0) (fun k => ([1, 5, 6] : List ℝ).getD k 0) = 11 / 2 := by
  refine ⟨fun alpha h => numbaRidge_isRidge h, fun A h => (by cases h), realFit, fun i _ => one_pos, ?_⟩
  have e : ((List.range 3).filter fun k => decide ((0 : ℝ) < realOnes.get 0 k ∧ k ≠ 0)) = [1, 2] := by
    simp [realOnes, List.range_succ]
  rw [e]
  norm_num [weightedAverage, realOnes]

end Geo
