import Verif.Model.NumbaRidge
import Verif.Props.NumbaImpl
import Verif.Props.StackingSpec
import Verif.Props.StackingExamples
/-
The two ridge solvers of the stacking model. Without numba the meta estimator is scikit-learn's
`Ridge`, with numba it is `ridge_cholesky` of this package. `Ridge` is only specified here by what
its documentation promises: it minimises the penalised weighted sum of squares with a free
intercept.
-/
namespace Geo

/-- The penalised weighted sum of squares that a ridge regression with intercept minimises. -/
noncomputable def ridgeCost (alpha : ℝ) (rows : List (List ℝ)) (ys ws c : List ℝ) (b : ℝ) : ℝ :=
  ((List.range rows.length).map fun i => ws.getD i 0 *
    (ys.getD i 0 - (List.zipWith (· * ·) (rows.getD i []) c).sum - b) ^ 2).sum +
    alpha * (c.map (· ^ 2)).sum

/-- A learner that does what `sklearn.linear_model.Ridge(alpha)` promises: on a non-empty table
with positive weights it returns coefficients and an intercept that minimise the penalised weighted
sum of squares, and it predicts with them linearly. Nothing is assumed elsewhere. -/
structure IsRidge (alpha : ℝ) (M : Learner ℝ (List ℝ × ℝ)) : Prop where
  fit : ∀ (rows : List (List ℝ)) (ys ws : List ℝ) (n : Nat), rows ≠ [] → 0 < n →
    (∀ r ∈ rows, r.length = n) → ys.length = rows.length → ws.length = rows.length →
    (∀ w ∈ ws, 0 < w) → ∃ c b, M.fit 0 rows ys ws = .ok (c, b) ∧ c.length = n ∧
      ∀ c' b', c'.length = n → ridgeCost alpha rows ys ws c b ≤ ridgeCost alpha rows ys ws c' b'
  predict : ∀ c b x, M.predict (c, b) x = (List.zipWith (· * ·) x c).sum + b

theorem sum_range_fin (n : Nat) (f : Nat → ℝ) :
    ((List.range n).map f).sum = ∑ i : Fin n, f i := by
  rw [Finset.sum_fin_eq_sum_range]
  induction n with
  | zero => simp
  | succ n ih =>
    rw [List.range_succ, List.map_append, List.sum_append, ih, Finset.sum_range_succ]
    simp only [List.map_cons, List.map_nil, List.sum_cons, List.sum_nil, add_zero]
    congr 1
    · refine Finset.sum_congr rfl fun i hi => ?_
      have := Finset.mem_range.1 hi
      rw [dif_pos this, dif_pos (by omega)]
    · rw [dif_pos (by omega)]

theorem list_eq_range (l : List ℝ) {n : Nat} (h : l.length = n) :
    l = (List.range n).map fun k => l.getD k 0 := by
  apply List.ext_getElem
  · simp [h]
  · intro i h1 h2
    simp [List.getD_eq_getElem?_getD, List.getElem?_eq_getElem h1]

theorem dot_fin (x c : List ℝ) {n : Nat} (hx : x.length = n) (hc : c.length = n) :
    (List.zipWith (· * ·) x c).sum = ∑ k : Fin n, x.getD k 0 * c.getD k 0 := by
  rw [← sum_range_fin n fun k => x.getD k 0 * c.getD k 0]
  congr 1
  apply List.ext_getElem
  · simp [hx, hc]
  · intro i h1 h2
    simp only [List.length_zipWith, hx, hc, min_self] at h1
    simp [List.getD_eq_getElem?_getD, List.getElem?_eq_getElem (hx ▸ h1 : i < x.length),
      List.getElem?_eq_getElem (hc ▸ h1 : i < c.length)]

theorem ofFn_getD {n : Nat} (f : Fin n → ℝ) (k : Fin n) : (List.ofFn f).getD k 0 = f k := by
  simp [List.getD_eq_getElem?_getD]

/-- The list version of the objective is the one of `C33_ridge_minimiser`. -/
theorem ridgeCost_eq (alpha : ℝ) (rows : List (List ℝ)) (ys ws c : List ℝ) (b : ℝ) {n : Nat}
    (hr : ∀ r ∈ rows, r.length = n) (hc : c.length = n) :
    ridgeCost alpha rows ys ws c b =
      ridgeObjective (m := rows.length) (n := n) (fun i k => (rows.getD i []).getD k 0)
        (fun i => ys.getD i 0) alpha (fun i => ws.getD i 0) (fun k => c.getD k 0) b := by
  unfold ridgeCost ridgeObjective
  rw [sum_range_fin]
  congr 1
  · refine Finset.sum_congr rfl fun i _ => ?_
    rw [dot_fin (rows.getD i []) c (hr _ ?_) hc]
    rw [List.getD_eq_getElem?_getD, List.getElem?_eq_getElem i.2]
    exact List.getElem_mem i.2
  · conv_lhs => rw [list_eq_range c hc]
    rw [List.map_map, sum_range_fin]
    rfl

/-- On a non-empty table with positive weights, `ridge_cholesky` minimises the penalised weighted
sum of squares, and nothing else does. -/
theorem numbaRidge_minimises (alpha : ℝ) (ha : 0 < alpha) (rows : List (List ℝ)) (ys ws : List ℝ)
    (n : Nat) (hne : rows ≠ []) (hr : ∀ r ∈ rows, r.length = n)
    (hw : ws.length = rows.length) (hpos : ∀ w ∈ ws, 0 < w) :
    ∃ c b, (numbaRidge alpha).fit 0 rows ys ws = .ok (c, b) ∧ c.length = n ∧
      ∀ c' b', c'.length = n →
        ridgeCost alpha rows ys ws c b ≤ ridgeCost alpha rows ys ws c' b' ∧
        (ridgeCost alpha rows ys ws c' b' ≤ ridgeCost alpha rows ys ws c b → c' = c ∧ b' = b) := by
  have hn : (rows.headD []).length = n := by
    cases rows with
    | nil => exact absurd rfl hne
    | cons r rs => exact hr r (by simp)
  subst hn
  have hwp : ∀ i : Fin rows.length, 0 < ws.getD i 0 := by
    intro i
    have : (i : Nat) < ws.length := by rw [hw]; exact i.2
    rw [List.getD_eq_getElem?_getD, List.getElem?_eq_getElem this]
    exact hpos _ (List.getElem_mem this)
  have hS : 0 < ∑ i : Fin rows.length, ws.getD i 0 :=
    Finset.sum_pos (fun i _ => hwp i) ⟨⟨0, List.length_pos_of_ne_nil hne⟩, Finset.mem_univ _⟩
  obtain ⟨coef, b, h1, -, h3⟩ := C33_ridge_minimiser (m := rows.length)
    (n := (rows.headD []).length) (fun i k => (rows.getD i []).getD k 0) (fun i => ys.getD i 0)
    alpha ha (fun i => ws.getD i 0) (fun i => (hwp i).le) hS
  have hco : (fun k : Fin (rows.headD []).length => (List.ofFn coef).getD k 0) = coef := by
    funext k
    exact ofFn_getD coef k
  refine ⟨List.ofFn coef, b, ?_, by simp, fun c' b' hc' => ?_⟩
  · simp only [numbaRidge, numbaRidgeFit]
    rw [h1]
    rfl
  · rw [ridgeCost_eq alpha rows ys ws _ b hr (by simp), ridgeCost_eq alpha rows ys ws c' b' hr hc',
      hco]
    refine ⟨(h3 _ _).1, fun hle => ?_⟩
    obtain ⟨h4, h5⟩ := (h3 _ _).2 hle
    refine ⟨?_, h5⟩
    apply List.ext_getElem
    · simp [hc']
    · intro k h6 h7
      have := congrFun h4 ⟨k, hc' ▸ h6⟩
      simp only [List.getD_eq_getElem?_getD, List.getElem?_eq_getElem h6, Option.getD_some] at this
      rw [this]
      simp

/-- C52: on every non-empty table with positive weights, `ridge_cholesky` returns exactly the
coefficients and intercept of any learner that keeps the promise of `Ridge`. -/
theorem C52_ridge_solvers (alpha : ℝ) (ha : 0 < alpha) (M : Learner ℝ (List ℝ × ℝ))
    (hM : IsRidge alpha M) : AgreePositive M (numbaRidge alpha) where
  fit := by
    intro rows ys ws n hne hn hr hy hw hpos
    obtain ⟨c, b, h1, h2, h3⟩ := hM.fit rows ys ws n hne hn hr hy hw hpos
    obtain ⟨c', b', h1', h2', h3'⟩ := numbaRidge_minimises alpha ha rows ys ws n hne hr hw hpos
    obtain ⟨h4, h5⟩ := (h3' c b h2).2 (h3 c' b' h2')
    rw [h1, h1', h4, h5]
  predict := fun g x => (hM.predict g.1 g.2 x).symm

/-- C52: a stacking model whose meta estimator is a ridge regression with a positive penalty and
which is fitted on a canonical CSR array of positive weights, in which every location keeps a
positive weight for itself, gives the same result with `use_numba` (`ridge_cholesky`) and without
(any learner that keeps the promise of `Ridge`): the same outcome, the same estimators,
predictions and scores; only the recorded fit scores of the numba path are extra. -/
theorem C52_ridge_numba_changes_nothing {F S C : Type} (alpha : ℝ) (ha : 0 < alpha)
    (L : Learner ℝ F) (M Mx : Learner ℝ (List ℝ × ℝ)) (hM : IsRidge alpha M) (rng : Rng S)
    (p : SParams ℝ C) (st : SState ℝ F (List ℝ × ℝ) C) (s : S) (X : Mat ℝ) (y : List ℝ)
    (coords : Option C) (A : Csr ℝ) (hA : A.Canonical) (hpos : ∀ x ∈ A.data, 0 < x)
    (hv : rng.Valid) (hrate : ∀ r ∈ p.leaveOutRate, 0 ≤ r) (W1 : Mat ℝ)
    (hW1 : shrinkMetaDense p.metaShrink A.dense = .ok W1) (hself : ∀ i < X.r, 0 < W1.get i i) :
    let a := stackFit L M (numbaRidge alpha) rng { p with useNumba := true } st s X y coords
      (some (.sparse A))
    let b := stackFit L M Mx rng { p with useNumba := false } st s X y coords
      (some (.sparse A))
    a.result = b.result ∧ a.caller = b.caller ∧ a.rng = b.rng ∧
      { a.state with fitScores := none } = { b.state with fitScores := none } :=
  C52_numba_changes_nothing L M (numbaRidge alpha) Mx (C52_ridge_solvers alpha ha M hM) rng p st s
    X y coords A hA hpos hv hrate W1 hW1 hself

/-- The promise of `Ridge` can be kept, for every positive penalty. -/
theorem numbaRidge_isRidge {alpha : ℝ} (ha : 0 < alpha) : IsRidge alpha (numbaRidge alpha) where
  fit := by
    intro rows ys ws n hne _ hr _ hw hpos
    obtain ⟨c, b, h1, h2, h3⟩ := numbaRidge_minimises alpha ha rows ys ws n hne hr hw hpos
    exact ⟨c, b, h1, h2, fun c' b' hc' => (h3 c' b' hc').1⟩
  predict := fun _ _ _ => rfl

/-- The weights of two locations that see each other. -/
noncomputable def twoA : Csr ℝ := ⟨2, 2, [0, 2, 4], [0, 1, 0, 1], [1, 1 / 2, 1 / 2, 1]⟩

/-- The remaining hypotheses of `C52_ridge_numba_changes_nothing` are met. -/
example : twoA.Canonical ∧ (∀ x ∈ twoA.data, 0 < x) ∧ rotRng.Valid ∧
    (∀ r ∈ (some (1 / 2) : Option ℝ), 0 ≤ r) ∧ shrinkMetaDense none twoA.dense = .ok twoA.dense ∧
    ∀ i < 2, 0 < twoA.dense.get i i := by
  refine ⟨⟨rfl, rfl, ?_, rfl, rfl, ?_, ?_⟩, ?_, rotRng_valid, ?_, rfl, ?_⟩
  · intro i hi
    change i < 2 at hi
    interval_cases i <;> decide
  · intro j hj
    change j ∈ [0, 1, 0, 1] at hj
    change j < 2
    revert j
    decide
  · intro i hi
    change i < 2 at hi
    interval_cases i <;> decide
  · intro x hx
    simp only [twoA, List.mem_cons, List.not_mem_nil, or_false] at hx
    rcases hx with rfl | rfl | rfl | rfl <;> norm_num
  · intro r hr
    cases hr
    norm_num
  · intro i hi
    interval_cases i
    · change (0 : ℝ) < 1
      norm_num
    · change (0 : ℝ) < 1
      norm_num

end Geo
