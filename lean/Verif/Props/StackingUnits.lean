import Verif.Props.TargetUnits
import Verif.Props.StackingRidge
import Mathlib.Tactic.LinearCombination
set_option linter.unusedSectionVars false
/-
Units of the target in the stacking model. The base predictions are the predictors of the meta
estimator, so they are rescaled together with the target.
-/
namespace Geo
variable {K : Type} [Field K] [LinearOrder K] [IsStrictOrderedRing K] [FloorRing K]
  {F G G' C S : Type}

/-- Two meta regressors, the second of which follows the unit of the first: fitted on tables whose
predictors and targets are both mapped by `v ↦ a * v + b`, predictions are mapped the same way. -/
def MetaEquivariant (a b : K) (M M' : Learner K G) : Prop :=
  ∀ (rows : List (List K)) (ys ws : List K) (n : Nat) (g g' : G), rows ≠ [] → 0 < n →
    (∀ r ∈ rows, r.length = n) → ys.length = rows.length → ws.length = rows.length →
    (∀ w ∈ ws, 0 < w) → M.fit 0 rows ys ws = .ok g →
    M'.fit 0 (rows.map fun r => r.map fun v => a * v + b) (ys.map fun v => a * v + b) ws = .ok g' →
    ∀ x, x.length = n → M'.predict g' (x.map fun v => a * v + b) = a * M.predict g x + b

theorem Equivariant.of_ok {a b : K} {L : Learner K F} (hL : Equivariant a b L) {e : Nat}
    {rows : List (List K)} {ys ws : List K} {f f' : F} (h : L.fit e rows ys ws = .ok f)
    (h' : L.fit e rows (ys.map fun v => a * v + b) ws = .ok f') (x : List K) :
    L.predict f' x = a * L.predict f x + b := by
  have := hL e rows ys ws
  rw [h, h'] at this
  exact this x

theorem units_bases {a b : K} {L : Learner K F} (hL : Equivariant a b L) {M M' : Learner K G}
    {ll : Bool} {X : Mat K} {y : List K} (hy : X.r = y.length) {W W1 : Mat K}
    {sel : Nat → List Nat} {bs bs' : List F} {ps ps' : List K} {es es' : List (StackedEst F G)}
    (h : StackSpec L M ll X (yfun y) W W1 sel bs ps es)
    (h' : StackSpec L M' ll X (yfun (y.map fun v => a * v + b)) W W1 sel bs' ps' es')
    {j : Nat} (hj : j < X.r) : ∃ f f', bs[j]? = some f ∧ bs'[j]? = some f' ∧
      ∀ x, L.predict f' x = a * L.predict f x + b := by
  obtain ⟨f, h1, h2⟩ := h.base j hj
  obtain ⟨f', h3, h4⟩ := h'.base j hj
  refine ⟨f, f', h1, h3, ?_⟩
  simp only at h2 h4
  unfold yfun at h2 h4
  rw [map_affine a b (fun i hi => by
    have := List.mem_range.1 (List.mem_filter.1 hi).1
    omega)] at h4
  exact hL.of_ok h2 h4

theorem units_pred {a b : K} {L : Learner K F} (hL : Equivariant a b L) {M M' : Learner K G}
    {ll : Bool} {X : Mat K} {y : List K} (hy : X.r = y.length) {W W1 : Mat K}
    {sel : Nat → List Nat} {bs bs' : List F} {ps ps' : List K} {es es' : List (StackedEst F G)}
    (h : StackSpec L M ll X (yfun y) W W1 sel bs ps es)
    (h' : StackSpec L M' ll X (yfun (y.map fun v => a * v + b)) W W1 sel bs' ps' es')
    {i : Nat} (hi : i < X.r) (k : Nat) :
    ((sel i).map fun j => basePred L X bs' j k) =
      ((sel i).map fun j => basePred L X bs j k).map fun v => a * v + b := by
  rw [List.map_map]
  refine List.map_congr_left fun j hj => ?_
  obtain ⟨f, f', h1, h2, h3⟩ := units_bases hL hy h h' (h.lt i hi j hj)
  simp only [basePred, h1, h2, Option.map_some, Option.getD_some, Function.comp, h3]

theorem units_stacked {a b : K} {L : Learner K F} (hL : Equivariant a b L) {M M' : Learner K G}
    (hM : MetaEquivariant a b M M')
    {ll : Bool} {X : Mat K} {y : List K} (hy : X.r = y.length) {W W1 : Mat K}
    {sel : Nat → List Nat} {bs bs' : List F} {ps ps' : List K} {es es' : List (StackedEst F G)}
    (h : StackSpec L M ll X (yfun y) W W1 sel bs ps es)
    (h' : StackSpec L M' ll X (yfun (y.map fun v => a * v + b)) W W1 sel bs' ps' es')
    {i : Nat} (hi : i < X.r) (hpos : 0 < W1.get i i) :
    ps'.getD i 0 = a * ps.getD i 0 + b := by
  obtain ⟨g, ⟨h1, h2⟩, -, h3⟩ := h.fitted i hi
  obtain ⟨g', ⟨-, h2'⟩, -, h3'⟩ := h'.fitted i hi
  rw [List.getD_eq_getElem?_getD, List.getD_eq_getElem?_getD, h3 hpos, h3' hpos,
    Option.getD_some, Option.getD_some, units_pred hL hy h h' hi]
  have hn : 0 < (sel i).length := List.length_pos_of_mem (h.self i hi)
  unfold yfun at h2 h2'
  rw [map_affine a b (fun k hk => by
    have := List.mem_range.1 (List.mem_filter.1 hk).1
    omega)] at h2'
  simp only [units_pred hL hy h h' hi] at h2'
  refine hM _ _ _ (sel i).length g g' ?_ hn ?_ ?_ ?_ ?_ h2 ?_ _ (by simp)
  · simpa using h1
  · intro r hr
    obtain ⟨k, -, rfl⟩ := List.mem_map.1 hr
    simp
  · simp
  · simp
  · intro w hw
    obtain ⟨k, hk, rfl⟩ := List.mem_map.1 hw
    exact (of_decide_eq_true (List.mem_filter.1 hk).2).1
  · rw [List.map_map]
    exact h2'

/-- C90: the unit of the target in the stacking model. Fit the same model once on `y` and once on
`a * y + b` (a ≠ 0), with the same data, weights, options and generator, a base regressor that
follows the unit of the target and meta regressors that follow the unit of predictors and target
together (for ridge regressions see `C90_ridge_units`). If both fits succeed, every base estimator
predicts `a * v + b` where it predicted `v`, and so does the stacked model at every location that
keeps a positive weight for itself. If all do, `llocv_stacking_` is the same number. -/
theorem C90_stacking_units (a b : K) (ha : a ≠ 0) (L : Learner K F) (hL : Equivariant a b L)
    (M M' Mn Mn' : Learner K G) (hM : MetaEquivariant a b M M') (hMn : MetaEquivariant a b Mn Mn')
    (rng : Rng S) (p : SParams K C) (st : SState K F G C) (s : S) (X : Mat K) (y : List K)
    (coords : Option C) (W : Option (WMat K))
    (hest : p.estimatorRate = none ∨ ∃ A, W = some (.sparse A)) (hW : SparseFine rng p W)
    (W0 : WMat K) (W1 : Mat K) (hW0 : chosenWeights p.toWMParams coords W = .ok W0)
    (hW1 : shrinkMetaDense p.metaShrink W0.toMat = .ok W1) :
    let o := stackFit L M Mn rng p st s X y coords W
    let o' := stackFit L M' Mn' rng p st s X (y.map fun v => a * v + b) coords W
    o.result = .ok () → o'.result = .ok () →
    ∃ fs fs' ps ps', o.state.base = some fs ∧ o'.state.base = some fs' ∧
      o.state.stackPredictions = some ps ∧ o'.state.stackPredictions = some ps' ∧
      (∀ j < X.r, ∃ f f', fs[j]? = some f ∧ fs'[j]? = some f' ∧
        ∀ x, L.predict f' x = a * L.predict f x + b) ∧
      (∀ i < X.r, 0 < W1.get i i → ps'.getD i 0 = a * ps.getD i 0 + b) ∧
      (rng.Valid → (∀ r, p.sampleRate = some r → 0 ≤ r ∧ r ≤ 1) → (∀ i < X.r, 0 < W1.get i i) →
        o'.state.stackScore = o.state.stackScore) := by
  intro o o' h h'
  obtain ⟨V0, rate, Sm, V1, fs, ps, es, q1, q2, q3, q4, q5, q6, -, q8⟩ :=
    C50_genuine_predictions L M Mn rng p st s X y coords W hest hW h
  obtain ⟨V0', rate', Sm', V1', fs', ps', es', r1, r2, r3, r4, r5, r6, -, r8⟩ :=
    C50_genuine_predictions L M' Mn' rng p st s X _ coords W hest hW h'
  rw [hW0] at q1 r1
  cases q1
  cases r1
  rw [hW1] at q4 r4
  cases q4
  cases r4
  rw [q2] at r2
  cases r2
  rw [q3] at r3
  cases r3
  have hy : X.r = y.length := by
    obtain ⟨_, _, hc, -⟩ := stackFit_ok h
    exact (of_decide_eq_true hc).1
  have hMM : MetaEquivariant a b (if p.useNumba then Mn else M) (if p.useNumba then Mn' else M') := by
    split
    · exact hMn
    · exact hM
  have key : ∀ i < X.r, 0 < W1.get i i → ps'.getD i 0 = a * ps.getD i 0 + b :=
    fun i hi hpos => units_stacked hL hMM hy q8 r8 hi hpos
  refine ⟨fs, fs', ps, ps', q5, r5, q6, r6, fun j hj => units_bases hL hy q8 r8 hj, key, ?_⟩
  intro hv hrate hown
  obtain ⟨qs, u1, u2, u3, u4⟩ :=
    (C87_attributes L M Mn rng hv p st s X y coords W hrate h).stacked
  obtain ⟨qs', v1, v2, v3, v4⟩ :=
    (C87_attributes L M' Mn' rng hv p st s X _ coords W hrate h').stacked
  have e1 : qs = ps := Option.some.inj (u1.symm.trans q6)
  have e2 : qs' = ps' := Option.some.inj (v1.symm.trans r6)
  subst e1 e2
  have hck : 0 < X.r := by
    obtain ⟨_, _, hc, -⟩ := stackFit_ok h
    exact (of_decide_eq_true hc).2.1
  rcases Nat.lt_or_ge 1 X.r with hN | hN
  · change (stackFit L M' Mn' rng p st s X (y.map fun v => a * v + b) coords W).state.stackScore =
      (stackFit L M Mn rng p st s X y coords W).state.stackScore
    rw [u3 hN, v3 hN]
    congr 1
    unfold R2Of
    have g1 : ∀ i ∈ Finset.range X.r, (y.map fun v => a * v + b).getD i 0 = a * y.getD i 0 + b :=
      fun i hi => getD_affine a b (hy ▸ Finset.mem_range.1 hi)
    have g2 : ∀ i ∈ Finset.range X.r, qs'.getD i 0 = a * qs.getD i 0 + b :=
      fun i hi => key i (Finset.mem_range.1 hi) (hown i (Finset.mem_range.1 hi))
    have hN0 : (X.r : K) ≠ 0 := by exact_mod_cast hck.ne'
    have g3 : ∑ i ∈ Finset.range X.r, (y.map fun v => a * v + b).getD i 0 =
        a * (∑ i ∈ Finset.range X.r, y.getD i 0) + b * X.r := by
      rw [Finset.sum_congr rfl g1, Finset.sum_add_distrib, Finset.mul_sum, Finset.sum_const,
        Finset.card_range, nsmul_eq_mul, mul_comm b]
    have g4 : ∑ i ∈ Finset.range X.r, ((y.map fun v => a * v + b).getD i 0 - qs'.getD i 0) ^ 2 =
        a ^ 2 * ∑ i ∈ Finset.range X.r, (y.getD i 0 - qs.getD i 0) ^ 2 := by
      rw [Finset.mul_sum]
      refine Finset.sum_congr rfl fun i hi => ?_
      rw [g1 i hi, g2 i hi]
      ring
    have g5 : ∑ i ∈ Finset.range X.r, ((y.map fun v => a * v + b).getD i 0 -
        (∑ i ∈ Finset.range X.r, (y.map fun v => a * v + b).getD i 0) / X.r) ^ 2 =
        a ^ 2 * ∑ i ∈ Finset.range X.r, (y.getD i 0 -
          (∑ i ∈ Finset.range X.r, y.getD i 0) / X.r) ^ 2 := by
      rw [Finset.mul_sum, g3]
      refine Finset.sum_congr rfl fun i hi => ?_
      rw [g1 i hi]
      field_simp
      ring
    simp only [g4, g5]
    have ha2 : a ^ 2 ≠ 0 := pow_ne_zero 2 ha
    simp only [mul_eq_zero, ha2, false_or, mul_div_mul_left _ _ ha2]
  · have : X.r = 1 := by omega
    exact (v4 this).trans (u4 this).symm

/-! ### Ridge -/

theorem dot_affine (a b : ℝ) (x c : List ℝ) (h : x.length = c.length) :
    (List.zipWith (· * ·) (x.map fun v => a * v + b) c).sum =
      a * (List.zipWith (· * ·) x c).sum + b * c.sum := by
  induction x generalizing c with
  | nil =>
    cases c with
    | nil => simp
    | cons u c => simp at h
  | cons v x ih =>
    cases c with
    | nil => simp at h
    | cons u c =>
      simp only [List.map_cons, List.zipWith_cons_cons, List.sum_cons, ih c (by simpa using h)]
      ring

/-- The cost of the mapped table at the mapped coefficients. -/
theorem ridgeCost_units (a b alpha : ℝ) (rows : List (List ℝ)) (ys ws c : List ℝ) (β : ℝ) {n : Nat}
    (hr : ∀ r ∈ rows, r.length = n) (hy : ys.length = rows.length) (hc : c.length = n) :
    ridgeCost (alpha * a ^ 2) (rows.map fun r => r.map fun v => a * v + b)
      (ys.map fun v => a * v + b) ws c (a * β + b - b * c.sum) =
      a ^ 2 * ridgeCost alpha rows ys ws c β := by
  unfold ridgeCost
  rw [List.length_map, mul_add]
  congr 1
  · rw [← List.sum_map_mul_left]
    congr 1
    refine List.map_congr_left fun i hi => ?_
    have hi := List.mem_range.1 hi
    have hi' : i < ys.length := hy ▸ hi
    have e1 : (rows.map fun r => r.map fun v => a * v + b).getD i [] =
        (rows.getD i []).map fun v => a * v + b := by
      simp [List.getD_eq_getElem?_getD, hi]
    have e2 : (rows.getD i []).length = c.length := by
      rw [hc]
      refine hr _ ?_
      rw [List.getD_eq_getElem?_getD, List.getElem?_eq_getElem hi]
      exact List.getElem_mem hi
    simp only [e1, dot_affine a b _ c e2, getD_affine a b hi']
    ring
  · ring

theorem IsRidge.unique {alpha : ℝ} (ha : 0 < alpha) {M : Learner ℝ (List ℝ × ℝ)}
    (hM : IsRidge alpha M) {rows : List (List ℝ)} {ys ws : List ℝ} {n : Nat} (hne : rows ≠ [])
    (hn : 0 < n) (hr : ∀ r ∈ rows, r.length = n) (hy : ys.length = rows.length)
    (hw : ws.length = rows.length) (hpos : ∀ w ∈ ws, 0 < w) {c : List ℝ} {β : ℝ}
    (hc : c.length = n)
    (hmin : ∀ c' β', c'.length = n →
      ridgeCost alpha rows ys ws c β ≤ ridgeCost alpha rows ys ws c' β') :
    M.fit 0 rows ys ws = .ok (c, β) := by
  obtain ⟨c1, b1, h1, h2, h3⟩ := hM.fit rows ys ws n hne hn hr hy hw hpos
  obtain ⟨c2, b2, -, h5, h6⟩ := numbaRidge_minimises alpha ha rows ys ws n hne hr hw hpos
  obtain ⟨e1, e2⟩ := (h6 c1 b1 h2).2 (h3 c2 b2 h5)
  obtain ⟨e3, e4⟩ := (h6 c β hc).2 (hmin c2 b2 h5)
  rw [h1, e1, e2, e3, e4]

/-- C90: a ridge regression follows the unit when its penalty is multiplied by the square of the
factor; for a pure shift (`a = 1`) the penalty is unchanged. -/
theorem C90_ridge_units (a b alpha : ℝ) (ha : a ≠ 0) (hal : 0 < alpha)
    (M M' : Learner ℝ (List ℝ × ℝ)) (hM : IsRidge alpha M) (hM' : IsRidge (alpha * a ^ 2) M') :
    MetaEquivariant a b M M' := by
  rintro rows ys ws n ⟨c, β⟩ ⟨c', β'⟩ hne hn hr hy hw hpos h h' x hx
  have ha2 : 0 < a ^ 2 := by positivity
  obtain ⟨c1, b1, h1, h2, h3⟩ := hM.fit rows ys ws n hne hn hr hy hw hpos
  rw [h] at h1
  cases h1
  have hfit : M'.fit 0 (rows.map fun r => r.map fun v => a * v + b) (ys.map fun v => a * v + b) ws =
      .ok (c, a * β + b - b * c.sum) := by
    refine IsRidge.unique (by positivity) hM' (n := n) (by simpa using hne) hn ?_ (by simpa using hy)
      (by simpa using hw) hpos h2 ?_
    · intro r hr'
      obtain ⟨r0, hr0, rfl⟩ := List.mem_map.1 hr'
      simpa using hr r0 hr0
    · intro d δ hd
      have e : δ = a * ((δ - b + b * d.sum) / a) + b - b * d.sum := by
        field_simp
        ring
      rw [ridgeCost_units a b alpha rows ys ws c β hr hy h2, e,
        ridgeCost_units a b alpha rows ys ws d _ hr hy hd]
      exact mul_le_mul_of_nonneg_left (h3 d _ hd) ha2.le
  rw [hfit] at h'
  cases h'
  rw [hM.predict, hM'.predict, dot_affine a b x c (hx.trans h2.symm)]
  ring

/-- A ridge regression of constant targets. -/
theorem ridge_constant {alpha : ℝ} (hal : 0 < alpha) {M : Learner ℝ (List ℝ × ℝ)}
    (hM : IsRidge alpha M) {rows : List (List ℝ)} {ys ws : List ℝ} {n : Nat} (hne : rows ≠ [])
    (hn : 0 < n) (hr : ∀ r ∈ rows, r.length = n) (hy : ys.length = rows.length)
    (hw : ws.length = rows.length) (hpos : ∀ w ∈ ws, 0 < w) {v : ℝ} (hv : ∀ u ∈ ys, u = v) :
    M.fit 0 rows ys ws = .ok (List.replicate n 0, v) := by
  refine IsRidge.unique hal hM hne hn hr hy hw hpos (by simp) fun c' β' hc' => ?_
  have hz : ∀ x : List ℝ, (List.zipWith (· * ·) x (List.replicate n (0 : ℝ))).sum = 0 := by
    intro x
    apply List.sum_eq_zero
    intro u hu
    obtain ⟨i, h1, rfl⟩ := List.mem_iff_getElem.1 hu
    simp
  have h0 : ridgeCost alpha rows ys ws (List.replicate n 0) v = 0 := by
    unfold ridgeCost
    rw [List.sum_eq_zero, List.sum_eq_zero]
    · simp
    · intro u hu
      simp only [List.map_replicate, List.mem_replicate] at hu
      simpa using hu.2
    · intro u hu
      obtain ⟨i, hi, rfl⟩ := List.mem_map.1 hu
      have hi : i < ys.length := hy ▸ List.mem_range.1 hi
      have : ys.getD i 0 = v := by
        rw [List.getD_eq_getElem?_getD, List.getElem?_eq_getElem hi]
        exact hv _ (List.getElem_mem hi)
      rw [hz, this]
      ring
  rw [h0]
  unfold ridgeCost
  apply add_nonneg
  · apply List.sum_nonneg
    intro u hu
    obtain ⟨i, hi, rfl⟩ := List.mem_map.1 hu
    have hi : i < ws.length := hw ▸ List.mem_range.1 hi
    have : 0 < ws.getD i 0 := by
      rw [List.getD_eq_getElem?_getD, List.getElem?_eq_getElem hi]
      exact hpos _ (List.getElem_mem hi)
    positivity
  · apply mul_nonneg hal.le
    apply List.sum_nonneg
    intro u hu
    obtain ⟨i, -, rfl⟩ := List.mem_map.1 hu
    positivity

/-- C91: a constant target is reproduced exactly. Whatever the base regressor does, a stacking fit
with a ridge meta estimator of positive penalty and a target that is `v` everywhere predicts `v` at
every location that keeps a positive weight for itself. -/
theorem C91_constant_target {F C S : Type} (alpha : ℝ) (hal : 0 < alpha) (L : Learner ℝ F)
    (M Mn : Learner ℝ (List ℝ × ℝ)) (hM : IsRidge alpha M) (hMn : IsRidge alpha Mn)
    (rng : Rng S) (p : SParams ℝ C) (st : SState ℝ F (List ℝ × ℝ) C) (s : S) (X : Mat ℝ)
    (y : List ℝ) (v : ℝ) (hv : ∀ u ∈ y, u = v) (coords : Option C) (W : Option (WMat ℝ))
    (hest : p.estimatorRate = none ∨ ∃ A, W = some (.sparse A)) (hW : SparseFine rng p W)
    (W0 : WMat ℝ) (W1 : Mat ℝ) (hW0 : chosenWeights p.toWMParams coords W = .ok W0)
    (hW1 : shrinkMetaDense p.metaShrink W0.toMat = .ok W1)
    (h : (stackFit L M Mn rng p st s X y coords W).result = .ok ()) :
    ∃ ps, (stackFit L M Mn rng p st s X y coords W).state.stackPredictions = some ps ∧
      ps.length = X.r ∧ ∀ i < X.r, 0 < W1.get i i → ps[i]? = some v := by
  obtain ⟨V0, rate, Sm, V1, fs, ps, es, q1, q2, q3, q4, q5, q6, -, q8⟩ :=
    C50_genuine_predictions L M Mn rng p st s X y coords W hest hW h
  rw [hW0] at q1
  cases q1
  rw [hW1] at q4
  cases q4
  have hy : X.r = y.length := by
    obtain ⟨_, _, hc, -⟩ := stackFit_ok h
    exact (of_decide_eq_true hc).1
  have hMM : IsRidge alpha (if p.useNumba then Mn else M) := by
    split
    · exact hMn
    · exact hM
  refine ⟨ps, q6, q8.lenPs, fun i hi hpos => ?_⟩
  obtain ⟨g, ⟨h1, h2⟩, -, h3⟩ := q8.fitted i hi
  have hn : 0 < ((List.range X.r).filter fun j => Sm.get i j).length :=
    List.length_pos_of_mem (q8.self i hi)
  generalize (List.range X.r).filter (fun j => Sm.get i j) = sel at h2 h3 hn
  rw [ridge_constant hal hMM (n := sel.length) (v := v) (by simpa using h1) hn ?_ (by simp)
    (by simp) ?_ ?_] at h2
  · cases h2
    rw [h3 hpos, hMM.predict]
    congr 1
    rw [List.sum_eq_zero, zero_add]
    intro u hu
    obtain ⟨i, h1, rfl⟩ := List.mem_iff_getElem.1 hu
    simp
  · intro r hr
    obtain ⟨k, -, rfl⟩ := List.mem_map.1 hr
    simp
  · intro w hw
    obtain ⟨k, hk, rfl⟩ := List.mem_map.1 hw
    exact (of_decide_eq_true (List.mem_filter.1 hk).2).1
  · intro u hu
    obtain ⟨k, hk, rfl⟩ := List.mem_map.1 hu
    have hk : k < y.length := by
      have := List.mem_range.1 (List.mem_filter.1 hk).1
      omega
    unfold yfun
    rw [List.getD_eq_getElem?_getD, List.getElem?_eq_getElem hk]
    exact hv _ (List.getElem_mem hk)

/-! ### The penalty must follow -/

/-- Two observations, one predictor. -/
theorem ridge_two {alpha : ℝ} (hal : 0 < alpha) {M : Learner ℝ (List ℝ × ℝ)}
    (hM : IsRidge alpha M) :
    M.fit 0 [[0], [1]] [0, 1] [1, 1] = .ok ([1 / (1 + 2 * alpha)], alpha / (1 + 2 * alpha)) := by
  refine IsRidge.unique hal hM (n := 1) (by simp) (by simp) (by simp) rfl rfl (by simp) rfl ?_
  intro c' β' hc'
  obtain ⟨c, rfl⟩ := List.length_eq_one_iff.1 hc'
  simp only [ridgeCost, List.length_cons, List.length_nil, List.range_succ, List.range_zero,
    List.nil_append, List.map_cons, List.map_nil, List.cons_append, List.sum_cons, List.sum_nil,
    List.getD_cons_zero, List.getD_cons_succ, List.zipWith_cons_cons, List.zipWith_nil_right]
  have h : (1 + 2 * alpha) ≠ 0 := by positivity
  generalize hu : (1 + 2 * alpha)⁻¹ = u
  have hu' : 2 * alpha * u = 1 - u := by
    have : (1 + 2 * alpha) * u = 1 := by rw [← hu]; exact mul_inv_cancel₀ h
    linarith
  have e1 : (1 : ℝ) / (1 + 2 * alpha) = u := by rw [one_div, hu]
  have e2 : alpha / (1 + 2 * alpha) = (1 - u) / 2 := by rw [div_eq_mul_inv, hu]; linarith
  rw [e1, e2]
  have key : (1 * (0 - (0 * c + 0) - β') ^ 2 + (1 * (1 - (1 * c + 0) - β') ^ 2 + 0) +
      alpha * (c ^ 2 + 0)) - (1 * (0 - (0 * u + 0) - (1 - u) / 2) ^ 2 +
      (1 * (1 - (1 * u + 0) - (1 - u) / 2) ^ 2 + 0) + alpha * (u ^ 2 + 0)) =
      (β' - (1 - u) / 2) ^ 2 + (c - u + (β' - (1 - u) / 2)) ^ 2 + alpha * (c - u) ^ 2 := by
    have : alpha * u = (1 - u) / 2 := by linarith
    linear_combination (2 * (c - u)) * this
  have : 0 ≤ alpha * (c - u) ^ 2 := by positivity
  nlinarith [sq_nonneg (β' - (1 - u) / 2), sq_nonneg (c - u + (β' - (1 - u) / 2))]

/-- C90: with an unchanged penalty no ridge regression follows a rescaling of the target: `alpha` is
a number in the square of the unit of the target. -/
theorem C90_penalty_has_a_unit (a b alpha : ℝ) (ha : a ≠ 0) (ha1 : a ^ 2 ≠ 1) (hal : 0 < alpha)
    (M : Learner ℝ (List ℝ × ℝ)) (hM : IsRidge alpha M) : ¬ MetaEquivariant a b M M := by
  intro h
  have ha2 : 0 < a ^ 2 := by positivity
  have hal' : 0 < alpha / a ^ 2 := by positivity
  have hN : IsRidge (alpha / a ^ 2) (numbaRidge (alpha / a ^ 2)) := numbaRidge_isRidge hal'
  have h2 : MetaEquivariant a b (numbaRidge (alpha / a ^ 2)) M :=
    C90_ridge_units a b _ ha hal' _ _ hN (by rw [div_mul_cancel₀ _ ha2.ne']; exact hM)
  obtain ⟨c, β, h3, -, -⟩ := hM.fit ([[0], [1]].map fun r => r.map fun v => a * v + b)
    ([0, 1].map fun v => a * v + b) [1, 1] 1 (by simp) (by simp) (by simp) rfl rfl (by simp)
  have k1 := h [[0], [1]] [0, 1] [1, 1] 1 _ _ (by simp) (by simp) (by simp) rfl rfl (by simp)
    (ridge_two hal hM) h3
  have k2 := h2 [[0], [1]] [0, 1] [1, 1] 1 _ _ (by simp) (by simp) (by simp) rfl rfl (by simp)
    (ridge_two hal' hN) h3
  have k3 := (k1 [0] rfl).symm.trans (k2 [0] rfl)
  rw [hM.predict, hN.predict] at k3
  simp only [List.zipWith_cons_cons, List.zipWith_nil_right, zero_mul, List.sum_cons, List.sum_nil,
    add_zero, zero_add] at k3
  have k4 : alpha / (1 + 2 * alpha) = alpha / a ^ 2 / (1 + 2 * (alpha / a ^ 2)) :=
    mul_left_cancel₀ ha (by linarith)
  rw [div_eq_div_iff (by positivity) (by positivity)] at k4
  apply ha1
  field_simp at k4
  nlinarith

/-! ### The hypotheses are met -/

theorem localMean_meta (a b : ℚ) : MetaEquivariant a b localMean localMean := by
  intro rows ys ws n g g' _ _ _ hy hw _ h h' x _
  simp only [localMean, List.length_map] at h h' ⊢
  split at h
  · cases h
  · rename_i hs
    rw [if_neg hs] at h'
    cases h
    cases h'
    push Not at hs
    rw [zipWith_affine a b ws ys hs.2]
    field_simp [hs.1]

/-- Four locations, means as base and meta regressors: both fits succeed with ndarray weights, CSR
weights and numba, and the predictions are not constant. -/
example :
    let o := fun (p : SParams ℚ Unit) (y : List ℚ) (W : WMat ℚ) =>
      stackFit localMean localMean localMean rotRng p ({} : SState ℚ ℚ ℚ Unit) 0 seX y none (some W)
    (o seP seY (.dense seW)).result = .ok () ∧
    (o seP (seY.map fun v => -2 * v + 3) (.dense seW)).result = .ok () ∧
    (o { seP with useNumba := true } seY (.sparse seA)).result = .ok () ∧
    (o { seP with useNumba := true } (seY.map fun v => -2 * v + 3) (.sparse seA)).result = .ok () ∧
    (o seP seY (.dense seW)).state.stackPredictions ≠
      (o seP (seY.map fun v => -2 * v + 3) (.dense seW)).state.stackPredictions ∧
    ∀ i < 4, 0 < seW.get i i := by
  refine ⟨by decide +kernel, by decide +kernel, by decide +kernel, by decide +kernel,
    by decide +kernel, by decide +kernel⟩

end Geo
