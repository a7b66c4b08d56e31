import Verif.Props.AleLaws
import Verif.Props.Refit
import Verif.Model.AleTruth
/-
Property C117: the curves of two models fitted to the target in different units.
-/
set_option linter.unusedSectionVars false
namespace Geo
variable {K : Type} [Field K] [LinearOrder K] [IsStrictOrderedRing K] [FloorRing K] {F C S : Type}

/-- Two stored estimators: both missing, or the second predicts `a * prediction + b`. -/
def ScaledEst (a b : K) (L : Learner K F) : Option F → Option F → Prop
  | some f, some f' => ∀ x, L.predict f' x = a * L.predict f x + b
  | none, none => True
  | _, _ => False

theorem scaledEst_getD {a b : K} {L : Learner K F} {es es' : List (Option F)}
    (h : List.Forall₂ (ScaledEst a b L) es es') (i : Nat) :
    ScaledEst a b L (es.getD i none) (es'.getD i none) := by
  induction h generalizing i with
  | nil => trivial
  | cons h1 _ ih =>
    cases i with
    | zero => exact h1
    | succ i => exact ih i

theorem localAleOne_units (a b : K) (L : Learner K F) (X W : Mat K) (B : Mat Bool) (feature i : Nat)
    {e e' : Option F} (h : ScaledEst a b L e e') :
    localAleOne L X W B feature i e' =
      (localAleOne L X W B feature i e).map fun r => (r.1, r.2.map fun v => a * v + b) := by
  unfold localAleOne
  split
  · rfl
  cases e with
  | none =>
    cases e' with
    | none => rfl
    | some f' => exact h.elim
  | some f =>
    cases e' with
    | none => exact h.elim
    | some f' =>
      have hp : L.predict f' = fun row => a * L.predict f row + b := funext h
      simp only
      rw [hp, C117_affine _ _ _ _ _ _ _ _ (by norm_num)]
      simp

/-- C117: the local curves of two fitted states that agree in data and weights, where the second one's
estimators predict `a * prediction + b`: the same grids, every value `v` becomes `a * v + b`. -/
theorem C117_local_units (a b : K) (L : Learner K F) (st st' : WMState K F C) (feature : Nat)
    (hX : st'.X = st.X) (hW : st'.weightMatrix = st.weightMatrix)
    (hB : st'.neighbourMatrix = st.neighbourMatrix)
    (es es' : List (Option F)) (hes : st.estimators = some es) (hes' : st'.estimators = some es')
    (h : List.Forall₂ (ScaledEst a b L) es es') :
    localAle L st' feature = (localAle L st feature).map
      fun cs => cs.map fun r => (r.1, r.2.map fun v => a * v + b) := by
  unfold localAle
  rw [hes, hes', hX, hW, hB]
  cases st.X with
  | none => rfl
  | some X =>
  rcases st.weightMatrix with _ | W | A
  · rfl
  · rcases st.neighbourMatrix with _ | B | B
    · rfl
    · simp only [← h.length_eq]
      induction List.range es.length with
      | nil => rfl
      | cons i l ih =>
        simp only [mapE]
        rw [localAleOne_units a b L X W B feature i (scaledEst_getD h i), ih]
        cases localAleOne L X W B feature i (es.getD i none) with
        | error e => rfl
        | ok r =>
          simp only [Except.map]
          cases mapE (fun i => localAleOne L X W B feature i (es.getD i none)) l <;> rfl
    · rfl
  · rcases st.neighbourMatrix with _ | B | B
    · rfl
    · rfl
    · cases h with
      | nil => rfl
      | cons _ _ => rfl

/-! ### `global_ALE` -/

theorem cumsumFrom_scale (a s : K) (l : List K) :
    cumsumFrom (a * s) (l.map (a * ·)) = (cumsumFrom s l).map (a * ·) := by
  induction l generalizing s with
  | nil => rfl
  | cons x l ih => simp only [List.map_cons, cumsumFrom, ← mul_add, ih]

theorem accumulate_scale (a : K) (l : List K) :
    accumulate (l.map (a * ·)) = (accumulate l).map (a * ·) := by
  unfold accumulate
  have := cumsumFrom_scale a 0 l
  rw [mul_zero] at this
  rw [this, List.map_cons, mul_zero]

theorem groupMeans_scale (a : K) (idx : List Nat) (d : Nat → K) :
    groupMeans idx (fun i => a * d i) = (groupMeans idx d).map (a * ·) := by
  unfold groupMeans
  rw [List.map_map]
  apply List.map_congr_left
  intro k _
  simp only [Function.comp, meanL, List.length_map]
  rw [show ((members idx k).map fun i => a * d i) = ((members idx k).map d).map (a * ·) by
    rw [List.map_map]; rfl, List.sum_map_mul_left, List.map_id', mul_div_assoc]

theorem centre_scale (a : K) (l : List K) (counts : List Nat) :
    centre (l.map (a * ·)) counts = (centre l counts).map fun r => r.map (a * ·) := by
  unfold centre
  rw [List.length_map]
  split
  · rfl
  simp only [Except.map]
  congr 1
  rw [List.map_map, List.map_map]
  apply List.map_congr_left
  intro v _
  simp only [Function.comp]
  have h1 : List.zipWith (fun a b => 1 / 2 * (a + b)) (l.map (a * ·)).dropLast
      ((l.map (a * ·)).drop 1) =
      (List.zipWith (fun a b => 1 / 2 * (a + b)) l.dropLast (l.drop 1)).map (a * ·) := by
    rw [← List.map_dropLast, ← List.map_drop]
    generalize l.dropLast = u
    generalize l.drop 1 = v
    induction u generalizing v with
    | nil => rfl
    | cons x u ih =>
      cases v with
      | nil => rfl
      | cons y v =>
        simp only [List.map_cons, List.zipWith_cons_cons, ih]
        congr 1
        ring
  have h2 : ∀ (u : List K) (cs : List Nat),
      (List.zipWith (fun s (c : Nat) => s * (c : K)) (u.map (a * ·)) cs).sum =
        a * (List.zipWith (fun s (c : Nat) => s * (c : K)) u cs).sum := by
    intro u
    induction u with
    | nil => simp
    | cons x u ih =>
      intro cs
      cases cs with
      | nil => simp
      | cons c cs =>
        simp only [List.map_cons, List.zipWith_cons_cons, List.sum_cons, ih]
        ring
  rw [h1, h2]
  ring

theorem globalFinish_units (a b : K) (q : List K) (idx : List Nat) (ps : List (K × K)) :
    globalFinish q idx (ps.map fun e => (a * e.1 + b, a * e.2 + b)) =
      (globalFinish q idx ps).map fun r => (r.1, r.2.map (a * ·)) := by
  unfold globalFinish
  rw [List.length_map]
  split
  · rfl
  have hd : (fun i => ((ps.map fun e => (a * e.1 + b, a * e.2 + b)).getD i (0, 0)).2 -
      ((ps.map fun e => (a * e.1 + b, a * e.2 + b)).getD i (0, 0)).1) =
      fun i => a * ((ps.getD i (0, 0)).2 - (ps.getD i (0, 0)).1) := by
    funext i
    by_cases h : i < ps.length
    · simp only [List.getD_eq_getElem?_getD, List.getElem?_map, List.getElem?_eq_getElem h,
        Option.map_some, Option.getD_some]
      ring
    · simp [List.getD_eq_getElem?_getD, List.getElem?_eq_none (not_lt.1 h)]
  rw [hd, groupMeans_scale, accumulate_scale, centre_scale]
  cases centre (accumulate (groupMeans idx fun i => (ps.getD i (0, 0)).2 - (ps.getD i (0, 0)).1))
    (bincount idx) <;> rfl

theorem globalPair_units (a b : K) (L : Learner K F) (X : Mat K) (feature : Nat)
    (lows highs : List K) (i : Nat) {e e' : Option F} (h : ScaledEst a b L e e') :
    globalPair L X feature lows highs i e' =
      (globalPair L X feature lows highs i e).map fun e => (a * e.1 + b, a * e.2 + b) := by
  unfold globalPair
  split
  · rfl
  cases e with
  | none =>
    cases e' with
    | none => rfl
    | some f' => exact h.elim
  | some f =>
    cases e' with
    | none => exact h.elim
    | some f' =>
      simp only [Except.map, h _]

/-- C117: the global curve, which is centred, is multiplied by `a`. -/
theorem C117_global_units (a b : K) (L : Learner K F) (st st' : WMState K F C) (feature : Nat)
    (hX : st'.X = st.X) (es es' : List (Option F)) (hes : st.estimators = some es)
    (hes' : st'.estimators = some es') (h : List.Forall₂ (ScaledEst a b L) es es') :
    globalAle L st' feature = (globalAle L st feature).map fun r => (r.1, r.2.map (a * ·)) := by
  unfold globalAle
  rw [hes, hes', hX]
  cases st.X with
  | none => rfl
  | some X =>
    simp only
    split
    · rfl
    cases adaptiveGrid (X.col feature) 1 with
    | error e => rfl
    | ok qn =>
      obtain ⟨q, n⟩ := qn
      simp only
      cases mapE (fun i => pyGet q (i - 1)) (aleIdx q (X.col feature)) with
      | error e => rfl
      | ok lows =>
        simp only
        cases mapE (fun i => pyGet q i) (aleIdx q (X.col feature)) with
        | error e => rfl
        | ok highs =>
          simp only [← h.length_eq]
          have hm : ∀ l : List Nat,
              mapE (fun i => globalPair L X feature lows highs i (es'.getD i none)) l =
              (mapE (fun i => globalPair L X feature lows highs i (es.getD i none)) l).map
                fun ps => ps.map fun e => (a * e.1 + b, a * e.2 + b) := by
            intro l
            induction l with
            | nil => rfl
            | cons i l ih =>
              simp only [mapE]
              rw [globalPair_units a b L X feature lows highs i (scaledEst_getD h i), ih]
              cases globalPair L X feature lows highs i (es.getD i none) with
              | error e => rfl
              | ok r =>
                simp only [Except.map]
                cases mapE (fun i => globalPair L X feature lows highs i (es.getD i none)) l <;> rfl
          rw [hm]
          cases mapE (fun i => globalPair L X feature lows highs i (es.getD i none))
              (List.range es.length) with
          | error e => rfl
          | ok ps => exact globalFinish_units a b q _ ps

/-! ### Fitted models -/

/-- What the two fits store. -/
theorem fit_units_stored (a b : K) (L : Learner K F) (hL : Equivariant a b L)
    (rng : Rng S) (p : WMParams K C) (st : WMState K F C) (s : S) (X : Mat K) (y : List K)
    (coords : Option C) (W : Option (WMat K))
    (hok : (wmFit L rng p st s X y coords W).result = .ok ())
    (hok' : (wmFit L rng p st s X (y.map fun v => a * v + b) coords W).result = .ok ()) :
    let o := wmFit L rng p st s X y coords W
    let o' := wmFit L rng p st s X (y.map fun v => a * v + b) coords W
    o'.state.X = o.state.X ∧ o'.state.weightMatrix = o.state.weightMatrix ∧
    o'.state.neighbourMatrix = o.state.neighbourMatrix ∧
    ∃ es es', o.state.estimators = some es ∧ o'.state.estimators = some es' ∧
      List.Forall₂ (ScaledEst a b L) es es' := by
  intro o o'
  obtain ⟨W0, idx, s', res, score, hck, hW0, hs, hf, -, -, hsc, hout⟩ := wmFit_ok hok
  obtain ⟨W0', idx', s'', res', score', -, hW0', hs', hf', -, -, hsc', hout'⟩ := wmFit_ok hok'
  rw [hW0] at hW0'
  cases hW0'
  rw [hs] at hs'
  cases hs'
  have hy : X.r = y.length := (of_decide_eq_true hck).1
  have hr := fitAll_units hL hy (leaveOut p W0) X.r (some idx) p.nJobs p.storedPatches p.cpu
  have e1 : fitAll L X (fun i => y.getD i 0) none (leaveOut p W0) X.r (some idx) p.nJobs
      p.storedPatches p.cpu = .ok res := hf
  have e2 : fitAll L X (fun i => (y.map fun v => a * v + b).getD i 0) none (leaveOut p W0) X.r
      (some idx) p.nJobs p.storedPatches p.cpu = .ok res' := hf'
  rw [e1, e2] at hr
  have hr' : List.Forall₂ (UnitRel a b L) res res' := hr
  clear hr
  simp only [o, o']
  rw [hout, hout']
  refine ⟨?_, rfl, rfl, _, _, rfl, rfl, ?_⟩
  · simp only [stateBegin]
    split
    · rfl
    · cases p.cacheData <;> rfl
  · clear hout hout' hf hf' e1 e2 hsc hsc'
    induction hr' with
    | nil => exact .nil
    | cons h1 _ ih =>
      refine .cons ?_ ih
      cases p.cacheEstimator with
      | true => exact h1.2
      | false => trivial

/-- C117: the unit of the target. Two models fitted to `y` and to `a * y + b` (a ≠ 0) with a regressor
whose predictions follow the unit of the target: `local_ALE` and `global_ALE` both succeed or both
raise the same exception, on the same grids, and the local curves are `a * v + b`, the global curve
`a * v`. -/
theorem C117_target_units (a b : K) (ha : a ≠ 0) (L : Learner K F) (hL : Equivariant a b L)
    (rng : Rng S) (hrng : rng.Valid) (p : WMParams K C)
    (hrate : ∀ r, p.sampleRate = some r → 0 ≤ r ∧ r ≤ 1) (st : WMState K F C) (s : S) (X : Mat K)
    (y : List K) (coords : Option C) (W : Option (WMat K))
    (hok : (wmFit L rng p st s X y coords W).result = .ok ()) (feature : Nat) :
    let o := wmFit L rng p st s X y coords W
    let o' := wmFit L rng p st s X (y.map fun v => a * v + b) coords W
    localAle L o'.state feature = (localAle L o.state feature).map
      (fun cs => cs.map fun r => (r.1, r.2.map fun v => a * v + b)) ∧
    globalAle L o'.state feature = (globalAle L o.state feature).map
      fun r => (r.1, r.2.map fun v => a * v) := by
  intro o o'
  have hok' : o'.result = .ok () :=
    (C89_target_units a b ha L hL rng hrng p hrate st s X y coords W).1.trans hok
  obtain ⟨h1, h2, h3, es, es', h4, h5, h6⟩ :=
    fit_units_stored a b L hL rng p st s X y coords W hok hok'
  exact ⟨C117_local_units a b L o.state o'.state feature h1 h2 h3 es es' h4 h5 h6,
    C117_global_units a b L o.state o'.state feature h1 es es' h4 h5 h6⟩

/-! ### The comparison of the simulation -/

/-- C117: the comparison drawn by the simulation. Suppose the local estimator is exact,
`beta * x * z`, and the weighted mean of `z` among the neighbours is the true mean `mean` in every
interval. Then the drawn curve and the "true value" line are parallel, and they coincide exactly if
the base value is the line's value at the first grid point. -/
theorem C117_simulation (X : Mat K) (feature other : Nat) (hfo : other ≠ feature) (beta mean : K)
    (w : List K) (q ale : List K)
    (h : weightedAle X feature (fun row => beta * row.getD feature 0 * row.getD other 0)
      (some w) false 5 = .ok (q, ale)) (ho : other < X.c)
    (hμ : ∀ k, k + 1 < q.length → binSum X feature q k (fun i => w.getD i 0 * X.get i other) =
      mean * binSum X feature q k (fun i => w.getD i 0)) (base : K) :
    (∀ k < q.length, (anchored base ale).getD k 0 - trueEffect beta mean (q.getD k 0) =
      base - trueEffect beta mean (q.getD 0 0)) ∧
    ((∀ k < q.length, (anchored base ale).getD k 0 = trueEffect beta mean (q.getD k 0)) ↔
      base = trueEffect beta mean (q.getD 0 0)) := by
  have ht : ∀ x : K, trueEffect beta mean x = beta * mean * x := by
    intro x
    unfold trueEffect
    ring
  have hl := C59_one_value_per_grid_point _ _ _ _ _ _ (by norm_num) _ _ h
  obtain ⟨-, -, hb, -⟩ := weightedAle_ok (by norm_num) h
  have htwo := hb.two
  have h' : weightedAle X feature (fun row => beta * row.getD feature 0 * row.getD other 0 +
      (fun _ : List K => (0 : K)) row) (some w) false 5 = .ok (q, ale) := by
    simpa using h
  have h1 : ∀ k < q.length, (anchored base ale).getD k 0 -
      trueEffect beta mean (q.getD k 0) = base - trueEffect beta mean (q.getD 0 0) := by
    intro k hk
    have := C117_interaction_line X feature other hfo beta mean (fun _ => 0) (fun _ _ => rfl) w false
      5 (by norm_num) q ale h' ho hμ k hk
    have hg : (anchored base ale).getD k 0 = ale.getD k 0 - (ale.getD 0 0 - base) := by
      unfold anchored
      rw [List.getD_eq_getElem _ _ (by simpa [hl] using hk), List.getElem_map]
      have e : ale.getD k 0 = ale[k] := List.getD_eq_getElem _ _ (by omega)
      rw [e]
    rw [hg, ht, ht]
    linarith
  refine ⟨h1, fun hall => ?_, fun hbase k hk => ?_⟩
  · have e1 := h1 0 (by omega)
    rw [hall 0 (by omega)] at e1
    linarith
  · have := h1 k hk
    rw [← hbase] at this
    linarith

/-! ### Examples -/

/-- A regressor with two levels: the first and the last target it was given. -/
def edgeLearner : Learner ℚ (ℚ × ℚ) where
  fit _ _ ys _ := match ys with
    | [] => .error .valueError
    | y :: ys => .ok (y, (y :: ys).getLast (by simp))
  predict f x := if x.getD 0 0 ≤ 5 then f.1 else f.2

theorem edgeLearner_equivariant (a b : ℚ) : Equivariant a b edgeLearner := by
  intro e rows ys ws
  cases ys with
  | nil => rfl
  | cons y ys =>
    intro x
    simp only [edgeLearner]
    split
    · rfl
    · have : ∀ (l : List ℚ) (h : l ≠ []) (h' : l.map (fun v => a * v + b) ≠ []),
          (l.map fun v => a * v + b).getLast h' = a * l.getLast h + b := by
        intro l h h'
        rw [List.getLast_map]
      exact this (y :: ys) (by simp) (by simp)

def edP : WMParams ℚ Unit :=
  { cacheData := true, cacheEstimator := true, leaveLocalOut := false, cpu := 2,
    weights := fun _ _ => .error .exception }
def edY : List ℚ := [1, 4, 2, 8, 5, 7, 3, 3, 9, 6, 0, 2]
def edW : Mat ℚ := ⟨12, 12, fun i j => 1 / (1 + i + j : ℚ)⟩

/-- C117: the hypotheses of `C117_target_units` hold, and the curves are not flat. -/
example : Equivariant (-2 : ℚ) 7 edgeLearner ∧ lastRng.Valid ∧
    (wmFit edgeLearner lastRng edP {} 0 alX edY none (some (.dense edW))).result = .ok () ∧
    okAnd (localAle edgeLearner
      (wmFit edgeLearner lastRng edP {} 0 alX edY none (some (.dense edW))).state 0)
      (fun cs => cs.length == 12 && cs.all fun r => r.2.getD 0 0 != r.2.getD 1 0) = true ∧
    okAnd (globalAle edgeLearner
      (wmFit edgeLearner lastRng edP {} 0 alX edY none (some (.dense edW))).state 0)
      (fun r => r.2.getD 0 0 != r.2.getD 6 0) = true :=
  ⟨edgeLearner_equivariant _ _, lastRng_valid, by decide +kernel, by decide +kernel,
    by decide +kernel⟩

/-- C117: the hypotheses of the other laws hold: the curve of `2 x² - 3 z` in `x` exists; `x z` has
slope one half the mean of `z`; the slope of `x` lies between 0 and 1. -/
example :
    okAnd (weightedAle alX 0 alPred (some alW) true 2) (fun r => r.1.length == 5) = true ∧
    okAnd (weightedAle alX 0 (fun row => 1 / 2 * row.getD 0 0 * row.getD 1 0 + row.getD 1 0)
      (some alW) false 2) (fun r => r.1.length == 5 && r.2.getD 4 0 != r.2.getD 0 0) = true ∧
    okAnd (weightedAle alX 0 (fun row => min (row.getD 0 0) 5) (some alW) false 2)
      (fun r => r.2.getD 4 0 - r.2.getD 0 0 == 5) = true ∧
    (∀ x ∈ alW, 0 ≤ x) := by
  decide +kernel

/-- C117: the hypotheses of `C117_simulation` hold for observations whose `z` is balanced in every
interval. -/
example :
    let X : Mat ℚ := ⟨24, 2, fun i j => if j = 0 then ((i / 2 : Nat) : ℚ) else
      if i % 2 = 0 then 1 else 3⟩
    let w : List ℚ := List.replicate 24 1
    okAnd (weightedAle X 0 (fun row => 5 * row.getD 0 0 * row.getD 1 0) (some w) false 5)
      (fun r => decide (3 ≤ r.1.length) && (List.range (r.1.length - 1)).all fun k =>
        binSum X 0 r.1 k (fun i => w.getD i 0 * X.get i 1) ==
          2 * binSum X 0 r.1 k (fun i => w.getD i 0)) = true := by
  decide +kernel

end Geo
