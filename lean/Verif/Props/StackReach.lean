import Verif.Props.StackingExamples
/-
Property C114: how far an observation can reach in a stacking fit.
-/
set_option linter.unusedSectionVars false
namespace Geo
variable {K : Type} [Field K] [LinearOrder K] [IsStrictOrderedRing K] [FloorRing K]
variable {F G C S : Type}

/-- Location `k` is at most two steps from location `i`: it is `i`, a neighbour of `i`, or a
neighbour of a neighbour of `i`. -/
def TwoSteps (W : Mat K) (i k : Nat) : Prop :=
  k = i ∨ W.get i k ≠ 0 ∨ ∃ j, W.get i j ≠ 0 ∧ W.get j k ≠ 0

/-- Shrinking keeps an entry or makes it zero. -/
theorem shrinkDense_entry {W W' : Mat K} {q : K} (h : shrinkDense W q = .ok W') {i j : Nat}
    (hj : j < W.c) (hne : W'.get i j ≠ 0) : W.get i j ≠ 0 := by
  unfold shrinkDense at h
  split at h
  · cases h
  · cases h
    simp only [shrinkRow_get q W.c (W.get i) hj] at hne
    split at hne <;> simp_all

theorem shrinkMetaDense_entry {W W' : Mat K} {q : Option K} (h : shrinkMetaDense q W = .ok W')
    {i j : Nat} (hj : j < W.c) (hne : W'.get i j ≠ 0) : W.get i j ≠ 0 := by
  cases q with
  | none => cases h; exact hne
  | some q => exact shrinkDense_entry h hj hne

/-- A selected base estimator belongs to the location itself or to one of its neighbours. -/
theorem selected_neighbour {rng : Rng S} (hv : rng.Valid) {s : S} {W : Mat K} {rate : K}
    (hrate : 0 ≤ rate) {shrink : Option K} {Sm : Mat Bool}
    (h : (sampleNeighbourDense rng s W rate shrink).result = .ok Sm) {i j : Nat} (hi : i < W.r)
    (hj : Sm.get i j = true) : j = i ∨ W.get i j ≠ 0 := by
  have hu : ∃ W', IsUsed W shrink W' := by
    cases shrink with
    | none => exact ⟨W, rfl⟩
    | some q =>
      cases hs : shrinkDense W q with
      | ok W' => exact ⟨W', hs⟩
      | error e =>
        simp [sampleNeighbourDense, sampleMaskDense, neighbourShrinkDense, hs, maskOfDense] at h
  obtain ⟨W', hu⟩ := hu
  obtain ⟨M, hM, -, -, -, hall⟩ := C30_sample_dense rng hv s W W' rate hrate shrink hu
  rw [h] at hM
  injection hM with hM
  subst hM
  by_cases hji : j = i
  · exact .inl hji
  right
  cases shrink with
  | none =>
    cases hu
    exact ((hall i hi).2.1 j hj hji).2.ne'
  | some q =>
    have hr : W'.r = W.r ∧ W'.c = W.c := shrinkMetaDense_shape (q := some q) hu
    have := (hall i (by rw [hr.1]; exact hi)).2.1 j hj hji
    exact shrinkDense_entry hu (by rw [← hr.2]; exact this.1) this.2.ne'

/-- Two data sets that agree within two steps of a location have the same stacked model there. The
target of the location itself need not agree. -/
theorem StackSpec.near {L : Learner K F} {M : Learner K G} {lo : Bool} {X X' : Mat K}
    {y y' : Nat → K} {W W1 : Mat K} {sel : Nat → List Nat} {bases bases' : List F} {ps ps' : List K}
    {es es' : List (StackedEst F G)} (h : StackSpec L M lo X y W W1 sel bases ps es)
    (h' : StackSpec L M lo X' y' W W1 sel bases' ps' es') (hr : X'.r = X.r) {i : Nat}
    (hi : i < X.r) (hsel : ∀ j ∈ sel i, j = i ∨ W.get i j ≠ 0)
    (hW1 : ∀ k < X.r, W1.get i k ≠ 0 → W.get i k ≠ 0)
    (hx : ∀ k < X.r, TwoSteps W i k → X.row k = X'.row k)
    (hy : ∀ k < X.r, k ≠ i → TwoSteps W i k → y k = y' k) :
    (∀ j ∈ sel i, bases[j]? = bases'[j]?) ∧ es[i]? = es'[i]? ∧
      (0 < W1.get i i → ps[i]? = ps'[i]?) := by
  have hb : ∀ j ∈ sel i, bases[j]? = bases'[j]? := by
    intro j hj
    have hjr := h.lt i hi j hj
    obtain ⟨b, hb1, hb2⟩ := h.base j hjr
    obtain ⟨b', hb1', hb2'⟩ := h'.base j (by rw [hr]; exact hjr)
    simp only [hr] at hb2 hb2'
    have hmem : ∀ k ∈ (List.range X.r).filter (fun k =>
        decide (W.get j k ≠ 0 ∧ j ∉ sel k ∧ ¬ (lo = true ∧ k = j))),
        k < X.r ∧ k ≠ i ∧ TwoSteps W i k := by
      intro k hk
      simp only [List.mem_filter, List.mem_range, decide_eq_true_eq] at hk
      refine ⟨hk.1, fun e => hk.2.2.1 (e ▸ hj), ?_⟩
      rcases hsel j hj with rfl | hn
      · exact .inr (.inl hk.2.1)
      · exact .inr (.inr ⟨j, hn, hk.2.1⟩)
    rw [List.map_congr_left fun k hk => hx k (hmem k hk).1 (hmem k hk).2.2,
      List.map_congr_left fun k hk => hy k (hmem k hk).1 (hmem k hk).2.1 (hmem k hk).2.2] at hb2
    rw [hb2] at hb2'
    injection hb2' with e
    rw [hb1, hb1', e]
  refine ⟨hb, ?_⟩
  have hpred : ∀ k < X.r, TwoSteps W i k →
      (sel i).map (fun j => basePred L X bases j k) =
        (sel i).map fun j => basePred L X' bases' j k := by
    intro k hk ht
    apply List.map_congr_left
    intro j hj
    simp only [basePred, hb j hj, hx k hk ht]
  obtain ⟨g, ⟨_, hg⟩, ⟨fs, hf1, hf2⟩, hp⟩ := h.fitted i hi
  obtain ⟨g', ⟨_, hg'⟩, ⟨fs', hf1', hf2'⟩, hp'⟩ := h'.fitted i (by rw [hr]; exact hi)
  have hnb : ∀ k ∈ (List.range X.r).filter (fun k => decide (0 < W1.get i k ∧ k ≠ i)),
      k < X.r ∧ k ≠ i ∧ TwoSteps W i k := by
    intro k hk
    simp only [List.mem_filter, List.mem_range, decide_eq_true_eq] at hk
    exact ⟨hk.1, hk.2.2, .inr (.inl (hW1 k hk.1 hk.2.1.ne'))⟩
  simp only [hr] at hg hg'
  rw [List.map_congr_left fun k hk => hpred k (hnb k hk).1 (hnb k hk).2.2,
    List.map_congr_left fun k hk => hy k (hnb k hk).1 (hnb k hk).2.1 (hnb k hk).2.2] at hg
  rw [hg] at hg'
  injection hg' with e
  subst e
  have hfs : fs = fs' := by
    have h1 : (sel i).map (fun j => bases[j]?) = (sel i).map fun j => bases'[j]? :=
      List.map_congr_left hb
    exact List.map_injective_iff.2 (Option.some_injective _) (hf2.trans (h1.trans hf2'.symm))
  refine ⟨by rw [hf1, hf1', hfs], fun hii => ?_⟩
  rw [hp hii, hp' hii, hpred i hi (.inl rfl)]

/-- C114: the stacked model of a location is determined by the observations at most two steps away,
without its own target: changing features or targets elsewhere changes neither the stored estimator
nor (with a positive own weight) the stacked prediction. A weight model reaches one step. -/
theorem C114_two_steps (L : Learner K F) (M Mn : Learner K G) (rng : Rng S) (hv : rng.Valid)
    (p : SParams K C) (st st' : SState K F G C) (s s' : S) (X X' : Mat K) (y y' : List K)
    (coords : Option C) (W : Option (WMat K)) (W0 : WMat K)
    (hW0 : chosenWeights p.toWMParams coords W = .ok W0)
    (hest : p.estimatorRate = none ∨ ∃ A, W = some (.sparse A)) (hW : SparseFine rng p W)
    (hrate : ∀ r ∈ p.leaveOutRate, 0 ≤ r)
    (h : (stackFit L M Mn rng p st s X y coords W).result = .ok ())
    (h' : (stackFit L M Mn rng p st' s' X' y' coords W).result = .ok ())
    (hr : X'.r = X.r) (hWr : W0.toMat.r = X.r) (hWc : W0.toMat.c = X.r)
    (i : Nat) (hi : i < X.r)
    (hx : ∀ k < X.r, TwoSteps W0.toMat i k → X.row k = X'.row k)
    (hy : ∀ k < X.r, k ≠ i → TwoSteps W0.toMat i k → yfun y k = yfun y' k) :
    ∃ (es es' : List (StackedEst F G)) (ps ps' : List K) (W1 : Mat K),
      (stackFit L M Mn rng p st s X y coords W).state.wm.estimators = some (es.map some) ∧
      (stackFit L M Mn rng p st' s' X' y' coords W).state.wm.estimators = some (es'.map some) ∧
      (stackFit L M Mn rng p st s X y coords W).state.stackPredictions = some ps ∧
      (stackFit L M Mn rng p st' s' X' y' coords W).state.stackPredictions = some ps' ∧
      shrinkMetaDense p.metaShrink W0.toMat = .ok W1 ∧
      i < es.length ∧ es[i]? = es'[i]? ∧ (0 < W1.get i i → ps[i]? = ps'[i]?) := by
  obtain ⟨V, rate, Sm, W1, bases, ps, es, e1, e2, e3, e4, -, e6, e7, e8⟩ :=
    C50_genuine_predictions L M Mn rng p st s X y coords W hest hW h
  obtain ⟨V', rate', Sm', W1', bases', ps', es', f1, f2, f3, f4, -, f6, f7, f8⟩ :=
    C50_genuine_predictions L M Mn rng p st' s' X' y' coords W hest hW h'
  rw [hW0] at e1 f1
  injection e1 with e1
  injection f1 with f1
  subst e1 f1
  rw [e2] at f2
  injection f2 with f2
  subst f2
  rw [C31_history_independent rng s s', f3] at e3
  injection e3 with e3
  subst e3
  rw [f4] at e4
  injection e4 with e4
  subst e4
  rw [hr] at f8
  have hn := e8.near f8 hr hi (fun j hj => selected_neighbour hv (hrate rate (by rw [e2]; rfl)) f3
      (by rw [hWr]; exact hi) (by simpa using (List.mem_filter.1 hj).2))
    (fun k hk hne => shrinkMetaDense_entry f4 (by rw [hWc]; exact hk) hne) hx hy
  exact ⟨es, es', ps, ps', W1', e7, f7, e6, f6, f4, by rw [e8.lenEs]; exact hi, hn.2⟩

/-- Nine locations in a row; the neighbours are those at distance at most two. -/
def chW : Mat ℚ := ⟨9, 9, fun i j => if i ≤ j + 2 ∧ j ≤ i + 2 then 1 else 0⟩
def chX : Mat ℚ := ⟨9, 1, fun i _ => i⟩
def chY : List ℚ := [1, 5, 2, 7, 3, 8, 4, 6, 9]
def chFit (y : List ℚ) : SOut Unit ℚ ℚ ℚ Unit Nat :=
  stackFit meanLearner meanLearner meanLearner rotRng { seP with leaveOutRate := some (1 / 4) } {} 0
    chX y none (some (.dense chW))

/-- C114: the hypotheses are met at location 5 for a change of observation 0, and the bound is
sharp: location 4 is two steps away and its stacked prediction changes. -/
example :
    (chFit chY).result = .ok () ∧ (chFit (chY.set 0 100)).result = .ok () ∧
    (chFit chY).state.stackPredictions =
      some [23 / 2, 83 / 6, 52 / 3, 121 / 6, 259 / 12, 71 / 3, 65 / 2, 35, 63 / 2] ∧
    (chFit (chY.set 0 100)).state.stackPredictions =
      some [23 / 2, 289 / 3, 1099 / 12, 121 / 6, 853 / 12, 71 / 3, 65 / 2, 35, 63 / 2] := by
  decide +kernel

example : TwoSteps chW 4 0 ∧ ¬ TwoSteps chW 5 0 := by
  refine ⟨.inr (.inr ⟨2, by decide +kernel, by decide +kernel⟩), ?_⟩
  rintro (h | h | ⟨j, h1, h2⟩)
  · cases h
  · exact h (by decide +kernel)
  · have a : j ≤ 2 := by
      by_contra hc
      exact h2 (if_neg (by omega))
    exact h1 (if_neg (by omega))

end Geo
