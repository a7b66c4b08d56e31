import Verif.Props.Reach
import Verif.Props.Refit
import Verif.Props.StackingAttrs
import Verif.Props.StackingSpec
import Verif.Props.Importance
/-
C113: what `importance_score_global` compares with. The score decrease is taken from `llocv_score_`.
For a weight model this is the score of the local models that are permuted; after a stacking fit it is
the score of the base estimators, while the permuted predictions come from the stacked ones.
-/
set_option linter.unusedSectionVars false
namespace Geo
variable {K : Type} [Field K] [LinearOrder K] [IsStrictOrderedRing K] [FloorRing K]
variable {F G C S : Type}

theorem map_eq_ok {α β : Type} {f : α → β} {e : Except Err α} {b : β} (h : e.map f = .ok b) :
    ∃ a, e = .ok a ∧ b = f a := by
  cases e with
  | error e => cases h
  | ok a => cases h; exact ⟨a, rfl, rfl⟩

/-- Feature `k` does not matter to the stored estimators: at every location, replacing its value by
the value of another row leaves the prediction as it is. So it is if the estimators do not use the
feature, and if the feature is constant. -/
def NoEffect (L : Learner K F) (X : Mat K) (ests : List (Option F)) (k : Nat) : Prop :=
  ∀ i < X.r, ∀ f, ests[i]? = some (some f) → ∀ j < X.r,
    L.predict f ((X.row i).set k (X.get j k)) = L.predict f (X.row i)

theorem noEffect_constant (L : Learner K F) (X : Mat K) (ests : List (Option F)) {k : Nat}
    (h : ∀ i < X.r, ∀ j < X.r, X.get j k = X.get i k) : NoEffect L X ests k := by
  intro i hi f _ j hj
  congr 1
  apply List.ext_getElem (by simp)
  intro a h1 h2
  rw [List.getElem_set]
  split
  · rename_i hka
    subst hka
    rw [h i hi j hj]
    simp [Mat.row]
  · rfl

theorem noEffect_unused (L : Learner K F) (X : Mat K) (ests : List (Option F)) {k : Nat}
    (h : ∀ f, some f ∈ ests → ∀ x v, L.predict f (x.set k v) = L.predict f x) :
    NoEffect L X ests k :=
  fun _ _ f hf _ _ => h f (List.mem_of_getElem? hf) _ _

/-- The draws of a call for a feature that does not matter: the stored score minus the score of the
stored estimators themselves. -/
theorem draws_without_effect {L : Learner K F} {g : PRng S} (hg : g.Valid) {p : WMParams K C}
    {st : WMState K F C} {s : S} {R : Nat} {v : List K}
    (h : (importanceGlobal L g p st s R).result = .ok v) {X : Mat K} {y : List K} {score : K}
    {ests : List (Option F)} (hX : st.X = some X) (hy : st.y = some y) (hs : st.score = some score)
    (he : st.estimators = some ests) {k : Nat} (hk : k < X.c) (hno : NoEffect L X ests k)
    {ps : List K} (hps : ∀ i < X.r, ∃ f, ests[i]? = some (some f) ∧ ps.getD i 0 = L.predict f (X.row i)) :
    (drawnTable L g st s R)[k]? =
      some (List.replicate R (score - R2Of X.r (fun i => y.getD i 0) fun i => ps.getD i 0)) := by
  obtain ⟨X', y', score', ests', h1, h2, h3, h4, h5, perm, h6, -, h7⟩ := C47_one_feature_permuted hg h
  rw [hX] at h1; rw [hy] at h2; rw [hs] at h3; rw [he] at h4
  cases h1; cases h2; cases h3; cases h4
  rcases Nat.eq_zero_or_pos X.r with h0 | h0
  · obtain ⟨d, dec, all, -, -, hd, hR, hp, -⟩ := importance_ok h
    exfalso
    obtain ⟨a1, a2, -, -, a5, -⟩ := fittedParts_ok hd
    rw [hX] at a1
    cases a1
    rw [hy] at a2
    cases a2
    have ht : mapE (permPredict L d (drawPerms g d.X.r (d.X.c * R) s).1 R) (List.range d.X.r) =
        .ok [] := by rw [h0]; rfl
    unfold permDecreases at hp
    rw [ht] at hp
    have hy0 : d.y = [] := List.length_eq_zero_iff.1 (by omega)
    have h8 : mapE (fun f => mapE (permDecrease d R [] f) (List.range R)) (List.range d.X.c) =
      .ok dec := hp
    have h9 := mapE_get h8 (i := k) (by simpa using hk)
    simp only [List.getElem_range] at h9
    obtain ⟨w, h10⟩ : ∃ w, permDecrease d R [] k 0 = .ok w :=
      ⟨_, (congrArg (permDecrease d R [] k) (List.getElem_range (by simpa using hR))).symm.trans
        (mapE_get h9 (i := 0) (by simpa using hR))⟩
    unfold permDecrease at h10
    rw [hy0] at h10
    simp [skR2, Except.map] at h10
  have hex : Nonempty F := by
    obtain ⟨f, -⟩ := h5 0 h0
    exact ⟨f⟩
  have hch : ∀ i, ∃ f : F, i < X.r → ests[i]? = some (some f) := by
    intro i
    by_cases hi : i < X.r
    · obtain ⟨f, hf⟩ := h5 i hi
      exact ⟨f, fun _ => hf⟩
    · exact ⟨Classical.choice hex, fun h => absurd h hi⟩
  choose est hest using hch
  rw [h7 est hest, List.getElem?_map, List.getElem?_range hk]
  simp only [Option.map_some, Option.some.injEq]
  apply List.ext_getElem (by simp)
  intro r hr1 hr2
  simp only [List.length_map, List.length_range] at hr1
  simp only [List.getElem_map, List.getElem_range, List.getElem_replicate]
  congr 1
  refine R2Of_congr (fun _ _ => rfl) fun i hi => ?_
  obtain ⟨f, hf, hfp⟩ := hps i hi
  have hfe : f = est i := by
    have := hest i hi
    rw [hf] at this
    simpa using this
  have hj : perm k r i < X.r := by
    have := (h6 k hk r hr1).1.subset (List.mem_map.2 ⟨i, List.mem_range.2 hi, rfl⟩)
    simpa using this
  rw [hno i hi _ (hest i hi) _ hj, hfp, hfe]

theorem locTask_value {L : Learner K F} {X : Mat K} {y : Nat → K} {Xp : Mat K} {W : WMat K}
    {nEst i : Nat} {v : K × F} (h : locTask L X y Xp W nEst i = .ok v) :
    ∃ f, v = (L.predict f (Xp.row i), f) := by
  unfold locTask atIndex at h
  split at h
  · cases W with
    | dense D =>
      simp only [denseTask] at h
      split at h
      · cases h
      · obtain ⟨f, -, h2⟩ := map_eq_ok h
        exact ⟨f, h2⟩
    | sparse A =>
      simp only [sparseTask] at h
      split at h
      · cases h
      · obtain ⟨f, -, h2⟩ := map_eq_ok h
        exact ⟨f, h2⟩
  · cases h

/-- What a successful fit at all locations stores: the local predictions are those of the stored
estimators. -/
theorem fit_reproduces {L : Learner K F} {rng : Rng S} {p : WMParams K C} {st : WMState K F C} {s : S}
    {X : Mat K} {y : List K} {coords : Option C} {W : Option (WMat K)} (hce : p.cacheEstimator = true)
    (hrate : p.sampleRate = none) (hok : (wmFit L rng p st s X y coords W).result = .ok ()) :
    ∃ (es : List (Option F)) (ps : List K),
      (wmFit L rng p st s X y coords W).state.estimators = some es ∧
      (wmFit L rng p st s X y coords W).state.localPredict = some ps ∧ ps.length = X.r ∧
      ∀ i < X.r, ∃ f, es[i]? = some (some f) ∧ ps.getD i 0 = L.predict f (X.row i) := by
  obtain ⟨W0, idx, s', res, score, -, hW0, hsl, hf, hl, -, -, hout⟩ := wmFit_ok hok
  have hal := aligned_of hW0 hsl (.inr (.inl hrate))
  rw [hrate] at hsl
  have hidx := sampleLocations_all hsl
  subst hidx
  have hm := fitAll_ok hf hal hl
  refine ⟨_, _, by rw [hout], by rw [hout], by simpa using hl, fun i hi => ?_⟩
  have hg := mapE_get hm (i := i) (by simpa using hi)
  simp only [List.getElem_range] at hg
  have hlt : i < res.length := by simpa [hl] using hi
  obtain ⟨f, hf⟩ := locTask_value hg
  refine ⟨f, ?_, ?_⟩
  · rw [List.getElem?_map, List.getElem?_eq_getElem hlt, hf]
    simp [hce]
  · rw [List.getD_eq_getElem?_getD, List.getElem?_map, List.getElem?_eq_getElem hlt, hf]
    rfl

/-- C113: for a weight model the comparison is fair: a feature that does not matter to the local
models has a score decrease of exactly zero in every repetition, so its importance is exactly zero
unless earlier draws are kept (C46). -/
theorem C113_weight_model_zero (L : Learner K F) (rng : Rng S) (p : WMParams K C)
    (st : WMState K F C) (s : S) (X : Mat K) (y : List K) (coords : Option C) (W : Option (WMat K))
    (hd : p.cacheData = true) (hce : p.cacheEstimator = true) (hrate : p.sampleRate = none)
    (hok : (wmFit L rng p st s X y coords W).result = .ok ()) {S' : Type} (g : PRng S')
    (hg : g.Valid) (s' : S') (R : Nat) (v : List K)
    (h : (importanceGlobal L g p (wmFit L rng p st s X y coords W).state s' R).result = .ok v)
    (k : Nat) (hk : k < X.c)
    (hno : ∀ es, (wmFit L rng p st s X y coords W).state.estimators = some es →
      NoEffect L X es k) :
    (drawnTable L g (wmFit L rng p st s X y coords W).state s' R)[k]? =
        some (List.replicate R 0) ∧
    (st.permDecrease = none → v[k]? = some 0) := by
  obtain ⟨es, ps, h1, h2, h3, h4⟩ := fit_reproduces hce hrate hok
  obtain ⟨c1, c2, -⟩ := fit_cached hd hok
  obtain ⟨idx, ps', i1, i2, i3, -, i5⟩ := C76_score L rng p st s X y coords W hok
  obtain ⟨W0, idx', s1, res, score, -, -, hsl, -, -, -, -, hout⟩ := wmFit_ok hok
  have hperm : (wmFit L rng p st s X y coords W).state.permDecrease = st.permDecrease := by
    rw [hout]
    simp only [stateBegin]
    split <;> rfl
  have hidx : idx = List.range X.r := by
    rw [hout] at i1
    simp only [Option.some.injEq] at i1
    rw [hrate] at hsl
    rw [← i1]
    exact sampleLocations_all hsl
  generalize (wmFit L rng p st s X y coords W).state = o at *
  rw [h2] at i2
  cases i2
  subst hidx
  have hrow : (drawnTable L g o s' R)[k]? = some (List.replicate R 0) := by
    rw [draws_without_effect hg h c1 c2 i5 h1 hk (hno es h1) h4]
    congr 2
    rw [sub_eq_zero, List.length_range]
    refine R2Of_congr (fun i hi => ?_) fun _ _ => rfl
    have e : (List.range X.r).getD i 0 = i := by
      rw [List.getD_eq_getElem _ _ (by simpa using hi), List.getElem_range]
    simp only [e]
  refine ⟨hrow, fun h0 => ?_⟩
  obtain ⟨d, dec, all, -, -, -, hR, -, hdr, ha, hv, -⟩ := importance_ok h
  rw [hperm, h0] at ha
  cases ha
  rw [hdr] at hrow
  rw [hv, List.getElem?_map, hrow]
  simp [meanL]

/-- What a successful stacking fit caches and keeps. -/
theorem stack_cached {L : Learner K F} {M Mn : Learner K G} {rng : Rng S} {p : SParams K C}
    {st : SState K F G C} {s : S} {X : Mat K} {y : List K} {coords : Option C}
    {W : Option (WMat K)} (hd : p.cacheData = true)
    (hok : (stackFit L M Mn rng p st s X y coords W).result = .ok ()) :
    (stackFit L M Mn rng p st s X y coords W).state.wm.X = some X ∧
    (stackFit L M Mn rng p st s X y coords W).state.wm.y = some y ∧
    (stackFit L M Mn rng p st s X y coords W).state.wm.permDecrease = st.wm.permDecrease := by
  obtain ⟨W0, rate, hc, hW0, hlr, heq⟩ := stackFit_ok hok
  have hcn : ¬ (coords.isNone && W.isNone) = true := by
    intro h
    simp only [Bool.and_eq_true, Option.isNone_iff_eq_none] at h
    rw [h.1, h.2] at hW0
    simp [chosenWeights] at hW0
  have h0 : (stackWeights W.isSome (stackBegin p st X y coords W) W0).wm.X = some X ∧
      (stackWeights W.isSome (stackBegin p st X y coords W) W0).wm.y = some y ∧
      (stackWeights W.isSome (stackBegin p st X y coords W) W0).wm.permDecrease =
        st.wm.permDecrease := by
    unfold stackWeights stackBegin
    rw [if_neg hcn, hd]
    cases W.isSome <;> exact ⟨rfl, rfl, rfl⟩
  rw [heq] at hok ⊢
  generalize stackWeights W.isSome (stackBegin p st X y coords W) W0 = st0 at *
  unfold stackWith at hok ⊢
  rw [hlr] at hok ⊢
  cases W0 with
  | dense W0 =>
    simp only at hok ⊢
    obtain ⟨Sm, W', idx, res, out, score, score', s', hr, he, h1, h2⟩ := stackDense_ok hok
    rw [he]
    exact h0
  | sparse A =>
    simp only at hok ⊢
    obtain ⟨Sm, A', sec, idx, res, out, score, score', s', hr, he, h1, h2⟩ := stackSparse_ok hok
    rw [he]
    exact h0

/-- C113: after a stacking fit the comparison is not fair: the score decrease of a feature that does
not matter to the stacked estimators is, in every repetition, the score of the base estimators minus
the score of the stacked predictions. (For locations with a positive own weight, see C51.) -/
theorem C113_stacking_offset (L : Learner K F) (M Mn : Learner K G) (rng : Rng S) (hrng : rng.Valid)
    (p : SParams K C) (st : SState K F G C) (s : S) (X : Mat K) (y : List K)
    (coords : Option C) (W : Option (WMat K)) (hd : p.cacheData = true)
    (hrate : p.sampleRate = none)
    (hest : p.estimatorRate = none ∨ ∃ A, W = some (.sparse A)) (hW : SparseFine rng p W)
    (hok : (stackFit L M Mn rng p st s X y coords W).result = .ok ())
    (W0 : WMat K) (hW0 : chosenWeights p.toWMParams coords W = .ok W0) (W1 : Mat K)
    (hW1 : shrinkMetaDense p.metaShrink W0.toMat = .ok W1) (hown : ∀ i < X.r, 0 < W1.get i i)
    {S' : Type} (g : PRng S') (hg : g.Valid) (s' : S') (R : Nat) (q : WMParams K C) (v : List K)
    (h : (importanceGlobal (stackLearner L (if p.useNumba then Mn else M)) g q
      (stackFit L M Mn rng p st s X y coords W).state.wm s' R).result = .ok v)
    (k : Nat) (hk : k < X.c)
    (hno : ∀ es, (stackFit L M Mn rng p st s X y coords W).state.wm.estimators = some es →
      NoEffect (stackLearner L (if p.useNumba then Mn else M)) X es k) :
    ∃ base stacked, (stackFit L M Mn rng p st s X y coords W).state.wm.score = some base ∧
      (stackFit L M Mn rng p st s X y coords W).state.stackScore = some stacked ∧
      (drawnTable (stackLearner L (if p.useNumba then Mn else M)) g
        (stackFit L M Mn rng p st s X y coords W).state.wm s' R)[k]? =
          some (List.replicate R (base - stacked)) ∧
      (st.wm.permDecrease = none → v[k]? = some (base - stacked)) := by
  have hrec := C87_attributes L M Mn rng hrng p st s X y coords W (by simp [hrate]) hok
  obtain ⟨d, dec, all, -, -, hdp, hR, -, hdr, ha, hv, -⟩ := importance_ok h
  obtain ⟨a1, a2, a3, a4, a5, -⟩ := fittedParts_ok hdp
  obtain ⟨c1, c2, c3⟩ := stack_cached hd hok
  have hall : ∃ ps es, (stackFit L M Mn rng p st s X y coords W).state.stackPredictions = some ps ∧
      (stackFit L M Mn rng p st s X y coords W).state.wm.estimators = some es ∧
      ∀ i < X.r, ∃ e, es[i]? = some (some e) ∧
        ps.getD i 0 = (stackLearner L (if p.useNumba then Mn else M)).predict e (X.row i) := by
    obtain ⟨qs, hq1, -⟩ := hrec.stacked
    refine ⟨qs, d.ests, hq1, a4, fun i hi => ?_⟩
    obtain ⟨ps, es, e, h1, h2, h3, h4⟩ := C51_stored_estimators_reproduce L M Mn rng p st s X y
      coords W hest hW hok W0 hW0 W1 hW1 i hi (hown i hi)
    rw [hq1] at h1
    cases h1
    rw [a4] at h2
    cases h2
    exact ⟨e, h3, by rw [List.getD_eq_getElem?_getD, h4]; rfl⟩
  obtain ⟨ps, es, b1, b2, b3⟩ := hall
  have hN : X.r ≠ 1 := by
    intro h1
    obtain ⟨-, -, -, -, -, h2⟩ := hrec.predictions
    rw [h2 h1] at a3
    cases a3
  have hN0 : 0 < X.r := by
    obtain ⟨W0', rate, hc, -⟩ := stackFit_ok hok
    simp only [checkXy, decide_eq_true_eq] at hc
    exact hc.2.1
  obtain ⟨qs, hq1, hq2, hq3, -⟩ := hrec.stacked
  rw [b1] at hq1
  cases hq1
  have hq3 := hq3 (by omega)
  have hrow := draws_without_effect hg h c1 c2 a3 b2 hk (hno es b2) b3
  refine ⟨d.score, _, a3, hq3, hrow, fun h0 => ?_⟩
  rw [c3, h0] at ha
  cases ha
  rw [hdr] at hrow
  rw [hv, List.getElem?_map, hrow]
  have : (R : K) ≠ 0 := by exact_mod_cast hR.ne'
  simp [meanL, this]

/-- Four locations, a feature that varies and a constant one. -/
def blX : Mat ℚ := ⟨4, 2, fun i j => if j = 0 then (i : ℚ) else 1⟩

def blFit : SOut Unit ℚ ℚ ℚ Unit Nat :=
  stackFit meanLearner meanLearner meanLearner rotRng { seP with cacheData := true } {} 0 blX seY
    none (some (.dense seW))

/-- C113: the hypotheses are met, and the offset is not zero: the constant feature has the same
non-zero importance in every repetition after a stacking fit, zero after a fit of the weight model. -/
example :
    blFit.result = .ok () ∧
    okAnd (importanceGlobal (stackLearner meanLearner meanLearner) flipRng exP blFit.state.wm 0 2).result
      (fun v => v.length == 2 && decide (v.getD 1 0 ≠ 0) && decide (v.getD 0 0 ≠ v.getD 1 0)) = true ∧
    okAnd (importanceGlobal meanLearner flipRng exP
      (wmFit meanLearner countRng exP {} 0 blX seY none (some (.dense seW))).state 0 2).result
      (fun v => v.length == 2 && decide (v.getD 1 0 = 0) && decide (v.getD 0 0 ≠ 0)) = true := by
  refine ⟨?_, ?_, ?_⟩ <;> decide +kernel

example : NoEffect (stackLearner meanLearner meanLearner) blX
    ((blFit.state.wm.estimators).getD []) 1 :=
  noEffect_constant _ _ _ fun _ _ _ _ => rfl

example : ∀ i < blX.r, 0 < seW.get i i := by
  intro i _
  simp [seW]

end Geo
