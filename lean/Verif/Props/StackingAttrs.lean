import Verif.Props.StackingMore
import Verif.Props.WeightModelAttrs
/-
Properties C87 and C88: what a fitted stacking model records, and `sample_local_rate`.
-/
set_option linter.unusedSectionVars false
namespace Geo
variable {K : Type} [Field K] [LinearOrder K] [IsStrictOrderedRing K] [FloorRing K]
variable {F G C S : Type}

/-- The locations drawn: increasing row numbers, all of them without a rate and `⌊rate * N⌋` of them
for a rate in `[0,1]`. -/
theorem sampleLocations_spec {rng : Rng S} (hrng : rng.Valid) {s s' : S} {rate : Option K} {N : Nat}
    {idx : List Nat} (hrate : ∀ r, rate = some r → 0 ≤ r ∧ r ≤ 1)
    (h : sampleLocations rng s rate N = (.ok idx, s')) :
    idx.Pairwise (· < ·) ∧ (∀ i ∈ idx, i < N) ∧ (rate = none → idx = List.range N) ∧
      ∀ r, rate = some r → (idx.length : ℤ) = ⌊r * (N : K)⌋ := by
  unfold sampleLocations at h
  cases rate with
  | none =>
    cases h
    exact ⟨List.pairwise_lt_range, fun i hi => by simpa using hi, fun _ => rfl,
      fun r h => by cases h⟩
  | some r =>
    simp only at h
    obtain ⟨h0, h1⟩ := hrate r rfl
    have hnn : (0 : K) ≤ r * (N : K) := mul_nonneg h0 (Nat.cast_nonneg _)
    have ht : truncInt (r * (N : K)) = ⌊r * (N : K)⌋ := if_pos hnn
    have hfl : 0 ≤ ⌊r * (N : K)⌋ := Int.floor_nonneg.2 hnn
    have hle : ⌊r * (N : K)⌋ ≤ (N : ℤ) := by
      rw [← Int.cast_le (R := K)]
      refine (Int.floor_le _).trans ?_
      rw [Int.cast_natCast]
      exact mul_le_of_le_one_left (Nat.cast_nonneg _) h1
    obtain ⟨m, hm⟩ := Int.eq_ofNat_of_zero_le hfl
    rw [ht, hm] at h
    obtain ⟨c, hc1, hc2, hc3⟩ := hrng s (List.range N) m (by simp; omega)
    cases hch : rng.choice s (List.range N) (m : ℤ) with
    | mk a b =>
      rw [hch] at h hc1
      simp only at hc1
      subst hc1
      simp only [Prod.mk.injEq, Except.ok.injEq] at h
      obtain ⟨rfl, -⟩ := h
      have hperm : (sortNat c).Perm c := List.perm_insertionSort _ _
      have hnd : (sortNat c).Nodup := hperm.nodup_iff.2 (by
        obtain ⟨l, h1, h2⟩ := hc3
        exact h1.nodup_iff.1 (h2.nodup List.nodup_range))
      have hle : (sortNat c).Pairwise (· ≤ ·) := List.pairwise_insertionSort _ _
      refine ⟨?_, ?_, (fun h => nomatch h), ?_⟩
      · exact (hle.and hnd).imp fun h => lt_of_le_of_ne h.1 h.2
      · intro i hi
        have := hc3.subset (mem_sortNat.1 hi)
        simpa using this
      · intro r' hr'
        cases hr'
        rw [hm, hperm.length_eq, hc2]

/-- A draw of a rate in `[0,1]` succeeds. -/
theorem sampleLocations_total {rng : Rng S} (hrng : rng.Valid) (s : S) {r : K} (N : Nat)
    (h0 : 0 ≤ r) (h1 : r ≤ 1) :
    ∃ idx s', sampleLocations rng s (some r) N = (.ok idx, s') := by
  have hnn : (0 : K) ≤ r * (N : K) := mul_nonneg h0 (Nat.cast_nonneg _)
  have ht : truncInt (r * (N : K)) = ⌊r * (N : K)⌋ := if_pos hnn
  have hfl : 0 ≤ ⌊r * (N : K)⌋ := Int.floor_nonneg.2 hnn
  have hle : ⌊r * (N : K)⌋ ≤ (N : ℤ) := by
    rw [← Int.cast_le (R := K)]
    refine (Int.floor_le _).trans ?_
    rw [Int.cast_natCast]
    exact mul_le_of_le_one_left (Nat.cast_nonneg _) h1
  obtain ⟨m, hm⟩ := Int.eq_ofNat_of_zero_le hfl
  obtain ⟨c, hc1, -, -⟩ := hrng s (List.range N) m (by simp; omega)
  refine ⟨sortNat c, (rng.choice s (List.range N) m).2, ?_⟩
  unfold sampleLocations
  simp only [ht, hm]
  rcases hch : rng.choice s (List.range N) (m : ℤ) with ⟨a, b⟩
  rw [hch] at hc1
  simp only at hc1
  subst hc1
  rfl

/-- An increasing list of `N` numbers below `N` is the whole range. -/
theorem increasing_full {idx : List Nat} {N : Nat} (h1 : idx.Pairwise (· < ·))
    (h2 : ∀ i ∈ idx, i < N) (h3 : idx.length = N) : idx = List.range N := by
  have hsub : idx.Subperm (List.range N) :=
    List.subperm_of_subset (h1.imp fun h => Nat.ne_of_lt h) fun i hi => by simpa using h2 i hi
  have hp : idx.Perm (List.range N) := hsub.perm_of_length_le (by simp [h3])
  exact hp.eq_of_pairwise (fun a b _ _ h h' => absurd h (by omega)) h1 List.pairwise_lt_range

/-- The value of `r2_score` for a column of predictions. -/
theorem r2Column_value {ys ps : List K} {v : Option K} (h : r2Column ys ps = .ok v) :
    (ps.length = 1 → v = none) ∧ (ps.length ≠ 1 →
      v = some (R2Of ys.length (fun k => ys.getD k 0) fun k => ps.getD k 0)) := by
  unfold r2Column at h
  split at h
  · cases h
  split at h
  · rename_i h1; cases h; exact ⟨fun _ => rfl, fun h => absurd h1 h⟩
  · rename_i h1
    refine ⟨fun h => absurd h h1, fun _ => ?_⟩
    cases hs : skR2 ys ps with
    | error e => rw [hs] at h; cases h
    | ok a => rw [hs] at h; cases h; rw [skR2_lists hs]

theorem targets_range {y : List K} {N : Nat} (h : y.length = N) :
    (List.range N).map (yfun y) = y := by
  subst h
  apply List.ext_getElem (by simp)
  intro i h1 h2
  simp [yfun, h2]

/-- What C87 says about the attributes after a successful fit. -/
structure StackRecord (o st : SState K F G C) (N : Nat) (y : List K) : Prop where
  fitted : o.wm.isFitted = true
  count : o.wm.N = some N
  indices : o.wm.localIndices = some (List.range N)
  targets : o.wm.ySample = some y
  predictions : ∃ ps, o.wm.localPredict = some ps ∧ ps.length = N ∧
    (∃ R, o.residuals = some R ∧ R.r = N ∧ R.c = N ∧
      ∀ a < N, ∀ b < N, R.get a b = y.getD b 0 - ps.getD a 0) ∧
    (2 ≤ N → o.wm.score = some (R2Of N (fun k => y.getD k 0) fun k => ps.getD k 0)) ∧
    (N = 1 → o.wm.score = none)
  stacked : ∃ qs, o.stackPredictions = some qs ∧ qs.length = N ∧
    (2 ≤ N → o.stackScore = some (R2Of N (fun k => y.getD k 0) fun k => qs.getD k 0)) ∧
    (N = 1 → o.stackScore = none)
  bases : ∃ fs, o.base = some fs ∧ fs.length = N
  estimators : ∃ es, o.wm.estimators = some es ∧ es.length = N ∧ ∀ e ∈ es, e.isSome
  cache : o.cacheEstimator = st.cacheEstimator
  coords : o.wm.coords = st.wm.coords

theorem stackRecord_of {o st : SState K F G C} {N : Nat} {y : List K} {idx : List Nat}
    {res : List (BaseOut K F)} {out : List (MetaOut K F G)} {score score' : Option K}
    (hy : y.length = N) (hidx : idx = List.range N) (hres : res.length = N)
    (h1 : o.wm.isFitted = true) (h2 : o.wm.N = some N) (h3 : o.wm.localIndices = some idx)
    (h4 : o.wm.ySample = some (idx.map (yfun y)))
    (h5 : o.wm.localPredict = some (res.map BaseOut.pred))
    (h6 : o.residuals = some (residualMatrix (idx.map (yfun y)) (res.map BaseOut.pred)))
    (h7 : o.wm.score = score)
    (h7' : r2Column (idx.map (yfun y)) (res.map BaseOut.pred) = .ok score)
    (h8 : o.stackPredictions = some (out.map MetaOut.pred)) (h9 : o.stackScore = score')
    (h9' : r2Column (idx.map (yfun y)) (out.map MetaOut.pred) = .ok score')
    (h10 : o.base = some (res.map BaseOut.est))
    (h11 : o.wm.estimators = some (out.map fun r => some r.est))
    (h12 : o.cacheEstimator = st.cacheEstimator) (h13 : o.wm.coords = st.wm.coords) :
    StackRecord o st N y := by
  subst hidx
  rw [targets_range hy] at *
  have hout : out.length = N := by
    have := (r2Column_ok h9').1
    simp only [List.length_map] at this
    omega
  refine ⟨h1, h2, h3, h4, ⟨_, h5, by simpa using hres, ⟨_, h6, by simpa [residualMatrix] using hres,
    by simpa [residualMatrix] using hy, fun a _ b _ => rfl⟩, ?_, ?_⟩,
    ⟨_, h8, by simpa using hout, ?_, ?_⟩, ⟨_, h10, by simpa using hres⟩,
    ⟨_, h11, by simpa using hout, by simp⟩, h12, h13⟩
  · intro hN2
    rw [h7, (r2Column_value h7').2 (by simp; omega), hy]
  · intro hN1
    rw [h7, (r2Column_value h7').1 (by simp; omega)]
  · intro hN2
    rw [h9, (r2Column_value h9').2 (by simp; omega), hy]
  · intro hN1
    rw [h9, (r2Column_value h9').1 (by simp; omega)]

theorem stackStart_spec (p : SParams K C) (st : SState K F G C) (X : Mat K) (y : List K)
    (coords : Option C) (W : Option (WMat K)) (given : Bool) (W0 : WMat K) :
    let o := stackWeights given (stackBegin p st X y coords W) W0
    o.wm.isFitted = true ∧ o.wm.N = some X.r ∧ o.wm.coords = st.wm.coords := by
  unfold stackWeights stackBegin
  cases given <;> cases p.cacheData <;> cases (coords.isNone && W.isNone) <;>
    exact ⟨rfl, rfl, rfl⟩

/-- C87: what a successful fit records, for weights of any kind. -/
theorem C87_attributes (L : Learner K F) (M Mn : Learner K G) (rng : Rng S) (hrng : rng.Valid)
    (p : SParams K C) (st : SState K F G C) (s : S) (X : Mat K) (y : List K)
    (coords : Option C) (W : Option (WMat K))
    (hrate : ∀ r, p.sampleRate = some r → 0 ≤ r ∧ r ≤ 1)
    (hok : (stackFit L M Mn rng p st s X y coords W).result = .ok ()) :
    StackRecord (stackFit L M Mn rng p st s X y coords W).state st X.r y := by
  obtain ⟨W0, rate, hc, hW0, hlr, heq⟩ := stackFit_ok hok
  simp only [checkXy, decide_eq_true_eq] at hc
  obtain ⟨q1, q2, q3⟩ := stackStart_spec p st X y coords W W.isSome W0
  rw [heq] at hok ⊢
  generalize stackWeights W.isSome (stackBegin p st X y coords W) W0 = st0 at *
  unfold stackWith at hok ⊢
  rw [hlr] at hok ⊢
  cases W0 with
  | dense W0 =>
    simp only at hok ⊢
    obtain ⟨Sm, W', idx, res, out, score, score', s', hr, he, h1, h2⟩ := stackDense_ok hok
    obtain ⟨_, _, hl⟩ := hr.locs
    obtain ⟨a1, a2, -, -⟩ := sampleLocations_spec hrng hrate hl
    rw [he]
    exact stackRecord_of hc.1.symm (increasing_full a1 a2 hr.len) (mapE_range hr.base).1
      q1 q2 rfl rfl rfl rfl rfl h1 rfl rfl h2 rfl rfl rfl q3
  | sparse A =>
    simp only at hok ⊢
    obtain ⟨Sm, A', sec, idx, res, out, score, score', s', hr, he, h1, h2⟩ := stackSparse_ok hok
    obtain ⟨_, _, hl⟩ := hr.locs
    obtain ⟨a1, a2, -, -⟩ := sampleLocations_spec hrng hrate hl
    rw [he]
    exact stackRecord_of hc.1.symm (increasing_full a1 a2 hr.len) (mapE_range hr.base).1
      q1 q2 rfl rfl rfl rfl rfl h1 rfl rfl h2 rfl rfl rfl q3

/-- C87: the recorded matrix of residuals is not the vector of residuals: its off-diagonal entries
combine the target of one location with the prediction of another. Also, the hypotheses of
`C87_attributes` are met. -/
example :
    (seFit seP seY (.dense seW)).result = .ok () ∧
    (seFit { seP with useNumba := true } seY (.sparse seA)).result = .ok () ∧
    ((seFit seP seY (.dense seW)).state.residuals.map fun R => (R.get 0 0, R.get 0 1, R.get 1 0)) =
      some (-14 / 5, 6 / 5, -38 / 9) := by
  decide +kernel

/-- C87: prediction by weight needs a weight matrix, because `fit` keeps no coordinates: a model
that never had any cannot predict from them. -/
theorem C87_no_coordinates (L : Learner K F) (M Mn : Learner K G) (rng : Rng S) (hrng : rng.Valid)
    (p : SParams K C) (st : SState K F G C) (s : S) (X : Mat K) (y : List K)
    (coords : Option C) (W : Option (WMat K))
    (hrate : ∀ r, p.sampleRate = some r → 0 ≤ r ∧ r ≤ 1) (hst : st.wm.coords = none)
    (hok : (stackFit L M Mn rng p st s X y coords W).result = .ok ())
    (P : Mat K) (c : Option C) (cacheEst : Bool) :
    ∃ e, predictByWeight (stackLearner L M) { p.toWMParams with cacheEstimator := cacheEst }
      (stackFit L M Mn rng p st s X y coords W).state.wm P c none = .error e := by
  have h := (C87_attributes L M Mn rng hrng p st s X y coords W hrate hok).coords
  exact (C45_nothing_given _ _ _ _ _ (.inr (h.trans hst))).1

/-! ### C88 -/

/-- C88: with `sample_local_rate` below one no fit succeeds. -/
theorem C88_sampling_never_fits (L : Learner K F) (M Mn : Learner K G) (rng : Rng S)
    (hrng : rng.Valid) (p : SParams K C) (st : SState K F G C) (s : S) (X : Mat K) (y : List K)
    (coords : Option C) (W : Option (WMat K)) {r : K} (hr : p.sampleRate = some r) (h0 : 0 ≤ r)
    (h1 : r < 1) : ∃ e, (stackFit L M Mn rng p st s X y coords W).result = .error e := by
  cases hres : (stackFit L M Mn rng p st s X y coords W).result with
  | error e => exact ⟨e, rfl⟩
  | ok u =>
    exfalso
    obtain ⟨W0, rate, hc, hW0, hlr, heq⟩ := stackFit_ok hres
    simp only [checkXy, decide_eq_true_eq] at hc
    have key : ∀ (idx : List Nat) s₁ s₂, sampleLocations rng s₁ p.sampleRate X.r = (.ok idx, s₂) →
        idx.length ≠ X.r := by
      intro idx s₁ s₂ hl he
      have := (sampleLocations_spec hrng (fun r' h => by
        rw [hr] at h; cases h; exact ⟨h0, h1.le⟩) hl).2.2.2 r hr
      rw [he] at this
      have hN : (0 : K) < X.r := by exact_mod_cast hc.2.1
      have h2 : ((X.r : ℤ) : K) ≤ r * X.r := by rw [this]; exact Int.floor_le _
      rw [Int.cast_natCast] at h2
      nlinarith
    rw [heq] at hres
    unfold stackWith at hres
    rw [hlr] at hres
    cases W0 with
    | dense W0 =>
      obtain ⟨Sm, W', idx, res, out, score, score', s', hr, -⟩ := stackDense_ok hres
      obtain ⟨_, _, hl⟩ := hr.locs
      exact key _ _ _ hl hr.len
    | sparse A =>
      obtain ⟨Sm, A', sec, idx, res, out, score, score', s', hr, -⟩ := stackSparse_ok hres
      obtain ⟨_, _, hl⟩ := hr.locs
      exact key _ _ _ hl hr.len

/-- Targets and predictions of different numbers: the run stops at the score of the base
estimators. -/
theorem stackFinish_short {cache : Bool} {st : SState K F G C} {caller : Option (WMat K)} {s : S}
    {ys : List K} {res : List (BaseOut K F)}
    {metaRun : List (BaseOut K F) → Except Err (List (MetaOut K F G)) × S}
    (h : ys.length ≠ res.length) :
    stackFinish cache st caller s ys (.ok res) metaRun = ⟨.error .valueError,
      { st with wm := { st.wm with
          localPredict := some (res.map BaseOut.pred)
          estimators := some (res.map fun b => some (.base b.est)) } }, caller, s⟩ := by
  have : r2Column ys (res.map BaseOut.pred) = .error .valueError := by
    unfold r2Column
    rw [if_pos (.inl (by simpa using h))]
  simp [stackFinish, stackBase, this]

/-- What C88 says about a fit `o` with sampled locations, `o'` being the same fit without
sampling. -/
structure SampledFailure (o o' : SOut Unit K F G C S) (st : SState K F G C) (r : K) (N : Nat) :
    Prop where
  result : o.result = .error .valueError
  cache : o.state.cacheEstimator = true
  fitted : o.state.wm.isFitted = true
  predictions : o.state.wm.localPredict = o'.state.wm.localPredict
  bases : o.state.wm.estimators =
    o'.state.base.map fun fs => fs.map fun f => some (StackedEst.base f)
  indices : ∃ idx, o.state.wm.localIndices = some idx ∧ idx.Pairwise (· < ·) ∧ (∀ i ∈ idx, i < N) ∧
    (idx.length : ℤ) = ⌊r * (N : K)⌋
  base : o.state.base = st.base
  residuals : o.state.residuals = st.residuals
  stacked : o.state.stackPredictions = st.stackPredictions
  score : o.state.wm.score = st.wm.score
  caller : o.caller = o'.caller

/-- The number of sampled locations is smaller than the number of locations. -/
theorem sampled_fewer {rng : Rng S} (hrng : rng.Valid) {s s' : S} {r : K} {N : Nat}
    {idx : List Nat} (h0 : 0 ≤ r) (h1 : r < 1) (hN : 0 < N)
    (h : sampleLocations rng s (some r) N = (.ok idx, s')) :
    (idx.length : ℤ) = ⌊r * (N : K)⌋ ∧ idx.length ≠ N := by
  have h2 := (sampleLocations_spec hrng (fun r' h => by cases h; exact ⟨h0, h1.le⟩) h).2.2.2 r rfl
  refine ⟨h2, fun he => ?_⟩
  rw [he] at h2
  have hN' : (0 : K) < N := by exact_mod_cast hN
  have h3 : ((N : ℤ) : K) ≤ r * N := by rw [h2]; exact Int.floor_le _
  rw [Int.cast_natCast] at h3
  nlinarith

theorem stackDense_short {L : Learner K F} {M : Learner K G} {rng : Rng S} (hrng : rng.Valid)
    {p : SParams K C} {cache : Bool} {st : SState K F G C} {s : S} {X : Mat K} {y : List K}
    {given : Bool} {rate : K} {W : Mat K} {r : K} (hr : p.sampleRate = some r) (h0 : 0 ≤ r)
    (h1 : r < 1) (hN : 0 < X.r) (hc : st.cacheEstimator = true) (hf : st.wm.isFitted = true)
    (h : (stackDense L M rng { p with sampleRate := none } cache st s X y given rate W).result
      = .ok ()) :
    SampledFailure (stackDense L M rng p cache st s X y given rate W)
      (stackDense L M rng { p with sampleRate := none } cache st s X y given rate W) st r X.r := by
  unfold stackDense at h ⊢
  simp only at h ⊢
  by_cases hd : W.r ≠ X.r ∨ W.c ≠ X.r
  · rw [if_pos hd] at h; cases h
  rw [if_neg hd] at h
  rw [if_neg hd, if_neg hd]
  rcases hsm : sampleNeighbourDense rng s W rate p.leaveOutShrink with ⟨_ | Sm, s₁, W₁⟩
  · rw [hsm] at h; cases h
  rw [hsm] at h
  simp only at h ⊢
  have hl0 : sampleLocations rng s₁ (none : Option K) X.r = (.ok (List.range X.r), s₁) := rfl
  rw [hl0] at h
  rw [hl0]
  obtain ⟨idx, s₂, hl⟩ := sampleLocations_total hrng s₁ X.r h0 h1.le
  rw [hr, hl]
  obtain ⟨hlen, hne⟩ := sampled_fewer hrng h0 h1 hN hl
  obtain ⟨a1, a2, -, -⟩ :=
    sampleLocations_spec hrng (fun r' h => by cases h; exact ⟨h0, h1.le⟩) hl
  simp only at h ⊢
  cases hw : shrinkMetaDense p.metaShrink W₁ with
  | error e => rw [hw] at h; cases h
  | ok W' =>
  rw [hw] at h
  simp only at h ⊢
  obtain ⟨res, out, s', score, score', hb, hm, hr, hr', he⟩ := stackFinish_ok h
  rw [he]
  have hb' : runBase (baseDense L X (fun i => y.getD i 0)
      (localDense p.leaveLocalOut W₁ Sm.transpose) (secondOrderDense (gt0 W') Sm.transpose)) X.r
      p.storedPatches = .ok res := hb
  rw [hb', stackFinish_short (by
    have := (mapE_range (runBase_ok hb')).1
    simp only [List.length_map]; omega)]
  cases given <;> exact ⟨rfl, hc, hf, rfl, by simp, ⟨idx, rfl, a1, a2, hlen⟩, rfl, rfl, rfl, rfl, rfl⟩

theorem stackSparse_short {L : Learner K F} {M Mn : Learner K G} {rng : Rng S} (hrng : rng.Valid)
    {p : SParams K C} {cache : Bool} {st : SState K F G C} {s : S} {X : Mat K} {y : List K}
    {rate : K} {A : Csr K} {r : K} (hr : p.sampleRate = some r) (h0 : 0 ≤ r)
    (h1 : r < 1) (hN : 0 < X.r) (hc : st.cacheEstimator = true) (hf : st.wm.isFitted = true)
    (h : (stackSparse L M Mn rng { p with sampleRate := none } cache st s X y rate A).result
      = .ok ()) :
    SampledFailure (stackSparse L M Mn rng p cache st s X y rate A)
      (stackSparse L M Mn rng { p with sampleRate := none } cache st s X y rate A) st r X.r := by
  unfold stackSparse at h ⊢
  simp only at h ⊢
  by_cases hd : A.r ≠ X.r ∨ A.c ≠ X.r
  · rw [if_pos hd] at h; cases h
  rw [if_neg hd] at h
  rw [if_neg hd, if_neg hd]
  rcases hsm : sampleNeighbourSparse rng s A rate p.leaveOutShrink with ⟨_ | Sm, s₁, W₁⟩
  · rw [hsm] at h; cases h
  rw [hsm] at h
  simp only at h ⊢
  have hl0 : sampleLocations rng s₁ (none : Option K) X.r = (.ok (List.range X.r), s₁) := rfl
  rw [hl0] at h
  rw [hl0]
  obtain ⟨idx, s₂, hl⟩ := sampleLocations_total hrng s₁ X.r h0 h1.le
  rw [hr, hl]
  obtain ⟨hlen, hne⟩ := sampled_fewer hrng h0 h1 hN hl
  obtain ⟨a1, a2, -, -⟩ :=
    sampleLocations_spec hrng (fun r' h => by cases h; exact ⟨h0, h1.le⟩) hl
  simp only at h ⊢
  cases hw : shrinkMetaSparse p.metaShrink W₁ with
  | error e => rw [hw] at h; cases h
  | ok A' =>
  rw [hw] at h
  simp only at h ⊢
  cases h2o : secondSparse A' Sm.transposePattern with
  | error e => rw [h2o] at h; cases h
  | ok second =>
  rw [h2o] at h
  simp only at h ⊢
  obtain ⟨res, out, s', score, score', hb, hm, hr, hr', he⟩ := stackFinish_ok h
  rw [he]
  have hb' : runBase (baseSparse L X (fun i => y.getD i 0)
      (localSparse p.leaveLocalOut W₁ Sm.transposePattern) second) X.r
      p.storedPatches = .ok res := hb
  rw [hb', stackFinish_short (by
    have := (mapE_range (runBase_ok hb')).1
    simp only [List.length_map]; omega)]
  exact ⟨rfl, hc, hf, rfl, by simp, ⟨idx, rfl, a1, a2, hlen⟩, rfl, rfl, rfl, rfl, rfl⟩

/-- C88: where the fit without sampling succeeds, the fit with a rate below one raises
`ValueError` when the base estimators are scored. It leaves `cache_estimator` switched on, the
predictions of all locations, the base estimators in the place of the stacked ones, and otherwise
the attributes of the fit before. -/
theorem C88_sampling_outcome (L : Learner K F) (M Mn : Learner K G) (rng : Rng S)
    (hrng : rng.Valid) (p : SParams K C) (st : SState K F G C) (s : S) (X : Mat K) (y : List K)
    (coords : Option C) (W : Option (WMat K)) {r : K} (hr : p.sampleRate = some r) (h0 : 0 ≤ r)
    (h1 : r < 1)
    (hok : (stackFit L M Mn rng { p with sampleRate := none } st s X y coords W).result = .ok ()) :
    SampledFailure (stackFit L M Mn rng p st s X y coords W)
      (stackFit L M Mn rng { p with sampleRate := none } st s X y coords W) st r X.r := by
  obtain ⟨W0, rate, hc, hW0, hlr, heq⟩ := stackFit_ok hok
  have hN : 0 < X.r := by simp only [checkXy, decide_eq_true_eq] at hc; exact hc.2.1
  have hW0' : chosenWeights p.toWMParams coords W = .ok W0 := hW0
  have hcn : ¬ (coords.isNone && W.isNone) = true := by
    intro h
    simp only [Bool.and_eq_true, Option.isNone_iff_eq_none] at h
    rw [h.1, h.2] at hW0
    simp [chosenWeights] at hW0
  have heq' : stackFit L M Mn rng p st s X y coords W = stackWith L M Mn rng p st.cacheEstimator
        (stackWeights W.isSome (stackBegin p st X y coords W) W0) s X y W.isSome W0 := by
    unfold stackFit
    rw [if_pos hc, hW0']
  have hs : stackBegin { p with sampleRate := none } st X y coords W
    = stackBegin p st X y coords W := rfl
  rw [hs] at heq
  rw [heq] at hok ⊢
  rw [heq']
  have q : ∀ st0 : SState K F G C, st0 = stackWeights W.isSome (stackBegin p st X y coords W) W0 →
      st0.cacheEstimator = true ∧ st0.wm.isFitted = true ∧ st0.base = st.base ∧
      st0.residuals = st.residuals ∧ st0.stackPredictions = st.stackPredictions ∧
      st0.wm.score = st.wm.score := by
    intro st0 h
    subst h
    unfold stackWeights stackBegin
    rw [if_neg hcn]
    cases W.isSome <;> cases p.cacheData <;> exact ⟨rfl, rfl, rfl, rfl, rfl, rfl⟩
  generalize hst0 : stackWeights W.isSome (stackBegin p st X y coords W) W0 = st0 at *
  obtain ⟨q1, q2, q3, q4, q5, q6⟩ := q st0 rfl
  have hlr' : p.leaveOutRate = some rate := hlr
  unfold stackWith at hok ⊢
  simp only [hlr'] at hok ⊢
  cases W0 with
  | dense W0 =>
    have := stackDense_short hrng hr h0 h1 hN q1 q2 hok
    exact ⟨this.1, this.2, this.3, this.4, this.5, this.6, this.7.trans q3, this.8.trans q4,
      this.9.trans q5, this.10.trans q6, this.11⟩
  | sparse A =>
    have := stackSparse_short hrng hr h0 h1 hN q1 q2 hok
    exact ⟨this.1, this.2, this.3, this.4, this.5, this.6, this.7.trans q3, this.8.trans q4,
      this.9.trans q5, this.10.trans q6, this.11⟩

/-- C88: the hypotheses are met, for a model configured not to keep its estimators. -/
example :
    (seFit seP seY (.dense seW)).result = .ok () ∧
    (seFit seP seY (.dense seW)).state.cacheEstimator = false ∧
    (seFit { seP with sampleRate := some (1 / 2) } seY (.dense seW)).result = .error .valueError ∧
    (seFit { seP with sampleRate := some (1 / 2) } seY (.dense seW)).state.cacheEstimator = true ∧
    (seFit { seP with sampleRate := some 1 } seY (.dense seW)).result = .ok () := by
  decide +kernel

end Geo
