import Verif.Model.Stacking
import Verif.Lemmas.WeightModel
import Verif.Props.Sample
/-
Facts about the model of `stacking_model.py` used by several properties.
-/
set_option linter.unusedSectionVars false
namespace Geo
variable {K : Type} [Field K] [LinearOrder K] [IsStrictOrderedRing K] [FloorRing K]
variable {F G C S : Type} {α β : Type}

/-! ### The loops -/

theorem runBase_ok {task : Nat → Except Err α} {N : Nat} {n : Option ℤ} {res : List α}
    (h : runBase task N n = .ok res) : mapE task (List.range N) = .ok res := by
  cases n with
  | none => cases h
  | some n => exact runPatches_ok h

theorem mapE_range {f : Nat → Except Err α} {N : Nat} {bs : List α}
    (h : mapE f (List.range N) = .ok bs) :
    bs.length = N ∧ ∀ i < N, ∃ b, bs[i]? = some b ∧ f i = .ok b := by
  have hl : bs.length = N := by simpa using mapE_length h
  refine ⟨hl, fun i hi => ⟨bs[i]'(by omega), List.getElem?_eq_getElem _, ?_⟩⟩
  have := mapE_get h (i := i) (by simpa using hi)
  simpa using this

/-- Every location of a successful loop. -/
theorem metaLoop_ok {choose : S → Nat → Except Err (List Nat) × S}
    {solve : List Nat → Nat → Except Err α} {s s' : S} {is : List Nat} {out : List α}
    (h : metaLoop choose solve s is = (.ok out, s')) :
    out.length = is.length ∧ ∀ (t i : Nat), is[t]? = some i → ∃ s₁ s₂ sample a,
      choose s₁ i = (.ok sample, s₂) ∧ solve sample i = .ok a ∧ out[t]? = some a := by
  induction is generalizing s out with
  | nil =>
    simp only [metaLoop, Prod.mk.injEq, Except.ok.injEq] at h
    rw [← h.1]
    simp
  | cons i is ih =>
    unfold metaLoop at h
    rcases hc : choose s i with ⟨_ | sample, s₁⟩
    · rw [hc] at h; simp at h
    rw [hc] at h
    simp only at h
    cases hs : solve sample i with
    | error e => rw [hs] at h; simp at h
    | ok a =>
    rw [hs] at h
    simp only at h
    rcases hr : metaLoop choose solve s₁ is with ⟨_ | l, s₂⟩
    · rw [hr] at h; simp at h
    rw [hr] at h
    simp only [Prod.mk.injEq, Except.ok.injEq] at h
    obtain ⟨h1, h2⟩ := ih (hr.trans (by rw [h.2]))
    rw [← h.1]
    refine ⟨by simp [h1], fun t i' ht => ?_⟩
    cases t with
    | zero =>
      simp only [List.getElem?_cons_zero, Option.some.injEq] at ht
      subst ht
      exact ⟨s, s₁, sample, a, hc, hs, rfl⟩
    | succ t =>
      simp only [List.getElem?_cons_succ] at ht ⊢
      exact h2 t i' ht

/-! ### The selection of left-out neighbours -/

theorem sampleMaskDense_caller (W : Mat K) (shrink : Option K) : (sampleMaskDense W shrink).2 = W := by
  cases shrink with
  | none => rfl
  | some q =>
    simp only [sampleMaskDense, neighbourShrinkDense]
    cases shrinkDense W q <;> rfl

theorem sampleMaskDense_shape {W : Mat K} {shrink : Option K} {M : Mat Bool}
    (h : (sampleMaskDense W shrink).1 = .ok M) : M.r = W.r ∧ M.c = W.c := by
  cases shrink with
  | none => simp only [sampleMaskDense] at h; cases h; exact ⟨rfl, rfl⟩
  | some q =>
    simp only [sampleMaskDense, neighbourShrinkDense] at h
    cases hs : shrinkDense W q with
    | error e => rw [hs] at h; cases h
    | ok W' =>
      rw [hs] at h
      simp only [maskOfDense, Bool.false_eq_true, if_false] at h
      cases h
      unfold shrinkDense at hs
      split at hs
      · cases hs
      · cases hs; exact ⟨rfl, rfl⟩

/-- A selection that could be made: the caller's array is unchanged, the shape is that of the
weights, the diagonal is selected, and the choice does not depend on the history of the
generator. -/
theorem sampleDense_ok {rng : Rng S} {s : S} {W : Mat K} {rate : K} {shrink : Option K}
    {Sm : Mat Bool} (h : (sampleNeighbourDense rng s W rate shrink).result = .ok Sm) :
    Sm.r = W.r ∧ Sm.c = W.c ∧ ∀ i, Sm.get i i = true := by
  unfold sampleNeighbourDense at h
  have hc := sampleMaskDense_caller W shrink
  rcases hm : sampleMaskDense W shrink with ⟨_ | M, W1⟩
  · rw [hm] at h; cases h
  rw [hm] at h
  simp only at h
  have hsh := sampleMaskDense_shape (W := W) (shrink := shrink) (M := M) (by rw [hm])
  rcases hl : sampleLoop rng rate rng.seed0 ((List.range M.r).map (candidatesDense M)) with ⟨_ | ch, s1⟩
  · rw [hl] at h; cases h
  rw [hl] at h
  cases h
  exact ⟨hsh.1, hsh.2, fun i => by simp⟩

theorem sampleDense_caller (rng : Rng S) (s : S) (W : Mat K) (rate : K) (shrink : Option K) :
    (sampleNeighbourDense rng s W rate shrink).caller = W := by
  unfold sampleNeighbourDense
  have hc := sampleMaskDense_caller W shrink
  rcases hm : sampleMaskDense W shrink with ⟨_ | M, W1⟩
  · rw [hm] at hc; exact hc
  · rw [hm] at hc
    simp only
    rcases sampleLoop rng rate rng.seed0 ((List.range M.r).map (candidatesDense M)) with ⟨_ | ch, s1⟩
    · exact hc
    · exact hc

theorem sampleMaskSparse_caller (A : Csr K) (shrink : Option K) :
    (sampleMaskSparse A shrink).2 = A := by
  cases shrink with
  | none => rfl
  | some q =>
    simp only [sampleMaskSparse, neighbourShrinkSparse]
    cases shrinkSparse A q <;> rfl

theorem sampleMaskSparse_shape {A : Csr K} {shrink : Option K} {M : Csr Bool}
    (h : (sampleMaskSparse A shrink).1 = .ok M) : M.r = A.r := by
  cases shrink with
  | none => simp only [sampleMaskSparse] at h; cases h; exact Csr.keep_r _ _ _
  | some q =>
    simp only [sampleMaskSparse, neighbourShrinkSparse] at h
    cases hs : shrinkSparse A q with
    | error e => rw [hs] at h; cases h
    | ok A' =>
      rw [hs] at h
      simp only [maskOfSparse, Bool.false_eq_true, if_false] at h
      cases h
      unfold shrinkSparse at hs
      split at hs
      · cases hs
      · cases hs
        simp only [Csr.gt0, Csr.eliminateZeros, Csr.keep_r]

theorem sampleSparse_caller (rng : Rng S) (s : S) (A : Csr K) (rate : K) (shrink : Option K) :
    (sampleNeighbourSparse rng s A rate shrink).caller = A := by
  unfold sampleNeighbourSparse
  have hc := sampleMaskSparse_caller A shrink
  rcases hm : sampleMaskSparse A shrink with ⟨_ | M, W1⟩
  · rw [hm] at hc; exact hc
  · rw [hm] at hc
    simp only
    rcases sampleLoop rng rate rng.seed0 ((List.range M.r).map (candidatesSparse M)) with ⟨_ | ch, s1⟩
    · exact hc
    · exact hc

/-- A selection on a CSR array: one row per location, the diagonal is selected, and the number of
columns exceeds every index. -/
theorem sampleSparse_ok {rng : Rng S} {s : S} {A : Csr K} {rate : K} {shrink : Option K}
    {Sm : Csr Nat} (h : (sampleNeighbourSparse rng s A rate shrink).result = .ok Sm) :
    Sm.r = A.r ∧ (∀ i < A.r, i ∈ Sm.rowIdx i) ∧ (∀ i < A.r, ∀ j ∈ Sm.rowIdx i, j < Sm.c) := by
  unfold sampleNeighbourSparse at h
  rcases hm : sampleMaskSparse A shrink with ⟨_ | M, W1⟩
  · rw [hm] at h; cases h
  rw [hm] at h
  simp only at h
  have hsh := sampleMaskSparse_shape (A := A) (shrink := shrink) (M := M) (by rw [hm])
  rcases hl : sampleLoop rng rate rng.seed0 ((List.range M.r).map (candidatesSparse M)) with ⟨_ | ch, s1⟩
  · rw [hl] at h; cases h
  rw [hl] at h
  simp only at h
  have hlen := sampleLoop_length _ _ _ _ _ _ hl
  simp only [List.length_map, List.length_range] at hlen
  rcases csrInferred_cases (ch.mapIdx fun i l => sortNat (l ++ [i])) with ⟨_, he⟩ | ⟨m, _, hle, he⟩
  · rw [he] at h; cases h
  rw [he] at h
  injection h with h
  subst h
  have hrow : ∀ i (hi : i < A.r), (Csr.ofRows (m + 1) (ch.mapIdx fun i l => sortNat (l ++ [i]))
      ((ch.mapIdx fun i l => sortNat (l ++ [i])).flatten.map fun _ => 1)).rowIdx i =
        sortNat (ch[i]'(by omega) ++ [i]) := by
    intro i hi
    rw [Csr.ofRows_rowIdx _ _ _ (by simp; omega)]
    simp
  refine ⟨by simp only [Csr.ofRows, List.length_mapIdx]; omega, fun i hi => ?_, fun i hi j hj => ?_⟩
  · rw [hrow i hi, mem_sortNat]; simp
  · rw [hrow i hi] at hj
    apply Nat.lt_succ_of_le
    apply hle _ _ j hj
    rw [List.mem_mapIdx]
    exact ⟨i, by omega, rfl⟩

/-! ### Successful runs -/

theorem r2Column_ok {ys ps : List K} {v : Option K} (h : r2Column ys ps = .ok v) :
    ys.length = ps.length ∧ ps.length ≠ 0 := by
  unfold r2Column at h
  split at h
  · cases h
  · rename_i h1; tauto

/-- What a successful run from the base fit on consists of. -/
theorem stackFinish_ok {cache : Bool} {st : SState K F G C} {caller : Option (WMat K)} {s : S}
    {ys : List K} {baseRes : Except Err (List (BaseOut K F))}
    {metaRun : List (BaseOut K F) → Except Err (List (MetaOut K F G)) × S}
    (h : (stackFinish cache st caller s ys baseRes metaRun).result = .ok ()) :
    ∃ res out s' score score', baseRes = .ok res ∧ metaRun res = (.ok out, s') ∧
      r2Column ys (res.map BaseOut.pred) = .ok score ∧
      r2Column ys (out.map MetaOut.pred) = .ok score' ∧
      stackFinish cache st caller s ys baseRes metaRun = ⟨.ok (),
        { st with
          wm := { st.wm with
            localPredict := some (res.map BaseOut.pred)
            estimators := some (out.map fun r => some r.est)
            score := score }
          residuals := some (residualMatrix ys (res.map BaseOut.pred))
          cacheEstimator := cache
          base := some (res.map BaseOut.est)
          stackPredictions := some (out.map MetaOut.pred)
          fitScores := if out.any (fun r => r.score.isSome) then some (out.filterMap MetaOut.score)
            else st.fitScores
          stackScore := score' }, caller, s'⟩ := by
  unfold stackFinish at h ⊢
  cases baseRes with
  | error e => cases h
  | ok res =>
  simp only [stackBase] at h ⊢
  cases hr : r2Column ys (res.map BaseOut.pred) with
  | error e => rw [hr] at h; cases h
  | ok score =>
  rw [hr] at h
  simp only at h ⊢
  rcases hm : metaRun res with ⟨_ | out, s'⟩
  · rw [hm] at h; cases h
  rw [hm] at h
  simp only [stackEnd] at h ⊢
  cases hr' : r2Column ys (out.map MetaOut.pred) with
  | error e => rw [hr'] at h; cases h
  | ok score' =>
  refine ⟨res, out, s', score, score', rfl, hm, hr, hr', rfl⟩

/-- The targets used in a run. -/
structure DenseRun (L : Learner K F) (M : Learner K G) (rng : Rng S) (p : SParams K C)
    (s : S) (X : Mat K) (y : List K) (rate : K) (W : Mat K)
    (Sm : Mat Bool) (W' : Mat K) (idx : List Nat) (res : List (BaseOut K F))
    (out : List (MetaOut K F G)) : Prop where
  rows : W.r = X.r
  cols : W.c = X.r
  sample : (sampleNeighbourDense rng s W rate p.leaveOutShrink).result = .ok Sm
  locs : ∃ s' s'', sampleLocations rng s' p.sampleRate X.r = (.ok idx, s'')
  shrunk : shrinkMetaDense p.metaShrink W = .ok W'
  base : mapE (baseDense L X (yfun y) (localDense p.leaveLocalOut W Sm.transpose)
    (secondOrderDense (gt0 W') Sm.transpose)) (List.range X.r) = .ok res
  len : idx.length = X.r
  meta_ : ∃ s' s'', metaStageDense M rng p X.r (yfun y) W' Sm.transpose
    (secondOrderDense (gt0 W') Sm.transpose) s' res = (.ok out, s'')

theorem stackDense_ok {L : Learner K F} {M : Learner K G} {rng : Rng S} {p : SParams K C}
    {cache : Bool} {st : SState K F G C} {s : S} {X : Mat K} {y : List K} {given : Bool} {rate : K}
    {W : Mat K} (h : (stackDense L M rng p cache st s X y given rate W).result = .ok ()) :
    ∃ Sm W' idx res out score score' s', DenseRun L M rng p s X y rate W Sm W' idx res out ∧
      stackDense L M rng p cache st s X y given rate W = ⟨.ok (),
        { st with
          wm := { st.wm with
            weightMatrix := if given then st.wm.weightMatrix else some (.dense W')
            localIndices := some idx
            ySample := some (idx.map (yfun y))
            localPredict := some (res.map BaseOut.pred)
            estimators := some (out.map fun r => some r.est)
            score := score }
          residuals := some (residualMatrix (idx.map (yfun y)) (res.map BaseOut.pred))
          cacheEstimator := cache
          base := some (res.map BaseOut.est)
          stackPredictions := some (out.map MetaOut.pred)
          fitScores := if out.any (fun r => r.score.isSome) then some (out.filterMap MetaOut.score)
            else st.fitScores
          stackScore := score' }, if given then some (.dense W') else none, s'⟩ ∧
      r2Column (idx.map (yfun y)) (res.map BaseOut.pred) = .ok score ∧
      r2Column (idx.map (yfun y)) (out.map MetaOut.pred) = .ok score' := by
  unfold stackDense at h ⊢
  simp only at h ⊢
  by_cases hd : W.r ≠ X.r ∨ W.c ≠ X.r
  · rw [if_pos hd] at h; cases h
  rw [if_neg hd] at h ⊢
  have hcal := sampleDense_caller rng s W rate p.leaveOutShrink
  rcases hsm : sampleNeighbourDense rng s W rate p.leaveOutShrink with ⟨_ | Sm, s₁, W₁⟩
  · rw [hsm] at h; cases h
  rw [hsm] at h hcal
  simp only at h hcal
  subst hcal
  rcases hl : sampleLocations rng s₁ p.sampleRate X.r with ⟨_ | idx, s₂⟩
  · rw [hl] at h; cases h
  rw [hl] at h
  simp only at h ⊢
  cases hw : shrinkMetaDense p.metaShrink W₁ with
  | error e => rw [hw] at h; cases h
  | ok W' =>
  rw [hw] at h
  simp only at h ⊢
  obtain ⟨res, out, s', score, score', hb, hm, hr, hr', he⟩ := stackFinish_ok h
  have hb' := runBase_ok hb
  have h1 := (mapE_range hb').1
  have h2 := (r2Column_ok hr).1
  simp only [List.length_map] at h2
  refine ⟨Sm, W', idx, res, out, score, score', s', ⟨by tauto, by tauto, by rw [hsm],
    ⟨_, _, hl⟩, hw, hb', by omega, ⟨_, _, hm⟩⟩, ?_, hr, hr'⟩
  rw [hl]
  refine he.trans ?_
  cases given <;> rfl

/-- The sparse analogue. -/
structure SparseRun (L : Learner K F) (M Mn : Learner K G) (rng : Rng S) (p : SParams K C)
    (s : S) (X : Mat K) (y : List K) (rate : K) (A : Csr K)
    (Sm : Csr Nat) (A' : Csr K) (second : Csr Nat) (idx : List Nat) (res : List (BaseOut K F))
    (out : List (MetaOut K F G)) : Prop where
  rows : A.r = X.r
  cols : A.c = X.r
  sample : (sampleNeighbourSparse rng s A rate p.leaveOutShrink).result = .ok Sm
  locs : ∃ s' s'', sampleLocations rng s' p.sampleRate X.r = (.ok idx, s'')
  shrunk : shrinkMetaSparse p.metaShrink A = .ok A'
  second_ : secondSparse A' Sm.transposePattern = .ok second
  base : mapE (baseSparse L X (yfun y) (localSparse p.leaveLocalOut A Sm.transposePattern)
    second) (List.range X.r) = .ok res
  len : idx.length = X.r
  meta_ : metaStageSparse M Mn p X.r (yfun y) A' Sm second res = .ok out

theorem stackSparse_ok {L : Learner K F} {M Mn : Learner K G} {rng : Rng S} {p : SParams K C}
    {cache : Bool} {st : SState K F G C} {s : S} {X : Mat K} {y : List K} {rate : K}
    {A : Csr K} (h : (stackSparse L M Mn rng p cache st s X y rate A).result = .ok ()) :
    ∃ Sm A' second idx res out score score' s',
      SparseRun L M Mn rng p s X y rate A Sm A' second idx res out ∧
      stackSparse L M Mn rng p cache st s X y rate A = ⟨.ok (),
        { st with
          wm := { st.wm with
            localIndices := some idx
            ySample := some (idx.map (yfun y))
            localPredict := some (res.map BaseOut.pred)
            estimators := some (out.map fun r => some r.est)
            score := score }
          residuals := some (residualMatrix (idx.map (yfun y)) (res.map BaseOut.pred))
          cacheEstimator := cache
          base := some (res.map BaseOut.est)
          stackPredictions := some (out.map MetaOut.pred)
          fitScores := if out.any (fun r => r.score.isSome) then some (out.filterMap MetaOut.score)
            else st.fitScores
          stackScore := score' }, some (.sparse A'), s'⟩ ∧
      r2Column (idx.map (yfun y)) (res.map BaseOut.pred) = .ok score ∧
      r2Column (idx.map (yfun y)) (out.map MetaOut.pred) = .ok score' := by
  unfold stackSparse at h ⊢
  simp only at h ⊢
  by_cases hd : A.r ≠ X.r ∨ A.c ≠ X.r
  · rw [if_pos hd] at h; cases h
  rw [if_neg hd] at h ⊢
  have hcal := sampleSparse_caller rng s A rate p.leaveOutShrink
  rcases hsm : sampleNeighbourSparse rng s A rate p.leaveOutShrink with ⟨_ | Sm, s₁, W₁⟩
  · rw [hsm] at h; cases h
  rw [hsm] at h hcal
  simp only at h hcal
  subst hcal
  rcases hl : sampleLocations rng s₁ p.sampleRate X.r with ⟨_ | idx, s₂⟩
  · rw [hl] at h; cases h
  rw [hl] at h
  simp only at h ⊢
  cases hw : shrinkMetaSparse p.metaShrink W₁ with
  | error e => rw [hw] at h; cases h
  | ok A' =>
  rw [hw] at h
  simp only at h ⊢
  cases h2o : secondSparse A' Sm.transposePattern with
  | error e => rw [h2o] at h; cases h
  | ok second =>
  rw [h2o] at h
  simp only at h ⊢
  obtain ⟨res, out, s', score, score', hb, hm, hr, hr', he⟩ := stackFinish_ok h
  have hb' := runBase_ok hb
  have h1 := (mapE_range hb').1
  have h2 := (r2Column_ok hr).1
  simp only [List.length_map] at h2
  refine ⟨Sm, A', second, idx, res, out, score, score', s', ⟨by tauto, by tauto, by rw [hsm],
    ⟨_, _, hl⟩, hw, h2o, hb', by omega, (Prod.mk.inj hm).1⟩, ?_, hr, hr'⟩
  rw [hl]
  exact he

/-! ### One location of a run -/

theorem fitBase_congr {L : Learner K F} {X : Mat K} {y y' : Nat → K} {e : Nat} {idx : List Nat}
    {ws : List K} {sec : List Nat} {x : List K} (h : ∀ k ∈ idx, y k = y' k) :
    fitBase L X y e idx ws sec x = fitBase L X y' e idx ws sec x := by
  unfold fitBase
  rw [List.map_congr_left h]

/-- What the base fit of one location consists of. -/
theorem fitBase_ok {L : Learner K F} {X : Mat K} {y : Nat → K} {e : Nat} {idx : List Nat}
    {ws : List K} {sec : List Nat} {x : List K} {b : BaseOut K F}
    (h : fitBase L X y e idx ws sec x = .ok b) :
    L.fit e (idx.map X.row) (idx.map y) ws = .ok b.est ∧ sec ≠ [] ∧
      b.pred = L.predict b.est x ∧ b.second = sec.map fun k => L.predict b.est (X.row k) := by
  unfold fitBase at h
  obtain ⟨f, hf, h⟩ := except_bind_ok.1 h
  split at h
  · cases h
  · rename_i hs
    cases h
    exact ⟨hf, hs, rfl, rfl⟩

theorem mem_trueIdx {M : Mat Bool} {i j : Nat} :
    j ∈ trueIdx M i ↔ j < M.c ∧ M.get i j = true := by simp [trueIdx]

/-- An entry of the dense table of predictions: the prediction where it was made, otherwise
zero. -/
theorem metaDense_get {L : Learner K F} {X : Mat K} {N : Nat} {second : Mat Bool}
    {res : List (BaseOut K F)} {j k : Nat} {b : BaseOut K F} (hj : res[j]? = some b)
    (hb : b.second = (trueIdx second j).map fun k => L.predict b.est (X.row k)) :
    (metaDense N second res).get j k =
      if k ∈ trueIdx second j then L.predict b.est (X.row k) else 0 := by
  unfold metaDense
  simp only [hj, hb]
  exact scatter_map _ _ _ _

/-- The table depends only on the results. -/
theorem metaDense_congr {N : Nat} {second : Mat Bool} {res res' : List (BaseOut K F)} {j k : Nat}
    (h : res[j]? = res'[j]?) : (metaDense N second res).get j k = (metaDense N second res').get j k := by
  unfold metaDense
  simp only [h]

theorem solveMeta_ok {M : Learner K G} {base : List F} {q : MetaProblem K} {o : MetaOut K F G}
    (h : solveMeta M base q = .ok o) : q.rows ≠ [] ∧ q.bases ≠ [] ∧ ∃ g,
      M.fit 0 q.rows q.targets q.weights = .ok g ∧
      o = ⟨M.predict g q.query, .stacked g (q.bases.filterMap fun j => base[j]?), none⟩ := by
  unfold solveMeta at h
  split at h
  · cases h
  · rename_i hn
    push Not at hn
    cases hg : M.fit 0 q.rows q.targets q.weights with
    | error e => rw [hg] at h; cases h
    | ok g =>
      rw [hg] at h
      cases h
      exact ⟨hn.1, hn.2, g, rfl, rfl⟩

theorem solveNumba_ok {M : Learner K G} {base : List F} {q : MetaProblem K} {o : MetaOut K F G}
    (h : solveNumba M base q = .ok o) : q.rows ≠ [] ∧ q.weights.length = q.rows.length ∧ ∃ g,
      M.fit 0 q.rows q.targets q.weights = .ok g ∧
      o = ⟨M.predict g q.query, .stacked g (q.bases.filterMap fun j => base[j]?),
        some (numbaR2 q.targets (q.rows.map (M.predict g)))⟩ := by
  unfold solveNumba at h
  split at h
  · cases h
  · rename_i hn
    push Not at hn
    cases hg : M.fit 0 q.rows q.targets q.weights with
    | error e => rw [hg] at h; cases h
    | ok g =>
      rw [hg] at h
      cases h
      exact ⟨hn.1, hn.2, g, rfl, rfl⟩

/-- A location of the dense meta stage without `estimator_sample_rate`. -/
theorem metaStageDense_ok {M : Learner K G} {rng : Rng S} {p : SParams K C} {N : Nat} {y : Nat → K}
    {W : Mat K} {lo second : Mat Bool} {s s' : S} {res : List (BaseOut K F)}
    {out : List (MetaOut K F G)} (hest : p.estimatorRate = none)
    (h : metaStageDense M rng p N y W lo second s res = (.ok out, s')) :
    p.useNumba = false ∧ out.length = N ∧ ∀ i < N, ∃ o, out[i]? = some o ∧
      solveMeta M (res.map BaseOut.est) (problemDense (metaDense N second res) (othersDense W) W y
        (trueIdx lo.transpose i) i) = .ok o := by
  unfold metaStageDense at h
  split at h
  · simp at h
  rename_i hn
  obtain ⟨h1, h2⟩ := metaLoop_ok h
  refine ⟨by simpa using hn, by simpa using h1, fun i hi => ?_⟩
  obtain ⟨s₁, s₂, sample, o, hc, hs, ho⟩ := h2 i i (by simp [hi])
  rw [hest] at hc
  simp only [chooseBases, Prod.mk.injEq, Except.ok.injEq] at hc
  refine ⟨o, ho, ?_⟩
  rw [hc.1]
  exact hs

/-! ### CSR arrays -/

theorem Csr.gt0_indptr (A : Csr K) : A.gt0.indptr.length = A.r + 1 := by
  simp [Csr.gt0, Csr.keep, Csr.ofRows, indptrOf_length]

/-- The second-order neighbours of a CSR array: their rows, and the width of the table. -/
theorem secondSparse_ok {A : Csr K} {lo : Csr Bool} {second : Csr Nat}
    (h : secondSparse A lo = .ok second) :
    ∃ m, second = Csr.ofRows (m + 1) (secondOrderRows A.gt0 lo)
        ((secondOrderRows A.gt0 lo).flatten.map fun _ => 1) ∧
      second.r = A.r ∧ (∀ j < A.r, second.rowIdx j = secondOrderRow A.gt0 lo A.r j) ∧
      (∀ j < A.r, ∀ k ∈ second.rowIdx j, k < second.c) := by
  have hlen : (secondOrderRows A.gt0 lo).length = A.r := by
    simp [secondOrderRows, Csr.gt0_indptr]
  unfold secondSparse at h
  rcases csrInferred_cases (secondOrderRows A.gt0 lo) with ⟨_, he⟩ | ⟨m, _, hle, he⟩
  · rw [he] at h; cases h
  rw [he] at h
  injection h with h
  subst h
  have hrow : ∀ j < A.r, (Csr.ofRows (m + 1) (secondOrderRows A.gt0 lo)
        ((secondOrderRows A.gt0 lo).flatten.map fun _ => 1)).rowIdx j =
      secondOrderRow A.gt0 lo A.r j := by
    intro j hj
    rw [Csr.ofRows_rowIdx _ _ _ (by omega)]
    simp [secondOrderRows, Csr.gt0_indptr]
  refine ⟨m, rfl, hlen, hrow, fun j hj k hk => ?_⟩
  rw [hrow j hj] at hk
  apply Nat.lt_succ_of_le
  apply hle _ _ k hk
  simp only [secondOrderRows, Csr.gt0_indptr, List.mem_map, List.mem_range]
  exact ⟨j, by omega, rfl⟩

theorem flatten_take_length {l : List (List α)} {l' : List (List β)}
    (h : l.map List.length = l'.map List.length) (n : Nat) :
    (l.take n).flatten.length = (l'.take n).flatten.length := by
  simp only [List.length_flatten, List.map_take, h]

/-- A row of the sparse table of predictions: the predictions of the base estimator. -/
theorem metaSparse_rowData {c : Nat} {rows : List (List Nat)} {d : List Nat}
    {res : List (BaseOut K F)} (hl : res.length = rows.length)
    (hs : ∀ j (h : j < rows.length), (res[j]'(by omega)).second.length = rows[j].length)
    {j : Nat} (hj : j < rows.length) :
    (metaSparse (Csr.ofRows c rows d) res).rowData j = (res[j]'(by omega)).second := by
  have hlen : (res.map BaseOut.second).map List.length = rows.map List.length := by
    apply List.ext_getElem
    · simp [hl]
    · intro k h1 h2
      simp only [List.getElem_map]
      exact hs k (by simpa using h2)
  unfold Csr.rowData Csr.ptr metaSparse Csr.ofRows
  simp only
  rw [indptrOf_getD rows hj.le, indptrOf_getD rows (Nat.succ_le_of_lt hj),
    ← flatten_take_length hlen, ← flatten_take_length hlen,
    slice_flatten _ (by simp [hl, hj])]
  simp

theorem metaSparse_rowIdx (second : Csr Nat) (res : List (BaseOut K F)) (j : Nat) :
    (metaSparse second res).rowIdx j = second.rowIdx j := rfl

/-- The transposed pattern. -/
theorem mem_transposePattern {A : Csr Nat} {i j : Nat} (hj : j < A.c) :
    i ∈ A.transposePattern.rowIdx j ↔ i < A.r ∧ j ∈ A.rowIdx i := by
  unfold Csr.transposePattern
  simp only
  rw [Csr.ofRows_rowIdx _ _ _ (by simpa using hj)]
  simp

theorem transposePattern_sorted {A : Csr Nat} {j : Nat} (hj : j < A.c) :
    (A.transposePattern.rowIdx j).Pairwise (· < ·) := by
  unfold Csr.transposePattern
  simp only
  rw [Csr.ofRows_rowIdx _ _ _ (by simpa using hj)]
  simp only [List.getElem_map]
  exact List.Pairwise.filter _ List.pairwise_lt_range

/-- Filtering twice. -/
theorem keep_rowIdx_sub {A : Csr α} {q : Nat → Nat → α → Bool} {f : α → β} {i k : Nat}
    (hi : i < A.r) (hk : k ∈ (A.keep q f).rowIdx i) :
    ∃ x, (k, x) ∈ A.row i ∧ q i k x = true := by
  rw [Csr.keep_rowIdx A q f hi] at hk
  obtain ⟨⟨k', x⟩, hm, rfl⟩ := List.mem_map.1 hk
  exact ⟨x, (List.mem_filter.1 hm).1, (List.mem_filter.1 hm).2⟩

/-- The rows used to fit base estimator `j` do not contain its left-out observations. -/
theorem localSparse_excludes {lo : Bool} {A : Csr K} {leaveOut : Csr Bool} {i j : Nat}
    (hj : j < A.r) (hi : i ∈ leaveOut.rowIdx j) :
    i ∉ (localSparse lo A leaveOut).ne0.rowIdx j := by
  intro h
  have hr : j < (localSparse lo A leaveOut).r := by
    unfold localSparse; rw [Csr.keep_r]; exact hj
  obtain ⟨x, hx, _⟩ := keep_rowIdx_sub hr h
  have h2 : i ∈ (localSparse lo A leaveOut).rowIdx j := by
    unfold Csr.row at hx
    exact (List.of_mem_zip hx).1
  obtain ⟨x', _, hq⟩ := keep_rowIdx_sub hj h2
  simp [hi] at hq

theorem othersSparse_excludes {A : Csr K} {i : Nat} (hi : i < A.r) :
    i ∉ (othersSparse A).rowIdx i := by
  intro h
  obtain ⟨x, _, hq⟩ := keep_rowIdx_sub hi h
  simp at hq

end Geo
