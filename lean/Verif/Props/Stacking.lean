import Verif.Lemmas.Stacking
/-
Property C49: stacked predictions never see the local observation.
-/
set_option linter.unusedSectionVars false
namespace Geo
variable {K : Type} [Field K] [LinearOrder K] [IsStrictOrderedRing K] [FloorRing K]
variable {F G C S : Type}

/-- What a successful fit consists of. -/
theorem stackFit_ok {L : Learner K F} {M Mn : Learner K G} {rng : Rng S} {p : SParams K C}
    {st : SState K F G C} {s : S} {X : Mat K} {y : List K} {coords : Option C}
    {W : Option (WMat K)}
    (h : (stackFit L M Mn rng p st s X y coords W).result = .ok ()) :
    ∃ W0 rate, checkXy X y = true ∧ chosenWeights p.toWMParams coords W = .ok W0 ∧
      p.leaveOutRate = some rate ∧
      stackFit L M Mn rng p st s X y coords W = stackWith L M Mn rng p st.cacheEstimator
        (stackWeights W.isSome (stackBegin p st X y coords W) W0) s X y W.isSome W0 := by
  unfold stackFit at h ⊢
  split at h
  swap
  · cases h
  rename_i hc
  rw [if_pos hc]
  split at h
  · cases h
  rename_i W0 hW0
  rw [hW0]
  unfold stackWith at h
  cases hr : p.leaveOutRate with
  | none => rw [hr] at h; cases h
  | some rate => exact ⟨W0, rate, hc, rfl, rfl, rfl⟩

/-- The dense part of C49: the results of a location do not change with its own target. -/
theorem dense_blind {L : Learner K F} {M : Learner K G} {rng : Rng S} {p : SParams K C} {s s' : S}
    {X : Mat K} {y y' : List K} {rate : K} {W : Mat K} {Sm Sm' : Mat Bool} {W1 W1' : Mat K}
    {idx idx' : List Nat} {res res' : List (BaseOut K F)} {out out' : List (MetaOut K F G)}
    (hr : DenseRun L M rng p s X y rate W Sm W1 idx res out)
    (hr' : DenseRun L M rng p s' X y' rate W Sm' W1' idx' res' out')
    (hest : p.estimatorRate = none) {i : Nat} (hi : i < X.r)
    (hy : ∀ k, k ≠ i → yfun y k = yfun y' k) : out[i]? = out'[i]? := by
  have hS : Sm = Sm' := by
    have h1 := hr.sample
    rw [C31_history_independent rng s s', hr'.sample] at h1
    injection h1 with h1; exact h1.symm
  subst hS
  have hW : W1 = W1' := by
    have h1 := hr.shrunk
    rw [hr'.shrunk] at h1
    injection h1 with h1; exact h1.symm
  subst hW
  obtain ⟨hSr, hSc, _⟩ := sampleDense_ok hr.sample
  obtain ⟨_, _, hm⟩ := hr.meta_
  obtain ⟨_, _, hm'⟩ := hr'.meta_
  obtain ⟨_, _, hm⟩ := metaStageDense_ok hest hm
  obtain ⟨_, _, hm'⟩ := metaStageDense_ok hest hm'
  obtain ⟨o, ho, hs⟩ := hm i hi
  obtain ⟨o', ho', hs'⟩ := hm' i hi
  rw [ho, ho']
  -- the base estimators selected at `i` were fitted without `i`
  have hres : ∀ j ∈ trueIdx Sm.transpose.transpose i, res[j]? = res'[j]? := by
    intro j hj
    obtain ⟨hj1, hj2⟩ := mem_trueIdx.1 hj
    have hjN : j < X.r := by
      have : j < Sm.c := hj1
      rw [hSc, hr.cols] at this; exact this
    obtain ⟨b, hb, hf⟩ := (mapE_range hr.base).2 j hjN
    obtain ⟨b', hb', hf'⟩ := (mapE_range hr'.base).2 j hjN
    rw [hb, hb']
    unfold baseDense at hf hf'
    rw [fitBase_congr (y' := yfun y')] at hf
    · rw [hf'] at hf; injection hf with hf; rw [hf]
    · intro k hk
      apply hy
      rintro rfl
      obtain ⟨_, hk⟩ := mem_nonzeroIdx.1 hk
      apply hk
      have : Sm.transpose.get j k = true := hj2
      simp [localDense, this]
  have hp : problemDense (metaDense X.r (secondOrderDense (gt0 W1) Sm.transpose) res)
        (othersDense W1) W1 (yfun y) (trueIdx Sm.transpose.transpose i) i =
      problemDense (metaDense X.r (secondOrderDense (gt0 W1) Sm.transpose) res')
        (othersDense W1) W1 (yfun y') (trueIdx Sm.transpose.transpose i) i := by
    unfold problemDense
    simp only [MetaProblem.mk.injEq, true_and]
    refine ⟨?_, ?_, ?_⟩
    · exact List.map_congr_left fun k _ => List.map_congr_left fun j hj =>
        metaDense_congr (hres j hj)
    · refine List.map_congr_left fun k hk => hy k ?_
      rintro rfl
      have := (mem_trueIdx.1 hk).2
      simp [othersDense] at this
    · exact List.map_congr_left fun j hj => metaDense_congr (hres j hj)
  rw [hp] at hs
  obtain ⟨_, _, g, hg, rfl⟩ := solveMeta_ok hs
  obtain ⟨_, _, g', hg', rfl⟩ := solveMeta_ok hs'
  rw [hg] at hg'
  injection hg' with hg'
  subst hg'
  have hb : (problemDense (metaDense X.r (secondOrderDense (gt0 W1) Sm.transpose) res')
        (othersDense W1) W1 (yfun y') (trueIdx Sm.transpose.transpose i) i).bases =
      trueIdx Sm.transpose.transpose i := rfl
  rw [hb]
  have : (trueIdx Sm.transpose.transpose i).filterMap (fun j => (res.map BaseOut.est)[j]?) =
      (trueIdx Sm.transpose.transpose i).filterMap (fun j => (res'.map BaseOut.est)[j]?) := by
    apply List.filterMap_congr
    intro j hj
    rw [List.getElem?_map, List.getElem?_map, hres j hj]
  rw [this]

/-- An entry of a CSR array depends only on its row. -/
theorem Csr.entry_congr {A B : Csr K} {j k : Nat} (h1 : A.rowIdx j = B.rowIdx j)
    (h2 : A.rowData j = B.rowData j) : A.entry j k = B.entry j k := by
  unfold Csr.entry; rw [h1, h2]

/-- The rows of the sparse table of predictions. -/
theorem sparse_table {L : Learner K F} {X : Mat K} {y : Nat → K} {lo : Bool} {A : Csr K}
    {Sm : Csr Nat} {A' : Csr K} {second : Csr Nat} {res : List (BaseOut K F)}
    (h2o : secondSparse A' Sm.transposePattern = .ok second)
    (hbase : mapE (baseSparse L X y (localSparse lo A Sm.transposePattern) second)
      (List.range X.r) = .ok res) (hA : A'.r = X.r) :
    ∀ j < X.r, ∃ b, res[j]? = some b ∧
      baseSparse L X y (localSparse lo A Sm.transposePattern) second j = .ok b ∧
      (metaSparse second res).rowData j = b.second := by
  obtain ⟨m, hsec, h1, h2, h3⟩ := secondSparse_ok h2o
  obtain ⟨hl, hb⟩ := mapE_range hbase
  have hlen : (secondOrderRows A'.gt0 Sm.transposePattern).length = X.r := by
    simp [secondOrderRows, Csr.gt0_indptr, hA]
  intro j hj
  obtain ⟨b, hb1, hb2⟩ := hb j hj
  refine ⟨b, hb1, hb2, ?_⟩
  have hget : res[j]'(by omega) = b := by
    rw [List.getElem?_eq_getElem (by omega)] at hb1
    exact Option.some.inj hb1
  rw [← hget]
  conv_lhs => rw [hsec]
  refine metaSparse_rowData (by omega) (fun k hk => ?_) (by omega)
  obtain ⟨c, hc1, hc2⟩ := hb k (by omega)
  have hgetc : res[k]'(by omega) = c := by
    rw [List.getElem?_eq_getElem (by omega)] at hc1
    exact Option.some.inj hc1
  rw [hgetc]
  obtain ⟨_, _, _, hsd⟩ := fitBase_ok hc2
  rw [hsd, List.length_map]
  have : second.rowIdx k = (secondOrderRows A'.gt0 Sm.transposePattern)[k] := by
    conv_lhs => rw [hsec]
    exact Csr.ofRows_rowIdx _ _ _ hk
  rw [this]

theorem shrinkMetaSparse_r {rate : Option K} {A A' : Csr K}
    (h : shrinkMetaSparse rate A = .ok A') : A'.r = A.r := by
  cases rate with
  | none => cases h; rfl
  | some q =>
    simp only [shrinkMetaSparse, shrinkSparse] at h
    split at h
    · cases h
    · cases h
      simp [Csr.eliminateZeros, Csr.keep_r]

/-- The sparse part of C49, without and with numba. -/
theorem sparse_blind {L : Learner K F} {M Mn : Learner K G} {rng : Rng S} {p : SParams K C}
    {s s' : S} {X : Mat K} {y y' : List K} {rate : K} {A : Csr K} {Sm Sm' : Csr Nat} {A1 A1' : Csr K}
    {second second' : Csr Nat} {idx idx' : List Nat} {res res' : List (BaseOut K F)}
    {out out' : List (MetaOut K F G)}
    (hr : SparseRun L M Mn rng p s X y rate A Sm A1 second idx res out)
    (hr' : SparseRun L M Mn rng p s' X y' rate A Sm' A1' second' idx' res' out') {i : Nat}
    (hi : i < X.r) (hy : ∀ k, k ≠ i → yfun y k = yfun y' k) :
    (out[i]?.map fun o => (o.pred, o.est, o.score)) =
      out'[i]?.map fun o => (o.pred, o.est, o.score) := by
  have hS : Sm = Sm' := by
    have h1 := hr.sample
    rw [C31_history_independent_sparse rng s s', hr'.sample] at h1
    injection h1 with h1; exact h1.symm
  subst hS
  have hW : A1 = A1' := by
    have h1 := hr.shrunk
    rw [hr'.shrunk] at h1
    injection h1 with h1; exact h1.symm
  subst hW
  have h2 : second = second' := by
    have h1 := hr.second_
    rw [hr'.second_] at h1
    injection h1 with h1; exact h1.symm
  subst h2
  obtain ⟨hSr, _, hSc⟩ := sampleSparse_ok hr.sample
  have hA1 : A1.r = X.r := by rw [shrinkMetaSparse_r hr.shrunk, hr.rows]
  have ht := sparse_table hr.second_ hr.base hA1
  have ht' := sparse_table hr'.second_ hr'.base hA1
  obtain ⟨m, hsec, hsecr, _, _⟩ := secondSparse_ok hr.second_
  -- the base estimators selected at `i` were fitted without `i`
  have hcore : ∀ j ∈ Sm.rowIdx i, j < X.r → res[j]? = res'[j]? ∧
      (metaSparse second res).rowData j = (metaSparse second res').rowData j := by
    intro j hj hjN
    obtain ⟨b, hb, hf, hd⟩ := ht j hjN
    obtain ⟨b', hb', hf', hd'⟩ := ht' j hjN
    have : b = b' := by
      unfold baseSparse at hf hf'
      rw [fitBase_congr (y' := yfun y')] at hf
      · rw [hf'] at hf; injection hf with hf; exact hf.symm
      · intro k hk
        apply hy
        rintro rfl
        exact localSparse_excludes (by rw [hr.rows]; exact hjN)
          ((mem_transposePattern (hSc k (by rw [hr.rows]; exact hi) j hj)).2
            ⟨by rw [hSr, hr.rows]; exact hi, hj⟩) hk
    subst this
    exact ⟨by rw [hb, hb'], by rw [hd, hd']⟩
  -- outside of the table there are no rows at all
  have hout : ∀ j, X.r ≤ j → ∀ (r : List (BaseOut K F)), (metaSparse second r).rowData j = [] := by
    intro j hj r
    have hp : (metaSparse second r).ptr (j + 1) = 0 := by
      unfold Csr.ptr metaSparse
      simp only
      rw [List.getD_eq_default]
      rw [hsec]
      simp only [Csr.ofRows, indptrOf_length, secondOrderRows, List.length_map, List.length_range,
        Csr.gt0_indptr]
      omega
    unfold Csr.rowData
    rw [hp]
    simp [slice]
  have hall : ∀ j ∈ Sm.rowIdx i, res[j]? = res'[j]? ∧
      (metaSparse second res).rowData j = (metaSparse second res').rowData j := by
    intro j hj
    rcases Nat.lt_or_ge j X.r with h | h
    · exact hcore j hj h
    · refine ⟨?_, by rw [hout j h, hout j h]⟩
      rw [List.getElem?_eq_none (by rw [(mapE_range hr.base).1]; exact h),
        List.getElem?_eq_none (by rw [(mapE_range hr'.base).1]; exact h)]
  have hnb : i ∉ (othersSparse A1).rowIdx i := othersSparse_excludes (by omega)
  have hfm : (Sm.rowIdx i).filterMap (fun j => (res.map BaseOut.est)[j]?) =
      (Sm.rowIdx i).filterMap (fun j => (res'.map BaseOut.est)[j]?) := by
    apply List.filterMap_congr
    intro j hj
    rw [List.getElem?_map, List.getElem?_map, (hall j hj).1]
  have hm := hr.meta_
  have hm' := hr'.meta_
  unfold metaStageSparse at hm hm'
  simp only at hm hm'
  cases hnum : p.useNumba with
  | false =>
    rw [hnum] at hm hm'
    simp only [Bool.false_eq_true, if_false] at hm hm'
    obtain ⟨o, ho, hs⟩ := (mapE_range hm).2 i hi
    obtain ⟨o', ho', hs'⟩ := (mapE_range hm').2 i hi
    rw [ho, ho']
    have hp : problemSparse (metaSparse second res) (othersSparse A1) A1 Sm (yfun y) i =
        problemSparse (metaSparse second res') (othersSparse A1) A1 Sm (yfun y') i := by
      unfold problemSparse
      simp only
      have hc : (metaSparse second res).c = (metaSparse second res').c := rfl
      rw [hc]
      split
      · rfl
      · simp only [Except.ok.injEq, MetaProblem.mk.injEq, true_and]
        refine ⟨?_, ?_, ?_⟩
        · exact List.map_congr_left fun k _ => List.map_congr_left fun j hj =>
            Csr.entry_congr rfl (hall j hj).2
        · refine List.map_congr_left fun k hk => hy k ?_
          rintro rfl
          exact hnb hk
        · exact List.map_congr_left fun j hj => Csr.entry_congr rfl (hall j hj).2
    rw [hp] at hs
    obtain ⟨q, hq, hs⟩ := except_bind_ok.1 hs
    obtain ⟨q', hq', hs'⟩ := except_bind_ok.1 hs'
    rw [hq] at hq'
    injection hq' with hq'
    subst hq'
    have hqb : q.bases = Sm.rowIdx i := by
      unfold problemSparse at hq
      simp only at hq
      split at hq
      · cases hq
      · cases hq; rfl
    obtain ⟨_, _, g, hg, rfl⟩ := solveMeta_ok hs
    obtain ⟨_, _, g', hg', rfl⟩ := solveMeta_ok hs'
    rw [hg] at hg'
    injection hg' with hg'
    subst hg'
    rw [hqb, hfm]
  | true =>
    rw [hnum] at hm hm'
    simp only [if_true] at hm hm'
    obtain ⟨o, ho, hs⟩ := (mapE_range hm).2 i hi
    obtain ⟨o', ho', hs'⟩ := (mapE_range hm').2 i hi
    rw [ho, ho']
    have hp : problemNumba (metaSparse second res) (othersSparse A1) A1 Sm (yfun y) i =
        problemNumba (metaSparse second res') (othersSparse A1) A1 Sm (yfun y') i := by
      unfold problemNumba
      simp only [MetaProblem.mk.injEq, true_and]
      have hcol : ∀ nb, (Sm.rowIdx i).map (numbaRow (metaSparse second res) nb) =
          (Sm.rowIdx i).map (numbaRow (metaSparse second res') nb) := by
        intro nb
        refine List.map_congr_left fun j hj => ?_
        unfold numbaRow
        rw [(hall j hj).2, metaSparse_rowIdx, metaSparse_rowIdx]
      refine ⟨?_, ?_, ?_⟩
      · rw [hcol]
      · refine List.map_congr_left fun k hk => hy k ?_
        rintro rfl
        exact hnb (List.mem_filter.1 hk).1
      · refine List.map_congr_left fun j hj => ?_
        unfold numbaQuery
        rw [(hall j hj).2, metaSparse_rowIdx, metaSparse_rowIdx]
    rw [hp] at hs
    obtain ⟨_, _, g, hg, rfl⟩ := solveNumba_ok hs
    obtain ⟨_, _, g', hg', rfl⟩ := solveNumba_ok hs'
    rw [hg] at hg'
    injection hg' with hg'
    subst hg'
    have hqb : (problemNumba (metaSparse second res') (othersSparse A1) A1 Sm (yfun y') i).bases =
      Sm.rowIdx i := rfl
    rw [hqb, hfm]

/-- C49: change the target of one location and fit again, on any object and with any generator
state. The stacked prediction of that location, and the stacking estimator stored for it, stay the
same: no base estimator it uses and no meta fit it uses has seen the target. This holds with and
without `leave_local_out`, for dense and CSR weights, with and without numba. (For dense weights
`estimator_sample_rate` must not be set, see C55.) -/
theorem C49_own_target_unused (L : Learner K F) (M Mn : Learner K G) (rng : Rng S)
    (p : SParams K C) (st st' : SState K F G C) (s s' : S) (X : Mat K) (y y' : List K)
    (coords : Option C) (W : Option (WMat K)) (i : Nat) (hi : i < X.r)
    (hest : p.estimatorRate = none ∨ ∃ A, W = some (.sparse A))
    (hy : ∀ k, k ≠ i → y.getD k 0 = y'.getD k 0)
    (h : (stackFit L M Mn rng p st s X y coords W).result = .ok ())
    (h' : (stackFit L M Mn rng p st' s' X y' coords W).result = .ok ()) :
    ∃ ps ps' es es',
      (stackFit L M Mn rng p st s X y coords W).state.stackPredictions = some ps ∧
      (stackFit L M Mn rng p st' s' X y' coords W).state.stackPredictions = some ps' ∧
      (stackFit L M Mn rng p st s X y coords W).state.wm.estimators = some es ∧
      (stackFit L M Mn rng p st' s' X y' coords W).state.wm.estimators = some es' ∧
      ps[i]? = ps'[i]? ∧ es[i]? = es'[i]? ∧
      ps.length = X.r ∧ ps'.length = X.r ∧ es.length = X.r ∧ es'.length = X.r := by
  obtain ⟨W0, rate, _, hW0, hrate, he⟩ := stackFit_ok h
  obtain ⟨W0', rate', _, hW0', hrate', he'⟩ := stackFit_ok h'
  rw [hW0] at hW0'
  injection hW0' with hW0'
  subst hW0'
  rw [hrate] at hrate'
  injection hrate' with hrate'
  subst hrate'
  rw [he] at h ⊢
  rw [he'] at h' ⊢
  unfold stackWith at h h' ⊢
  rw [hrate] at h h' ⊢
  cases W0 with
  | dense W0 =>
    have hest : p.estimatorRate = none := by
      rcases hest with h | ⟨A, rfl⟩
      · exact h
      · simp [chosenWeights] at hW0
    simp only at h h' ⊢
    obtain ⟨Sm, W1, idx, res, out, sc, sc', s1, hr, hst, _, _⟩ := stackDense_ok h
    obtain ⟨Sm', W1', idx', res', out', tc, tc', s1', hr', hst', _, _⟩ := stackDense_ok h'
    rw [hst, hst']
    have hb := dense_blind hr hr' hest hi hy
    obtain ⟨_, _, hm⟩ := hr.meta_
    obtain ⟨_, _, hm'⟩ := hr'.meta_
    have hl := (metaStageDense_ok hest hm).2.1
    have hl' := (metaStageDense_ok hest hm').2.1
    refine ⟨_, _, _, _, rfl, rfl, rfl, rfl, ?_, ?_, by simp [hl], by simp [hl'], by simp [hl],
      by simp [hl']⟩
    · rw [List.getElem?_map, List.getElem?_map, hb]
    · rw [List.getElem?_map, List.getElem?_map, hb]
  | sparse A =>
    simp only at h h' ⊢
    obtain ⟨Sm, W1, sec, idx, res, out, sc, sc', s1, hr, hst, _, _⟩ := stackSparse_ok h
    obtain ⟨Sm', W1', sec', idx', res', out', tc, tc', s1', hr', hst', _, _⟩ := stackSparse_ok h'
    rw [hst, hst']
    have hb := sparse_blind hr hr' hi hy
    have hlen : ∀ (y : List K) A1 Sm sec (res : List (BaseOut K F)) (out : List (MetaOut K F G)),
        metaStageSparse M Mn p X.r (yfun y) A1 Sm sec res = .ok out → out.length = X.r := by
      intro y A1 Sm sec res out h
      unfold metaStageSparse at h
      simp only at h
      split at h
      · exact (mapE_range h).1
      · exact (mapE_range h).1
    have hl := hlen _ _ _ _ _ _ hr.meta_
    have hl' := hlen _ _ _ _ _ _ hr'.meta_
    refine ⟨_, _, _, _, rfl, rfl, rfl, rfl, ?_, ?_, by simp [hl], by simp [hl'], by simp [hl],
      by simp [hl']⟩
    · have := congrArg (Option.map fun t => t.1) hb
      simpa [Option.map_map, Function.comp_def] using this
    · have := congrArg (Option.map fun t => some t.2.1) hb
      simpa [Option.map_map, Function.comp_def] using this

end Geo
