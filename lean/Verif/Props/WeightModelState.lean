import Verif.Props.WeightModel
/-
C40-C42: sparse and dense weight matrices, the caller's matrix, failed fits.
-/
set_option linter.unusedSectionVars false
namespace Geo
variable {K : Type} [Field K] [LinearOrder K] [IsStrictOrderedRing K] [FloorRing K]
variable {F C S : Type}

/-! ### C40 -/

theorem ne0_rowIdx {A : Csr K} (h : A.Canonical) {i : Nat} (hi : i < A.r) :
    A.ne0.rowIdx i = nonzeroIdx A.c (A.entry i) := by
  have hc : A.ne0.Canonical := Csr.Canonical.keep h _ _
  have hm : ∀ j, j ∈ A.ne0.rowIdx i ↔ j ∈ nonzeroIdx A.c (A.entry i) := by
    intro j
    refine (Csr.Canonical.mem_keep_rowIdx h _ _ hi).trans (Iff.trans ?_ mem_nonzeroIdx.symm)
    simp only [decide_eq_true_eq]
    constructor
    · rintro ⟨h1, h2⟩; exact ⟨h.rowIdx_lt h1, h2⟩
    · rintro ⟨-, h2⟩
      refine ⟨?_, h2⟩
      by_contra hn
      exact h2 (Csr.entry_of_not_mem hn)
  have hs : (A.ne0.rowIdx i).Pairwise (· < ·) :=
    hc.sorted i (by rw [Csr.ne0, Csr.keep_r]; exact hi)
  have hs' : (nonzeroIdx A.c (A.entry i)).Pairwise (· < ·) :=
    List.Pairwise.filter _ List.pairwise_lt_range
  apply List.Perm.eq_of_pairwise (le := (· < ·)) (fun _ _ _ _ h1 h2 => absurd h1 (Nat.lt_asymm h2))
    hs hs'
  exact (List.perm_ext_iff_of_nodup (nodup_of_lt hs) (nodup_of_lt hs')).2 hm

theorem Csr.NoZeros.rowData {A : Csr K} (hz : A.NoZeros) {i : Nat} {x : K} (hx : x ∈ A.rowData i) :
    x ≠ 0 := hz x (mem_of_mem_slice hx)

theorem ne0_rowIdx_of_noZeros {A : Csr K} (h : A.Canonical) (hz : A.NoZeros) {i : Nat}
    (hi : i < A.r) : A.ne0.rowIdx i = A.rowIdx i := by
  unfold Csr.ne0
  rw [Csr.keep_rowIdx _ _ _ hi, List.filter_eq_self.2]
  · unfold Csr.row
    rw [List.map_fst_zip]
    rw [h.rowData_length hi]
  · intro e he
    simpa using hz.rowData (List.of_mem_zip (a := e.1) (b := e.2) he).2

theorem task_sparse_eq_dense {L : Learner K F} {X Xp : Mat K} {y : Nat → K} {A : Csr K} {D : Mat K}
    (h : A.Canonical) (hz : A.NoZeros) (hc : A.c = X.r) (hD : A.dense.Same D) {n i : Nat} :
    locTask L X y Xp (.sparse A) n i = locTask L X y Xp (.dense D) n i := by
  have hr : A.r = D.r := hD.1
  have hcc : A.c = D.c := hD.2.1
  unfold locTask atIndex
  have e : (WMat.sparse A).r = (WMat.dense D).r := hr
  rw [e]
  split
  swap
  · rfl
  rename_i hb
  have hi : i < A.r := hr ▸ hb.2.1
  simp only [sparseTask, denseTask]
  rw [if_neg (show ¬ D.c ≠ X.r by rw [← hcc, hc]; simp)]
  have hidx : A.ne0.rowIdx i = nonzeroIdx D.c (D.get i) := by
    rw [ne0_rowIdx h hi, ← hcc]
    unfold nonzeroIdx
    apply List.filter_congr
    intro j hj
    have hj : j < A.c := by simpa using hj
    have : A.entry i j = D.get i j := hD.2.2 i hi j hj
    rw [this]
  rw [if_neg]
  · have hw : A.rowData i = (A.ne0.rowIdx i).map (D.get i) := by
      rw [ne0_rowIdx_of_noZeros h hz hi, ← h.map_entry hi]
      apply List.map_congr_left
      intro j hj
      exact hD.2.2 i hi j (h.rowIdx_lt hj)
    rw [hw, hidx]
  · simp only [Bool.not_eq_true, List.any_eq_false, decide_eq_true_eq, not_le]
    intro j hj
    rw [hidx] at hj
    have := (mem_nonzeroIdx.1 hj).1
    omega

theorem keep_noZeros (A : Csr K) (q : Nat → Nat → K → Bool) (hq : ∀ i j x, q i j x = true → x ≠ 0) :
    (A.keep q id).NoZeros := by
  intro x hx
  simp only [Csr.keep, Csr.ofRows, id_eq, List.mem_map, List.mem_flatten] at hx
  obtain ⟨e, ⟨l, ⟨i, -, rfl⟩, he⟩, rfl⟩ := hx
  exact hq _ _ _ (List.mem_filter.1 he).2

/-- The weight matrix used, for the two representations of one matrix. -/
theorem leaveOut_sparse_dense (p : WMParams K C) {A : Csr K} (h : A.Canonical)
    (hz : p.leaveLocalOut = true ∨ A.NoZeros) :
    ∃ A' D, leaveOut p (.sparse A) = .sparse A' ∧ leaveOut p (.dense A.dense) = .dense D ∧
      A'.Canonical ∧ A'.NoZeros ∧ A'.r = A.r ∧ A'.c = A.c ∧ A'.dense.Same D := by
  unfold leaveOut
  by_cases hl : p.leaveLocalOut = true
  · rw [if_pos hl, if_pos hl]
    refine ⟨_, _, rfl, rfl, Csr.Canonical.keep h _ _, keep_noZeros _ _ ?_, Csr.keep_r _ _ _, rfl, ?_⟩
    · intro i j x hx
      simp only [Bool.and_eq_true, decide_eq_true_eq] at hx
      exact hx.2
    · have hr := Csr.keep_r A (fun i j x => decide (i ≠ j) && decide (x ≠ 0)) (id : K → K)
      refine ⟨hr, rfl, ?_⟩
      intro i hi j hj
      have hi : i < A.r := hr ▸ hi
      show (A.keep _ id).entry i j = if i = j then 0 else A.entry i j
      rw [Csr.Canonical.keep_entry h _ _ hi]
      by_cases hij : i = j
      · simp [hij]
      · by_cases h0 : A.entry i j = 0
        · simp [h0]
        · have : j ∈ A.rowIdx i := by
            by_contra hn
            exact h0 (Csr.entry_of_not_mem hn)
          simp [hij, h0, this]
  · rw [if_neg hl, if_neg hl]
    exact ⟨A, A.dense, rfl, rfl, h, hz.resolve_left hl, rfl, rfl, Mat.Same.refl _⟩

/-- C40: a weight matrix gives the same fit in sparse and in dense form: same outcome, same
random draws, same estimators, predictions, score and residuals. The stored weight and
neighbour matrices differ only in representation. (With `n_jobs`, combine with
`C39_jobs_eq_batches`.) -/
theorem C40_sparse_eq_dense (L : Learner K F) (rng : Rng S) (p : WMParams K C)
    (st : WMState K F C) (s : S) (X : Mat K) (y : List K) (coords : Option C) (A : Csr K)
    (h : A.Canonical) (hz : p.leaveLocalOut = true ∨ A.NoZeros) (hc : A.c = X.r)
    (hj : p.nJobs = none) :
    let a := wmFit L rng p st s X y coords (some (.sparse A))
    let b := wmFit L rng p st s X y coords (some (.dense A.dense))
    a.result = b.result ∧ a.rng = b.rng ∧
    { a.state with weightMatrix := none, neighbourMatrix := none } =
      { b.state with weightMatrix := none, neighbourMatrix := none } ∧
    (a.result = .ok () → ∃ A' D N M,
      a.state.weightMatrix = some (.sparse A') ∧ b.state.weightMatrix = some (.dense D) ∧
      A'.dense.Same D ∧
      a.state.neighbourMatrix = some (.sparse N) ∧ b.state.neighbourMatrix = some (.dense M) ∧
      ∀ i < A.r, ∀ j < A.c, (j ∈ N.rowIdx i ↔ M.get i j = true)) := by
  obtain ⟨A', D, h1, h2, hA', hz', hr', hc', hD⟩ := leaveOut_sparse_dense p h hz
  have htask : ∀ n, locTask L X (yfun y) X (.sparse A') n = locTask L X (yfun y) X (.dense D) n :=
    fun n => funext fun i => task_sparse_eq_dense hA' hz' (hc'.trans hc) hD
  have hfit : ∀ idx, fitAll L X (yfun y) none (leaveOut p (.sparse A)) X.r (some idx) p.nJobs
      p.storedPatches p.cpu = fitAll L X (yfun y) none (leaveOut p (.dense A.dense)) X.r (some idx)
      p.nJobs p.storedPatches p.cpu := by
    intro idx
    rw [h1, h2, hj]
    unfold fitAll
    simp only [Option.getD_some, Option.getD_none, htask]
    cases p.storedPatches <;> rfl
  have hN : ∀ i < A.r, ∀ j < A.c, (j ∈ A'.gt0.rowIdx i ↔ (gt0 D).get i j = true) := by
    intro i hi j hj
    unfold Csr.gt0
    rw [Csr.Canonical.mem_keep_rowIdx hA' _ _ (hr' ▸ hi)]
    have : A'.entry i j = D.get i j := hD.2.2 i (by show i < A'.r; omega) j (by show j < A'.c; omega)
    simp only [decide_eq_true_eq, gt0, Mat.map, this]
    constructor
    · exact fun h => h.2
    · intro hp
      refine ⟨?_, hp⟩
      by_contra hn
      rw [← this, Csr.entry_of_not_mem hn] at hp
      exact lt_irrefl _ hp
  simp only
  unfold wmFit
  by_cases hxy : checkXy X y = true
  swap
  · simp [hxy]
  rw [if_pos hxy, if_pos hxy]
  simp only [chosenWeights]
  unfold fitWith
  have hb : stateBegin p st X y coords (some (.sparse A)) =
      stateBegin p st X y coords (some (.dense A.dense)) := rfl
  rw [hb]
  generalize stateBegin p st X y coords (some (.dense A.dense)) = st0
  obtain ⟨sl, s', hs⟩ : ∃ a b, sampleLocations rng s p.sampleRate X.r = (a, b) := ⟨_, _, rfl⟩
  rw [hs]
  cases sl with
  | error e => exact ⟨rfl, rfl, rfl, fun h => by cases h⟩
  | ok idx =>
    simp only
    have hf := hfit idx
    rw [hf]
    cases fitAll L X (yfun y) none (leaveOut p (.dense A.dense)) X.r (some idx) p.nJobs
      p.storedPatches p.cpu with
    | error e => exact ⟨rfl, rfl, rfl, fun h => by cases h⟩
    | ok res =>
      simp only [stateEnd]
      cases skR2 (idx.map fun i => y.getD i 0) (res.map Prod.fst) with
      | error e => exact ⟨rfl, trivial, rfl, fun h => by cases h⟩
      | ok sc =>
        refine ⟨rfl, trivial, rfl, fun _ => ⟨A', D, A'.gt0, gt0 D, ?_⟩⟩
        simp only [h1, h2, WMat.gt0, true_and]
        exact ⟨hD, hN⟩

/-- C38: what the `k`-th stored entries are. For the location `i = local_indices_[k]`, the learner
is fitted on exactly the rows with non-zero weight for `i`, with these weights, and predicts at
the predictors of `i`; the `k`-th residual compares it with the target of `i`. -/
theorem C38_kth_location (L : Learner K F) (rng : Rng S) (p : WMParams K C) (st : WMState K F C)
    (s : S) (X : Mat K) (y : List K) (coords : Option C) (W : Option (WMat K))
    (hcan : ∀ A, W = some (.sparse A) → A.Canonical ∧ (p.leaveLocalOut = true ∨ A.NoZeros))
    (hal : p.nJobs = none ∨ p.sampleRate = none ∨ ∃ A, W = some (.sparse A))
    (hok : (wmFit L rng p st s X y coords W).result = .ok ())
    {Wm : WMat K} {idx : List Nat} {k i : Nat}
    (hWm : (wmFit L rng p st s X y coords W).state.weightMatrix = some Wm)
    (hidx : (wmFit L rng p st s X y coords W).state.localIndices = some idx)
    (hk : idx[k]? = some i) (hc : Wm.toMat.c = X.r) :
    let rows := (List.range X.r).filter fun j => Wm.toMat.get i j ≠ 0
    ∃ f, L.fit i (rows.map X.row) (rows.map fun j => y.getD j 0) (rows.map (Wm.toMat.get i)) = .ok f ∧
      (wmFit L rng p st s X y coords W).state.localPredict.bind (·[k]?) =
        some (L.predict f (X.row i)) ∧
      (wmFit L rng p st s X y coords W).state.estimators.bind (·[k]?) =
        some (if p.cacheEstimator then some f else none) ∧
      (wmFit L rng p st s X y coords W).state.residual.bind (·[k]?) =
        some (y.getD i 0 - L.predict f (X.row i)) := by
  obtain ⟨W0, idx0, s1, res, sc, -, hW0, hs, hf, hl, -, -, hout⟩ := wmFit_ok hok
  rw [hout] at hWm hidx ⊢
  cases hWm
  cases hidx
  have hm := fitAll_ok hf (aligned_of (C := C) hW0 hs hal) hl
  have hk' : k < idx.length := by
    rw [List.getElem?_eq_some_iff] at hk; exact hk.1
  have hki : idx[k] = i := by
    rw [List.getElem?_eq_getElem hk'] at hk; exact Option.some.inj hk
  have hkr : k < res.length := by omega
  have h1 := mapE_get hm hk'
  rw [hki] at h1
  have h2 : locTask L X (yfun y) X (.dense (leaveOut p W0).toMat) X.r i = .ok res[k] := by
    rw [← h1]
    cases W0 with
    | dense D =>
      unfold leaveOut
      split <;> rfl
    | sparse A =>
      have hA : A.Canonical ∧ (p.leaveLocalOut = true ∨ A.NoZeros) := by
        apply hcan
        unfold chosenWeights at hW0
        cases W with
        | some W => cases hW0; rfl
        | none =>
          cases coords with
          | none => cases hW0
          | some c =>
            simp only at hW0
            cases hw : p.weights c c with
            | error e => rw [hw] at hW0; cases hW0
            | ok D => rw [hw] at hW0; cases hW0
      obtain ⟨A', D, e1, e2, hA', hz', hr', hc', hD⟩ := leaveOut_sparse_dense p hA.1 hA.2
      rw [e1] at hc ⊢
      exact (task_sparse_eq_dense hA' hz' hc (Mat.Same.refl _)).symm
  rw [locTask_eq (locTask_ok h2)] at h2
  simp only [denseTask, hc, ne_eq, not_true_eq_false, if_false, fitLocal, nonzeroIdx] at h2
  simp only
  generalize hrows : (List.range X.r).filter (fun j => (leaveOut p W0).toMat.get i j ≠ 0) = rows
  simp only [ne_eq] at hrows
  rw [hrows] at h2
  cases hfit : L.fit i (rows.map X.row) (rows.map (yfun y))
      (rows.map ((leaveOut p W0).toMat.get i)) with
  | error e => rw [hfit] at h2; cases h2
  | ok f =>
    rw [hfit] at h2
    have h2 : (L.predict f (X.row i), f) = res[k] := Except.ok.inj h2
    refine ⟨f, rfl, ?_, ?_, ?_⟩
    · simp [hkr, ← h2]
    · simp [hkr, ← h2]
    · simp [hkr, hk', ← h2, hki]

/-- The example matrix of this file as a CSR array. -/
def exSparse : Csr ℚ := ⟨3, 3, [0, 2, 4, 6], [1, 2, 0, 2, 0, 1], [1, 2, 1, 3, 2, 3]⟩

theorem exSparse_canonical : exSparse.Canonical :=
  ⟨rfl, rfl, by decide, rfl, rfl, by decide, by decide⟩

example : exSparse.Canonical ∧ exSparse.NoZeros ∧ exSparse.c = exX.r ∧
    (wmFit meanLearner countRng exP {} 0 exX exY none (some (.sparse exSparse))).result = .ok () ∧
    (wmFit meanLearner countRng exP {} 0 exX exY none (some (.sparse exSparse))).state.localPredict
      = some [3, 11 / 4, 27 / 5] :=
  ⟨exSparse_canonical, by unfold Csr.NoZeros; decide +kernel, rfl, by decide +kernel⟩

/-- C40: explicitly stored zeros are not harmless. Without `leave_local_out`, a learner that checks
that there is one weight per row makes `fit` fail as soon as one row of the sparse matrix stores
a zero, while the dense form of the same matrix is accepted or not on its merits. -/
theorem C40_stored_zero_rejected (L : Learner K F) (rng : Rng S) (p : WMParams K C)
    (st : WMState K F C) (s : S) (X : Mat K) (y : List K) (coords : Option C) (A : Csr K)
    (h : A.Canonical) (hl : p.leaveLocalOut = false) (hs : p.sampleRate = none)
    (hL : ∀ e xs ys ws, xs.length ≠ ws.length → ∃ err, L.fit e xs ys ws = .error err)
    {i : Nat} (hi : i < A.r) (hx : i < X.r) (h0 : (0 : K) ∈ A.rowData i) :
    (wmFit L rng p st s X y coords (some (.sparse A))).result ≠ .ok () := by
  intro hok
  obtain ⟨W0, idx, s', res, sc, -, hW0, hsl, hf, hlen, -⟩ := wmFit_ok hok
  cases hW0
  rw [hs] at hsl
  cases hsl
  have hlo : leaveOut p (.sparse A) = .sparse A := by unfold leaveOut; simp [hl]
  rw [hlo] at hf
  have hm := fitAll_ok hf (.inr (.inl ⟨A, rfl⟩)) hlen
  have ht := mapE_get hm (i := i) (by simpa using hx)
  simp only [List.getElem_range] at ht
  rw [locTask_eq (locTask_ok ht)] at ht
  simp only [sparseTask] at ht
  split at ht
  · cases ht
  obtain ⟨err, he⟩ := hL i ((A.ne0.rowIdx i).map X.row) ((A.ne0.rowIdx i).map (yfun y))
    (A.rowData i) (by
      rw [List.length_map]
      apply Nat.ne_of_lt
      unfold Csr.ne0
      rw [Csr.keep_rowIdx _ _ _ hi, List.length_map]
      have hrow : (A.row i).length = (A.rowData i).length := by
        unfold Csr.row; rw [List.length_zip, h.rowData_length hi]; omega
      rw [← hrow]
      obtain ⟨k, hk, hk0⟩ := List.getElem_of_mem h0
      apply List.length_filter_lt_length_iff_exists.2
      refine ⟨((A.rowIdx i)[k]'(by rw [← h.rowData_length hi]; exact hk), (A.rowData i)[k]), ?_, ?_⟩
      · unfold Csr.row
        exact List.mem_iff_getElem.2 ⟨k, by rw [List.length_zip, h.rowData_length hi]
                                            rw [h.rowData_length hi] at hk
                                            omega, by simp⟩
      · simp [hk0])
  unfold fitLocal at ht
  rw [he] at ht
  cases ht

example : (⟨2, 2, [0, 2, 3], [0, 1, 0], [0, 1, 1]⟩ : Csr ℚ).Canonical ∧
    (0 : ℚ) ∈ (⟨2, 2, [0, 2, 3], [0, 1, 0], [0, 1, 1]⟩ : Csr ℚ).rowData 0 :=
  ⟨⟨rfl, rfl, by decide, rfl, rfl, by decide, by decide⟩, by decide +kernel⟩

/-! ### C41 -/

/-- The caller's array after the call. -/
theorem wmFit_caller (L : Learner K F) (rng : Rng S) (p : WMParams K C) (st : WMState K F C)
    (s : S) (X : Mat K) (y : List K) (coords : Option C) (W : WMat K) :
    (wmFit L rng p st s X y coords (some W)).caller =
      if checkXy X y then some (leaveOut p W) else some W := by
  unfold wmFit
  split
  swap
  · rfl
  simp only [chosenWeights]
  unfold fitWith
  obtain ⟨sl, s', hs⟩ : ∃ a b, sampleLocations rng s p.sampleRate X.r = (a, b) := ⟨_, _, rfl⟩
  rw [hs]
  cases sl with
  | error e => rfl
  | ok idx =>
    simp only
    cases fitAll L X (fun i => y.getD i 0) none (leaveOut p W) X.r (some idx) p.nJobs
      p.storedPatches p.cpu <;> rfl

/-- C41: without `leave_local_out` the weight matrix passed in is left as it is. -/
theorem C41_unchanged (L : Learner K F) (rng : Rng S) (p : WMParams K C) (st : WMState K F C)
    (s : S) (X : Mat K) (y : List K) (coords : Option C) (W : WMat K)
    (hl : p.leaveLocalOut = false) :
    (wmFit L rng p st s X y coords (some W)).caller = some W := by
  rw [wmFit_caller]
  unfold leaveOut
  simp [hl]

/-- C41: with `leave_local_out` (the default) the diagonal of the caller's own array is
overwritten with zeros, whether the fit succeeds or not; nothing else in it changes. -/
theorem C41_overwritten (L : Learner K F) (rng : Rng S) (p : WMParams K C) (st : WMState K F C)
    (s : S) (X : Mat K) (y : List K) (coords : Option C) (W : WMat K) (hW : W.Ok)
    (hl : p.leaveLocalOut = true) (hxy : checkXy X y = true) :
    ∃ W', (wmFit L rng p st s X y coords (some W)).caller = some W' ∧
      W'.toMat.r = W.toMat.r ∧ W'.toMat.c = W.toMat.c ∧
      ∀ i < W.toMat.r, ∀ j < W.toMat.c,
        W'.toMat.get i j = if i = j then 0 else W.toMat.get i j := by
  refine ⟨leaveOut p W, by rw [wmFit_caller, if_pos hxy], ?_⟩
  cases W with
  | dense D =>
    unfold leaveOut
    rw [if_pos hl]
    exact ⟨rfl, rfl, fun _ _ _ _ => rfl⟩
  | sparse A =>
    obtain ⟨A', D, h1, h2, -, -, hr, hc, hs⟩ := leaveOut_sparse_dense p hW (.inl hl)
    rw [h1]
    refine ⟨hr, hc, ?_⟩
    intro i hi j hj
    have := hs.2.2 i (by show i < A'.r; rw [hr]; exact hi) j (by show j < A'.c; rw [hc]; exact hj)
    refine this.trans ?_
    unfold leaveOut at h2
    rw [if_pos hl] at h2
    cases h2
    rfl

/-- C41: so a second model fitted with the same array does not see the caller's matrix: here a
model with `leave_local_out=False` gives another score after a first model used the array. -/
theorem C41_second_model :
    let q : WMParams ℚ Unit := { exP with leaveLocalOut := false }
    let first := wmFit meanLearner countRng exP {} 0 exX exY none (some (.dense exWd))
    let fresh := wmFit meanLearner countRng q {} 0 exX exY none (some (.dense exWd))
    let second := wmFit meanLearner countRng q {} 0 exX exY none first.caller
    first.result = .ok () ∧ fresh.result = .ok () ∧ second.result = .ok () ∧
    second.state.score ≠ fresh.state.score ∧ second.state.score = first.state.score := by
  decide +kernel

/-! ### C42 -/

/-- C42: data that `check_X_y` refuses leave the object, the matrix and the generator alone. -/
theorem C42_refused_data (L : Learner K F) (rng : Rng S) (p : WMParams K C) (st : WMState K F C)
    (s : S) (X : Mat K) (y : List K) (coords : Option C) (W : Option (WMat K))
    (h : X.r ≠ y.length ∨ X.r = 0 ∨ X.c = 0) :
    wmFit L rng p st s X y coords W = ⟨.error .valueError, st, W, s⟩ := by
  unfold wmFit
  rw [if_neg]
  unfold checkXy
  simp only [decide_eq_true_eq]
  omega

theorem wmFit_state (L : Learner K F) (rng : Rng S) (p : WMParams K C) (st : WMState K F C)
    (s : S) (X : Mat K) (y : List K) (coords : Option C) (W : Option (WMat K))
    (h : checkXy X y = true) :
    (wmFit L rng p st s X y coords W).state.isFitted = true ∧
    ((wmFit L rng p st s X y coords W).result ≠ .ok () →
      (wmFit L rng p st s X y coords W).state.score = st.score ∧
      (wmFit L rng p st s X y coords W).state.residual = st.residual ∧
      ∀ W0, W = some W0 →
        (wmFit L rng p st s X y coords W).state.weightMatrix = some (leaveOut p W0)) := by
  have hb : (stateBegin p st X y coords W).isFitted = true ∧
      (stateBegin p st X y coords W).score = st.score ∧
      (stateBegin p st X y coords W).residual = st.residual := by
    unfold stateBegin
    simp only
    split_ifs <;> exact ⟨rfl, rfl, rfl⟩
  unfold wmFit
  rw [if_pos h]
  cases hW : chosenWeights p coords W with
  | error e =>
    refine ⟨hb.1, fun _ => ⟨hb.2.1, hb.2.2, fun W0 hW0 => ?_⟩⟩
    rw [hW0] at hW
    cases hW
  | ok W1 =>
    simp only
    have hW' : ∀ W0, W = some W0 → some (leaveOut p W1) = some (leaveOut p W0) := by
      rintro W0 rfl
      cases hW
      rfl
    unfold fitWith
    obtain ⟨sl, s', hs⟩ : ∃ a b, sampleLocations rng s p.sampleRate X.r = (a, b) := ⟨_, _, rfl⟩
    rw [hs]
    cases sl with
    | error e => exact ⟨hb.1, fun _ => ⟨hb.2.1, hb.2.2, hW'⟩⟩
    | ok idx =>
      simp only
      cases fitAll L X (fun i => y.getD i 0) none (leaveOut p W1) X.r (some idx) p.nJobs
        p.storedPatches p.cpu with
      | error e => exact ⟨hb.1, fun _ => ⟨hb.2.1, hb.2.2, hW'⟩⟩
      | ok res =>
        simp only [stateEnd]
        cases skR2 (idx.map fun i => y.getD i 0) (res.map Prod.fst) with
        | error e => exact ⟨hb.1, fun _ => ⟨hb.2.1, hb.2.2, hW'⟩⟩
        | ok sc => exact ⟨hb.1, fun h => absurd rfl h⟩

/-- C42: after data have been accepted, the object claims to be fitted whatever happens next. -/
theorem C42_claims_fitted (L : Learner K F) (rng : Rng S) (p : WMParams K C) (st : WMState K F C)
    (s : S) (X : Mat K) (y : List K) (coords : Option C) (W : Option (WMat K))
    (h : X.r = y.length) (hr : 0 < X.r) (hc : 0 < X.c) :
    (wmFit L rng p st s X y coords W).state.isFitted = true ∧
    (wmFit L rng p st s X y none none).result = .error .exception := by
  have hxy : checkXy X y = true := by unfold checkXy; simpa using ⟨h, hr, hc⟩
  refine ⟨(wmFit_state L rng p st s X y coords W hxy).1, ?_⟩
  unfold wmFit
  rw [if_pos hxy]
  rfl

/-- C42: a failed fit leaves a mixture: the new weight matrix beside the score and residuals of
the previous fit. -/
theorem C42_mixed_state (L : Learner K F) (rng : Rng S) (p : WMParams K C) (st : WMState K F C)
    (s : S) (X : Mat K) (y : List K) (coords : Option C) (W : WMat K)
    (h : X.r = y.length) (hr : 0 < X.r) (hc : 0 < X.c)
    (herr : (wmFit L rng p st s X y coords (some W)).result ≠ .ok ()) :
    (wmFit L rng p st s X y coords (some W)).state.score = st.score ∧
    (wmFit L rng p st s X y coords (some W)).state.residual = st.residual ∧
    (wmFit L rng p st s X y coords (some W)).state.weightMatrix =
      (wmFit L rng p st s X y coords (some W)).caller := by
  have hxy : checkXy X y = true := by unfold checkXy; simpa using ⟨h, hr, hc⟩
  obtain ⟨h1, h2, h3⟩ := (wmFit_state L rng p st s X y coords (some W) hxy).2 herr
  refine ⟨h1, h2, ?_⟩
  rw [h3 W rfl, wmFit_caller, if_pos hxy]

/-- A fit that fails after a successful one (the last row has no weight). -/
example :
    let st := (wmFit meanLearner countRng exP {} 0 exX exY none (some (.dense exWd))).state
    let bad : Mat ℚ := ⟨3, 3, fun i j => if i = 2 then 0 else if i = j then 0 else 1⟩
    let out := wmFit meanLearner countRng exP st 0 exX [4, 4, 8] none (some (.dense bad))
    out.result = .error .valueError ∧ out.state.isFitted = true ∧
    out.state.y = some [4, 4, 8] ∧ out.state.localPredict = some [3, 11 / 4, 27 / 5] ∧
    out.state.estimators = some [some 3, some (7 / 4), some (17 / 5)] := by decide +kernel

end Geo
