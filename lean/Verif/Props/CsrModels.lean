import Verif.Props.InSample
import Verif.Props.TargetChange
import Verif.Props.KernelSmoother
import Verif.Props.MoreData
import Verif.Props.HeldOut
import Verif.Props.StackingExamples
/-
Claims about weight models stated for ndarrays of weights and for coordinates, for weights given as CSR arrays:
C97, C124, C143, C153, C160, C161, C165.
-/
set_option linter.unusedSectionVars false
namespace Geo
variable {K : Type} [Field K] [LinearOrder K] [IsStrictOrderedRing K] [FloorRing K]
  {F C S : Type}

/-- The same parameters with batches in place of jobs. -/
abbrev WMParams.batched (p : WMParams K C) : WMParams K C :=
  { p with nJobs := none, nPatches := if p.nJobs.isSome then some 1 else p.nPatches }

/-- A fit on a CSR array that succeeds is the fit on the ndarray with the same entries, up to the form in which the
weights are stored. -/
theorem csr_fit (L : Learner K F) (rng : Rng S) (p : WMParams K C) (st : WMState K F C) (s : S) (X : Mat K)
    (y : List K) (coords : Option C) (A : Csr K) (hA : A.Canonical) (hz : p.leaveLocalOut = true ∨ A.NoZeros)
    (hc : A.c = X.r) (hok : (wmFit L rng p st s X y coords (some (.sparse A))).result = .ok ()) :
    let a := wmFit L rng p st s X y coords (some (.sparse A))
    let b := wmFit L rng p.batched st s X y coords (some (.dense A.dense))
    b.result = .ok () ∧ a.state.localIndices = b.state.localIndices ∧ a.state.localPredict = b.state.localPredict ∧
      a.state.estimators = b.state.estimators ∧ a.state.score = b.state.score ∧
      a.state.residual = b.state.residual := by
  have hb : wmFit L rng p st s X y coords (some (.sparse A)) =
      wmFit L rng p.batched st s X y coords (some (.sparse A)) := by
    cases hj : p.nJobs with
    | none =>
      have : p.batched = p := by
        cases p
        simp only at hj
        subst hj
        rfl
      rw [this]
    | some j =>
      have hp : p = { p with nJobs := some j, nPatches := none } := by
        cases hn : p.nPatches with
        | none => cases p; simp_all
        | some n =>
          obtain ⟨W0, idx, s', res, sc, -, -, -, hf, -⟩ := wmFit_ok hok
          rw [hj, WMParams.storedPatches, hj, hn] at hf
          simp [fitAll] at hf
      have hj0 : j ≠ 0 := by
        rintro rfl
        obtain ⟨W0, idx, s', res, sc, -, -, -, hf, -⟩ := wmFit_ok hok
        rw [hp] at hf
        simp [fitAll, WMParams.storedPatches] at hf
      have h1 := C39_jobs_eq_batches L rng p st s X y coords (some (.sparse A)) j 1 hj0 one_pos (.inr ⟨A, rfl⟩)
        (.inl (by rw [← hp]; exact hok))
      have h2 : p.batched = { p with nJobs := none, nPatches := some 1 } := by simp [WMParams.batched, hj]
      rw [h2, ← h1, ← hp]
  intro a b
  obtain ⟨h1, h2, h3, -⟩ := C40_sparse_eq_dense L rng p.batched st s X y coords A hA hz hc rfl
  simp only [a, b]
  rw [hb] at hok ⊢
  refine ⟨by rw [← h1]; exact hok, ?_, ?_, ?_, ?_, ?_⟩
  · simpa using congrArg WMState.localIndices h3
  · simpa using congrArg WMState.localPredict h3
  · simpa using congrArg WMState.estimators h3
  · simpa using congrArg WMState.score h3
  · simpa using congrArg WMState.residual h3

/-- C160 for CSR arrays: local predictions. -/
theorem C160_local_predictions_csr (L : Learner K F) (hL : FollowsTargets L) (rng : Rng S) (p : WMParams K C)
    (st st' : WMState K F C) (s : S) (X : Mat K) (y y' : List K) (coords : Option C)
    (A : Csr K) (hA : A.Canonical) (hz : p.leaveLocalOut = true ∨ A.NoZeros) (hc : A.c = X.r)
    (h : (wmFit L rng p st s X y coords (some (.sparse A))).result = .ok ())
    (h' : (wmFit L rng p st' s X y' coords (some (.sparse A))).result = .ok ()) :
    ∃ (idx : List Nat) (ps ps' : List K),
      (wmFit L rng p st s X y coords (some (.sparse A))).state.localIndices = some idx ∧
      (wmFit L rng p st' s X y' coords (some (.sparse A))).state.localIndices = some idx ∧
      (wmFit L rng p st s X y coords (some (.sparse A))).state.localPredict = some ps ∧
      (wmFit L rng p st' s X y' coords (some (.sparse A))).state.localPredict = some ps' ∧
      ps.length = idx.length ∧ ps'.length = idx.length ∧
      ∀ (k i : Nat), idx[k]? = some i → (∀ j < X.r, 0 ≤ A.dense.get i j) → ∀ lo hi : K,
        (∀ j < X.r, A.dense.get i j ≠ 0 → ¬ (p.leaveLocalOut = true ∧ j = i) →
          lo ≤ y'.getD j 0 - y.getD j 0 ∧ y'.getD j 0 - y.getD j 0 ≤ hi) →
        (lo ≤ ps'.getD k 0 - ps.getD k 0 ∧ ps'.getD k 0 - ps.getD k 0 ≤ hi) ∧
        (p.cacheEstimator = true → ∃ f f',
          (wmFit L rng p st s X y coords (some (.sparse A))).state.estimators.bind (·[k]?) = some (some f) ∧
          (wmFit L rng p st' s X y' coords (some (.sparse A))).state.estimators.bind (·[k]?) = some (some f') ∧
          ∀ x, lo ≤ L.predict f' x - L.predict f x ∧ L.predict f' x - L.predict f x ≤ hi) := by
  obtain ⟨a1, a2, a3, a4, -, -⟩ := csr_fit L rng p st s X y coords A hA hz hc h
  obtain ⟨b1, b2, b3, b4, -, -⟩ := csr_fit L rng p st' s X y' coords A hA hz hc h'
  rw [a2, a3, a4, b2, b3, b4]
  exact C160_local_predictions L hL rng p.batched (.inl rfl) st st' s X y y' coords _ A.dense rfl a1 b1

/-- C143 for CSR arrays (`C143_superposition`). -/
theorem C143_superposition_csr (L : Learner K F) (rng : Rng S) (p : WMParams K C) (st st' st'' : WMState K F C)
    (s : S) (X : Mat K)
    (a b : K) (y y' : List K) (coords : Option C)
    (A : Csr K) (hA : A.Canonical) (hz : p.leaveLocalOut = true ∨ A.NoZeros) (hc : A.c = X.r)
    (hsup : ∀ i < X.r, SuperposesAt L i ((trainingSet p X.r A.dense i).map X.row)
      ((trainingSet p X.r A.dense i).map (A.dense.get i)) (X.row i))
    (hrng : rng.Valid) (hrate : ∀ r, p.sampleRate = some r → 0 ≤ r ∧ r ≤ 1)
    (h : (wmFit L rng p st s X y coords (some (.sparse A))).result = .ok ())
    (h' : (wmFit L rng p st' s X y' coords (some (.sparse A))).result = .ok ())
    (h'' : (wmFit L rng p st'' s X (combine a b y y') coords (some (.sparse A))).result = .ok ()) :
    ∃ ps ps' rs rs' : List K, (wmFit L rng p st s X y coords (some (.sparse A))).state.localPredict = some ps ∧
      (wmFit L rng p st' s X y' coords (some (.sparse A))).state.localPredict = some ps' ∧
      (wmFit L rng p st'' s X (combine a b y y') coords (some (.sparse A))).state.localPredict =
        some (combine a b ps ps') ∧
      (wmFit L rng p st s X y coords (some (.sparse A))).state.residual = some rs ∧
      (wmFit L rng p st' s X y' coords (some (.sparse A))).state.residual = some rs' ∧
      (wmFit L rng p st'' s X (combine a b y y') coords (some (.sparse A))).state.residual =
        some (combine a b rs rs') := by
  obtain ⟨a1, -, a3, -, -, a6⟩ := csr_fit L rng p st s X y coords A hA hz hc h
  obtain ⟨b1, -, b3, -, -, b6⟩ := csr_fit L rng p st' s X y' coords A hA hz hc h'
  obtain ⟨c1, -, c3, -, -, c6⟩ := csr_fit L rng p st'' s X (combine a b y y') coords A hA hz hc h''
  rw [a3, b3, c3, a6, b6, c6]
  exact C143_superposition L rng p.batched (.inl rfl) st st' st'' s X a b y y' coords _ A.dense rfl hsup hrng hrate
    a1 b1 c1

/-- C143 for CSR arrays (`C143_hat_matrix`). -/
theorem C143_hat_matrix_csr (L : Learner K F) (rng : Rng S) (hrng : rng.Valid) (p : WMParams K C)
    (hrate : ∀ r, p.sampleRate = some r → 0 ≤ r ∧ r ≤ 1) (s : S) (X : Mat K)
    (coords : Option C)
    (A : Csr K) (hA : A.Canonical) (hz : p.leaveLocalOut = true ∨ A.NoZeros) (hc : A.c = X.r)
    (hsup : ∀ i < X.r, SuperposesAt L i ((trainingSet p X.r A.dense i).map X.row)
      ((trainingSet p X.r A.dense i).map (A.dense.get i)) (X.row i))
    (hany : ∀ e rows ys ys' ws f, ys.length = ys'.length → L.fit e rows ys ws = .ok f →
      ∃ f', L.fit e rows ys' ws = .ok f') :
    ∃ H : Nat → Nat → K,
      (∀ i k, H i k ≠ 0 → A.dense.get i k ≠ 0 ∧ ¬ (p.leaveLocalOut = true ∧ k = i)) ∧
      ∀ (st : WMState K F C) (y : List K), (wmFit L rng p st s X y coords (some (.sparse A))).result = .ok () →
        ∃ idx, (wmFit L rng p st s X y coords (some (.sparse A))).state.localIndices = some idx ∧
          (wmFit L rng p st s X y coords (some (.sparse A))).state.localPredict =
            some (idx.map fun i => ∑ k ∈ Finset.range X.r, H i k * y.getD k 0) ∧
          ((∀ e rows ws c f x, L.fit e rows (rows.map fun _ => c) ws = .ok f → L.predict f x = c) →
            ∀ i ∈ idx, ∑ k ∈ Finset.range X.r, H i k = 1) := by
  obtain ⟨H, h1, h2⟩ := C143_hat_matrix L rng hrng p.batched hrate (.inl rfl) s X coords
    (some (.dense A.dense)) A.dense
    rfl hsup hany
  refine ⟨H, h1, fun st y hok => ?_⟩
  obtain ⟨a1, a2, a3, -, -, -⟩ := csr_fit L rng p st s X y coords A hA hz hc hok
  rw [a2, a3]
  exact h2 st y a1

/-- C160 for CSR arrays (`C160_residuals`). -/
theorem C160_residuals_csr (L : Learner K F) (hL : FollowsTargets L) (rng : Rng S) (hrng : rng.Valid)
    (p : WMParams K C) (hrate : ∀ r, p.sampleRate = some r → 0 ≤ r ∧ r ≤ 1) (st st' : WMState K F C) (s : S)
    (X : Mat K)
    (y y' : List K) (coords : Option C)
    (A : Csr K) (hA : A.Canonical) (hz : p.leaveLocalOut = true ∨ A.NoZeros) (hc : A.c = X.r)
    (hw : ∀ i < X.r, ∀ j < X.r, 0 ≤ A.dense.get i j)
    (h : (wmFit L rng p st s X y coords (some (.sparse A))).result = .ok ())
    (h' : (wmFit L rng p st' s X y' coords (some (.sparse A))).result = .ok ()) (ε : K)
    (hε : ∀ j < X.r, |y'.getD j 0 - y.getD j 0| ≤ ε) :
    ∃ rs rs' : List K, (wmFit L rng p st s X y coords (some (.sparse A))).state.residual = some rs ∧
      (wmFit L rng p st' s X y' coords (some (.sparse A))).state.residual = some rs' ∧ rs.length = rs'.length ∧
      ∀ k < rs.length, |rs'.getD k 0 - rs.getD k 0| ≤ 2 * ε := by
  obtain ⟨a1, -, -, -, -, a6⟩ := csr_fit L rng p st s X y coords A hA hz hc h
  obtain ⟨b1, -, -, -, -, b6⟩ := csr_fit L rng p st' s X y' coords A hA hz hc h'
  rw [a6, b6]
  exact C160_residuals L hL rng hrng p.batched hrate (.inl rfl) st st' s X y y' coords _ A.dense rfl hw a1 b1 ε hε

/-- C161 for CSR arrays (`C161_local_predictions`). -/
theorem C161_local_predictions_csr (L : Learner K F) (hL : IsWeightedMean L) (rng : Rng S) (p : WMParams K C)
    (st : WMState K F C) (s : S) (X : Mat K)
    (y : List K) (coords : Option C)
    (A : Csr K) (hA : A.Canonical) (hz : p.leaveLocalOut = true ∨ A.NoZeros) (hc : A.c = X.r)
    (h : (wmFit L rng p st s X y coords (some (.sparse A))).result = .ok ()) :
    ∃ (idx : List Nat) (ps : List K),
      (wmFit L rng p st s X y coords (some (.sparse A))).state.localIndices = some idx ∧
      (wmFit L rng p st s X y coords (some (.sparse A))).state.localPredict = some ps ∧ ps.length = idx.length ∧
      ∀ (k i : Nat), idx[k]? = some i → ∀ (κ : Nat → K) (z : K), z ≠ 0 →
        (∀ j < X.r, A.dense.get i j = κ j / z) →
        ps[k]? = some
          ((∑ j ∈ Finset.range X.r, if p.leaveLocalOut = true ∧ j = i then 0 else κ j * y.getD j 0) /
            ∑ j ∈ Finset.range X.r, if p.leaveLocalOut = true ∧ j = i then 0 else κ j) := by
  obtain ⟨a1, a2, a3, -, -, -⟩ := csr_fit L rng p st s X y coords A hA hz hc h
  rw [a2, a3]
  exact C161_local_predictions L hL rng p.batched (.inl rfl) st s X y coords _ A.dense rfl a1

/-- C165 for CSR arrays (`C165_in_sample_loss`). -/
theorem C165_in_sample_loss_csr (loss : K → K → K) (pen : F → K) (Q : F → Prop) (L : Learner K F)
    (hL : MinimisesLoss loss pen Q L) (rng : Rng S) (p p' : WMParams K C) (hp : p.leaveLocalOut = true)
    (hp' : p' = { p with leaveLocalOut := false }) (st st' : WMState K F C) (s : S) (X : Mat K)
    (y : List K) (coords : Option C)
    (A : Csr K) (hA : A.Canonical) (hz : A.NoZeros) (hc : A.c = X.r) (hd : ∀ i < X.r, 0 ≤ A.dense.get i i)
    (h : (wmFit L rng p st s X y coords (some (.sparse A))).result = .ok ())
    (h' : (wmFit L rng p' st' s X y coords (some (.sparse A))).result = .ok ()) :
    ∃ (idx : List Nat) (ps qs : List K),
      (wmFit L rng p st s X y coords (some (.sparse A))).state.localIndices = some idx ∧
      (wmFit L rng p' st' s X y coords (some (.sparse A))).state.localIndices = some idx ∧
      (wmFit L rng p st s X y coords (some (.sparse A))).state.localPredict = some ps ∧
      (wmFit L rng p' st' s X y coords (some (.sparse A))).state.localPredict = some qs ∧
      ps.length = idx.length ∧ qs.length = idx.length ∧
      ∀ (k i : Nat) (a b : K), idx[k]? = some i → ps[k]? = some a → qs[k]? = some b →
        loss (y.getD i 0) b ≤ loss (y.getD i 0) a := by
  obtain ⟨a1, a2, a3, -, a5, -⟩ := csr_fit L rng p st s X y coords A hA (.inr hz) hc h
  obtain ⟨b1, b2, b3, -, b5, -⟩ := csr_fit L rng p' st' s X y coords A hA (.inr hz) hc h'
  rw [a2, a3, b2, b3]
  exact C165_in_sample_loss loss pen Q L hL rng p.batched p'.batched hp (by rw [hp']) (.inl rfl) st st' s X y coords _
    A.dense rfl hd a1 b1

/-- C165 for CSR arrays (`C165_least_squares`). -/
theorem C165_least_squares_csr (L : Learner K F) (rng : Rng S) (p p' : WMParams K C)
    (hp : p.leaveLocalOut = true) (hp' : p' = { p with leaveLocalOut := false }) (st st' : WMState K F C) (s : S)
    (X : Mat K)
    (hL : LeastSquares X.c L) (y : List K) (coords : Option C)
    (A : Csr K) (hA : A.Canonical) (hz : A.NoZeros) (hc : A.c = X.r)
    (h : (wmFit L rng p st s X y coords (some (.sparse A))).result = .ok ())
    (h' : (wmFit L rng p' st' s X y coords (some (.sparse A))).result = .ok ()) :
    ∃ (idx : List Nat) (ps qs : List K),
      (wmFit L rng p st s X y coords (some (.sparse A))).state.localIndices = some idx ∧
      (wmFit L rng p st s X y coords (some (.sparse A))).state.localPredict = some ps ∧
      (wmFit L rng p' st' s X y coords (some (.sparse A))).state.localPredict = some qs ∧
      ∀ (k i : Nat) (a b : K), idx[k]? = some i → i < X.r →
        ∀ (κ : Nat → K) (z : K), 0 < z → (∀ j < X.r, 0 ≤ κ j ∧ A.dense.get i j = κ j / z) → 0 < κ i →
        ps[k]? = some a → qs[k]? = some b →
        ∀ d γ, NormalEquations X κ (fun j => if j = i then 1 else 0) d γ →
          0 ≤ linVal X.c d γ (X.row i) ∧ linVal X.c d γ (X.row i) ≤ 1 ∧
          y.getD i 0 - b = (1 - linVal X.c d γ (X.row i)) * (y.getD i 0 - a) := by
  obtain ⟨a1, a2, a3, -, a5, -⟩ := csr_fit L rng p st s X y coords A hA (.inr hz) hc h
  obtain ⟨b1, b2, b3, -, b5, -⟩ := csr_fit L rng p' st' s X y coords A hA (.inr hz) hc h'
  rw [a2, a3, b3]
  exact C165_least_squares L rng p.batched p'.batched hp (by rw [hp'])
    (.inl rfl) st st' s X hL y coords _ A.dense rfl a1 b1

/-- C165 for CSR arrays (`C165_mean`). -/
theorem C165_mean_csr (L : Learner K F) (hL : IsWeightedMean L) (rng : Rng S) (p p' : WMParams K C)
    (hp : p.leaveLocalOut = true) (hp' : p' = { p with leaveLocalOut := false }) (st st' : WMState K F C) (s : S)
    (X : Mat K)
    (y : List K) (coords : Option C)
    (A : Csr K) (hA : A.Canonical) (hz : A.NoZeros) (hc : A.c = X.r)
    (h : (wmFit L rng p st s X y coords (some (.sparse A))).result = .ok ())
    (h' : (wmFit L rng p' st' s X y coords (some (.sparse A))).result = .ok ()) :
    ∃ (idx : List Nat) (ps qs : List K),
      (wmFit L rng p st s X y coords (some (.sparse A))).state.localIndices = some idx ∧
      (wmFit L rng p st s X y coords (some (.sparse A))).state.localPredict = some ps ∧
      (wmFit L rng p' st' s X y coords (some (.sparse A))).state.localPredict = some qs ∧
      ∀ (k i : Nat) (a b : K), idx[k]? = some i → i < X.r →
        ∑ j ∈ Finset.range X.r, A.dense.get i j = 1 → A.dense.get i i ≠ 1 → ps[k]? = some a → qs[k]? = some b →
        y.getD i 0 - b = (1 - A.dense.get i i) * (y.getD i 0 - a) := by
  obtain ⟨a1, a2, a3, -, a5, -⟩ := csr_fit L rng p st s X y coords A hA (.inr hz) hc h
  obtain ⟨b1, b2, b3, -, b5, -⟩ := csr_fit L rng p' st' s X y coords A hA (.inr hz) hc h'
  rw [a2, a3, b3]
  exact C165_mean L hL rng p.batched p'.batched hp (by rw [hp']) (.inl rfl) st st' s X y coords _ A.dense rfl a1 b1

/-- C165 for CSR arrays (`C165_score`). -/
theorem C165_score_csr (pen : F → K) (Q : F → Prop) (L : Learner K F)
    (hL : MinimisesLoss (fun u v => (u - v) ^ 2) pen Q L) (rng : Rng S) (p p' : WMParams K C)
    (hp : p.leaveLocalOut = true) (hp' : p' = { p with leaveLocalOut := false }) (st st' : WMState K F C) (s : S)
    (X : Mat K)
    (y : List K) (coords : Option C)
    (A : Csr K) (hA : A.Canonical) (hz : A.NoZeros) (hc : A.c = X.r) (hd : ∀ i < X.r, 0 ≤ A.dense.get i i)
    (h : (wmFit L rng p st s X y coords (some (.sparse A))).result = .ok ())
    (h' : (wmFit L rng p' st' s X y coords (some (.sparse A))).result = .ok ()) :
    ∃ a b, (wmFit L rng p st s X y coords (some (.sparse A))).state.score = some a ∧
      (wmFit L rng p' st' s X y coords (some (.sparse A))).state.score = some b ∧ a ≤ b := by
  obtain ⟨a1, a2, a3, -, a5, -⟩ := csr_fit L rng p st s X y coords A hA (.inr hz) hc h
  obtain ⟨b1, b2, b3, -, b5, -⟩ := csr_fit L rng p' st' s X y coords A hA (.inr hz) hc h'
  rw [a5, b5]
  exact C165_score pen Q L hL rng p.batched p'.batched hp (by rw [hp'])
    (.inl rfl) st st' s X y coords _ A.dense rfl hd a1 b1

/-- C97 for CSR arrays (`C97_leave_one_out`). -/
theorem C97_leave_one_out_csr (L : Learner K F) (hclone : ∀ e e', L.fit e = L.fit e') (rng : Rng S)
    (hrng : rng.Valid) (p : WMParams K C) (hrate : ∀ r, p.sampleRate = some r → 0 ≤ r ∧ r ≤ 1)
    (hlo : p.leaveLocalOut = true)
    (st : WMState K F C) (s : S) (X : Mat K) (y : List K) (coords : Option C)
    (A : Csr K) (hA : A.Canonical) (hc : A.c = X.r)
    (hok : (wmFit L rng p st s X y coords (some (.sparse A))).result = .ok ())
    {idx : List Nat} (hidx : (wmFit L rng p st s X y coords (some (.sparse A))).state.localIndices = some idx)
    (w : K) (hw0 : 0 < w) (hw : ∀ i < X.r, ∀ j < A.dense.c, A.dense.get i j = w) (k i : Nat)
    (hk : idx[k]? = some i) :
    ∃ f, L.fit 0 ((othersOf X.r i).map X.row) ((othersOf X.r i).map fun j => y.getD j 0)
        ((othersOf X.r i).map fun _ => w) = .ok f ∧
      (ScaleFree L → L.fit 0 ((othersOf X.r i).map X.row) ((othersOf X.r i).map fun j => y.getD j 0)
        ((othersOf X.r i).map fun _ => 1) = .ok f) ∧
      (wmFit L rng p st s X y coords (some (.sparse A))).state.localPredict.bind (·[k]?) =
        some (L.predict f (X.row i)) := by
  obtain ⟨a1, a2, a3, -, -, -⟩ := csr_fit L rng p st s X y coords A hA (.inl hlo) hc hok
  rw [a2] at hidx
  rw [a3]
  exact C97_leave_one_out L hclone rng hrng p.batched hrate
    (.inl rfl) hlo st s X y coords _ a1 rfl hidx w hw0 hw k i hk

/-- C124 for CSR arrays (`C124_weight_model`). -/
theorem C124_weight_model_csr (L : Learner K F) (hclone : ∀ e e', L.fit e = L.fit e')
    (hscale : ScaleFree L) (rng : Rng S) (hrng : rng.Valid) (p : WMParams K C) (hrate : p.sampleRate = none)
    (hlo : p.leaveLocalOut = true) (st : WMState K F C) (s : S) (X points Z : Mat K) (y : List K)
    (hZ : besideCols X points = .ok Z) (coords : Option C)
    (A : Csr K) (hA : A.Canonical) (hc : A.c = Z.r)
    (hok : (wmFit L rng p st s Z y coords (some (.sparse A))).result = .ok ())
    (w : K) (hw0 : 0 < w) (hw : ∀ i < X.r, ∀ j < A.dense.c, A.dense.get i j = w) :
    ∃ d v, fitLlocvModels L X points y = .ok d ∧ d.find "score" = some (.num v) ∧
      (wmFit L rng p st s Z y coords (some (.sparse A))).state.score = some v := by
  obtain ⟨a1, -, -, -, a5, -⟩ := csr_fit L rng p st s Z y coords A hA (.inl hlo) hc hok
  rw [a5]
  exact C124_weight_model L hclone hscale rng hrng p.batched hrate hlo st s X points Z y hZ coords _ a1 rfl w hw0 hw

/-- C153 for CSR arrays (`C153_model`). -/
theorem C153_model_csr (L : Learner K F) (rng : Rng S) (p : WMParams K C) (hsr : p.sampleRate = none)
    (st st' : WMState K F C) (s s' : S) (X X' : Mat K) (y y' : List K) (coords coords' : Option C)
    (A A' : Csr K) (hA : A.Canonical) (hA' : A'.Canonical)
    (hz : p.leaveLocalOut = true ∨ A.NoZeros ∧ A'.NoZeros) (hc : A.c = X.r) (hc' : A'.c = X'.r)
    (hok : (wmFit L rng p st s X y coords (some (.sparse A))).result = .ok ())
    (hok' : (wmFit L rng p st' s' X' y' coords' (some (.sparse A'))).result = .ok ())
    (hn : X.r ≤ X'.r) (hX : ∀ k < X.r, X'.row k = X.row k)
    (hy : ∀ k < X.r, y'.getD k 0 = y.getD k 0)
    (i : Nat) (hi : i < X.r) (hrow : ∀ j < X.r, A'.dense.get i j = A.dense.get i j)
    (hnew : ∀ t, X.r ≤ t → t < X'.r → A'.dense.get i t = 0) :
    let o := wmFit L rng p st s X y coords (some (.sparse A))
    let o' := wmFit L rng p st' s' X' y' coords' (some (.sparse A'))
    (∃ v, o.state.localPredict.bind (·[i]?) = some v ∧ o'.state.localPredict.bind (·[i]?) = some v) ∧
      ∃ e, o.state.estimators.bind (·[i]?) = some e ∧ o'.state.estimators.bind (·[i]?) = some e := by
  obtain ⟨a1, -, a3, a4, -, -⟩ := csr_fit L rng p st s X y coords A hA (hz.imp id And.left) hc hok
  obtain ⟨b1, -, b3, b4, -, -⟩ := csr_fit L rng p st' s' X' y' coords' A' hA' (hz.imp id And.right) hc' hok'
  intro o o'
  simp only [o, o']
  rw [a3, a4, b3, b4]
  exact C153_model L rng p.batched hsr st st' s s' X X' y y' coords coords' _ _ A.dense A'.dense rfl rfl a1 b1 hn hX hy
    i hi hrow hnew

/-- The hypotheses about the array are met, and the fits succeed: with and without `leave_local_out`, with jobs and
with batches, for two targets. -/
example : seA.Canonical ∧ seA.NoZeros ∧ seA.c = seX.r ∧ (∀ i < 4, ∀ j < 4, 0 ≤ seA.dense.get i j) ∧
    ∀ lo ∈ [true, false], ∀ j ∈ [none, some 2], ∀ y ∈ [seY, [3, 4, 4, 0]],
      (wmFit meanLearner countRng { leaveLocalOut := lo, nJobs := j, weights := fun _ _ => .error .exception }
        ({} : WMState ℚ ℚ Unit) 0 seX y none (some (.sparse seA))).result = .ok () := by
  refine ⟨seA_canonical, ?_, rfl, ?_, ?_⟩
  · unfold Csr.NoZeros
    decide +kernel
  all_goals decide +kernel

end Geo
