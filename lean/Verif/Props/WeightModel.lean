import Verif.Lemmas.WeightModel
import Verif.Props.Sample
/-
C36-C42: `WeightModel.fit`.
-/
set_option linter.unusedSectionVars false
namespace Geo
variable {K : Type} [Field K] [LinearOrder K] [IsStrictOrderedRing K] [FloorRing K]
variable {F C S : Type}

/-! ### Example data -/

/-- Weighted mean of the targets, shifted by the sum of the predictors. -/
def meanLearner : Learner ℚ ℚ where
  fit _ _ y w := if w.sum = 0 then .error .valueError
    else .ok ((List.zipWith (· * ·) w y).sum / w.sum)
  predict f x := f + x.sum

def exX : Mat ℚ := ⟨3, 1, fun i _ => i⟩
def exY : List ℚ := [1, 5, 2]
def exWd : Mat ℚ := ⟨3, 3, fun i j => if i = j then 1 else (i + j : ℚ)⟩
def exP : WMParams ℚ Unit := 
  { cacheData := true, cacheEstimator := true, cpu := 2, weights := fun _ _ => .error .exception }
/-- A generator that takes the last elements. -/
def lastRng : Rng Nat := ⟨0, fun s l k =>
  (if 0 ≤ k ∧ k ≤ l.length then .ok (l.drop (l.length - k.toNat)) else .error .valueError, s + 1)⟩

theorem lastRng_valid : lastRng.Valid := by
  intro s l k hk
  refine ⟨l.drop (l.length - k), ?_, by simp; omega, (List.drop_sublist _ l).subperm⟩
  simp [lastRng, hk]

/-! ### C37, C36 -/

theorem WMat.Ok.clearDiag {W : WMat K} (h : W.Ok) : W.clearDiag.Ok := by
  cases W with
  | dense D => trivial
  | sparse A => exact Csr.Canonical.keep h _ _

theorem WMat.Ok.leaveOut {W : WMat K} (h : W.Ok) (p : WMParams K C) : (leaveOut p W).Ok := by
  unfold Geo.leaveOut
  split
  · exact h.clearDiag
  · exact h

theorem chosenWeights_ok {p : WMParams K C} {coords : Option C} {W : Option (WMat K)} {W0 : WMat K}
    (h : chosenWeights p coords W = .ok W0) (hcan : ∀ A, W = some (.sparse A) → A.Canonical) :
    W0.Ok := by
  unfold chosenWeights at h
  cases W with
  | some W =>
    cases h
    cases W0 with
    | dense D => trivial
    | sparse A => exact hcan A rfl
  | none =>
    cases coords with
    | none => cases h
    | some c =>
      simp only at h
      cases hw : p.weights c c with
      | error e => rw [hw] at h; cases h
      | ok D => rw [hw] at h; cases h; trivial

theorem aligned_of {rng : Rng S} {s s' : S} {p : WMParams K C} {coords : Option C}
    {W : Option (WMat K)} {W0 : WMat K} {N : Nat} {idx : List Nat}
    (hW0 : chosenWeights p coords W = .ok W0)
    (hs : sampleLocations rng s p.sampleRate N = (.ok idx, s'))
    (hal : p.nJobs = none ∨ p.sampleRate = none ∨ ∃ A, W = some (.sparse A)) :
    Aligned p.nJobs (leaveOut p W0) idx := by
  rcases hal with h | h | ⟨A, h⟩
  · exact .inl h
  · rw [h] at hs
    cases hs
    exact .inr (.inr ⟨N, rfl⟩)
  · rw [h] at hW0
    cases hW0
    refine .inr (.inl ?_)
    unfold leaveOut
    split
    · exact ⟨_, rfl⟩
    · exact ⟨_, rfl⟩

/-- C37: the estimator fitted for a location is determined by the rows of the data with non-zero
weight for that location; the prediction at the location is determined by these rows and the
predictors of the location. Whatever the other rows contain, neither changes. (For a dense matrix
with `n_jobs` and `sample_local_rate` see `C39_sampled_jobs_first_locations`.) -/
theorem C37_locality (L : Learner K F) (rng : Rng S) (p : WMParams K C) (st st' : WMState K F C)
    (s : S) (X X' : Mat K) (y y' : List K) (coords : Option C) (W : Option (WMat K))
    (hcan : ∀ A, W = some (.sparse A) → A.Canonical)
    (hal : p.nJobs = none ∨ p.sampleRate = none ∨ ∃ A, W = some (.sparse A))
    (hr : X'.r = X.r)
    (hok : (wmFit L rng p st s X y coords W).result = .ok ())
    (hok' : (wmFit L rng p st' s X' y' coords W).result = .ok ())
    {Wm : WMat K} {idx : List Nat} {k i : Nat}
    (hWm : (wmFit L rng p st s X y coords W).state.weightMatrix = some Wm)
    (hidx : (wmFit L rng p st s X y coords W).state.localIndices = some idx)
    (hk : idx[k]? = some i)
    (hagree : ∀ j < X.r, Wm.toMat.get i j ≠ 0 → X.row j = X'.row j ∧ y[j]? = y'[j]?) :
    (wmFit L rng p st' s X' y' coords W).state.localIndices = some idx ∧
    (∃ e, (wmFit L rng p st s X y coords W).state.estimators.bind (·[k]?) = some e ∧
      (wmFit L rng p st' s X' y' coords W).state.estimators.bind (·[k]?) = some e) ∧
    (X.row i = X'.row i →
      ∃ v, (wmFit L rng p st s X y coords W).state.localPredict.bind (·[k]?) = some v ∧
        (wmFit L rng p st' s X' y' coords W).state.localPredict.bind (·[k]?) = some v) := by
  obtain ⟨W0, idx0, s1, res, sc, -, hW0, hs, hf, hl, -, -, hout⟩ := wmFit_ok hok
  obtain ⟨W0', idx0', s1', res', sc', -, hW0', hs', hf', hl', -, -, hout'⟩ := wmFit_ok hok'
  rw [hr, hs] at hs'
  rw [hW0] at hW0'
  cases hs'
  cases hW0'
  rw [hout] at hWm hidx ⊢
  rw [hout']
  cases hWm
  cases hidx
  have hOk := (chosenWeights_ok hW0 hcan).leaveOut p
  have hA := aligned_of (C := C) hW0 hs hal
  have hm := fitAll_ok hf hA hl
  have hm' := fitAll_ok hf' hA hl'
  rw [hr] at hm'
  have hk' : k < idx.length := by
    rw [List.getElem?_eq_some_iff] at hk; exact hk.1
  have hki : idx[k] = i := by
    rw [List.getElem?_eq_getElem hk'] at hk; exact Option.some.inj hk
  have h1 := mapE_get hm hk'
  have h2 := mapE_get hm' hk'
  rw [hki] at h1 h2
  have hc := locTask_congr (L := L) (X := X) (X' := X') (y := yfun y) (y' := yfun y') (Xp := X)
    (Xp' := X') hOk (n := X.r) (i := i) hr hr fun j hj hne => by
      refine ⟨(hagree j hj hne).1, ?_⟩
      simp only [List.getD_eq_getElem?_getD, (hagree j hj hne).2]
  have hkr : k < res.length := by omega
  have hkr' : k < res'.length := by omega
  refine ⟨rfl, ?_, ?_⟩
  · have h3 := hc.1
    rw [h1, h2] at h3
    have h3 : res[k].2 = res'[k].2 := Except.ok.inj h3
    refine ⟨if p.cacheEstimator then some res[k].2 else none, ?_, ?_⟩
    · simp [hkr]
    · simp [hkr', h3]
  · intro hx
    have h3 := hc.2 hx
    rw [h1, h2] at h3
    have h3 : res[k] = res'[k] := Except.ok.inj h3
    refine ⟨res[k].1, ?_, ?_⟩
    · simp [hkr]
    · simp [hkr', h3]

theorem WMat.clearDiag_diag {W : WMat K} (h : W.Ok) {i : Nat} (hi : i < W.r) :
    W.clearDiag.toMat.get i i = 0 := by
  cases W with
  | dense D => simp [WMat.clearDiag, WMat.toMat]
  | sparse A =>
    have := Csr.Canonical.keep_entry (β := K) h (fun i j x => decide (i ≠ j) && decide (x ≠ 0)) id
      (i := i) (j := i) hi
    show (A.keep _ id).entry i i = 0
    rw [this]
    simp

/-- C36: with `leave_local_out`, nothing that is recorded about the target or the predictors of a
location reaches the estimator fitted for it, and its target does not reach its prediction. -/
theorem C36_leave_local_out (L : Learner K F) (rng : Rng S) (p : WMParams K C)
    (st st' : WMState K F C)
    (s : S) (X X' : Mat K) (y y' : List K) (coords : Option C) (W : Option (WMat K))
    (hcan : ∀ A, W = some (.sparse A) → A.Canonical)
    (hal : p.nJobs = none ∨ p.sampleRate = none ∨ ∃ A, W = some (.sparse A))
    (hloo : p.leaveLocalOut = true)
    (hr : X'.r = X.r)
    (hok : (wmFit L rng p st s X y coords W).result = .ok ())
    (hok' : (wmFit L rng p st' s X' y' coords W).result = .ok ())
    {idx : List Nat} {k i : Nat}
    (hidx : (wmFit L rng p st s X y coords W).state.localIndices = some idx)
    (hk : idx[k]? = some i)
    (hagree : ∀ j < X.r, j ≠ i → X.row j = X'.row j ∧ y[j]? = y'[j]?) :
    (∃ e, (wmFit L rng p st s X y coords W).state.estimators.bind (·[k]?) = some e ∧
      (wmFit L rng p st' s X' y' coords W).state.estimators.bind (·[k]?) = some e) ∧
    (X.row i = X'.row i →
      ∃ v, (wmFit L rng p st s X y coords W).state.localPredict.bind (·[k]?) = some v ∧
        (wmFit L rng p st' s X' y' coords W).state.localPredict.bind (·[k]?) = some v) := by
  obtain ⟨W0, idx0, s1, res, sc, -, hW0, hs, hf, hl, -, -, hout⟩ := wmFit_ok hok
  have hidx0 : idx0 = idx := by rw [hout] at hidx; exact Option.some.inj hidx
  subst hidx0
  have hA := aligned_of (C := C) hW0 hs hal
  have hm := fitAll_ok hf hA hl
  have hk' : k < idx0.length := by
    rw [List.getElem?_eq_some_iff] at hk; exact hk.1
  have hki : idx0[k] = i := by
    rw [List.getElem?_eq_getElem hk'] at hk; exact Option.some.inj hk
  have hb := locTask_ok (mapE_get hm hk')
  rw [hki] at hb
  have hOk := chosenWeights_ok hW0 hcan
  have hz : (leaveOut p W0).toMat.get i i = 0 := by
    have hi : i < W0.r := by
      have h2 := hb.2.1
      unfold leaveOut at h2
      rw [if_pos hloo] at h2
      cases W0 with
      | dense D => exact h2
      | sparse A => simpa [WMat.clearDiag, WMat.r, Csr.keep_r] using h2
    unfold leaveOut
    rw [if_pos hloo]
    exact WMat.clearDiag_diag hOk hi
  have := C37_locality L rng p st st' s X X' y y' coords W hcan hal hr hok hok'
    (Wm := leaveOut p W0) (idx := idx0) (k := k) (i := i) (by rw [hout]) hidx hk
    (fun j hj hne => hagree j hj fun hji => hne (by rw [hji, hz]))
  exact this.2

/-- The hypotheses of C37 and C36 are met: three locations, a changed target. -/
example :
    (wmFit meanLearner countRng exP {} 0 exX exY none (some (.dense exWd))).result = .ok () ∧
    (wmFit meanLearner countRng exP {} 0 exX (exY.set 1 9) none (some (.dense exWd))).result
      = .ok () ∧
    (wmFit meanLearner countRng exP {} 0 exX exY none (some (.dense exWd))).state.localIndices
      = some [0, 1, 2] ∧
    (wmFit meanLearner countRng exP {} 0 exX exY none (some (.dense exWd))).state.localPredict
      = some [3, 11 / 4, 27 / 5] := by decide +kernel

/-- C36: the restriction on sampling is needed. With a dense matrix, `n_jobs` and
`sample_local_rate`, the number recorded as the prediction of location 1 changes with the target
of location 1 although `leave_local_out` is set. -/
theorem C36_sampled_jobs_leak :
    let p : WMParams ℚ Unit := { exP with nJobs := some 1, sampleRate := some (2 / 3) }
    let a := wmFit meanLearner lastRng p {} 0 exX exY none (some (.dense exWd))
    let b := wmFit meanLearner lastRng p {} 0 exX (exY.set 1 9) none (some (.dense exWd))
    lastRng.Valid ∧ a.result = .ok () ∧ b.result = .ok () ∧
    a.state.localIndices = some [1, 2] ∧ b.state.localIndices = some [1, 2] ∧
    a.state.localPredict.bind (·[0]?) ≠ b.state.localPredict.bind (·[0]?) :=
  ⟨lastRng_valid, by decide +kernel⟩

/-! ### C38: batches -/

theorem fitAll_patches {L : Learner K F} {X : Mat K} {y : Nat → K} {Xp : Option (Mat K)}
    {W : WMat K} {nEst : Nat} {idx : Option (List Nat)} {n : ℤ} (hn : 0 < n) {cpu : Nat} :
    fitAll L X y Xp W nEst idx none (some n) cpu =
      mapE (locTask L X y (Xp.getD X) W nEst) (idx.getD (List.range W.r)) :=
  runPatches_eq _ _ hn

/-- `fit` depends on the job parameters only through `_fit`. -/
theorem wmFit_congr (L : Learner K F) (rng : Rng S) (p q : WMParams K C) (st : WMState K F C)
    (s : S) (X : Mat K) (y : List K) (coords : Option C) (W : Option (WMat K))
    (hq : q = { p with nJobs := q.nJobs, nPatches := q.nPatches, cpu := q.cpu })
    (h : ∀ W0 idx s', chosenWeights p coords W = .ok W0 →
      sampleLocations rng s p.sampleRate X.r = (.ok idx, s') →
      fitAll L X (yfun y) none (leaveOut p W0) X.r (some idx) p.nJobs p.storedPatches p.cpu =
      fitAll L X (yfun y) none (leaveOut p W0) X.r (some idx) q.nJobs q.storedPatches q.cpu) :
    wmFit L rng p st s X y coords W = wmFit L rng q st s X y coords W := by
  have h1 : chosenWeights q coords W = chosenWeights p coords W := by rw [hq]; rfl
  have h2 : stateBegin q st X y coords W = stateBegin p st X y coords W := by rw [hq]; rfl
  have h3 : q.sampleRate = p.sampleRate := by rw [hq]
  have h4 : ∀ W0, leaveOut q W0 = leaveOut p W0 := by intro W0; rw [hq]; rfl
  have h5 : ∀ st ys (res : List (K × F)), stateEnd q st ys res = stateEnd p st ys res := by
    intro _ _ _; rw [hq]; rfl
  unfold wmFit
  rw [h1, h2]
  split
  swap
  · rfl
  split
  · rfl
  rename_i W0 hW0
  unfold fitWith
  rw [h3, h4]
  obtain ⟨sl, s', hs⟩ : ∃ a b, sampleLocations rng s p.sampleRate X.r = (a, b) := ⟨_, _, rfl⟩
  rw [hs]
  cases sl with
  | error e => rfl
  | ok idx =>
    simp only
    have := h W0 idx s' hW0 hs
    rw [this]
    simp only [h5]

/-- C38: the number of batches changes nothing: outcome, every attribute, the caller's matrix and
the generator are the same for any two positive numbers. -/
theorem C38_batches (L : Learner K F) (rng : Rng S) (p : WMParams K C) (st : WMState K F C)
    (s : S) (X : Mat K) (y : List K) (coords : Option C) (W : Option (WMat K)) (n m : ℤ)
    (hn : 0 < n) (hm : 0 < m) :
    wmFit L rng { p with nJobs := none, nPatches := some n } st s X y coords W =
    wmFit L rng { p with nJobs := none, nPatches := some m } st s X y coords W := by
  apply wmFit_congr (hq := rfl)
  intro W0 idx s' _ _
  show fitAll _ _ _ _ _ _ _ none (some n) _ = fitAll _ _ _ _ _ _ _ none (some m) _
  rw [fitAll_patches hn, fitAll_patches hm]

/-- C38: leaving both `n_jobs` and `n_patches` out gives the same result on any machine. -/
theorem C38_default_batches (L : Learner K F) (rng : Rng S) (p : WMParams K C)
    (st : WMState K F C) (s : S) (X : Mat K) (y : List K) (coords : Option C)
    (W : Option (WMat K)) (cpu : Nat) (hc : 0 < cpu) (n : ℤ) (hn : 0 < n) :
    wmFit L rng { p with nJobs := none, nPatches := none, cpu := cpu } st s X y coords W =
    wmFit L rng { p with nJobs := none, nPatches := some n } st s X y coords W := by
  apply wmFit_congr (hq := rfl)
  intro W0 idx s' _ _
  show fitAll _ _ _ _ _ _ _ none (some (cpu : ℤ)) _ = fitAll _ _ _ _ _ _ _ none (some n) _
  rw [fitAll_patches hn, fitAll_patches (by omega)]

example : okAnd (wmFit meanLearner countRng { exP with nPatches := some 2 } {} 0 exX exY none
    (some (.dense exWd))).result (fun _ => true) = true := by decide +kernel

/-- C38: a number of batches below one is refused. -/
theorem C38_no_batches (L : Learner K F) (rng : Rng S) (p : WMParams K C) (st : WMState K F C)
    (s : S) (X : Mat K) (y : List K) (coords : Option C) (W : Option (WMat K)) (n : ℤ)
    (hn : n ≤ 0) :
    (wmFit L rng { p with nJobs := none, nPatches := some n } st s X y coords W).result
      ≠ .ok () := by
  intro h
  obtain ⟨W0, idx, s', res, sc, -, -, -, hf, -⟩ := wmFit_ok h
  have hf : runPatches (locTask L X (yfun y) X _ X.r) idx n = .ok res := hf
  unfold runPatches at hf
  rw [if_pos hn] at hf
  cases hf

/-! ### C39: jobs and batches -/

/-- C39: without sampling, or with a sparse matrix, `n_jobs` and `n_patches` give the same
outcome whenever one of them succeeds. -/
theorem C39_jobs_eq_batches (L : Learner K F) (rng : Rng S) (p : WMParams K C)
    (st : WMState K F C)
    (s : S) (X : Mat K) (y : List K) (coords : Option C) (W : Option (WMat K)) (j n : ℤ)
    (hj : j ≠ 0) (hn : 0 < n) (hal : p.sampleRate = none ∨ ∃ A, W = some (.sparse A))
    (hok : (wmFit L rng { p with nJobs := some j, nPatches := none } st s X y coords W).result
        = .ok () ∨
      (wmFit L rng { p with nJobs := none, nPatches := some n } st s X y coords W).result
        = .ok ()) :
    wmFit L rng { p with nJobs := some j, nPatches := none } st s X y coords W =
    wmFit L rng { p with nJobs := none, nPatches := some n } st s X y coords W := by
  apply wmFit_congr (hq := rfl)
  intro W0 idx s' hW0 hs
  have hA := aligned_of (p := { p with nJobs := some j, nPatches := none }) hW0 hs (.inr hal)
  show fitAll L X (yfun y) (some X) _ X.r (some idx) (some j) none p.cpu =
    fitAll L X (yfun y) (some X) _ X.r (some idx) none (some n) p.cpu
  rw [fitAll_patches hn]
  simp only [Option.getD_some]
  rcases hok with h | h
  · obtain ⟨W1, idx1, s1, res, sc, -, hW1, hs1, hf, hl, -⟩ := wmFit_ok h
    rw [hW0] at hW1
    cases hW1
    rw [hs] at hs1
    cases hs1
    rw [fitAll_ok hf hA hl]
    exact hf
  · obtain ⟨W1, idx1, s1, res, sc, -, hW1, hs1, hf, hl, h2, -⟩ := wmFit_ok h
    have hW1 : chosenWeights { p with nJobs := some j, nPatches := none } coords W = .ok W1 := hW1
    rw [hW0] at hW1
    cases hW1
    have hs1 : sampleLocations rng s p.sampleRate X.r = (.ok idx1, s1) := hs1
    have hs : sampleLocations rng s p.sampleRate X.r = (.ok idx, s') := hs
    rw [hs] at hs1
    cases hs1
    have hm := fitAll_ok hf (.inl rfl) hl
    have hne : idx ≠ [] := by rintro rfl; simp at h2
    rw [show mapE (locTask L X (yfun y) X (leaveOut { p with nJobs := some j, nPatches := none } W0)
      X.r) idx = .ok res from hm]
    exact fitAll_jobs hj hm hne hA

example : (wmFit meanLearner countRng { exP with nJobs := some 4 } {} 0 exX exY none
    (some (.dense exWd))).result = .ok () := by decide +kernel

/-- C39: with a dense matrix, `n_jobs` and `sample_local_rate`, the stored predictions and
estimators are those of the *first* locations, whichever locations were sampled: the `k`-th of them
is the one the unsampled model has for location `k`, while `local_indices_` and `y_sample_` list
the sampled locations. -/
theorem C39_sampled_jobs_first_locations (L : Learner K F) (rng : Rng S) (p : WMParams K C)
    (st st' : WMState K F C) (s s' : S) (X : Mat K) (y : List K) (coords : Option C)
    (W : Option (WMat K)) (hW : ∀ A, W ≠ some (.sparse A)) (j n : ℤ)
    (hok : (wmFit L rng { p with nJobs := some j, nPatches := none } st s X y coords W).result
      = .ok ())
    (hall : (wmFit L rng { p with nJobs := none, nPatches := some n, sampleRate := none }
      st' s' X y coords W).result = .ok ()) {idx : List Nat}
    (hidx : (wmFit L rng { p with nJobs := some j, nPatches := none } st s X y coords
      W).state.localIndices = some idx) :
    let a := (wmFit L rng { p with nJobs := some j, nPatches := none } st s X y coords W).state
    let b := (wmFit L rng { p with nJobs := none, nPatches := some n, sampleRate := none }
      st' s' X y coords W).state
    a.ySample = some (idx.map fun i => y.getD i 0) ∧
    a.localPredict = b.localPredict.map (List.take idx.length) ∧
    a.estimators = b.estimators.map (List.take idx.length) := by
  obtain ⟨W0, idx0, s1, res, sc, -, hW0, hs, hf, hl, -, -, hout⟩ := wmFit_ok hok
  obtain ⟨W0', idx1, s2, res', sc', -, hW0', hs', hf', hl', -, -, hout'⟩ := wmFit_ok hall
  have hidx0 : idx0 = idx := by rw [hout] at hidx; exact Option.some.inj hidx
  subst hidx0
  have hW0' : chosenWeights { p with nJobs := some j, nPatches := none } coords W = .ok W0' := hW0'
  rw [hW0] at hW0'
  cases hW0'
  have hs' : (Except.ok (List.range X.r), s') = (Except.ok idx1, s2) := hs'
  cases hs'
  have hm' := fitAll_ok hf' (.inl rfl) hl'
  simp only
  rw [hout, hout']
  suffices res = res'.take idx0.length by
    simp only [this, List.map_take, Option.map_some, and_self]
  obtain ⟨D, hD⟩ : ∃ D, leaveOut p W0 = .dense D := by
    have : ∃ D, W0 = .dense D := by
      cases W0 with
      | dense D => exact ⟨D, rfl⟩
      | sparse A =>
        exfalso
        unfold chosenWeights at hW0
        cases W with
        | some W => cases hW0; exact hW A rfl
        | none =>
          cases coords with
          | none => cases hW0
          | some c =>
            simp only at hW0
            cases hw : p.weights c c with
            | error e => rw [hw] at hW0; cases hW0
            | ok D => rw [hw] at hW0; cases hW0
    obtain ⟨D, rfl⟩ := this
    unfold leaveOut
    split
    · exact ⟨_, rfl⟩
    · exact ⟨_, rfl⟩
  have hD1 : leaveOut { p with nJobs := some j, nPatches := none } W0 = .dense D := hD
  have hD2 : leaveOut { p with nJobs := none, nPatches := some n, sampleRate := none } W0
    = .dense D := hD
  rw [hD1] at hf
  rw [hD2] at hm'
  unfold fitAll at hf
  by_cases hj : j = 0
  · simp [hj, WMParams.storedPatches] at hf
  simp only [WMParams.storedPatches, Option.getD_some, hj, if_false, runJobs] at hf
  obtain ⟨l, hl1, hu⟩ := except_bind_ok.1 hf
  obtain ⟨rfl, -⟩ := unzipNonempty_ok.1 hu
  have hlz := mapE_length hl1
  rw [List.length_range, hl] at hlz
  have hle : idx0.length ≤ X.r := by rw [hlz]; unfold zipCount; omega
  apply List.ext_getElem
  · rw [List.length_take, hl', List.length_range, hl]; omega
  · intro k h1 h2
    rw [List.getElem_take]
    have hk : k < idx0.length := by omega
    have e1 := mapE_get hl1 (i := k) (by rw [List.length_range]; omega)
    have e2 := mapE_get hm' (i := k) (by rw [List.length_range]; omega)
    rw [locTask_eq (locTask_ok e2)] at e2
    simp only [List.getElem_range] at e1 e2
    rw [e1] at e2
    exact Except.ok.inj e2

/-- A case where this goes wrong: locations 1 and 2 are sampled, the stored predictions are those
of locations 0 and 1, and differ from what `n_patches` stores. -/
theorem C39_sampled_jobs_differ :
    let a := wmFit meanLearner lastRng { exP with nJobs := some 1, sampleRate := some (2 / 3) } {}
      0 exX exY none (some (.dense exWd))
    let b := wmFit meanLearner lastRng { exP with nPatches := some 1, sampleRate := some (2 / 3) }
      {} 0 exX exY none (some (.dense exWd))
    a.result = .ok () ∧ b.result = .ok () ∧ a.state.localIndices = some [1, 2] ∧
    b.state.localIndices = some [1, 2] ∧ a.state.localPredict ≠ b.state.localPredict ∧
    a.state.score ≠ b.state.score := by decide +kernel

end Geo
