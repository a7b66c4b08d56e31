import Verif.Model.WeightModel
import Verif.Props.Shrink
/-
Facts about the model of `weight_model.py` used by several properties.
-/
set_option linter.unusedSectionVars false
namespace Geo
variable {K : Type} [Field K] [LinearOrder K] [IsStrictOrderedRing K] [FloorRing K]
variable {F C S : Type} {α β : Type}

/-! ### Batches -/

theorem arraySplit_flatten (l : List α) (n : Nat) : (arraySplit l (n + 1)).flatten = l := by
  induction n generalizing l with
  | zero => simp [arraySplit, Nat.mod_one]
  | succ n ih =>
    rw [arraySplit]
    simp only [List.flatten_cons, ih, List.take_append_drop]

theorem mapE_flatten (f : α → Except Err β) (ls : List (List α)) :
    (mapE (mapE f) ls).map List.flatten = mapE f ls.flatten := by
  induction ls with
  | nil => rfl
  | cons l ls ih =>
    rw [List.flatten_cons, mapE_append, ← ih]
    simp only [mapE]
    cases mapE f l with
    | error e => rfl
    | ok bs => cases mapE (mapE f) ls <;> rfl

theorem runPatches_eq (task : Nat → Except Err α) (idx : List Nat) {n : ℤ} (hn : 0 < n) :
    runPatches task idx n = mapE task idx := by
  unfold runPatches
  rw [if_neg (by omega)]
  obtain ⟨m, hm⟩ : ∃ m, n.toNat = m + 1 := ⟨n.toNat - 1, by omega⟩
  rw [hm, mapE_flatten, arraySplit_flatten]

theorem runPatches_ok {task : Nat → Except Err α} {idx : List Nat} {n : ℤ} {res : List α}
    (h : runPatches task idx n = .ok res) : mapE task idx = .ok res := by
  by_cases hn : n ≤ 0
  · unfold runPatches at h; rw [if_pos hn] at h; cases h
  · rwa [runPatches_eq _ _ (by omega)] at h

theorem unzipNonempty_ok {l l' : List α} : unzipNonempty l = .ok l' ↔ l = l' ∧ l ≠ [] := by
  cases l with
  | nil => simp [unzipNonempty]
  | cons a l => simp [unzipNonempty]

theorem except_bind_ok {x : Except Err α} {f : α → Except Err β} {b : β} :
    x.bind f = .ok b ↔ ∃ a, x = .ok a ∧ f a = .ok b := by
  cases x <;> simp [Except.bind]

/-! ### `_fit` -/

/-- Whether the `k`-th task is the task of the `k`-th location: not for a dense matrix with
`n_jobs` and sampled locations. -/
def Aligned (nJobs : Option ℤ) (W : WMat K) (idx : List Nat) : Prop :=
  nJobs = none ∨ (∃ A, W = .sparse A) ∨ ∃ n, idx = List.range n

theorem fitAll_ok {L : Learner K F} {X : Mat K} {y : Nat → K} {Xp : Mat K} {W : WMat K}
    {nEst : Nat} {idx : List Nat} {nJobs nPatches : Option ℤ} {cpu : Nat} {res : List (K × F)}
    (h : fitAll L X y (some Xp) W nEst (some idx) nJobs nPatches cpu = .ok res)
    (hal : Aligned nJobs W idx) (hlen : res.length = idx.length) :
    mapE (locTask L X y Xp W nEst) idx = .ok res := by
  unfold fitAll at h
  simp only [Option.getD_some] at h
  cases nJobs with
  | none => cases nPatches <;> exact runPatches_ok h
  | some j =>
    cases nPatches with
    | some n => cases h
    | none =>
      by_cases hj : j = 0
      · simp [hj] at h
      simp only [hj, if_false] at h
      unfold runJobs at h
      cases W with
      | sparse A =>
        obtain ⟨l, hl, hu⟩ := except_bind_ok.1 h
        rw [hl, (unzipNonempty_ok.1 hu).1]
      | dense D =>
        obtain ⟨l, hl, hu⟩ := except_bind_ok.1 h
        obtain ⟨rfl, -⟩ := unzipNonempty_ok.1 hu
        rcases hal with h0 | ⟨A, hA⟩ | ⟨n, rfl⟩
        · cases h0
        · cases hA
        have hlen' := mapE_length hl
        simp only [List.length_range] at hlen hlen'
        rw [hlen] at hlen'
        rw [List.length_range, ← hlen'] at hl
        rw [← hl]
        apply mapE_congr
        intro i hi
        have hi : i < n := by simpa using hi
        unfold zipCount at hlen'
        unfold locTask atIndex
        rw [if_pos]
        refine ⟨?_, ?_, ?_⟩ <;> (first | omega | (show i < D.r; omega))

/-- A successful location is in range of everything. -/
theorem locTask_ok {L : Learner K F} {X : Mat K} {y : Nat → K} {Xp : Mat K} {W : WMat K}
    {nEst i : Nat} {v : K × F} (h : locTask L X y Xp W nEst i = .ok v) :
    i < nEst ∧ i < W.r ∧ i < Xp.r := by
  unfold locTask atIndex at h
  by_contra hc
  rw [if_neg hc] at h
  cases h

theorem locTask_eq {L : Learner K F} {X : Mat K} {y : Nat → K} {Xp : Mat K} {W : WMat K}
    {nEst i : Nat} (h : i < nEst ∧ i < W.r ∧ i < Xp.r) :
    locTask L X y Xp W nEst i = match (generalizing := false) W with
    | .dense W => denseTask L X y Xp W i i
    | .sparse A => sparseTask L X y Xp A i i := by
  unfold locTask atIndex
  rw [if_pos h]
  cases W <;> rfl

/-- A CSR array of the kind scipy calls canonical, or any dense matrix. -/
def WMat.Ok : WMat K → Prop
  | .dense _ => True
  | .sparse A => A.Canonical

theorem fitLocal_congr {L : Learner K F} {X X' : Mat K} {y y' : Nat → K} {e : Nat} {idx : List Nat}
    {ws x x' : List K} (h : ∀ j ∈ idx, X.row j = X'.row j ∧ y j = y' j) :
    (fitLocal L X y e idx ws x).map Prod.snd = (fitLocal L X' y' e idx ws x').map Prod.snd ∧
    (x = x' → fitLocal L X y e idx ws x = fitLocal L X' y' e idx ws x') := by
  have h1 : idx.map X.row = idx.map X'.row := List.map_congr_left fun j hj => (h j hj).1
  have h2 : idx.map y = idx.map y' := List.map_congr_left fun j hj => (h j hj).2
  unfold fitLocal
  rw [h1, h2]
  refine ⟨?_, fun hx => by rw [hx]⟩
  cases L.fit e (idx.map X'.row) (idx.map y') ws <;> rfl

/-- The task of a location only reads the rows with non-zero weight, and the row of the
prediction point. -/
theorem locTask_congr {L : Learner K F} {X X' : Mat K} {y y' : Nat → K} {Xp Xp' : Mat K}
    {W : WMat K} (hW : W.Ok) {n i : Nat} (hr : X'.r = X.r) (hp : Xp'.r = Xp.r)
    (h : ∀ j < X.r, W.toMat.get i j ≠ 0 → X.row j = X'.row j ∧ y j = y' j) :
    (locTask L X y Xp W n i).map Prod.snd = (locTask L X' y' Xp' W n i).map Prod.snd ∧
    (Xp.row i = Xp'.row i → locTask L X y Xp W n i = locTask L X' y' Xp' W n i) := by
  unfold locTask atIndex
  rw [hp]
  split
  swap
  · exact ⟨rfl, fun _ => rfl⟩
  rename_i hb
  cases W with
  | dense D =>
    simp only [denseTask]
    rw [hr]
    split
    · exact ⟨rfl, fun _ => rfl⟩
    rename_i hc
    exact fitLocal_congr fun j hj =>
      h j ((mem_nonzeroIdx.1 hj).1.trans_eq (not_not.1 hc)) (mem_nonzeroIdx.1 hj).2
  | sparse A =>
    simp only [sparseTask]
    rw [hr]
    split
    · exact ⟨rfl, fun _ => rfl⟩
    rename_i hc
    refine fitLocal_congr fun j hj => h j ?_ ?_
    · simp only [Bool.not_eq_true, List.any_eq_false, decide_eq_true_eq, not_le] at hc
      exact hc j hj
    · have := (Csr.Canonical.mem_keep_rowIdx hW _ _ hb.2.1).1 hj
      have h3 : A.entry i j ≠ 0 := by simpa using this.2
      exact h3

/-- Converse of `fitAll_ok`: with a job count, success of all locations is success of `_fit`. -/
theorem fitAll_jobs {L : Learner K F} {X : Mat K} {y : Nat → K} {Xp : Mat K} {W : WMat K}
    {nEst : Nat} {idx : List Nat} {j : ℤ} (hj : j ≠ 0) {cpu : Nat} {res : List (K × F)}
    (h : mapE (locTask L X y Xp W nEst) idx = .ok res) (hne : idx ≠ [])
    (hal : Aligned (some j) W idx) :
    fitAll L X y (some Xp) W nEst (some idx) (some j) none cpu = .ok res := by
  have hres : res ≠ [] := by
    have := mapE_length h
    intro h0
    rw [h0] at this
    exact hne (List.length_eq_zero_iff.1 this.symm)
  unfold fitAll
  simp only [Option.getD_some, hj, if_false]
  unfold runJobs
  cases W with
  | sparse A =>
    simp only
    exact except_bind_ok.2 ⟨res, h, unzipNonempty_ok.2 ⟨rfl, hres⟩⟩
  | dense D =>
    rcases hal with h0 | ⟨A, hA⟩ | ⟨n, rfl⟩
    · cases h0
    · cases hA
    have hn : n ≠ 0 := by rintro rfl; exact hne rfl
    have hlast := locTask_ok (mapE_get h (i := n - 1) (by simp; omega))
    simp only [List.getElem_range] at hlast
    have hz : zipCount (List.range n).length nEst D.r Xp.r = n := by
      have h2 : n - 1 < D.r := hlast.2.1
      unfold zipCount
      rw [List.length_range]
      omega
    simp only [hz]
    refine except_bind_ok.2 ⟨res, ?_, unzipNonempty_ok.2 ⟨rfl, hres⟩⟩
    rw [← h]
    apply mapE_congr
    intro i hi
    have hi : i < n := by simpa using hi
    have h2 : n - 1 < D.r := hlast.2.1
    rw [locTask_eq ⟨by omega, show i < D.r by omega, by omega⟩]

/-! ### `fit` -/

theorem skR2_ok {ys ps : List K} {v : K} (h : skR2 ys ps = .ok v) :
    ys.length = ps.length ∧ ps.length ≠ 1 ∧ ps.length ≠ 0 := by
  unfold skR2 at h
  split at h
  · cases h
  · split at h
    · cases h
    · rename_i h1 h2
      tauto

/-- The targets as a function. -/
abbrev yfun (y : List K) : Nat → K := fun i => y.getD i 0

/-- What a successful fit consists of. -/
theorem wmFit_ok {L : Learner K F} {rng : Rng S} {p : WMParams K C} {st : WMState K F C} {s : S}
    {X : Mat K} {y : List K} {coords : Option C} {W : Option (WMat K)}
    (h : (wmFit L rng p st s X y coords W).result = .ok ()) :
    ∃ W0 idx s' res score,
      checkXy X y = true ∧ chosenWeights p coords W = .ok W0 ∧
      sampleLocations rng s p.sampleRate X.r = (.ok idx, s') ∧
      fitAll L X (yfun y) (some X) (leaveOut p W0) X.r (some idx) p.nJobs p.storedPatches p.cpu
        = .ok res ∧
      res.length = idx.length ∧ 2 ≤ idx.length ∧
      skR2 (idx.map (yfun y)) (res.map Prod.fst) = .ok score ∧
      wmFit L rng p st s X y coords W = ⟨.ok (),
        { stateBegin p st X y coords W with
          weightMatrix := some (leaveOut p W0)
          neighbourMatrix := some (leaveOut p W0).gt0
          localIndices := some idx
          ySample := some (idx.map (yfun y))
          localPredict := some (res.map Prod.fst)
          estimators := some (res.map fun r => if p.cacheEstimator then some r.2 else none)
          score := some score
          residual := some (List.zipWith (fun a b => a - b) (idx.map (yfun y))
            (res.map Prod.fst)) },
        if W.isSome then some (leaveOut p W0) else none, s'⟩ := by
  unfold wmFit at h
  split at h
  swap
  · cases h
  rename_i hc
  split at h
  · cases h
  rename_i W0 hW0
  unfold fitWith at h
  simp only at h
  obtain ⟨sl, s', hs⟩ : ∃ a b, sampleLocations rng s p.sampleRate X.r = (a, b) := ⟨_, _, rfl⟩
  rw [hs] at h
  cases sl with
  | error e => cases h
  | ok idx =>
  simp only at h
  cases hres : fitAll L X (fun i => y.getD i 0) none (leaveOut p W0) X.r (some idx) p.nJobs
      p.storedPatches p.cpu with
  | error e => rw [hres] at h; cases h
  | ok res =>
  rw [hres] at h
  simp only [stateEnd] at h
  cases hsc : skR2 (idx.map (yfun y)) (res.map Prod.fst) with
  | error e => rw [hsc] at h; cases h
  | ok score =>
  have hl := skR2_ok hsc
  simp only [List.length_map] at hl
  refine ⟨W0, idx, s', res, score, hc, hW0, hs, hres, hl.1.symm, by omega, hsc, ?_⟩
  unfold wmFit
  rw [if_pos hc, hW0]
  simp only
  unfold fitWith
  rw [hs]
  simp only
  rw [hres]
  simp only [stateEnd]
  rw [hsc]

end Geo
