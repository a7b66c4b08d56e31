import Verif.Props.Randomised
import Verif.Props.StackingSpec
import Verif.Props.TrainingSets
import Verif.Props.StackingExamples
/-
C167: which calls of `regressor.fit` a fit makes.
-/
set_option linter.unusedSectionVars false
namespace Geo
variable {K : Type} [Field K] [LinearOrder K] [IsStrictOrderedRing K] [FloorRing K]
variable {F G C S : Type}

/-- What `regressor.fit` is called with: rows, targets, weights. -/
abbrev FitCall (K : Type) : Type := List (List K) × List K × List K

/-- A regressor that keeps a list of the calls of its `fit`, successful or not. -/
def Learner.recording (L : Learner K F) : RandLearner K F (S × List (FitCall K)) where
  fit s e rows ys ws := (L.fit e rows ys ws, (s.1, s.2 ++ [(rows, ys, ws)]))
  predict := L.predict

/-- The generator beside such a list: drawing leaves the list alone, seeding empties it. -/
def Rng.beside (rng : Rng S) : Rng (S × List (FitCall K)) where
  seed0 := (rng.seed0, [])
  choice s l k := ((rng.choice s.1 l k).1, ((rng.choice s.1 l k).2, s.2))

/-- The observations `T` as a call. -/
def callOf (X : Mat K) (y : Nat → K) (w : Nat → K) (T : List Nat) : FitCall K :=
  (T.map X.row, T.map y, T.map w)

theorem drawLoop_log {α : Type} {task : S × List (FitCall K) → Nat → Except Err α × (S × List (FitCall K))}
    {f : Nat → Except Err α} {c : Nat → List (FitCall K)}
    (h : ∀ s l i, task (s, l) i = (f i, (s, l ++ c i))) (s : S) (l : List (FitCall K)) (is : List Nat) :
    ∃ n ≤ is.length, drawLoop task (s, l) is = (mapE f is, (s, l ++ (is.take n).flatMap c)) ∧
      ((∃ r, mapE f is = .ok r) → n = is.length) := by
  induction is generalizing l with
  | nil => exact ⟨0, le_rfl, by simp [drawLoop, mapE], fun _ => rfl⟩
  | cons i is ih =>
    simp only [drawLoop, h, mapE]
    cases f i with
    | error e => exact ⟨1, by simp, by simp, by rintro ⟨r, hr⟩; cases hr⟩
    | ok a =>
      simp only
      obtain ⟨n, hn, h1, h2⟩ := ih (l ++ c i)
      rw [h1]
      cases hm : mapE f is with
      | error e =>
        refine ⟨n + 1, by simpa using hn, by simp, ?_⟩
        rintro ⟨r, hr⟩
        cases hr
      | ok r => exact ⟨n + 1, by simpa using hn, by simp, fun _ => by simp [h2 ⟨r, hm⟩]⟩

theorem flatMap_single {α β : Type} {c : α → List β} {g : α → β} {l : List α}
    (h : ∀ a ∈ l, c a = [g a]) : l.flatMap c = l.map g := by
  induction l with
  | nil => rfl
  | cons a l ih =>
    rw [List.flatMap_cons, h a (by simp), ih fun b hb => h b (by simp [hb])]
    rfl

theorem sampleLocations_beside (rng : Rng S) (s : S) (l : List (FitCall K)) (rate : Option K) (N : Nat) :
    sampleLocations rng.beside (s, l) rate N =
      ((sampleLocations rng s rate N).1, ((sampleLocations rng s rate N).2, l)) := by
  cases rate with
  | none => rfl
  | some r =>
    simp only [sampleLocations, Rng.beside]
    rcases rng.choice s (List.range N) (truncInt (r * (N : K))) with ⟨e | a, s'⟩ <;> rfl

/-! ### WeightModel -/

/-- The call made for location `i`, if any: none where indexing fails before the regressor is reached. -/
def locCall (X : Mat K) (y : Nat → K) (W : WMat K) (i : Nat) : List (FitCall K) :=
  if i < X.r ∧ i < W.r then
    match W with
    | .dense W => if W.c ≠ X.r then [] else [callOf X y (W.get i) (nonzeroIdx W.c (W.get i))]
    | .sparse A => if (A.ne0.rowIdx i).any fun k => decide (X.r ≤ k) then [] else
        [((A.ne0.rowIdx i).map X.row, (A.ne0.rowIdx i).map y, A.rowData i)]
  else []

theorem drawTask_log (L : Learner K F) (X : Mat K) (y : Nat → K) (W : WMat K) (s : S)
    (l : List (FitCall K)) (i : Nat) :
    drawTask L.recording X y W (s, l) i = (locTask L X y X W X.r i, (s, l ++ locCall X y W i)) := by
  unfold drawTask locTask atIndex locCall
  have hc : (i < X.r ∧ i < W.r) ↔ (i < X.r ∧ i < W.r ∧ i < X.r) := by tauto
  have hl : ∀ (idx : List Nat) (ws : List K) (x : List K),
      drawLocal L.recording X y (s, l) i idx ws x =
        (fitLocal L X y i idx ws x, (s, l ++ [(idx.map X.row, idx.map y, ws)])) := by
    intro idx ws x
    unfold drawLocal fitLocal
    simp only [Learner.recording]
    cases L.fit i (idx.map X.row) (idx.map y) ws <;> rfl
  by_cases h : i < X.r ∧ i < W.r
  · rw [if_pos h, if_pos (hc.1 h), if_pos h]
    cases W with
    | dense D =>
      simp only [denseTask, hl, callOf]
      split <;> simp
    | sparse A =>
      simp only [sparseTask, hl]
      split <;> simp
  · rw [if_neg h, if_neg (fun h' => h (hc.2 h')), if_neg h]
    simp

theorem locCall_length (X : Mat K) (y : Nat → K) (W : WMat K) (i : Nat) :
    (locCall X y W i).length ≤ 1 := by
  unfold locCall
  split
  · cases W <;> simp only <;> split <;> simp
  · simp

theorem flatMap_length_le {α β : Type} {c : α → List β} (hc : ∀ a, (c a).length ≤ 1) (l : List α) :
    (l.flatMap c).length ≤ l.length := by
  induction l with
  | nil => simp
  | cons a l ih =>
    have := hc a
    simp only [List.flatMap_cons, List.length_append, List.length_cons]
    omega

theorem locCall_ok {L : Learner K F} {X : Mat K} {y : Nat → K} {p : WMParams K C} {W0 : WMat K}
    (hcan : ∀ A, W0 = .sparse A → A.Canonical ∧ (p.leaveLocalOut = true ∨ A.NoZeros))
    (hcols : W0.toMat.c = X.r) {i : Nat} {v : K × F}
    (h : locTask L X y X (leaveOut p W0) X.r i = .ok v) :
    locCall X y (leaveOut p W0) i = [callOf X y (W0.toMat.get i) (trainingSet p X.r W0.toMat i)] := by
  have hb : i < X.r ∧ i < (leaveOut p W0).r := by
    unfold locTask atIndex at h
    split at h
    · rename_i hb
      exact ⟨hb.1, hb.2.1⟩
    · cases h
  have key : ∀ (D D' : Mat K), D.c = X.r → D'.c = D.c →
      (∀ j < D.c, D'.get i j = if p.leaveLocalOut = true ∧ j = i then 0 else D.get i j) →
      nonzeroIdx D'.c (D'.get i) = trainingSet p X.r D i ∧
      callOf X y (D'.get i) (nonzeroIdx D'.c (D'.get i)) =
        callOf X y (D.get i) (trainingSet p X.r D i) := by
    intro D D' h1 h2 h3
    have e : nonzeroIdx D'.c (D'.get i) = trainingSet p X.r D i := by
      unfold nonzeroIdx trainingSet
      rw [h2, h1]
      refine List.filter_congr fun j hj => ?_
      rw [h3 j (by rw [h1]; exact List.mem_range.1 hj)]
      by_cases hh : p.leaveLocalOut = true ∧ j = i <;> simp [hh]
    refine ⟨e, ?_⟩
    rw [e]
    unfold callOf
    congr 2
    refine List.map_congr_left fun j hj => ?_
    have hj' := List.mem_filter.1 hj
    rw [h3 j (by rw [h1]; exact List.mem_range.1 hj'.1), if_neg (of_decide_eq_true hj'.2).2]
  unfold locCall
  rw [if_pos hb]
  cases W0 with
  | dense D =>
    obtain ⟨D', hD', hc, hg⟩ : ∃ D' : Mat K, leaveOut p (.dense D) = .dense D' ∧
        D'.c = D.c ∧ ∀ j < D.c, D'.get i j = if p.leaveLocalOut = true ∧ j = i then 0 else D.get i j := by
      unfold leaveOut
      by_cases hl : p.leaveLocalOut = true
      · rw [if_pos hl]
        refine ⟨_, rfl, rfl, fun j _ => ?_⟩
        simp only [hl, true_and, eq_comm]
      · rw [if_neg hl]
        exact ⟨_, rfl, rfl, fun j _ => by simp [hl]⟩
    rw [hD']
    simp only
    rw [if_neg (by rw [hc]; exact not_not.2 hcols), (key D D' hcols hc hg).2]
    rfl
  | sparse A =>
    obtain ⟨hA, hz⟩ := hcan A rfl
    obtain ⟨A', D, e1, e2, hA', hz', hr', hc', hD⟩ := leaveOut_sparse_dense p hA hz
    rw [e1] at hb ⊢
    have hi : i < A'.r := hb.2
    have hg : D.c = A.c ∧ ∀ j < A.c, D.get i j =
        if p.leaveLocalOut = true ∧ j = i then 0 else A.dense.get i j := by
      unfold leaveOut at e2
      by_cases hl : p.leaveLocalOut = true
      · rw [if_pos hl] at e2
        cases e2
        exact ⟨rfl, fun j _ => by simp only [hl, true_and, eq_comm]⟩
      · rw [if_neg hl] at e2
        cases e2
        exact ⟨rfl, fun j _ => by simp [hl]⟩
    have hk := key A.dense D hcols hg.1 hg.2
    have hidx : A'.ne0.rowIdx i = nonzeroIdx D.c (D.get i) := by
      rw [ne0_rowIdx hA' hi, ← hD.2.1]
      unfold nonzeroIdx
      apply List.filter_congr
      intro j hj
      have : A'.entry i j = D.get i j := hD.2.2 i hi j (List.mem_range.1 hj)
      rw [this]
    have hw : A'.rowData i = (A'.ne0.rowIdx i).map (D.get i) := by
      rw [ne0_rowIdx_of_noZeros hA' hz' hi, ← hA'.map_entry hi]
      exact List.map_congr_left fun j hj => hD.2.2 i hi j (hA'.rowIdx_lt hj)
    simp only
    rw [if_neg, hw, hidx]
    · exact congrArg (fun c => [c]) hk.2
    · simp only [Bool.not_eq_true, List.any_eq_false, decide_eq_true_eq, not_le]
      intro j hj
      rw [hidx] at hj
      have := (mem_nonzeroIdx.1 hj).1
      rw [hg.1] at this
      exact lt_of_lt_of_eq this hcols

/-- C167: `WeightModel.fit` with a regressor that records the calls of its `fit`. The outcome is that of the
regressor itself. There is at most one call per location, and after a successful fit exactly one for each
local location, in their order, with the observations of non-zero weight, their targets and weights. -/
theorem C167_fit (L : Learner K F) (rng : Rng S) (p : WMParams K C) (st : WMState K F C) (s : S)
    (X : Mat K) (y : List K) (coords : Option C) (W : Option (WMat K))
    (hj : p.nJobs = none) (hp : p.storedPatches = some 1) :
    let out := drawFit L.recording rng.beside p st (s, []) X y coords W
    let plain := wmFit L rng p st s X y coords W
    out.result = plain.result ∧ out.state = plain.state ∧ out.caller = plain.caller ∧
      out.rng.1 = plain.rng ∧
      (∀ idx, plain.state.localIndices = some idx →
        out.rng.2.length ≤ idx.length) ∧
      ∀ W0, chosenWeights p coords W = .ok W0 → W0.toMat.c = X.r →
        (∀ A, W0 = .sparse A → A.Canonical ∧ (p.leaveLocalOut = true ∨ A.NoZeros)) →
        plain.result = .ok () → ∃ idx, plain.state.localIndices = some idx ∧
          out.rng.2 = idx.map fun i => callOf X (fun k => y.getD k 0) (W0.toMat.get i)
            (trainingSet p X.r W0.toMat i) := by
  intro out plain
  simp only [out, plain]
  unfold drawFit wmFit
  split
  swap
  · refine ⟨rfl, rfl, rfl, rfl, fun idx _ => by simp, ?_⟩
    intro _ _ _ _ h
    cases h
  cases hW : chosenWeights p coords W with
  | error e =>
    refine ⟨rfl, rfl, rfl, rfl, fun idx _ => by simp, ?_⟩
    intro _ _ _ _ h
    cases h
  | ok W0 =>
    simp only [drawFitWith, fitWith, sampleLocations_beside]
    rcases hs : sampleLocations rng s p.sampleRate X.r with ⟨e | idx, s1⟩
    · refine ⟨rfl, rfl, rfl, rfl, fun idx _ => by simp, ?_⟩
      intro _ _ _ _ h
      cases h
    simp only [fitAll, hj, hp, Option.getD_some, Option.getD_none]
    rw [runPatches_eq _ _ (by norm_num : (0 : ℤ) < 1)]
    obtain ⟨n, hn, h1, h2⟩ := drawLoop_log
      (drawTask_log L X (fun i => y.getD i 0) (leaveOut p W0)) s1 [] idx
    rw [h1]
    have hlen : (([] : List (FitCall K)) ++ (idx.take n).flatMap
        (locCall X (fun i => y.getD i 0) (leaveOut p W0))).length ≤ idx.length := by
      refine le_trans (flatMap_length_le (locCall_length X _ _) _) ?_
      simp
    cases hm : mapE (locTask L X (fun i => y.getD i 0) X (leaveOut p W0) X.r) idx with
    | error e =>
      refine ⟨rfl, rfl, rfl, rfl, ?_, ?_⟩
      · intro idx' hi
        simp only [Option.some.injEq] at hi
        subst hi
        exact hlen
      · intro _ _ _ _ h
        cases h
    | ok res =>
      refine ⟨rfl, rfl, rfl, rfl, ?_, ?_⟩
      · intro idx' hi
        have hi' : some idx = some idx' := by
          rw [← hi]
          simp only [stateEnd]
          split <;> rfl
        cases hi'
        exact hlen
      · intro W1 hW1 hc hcan hok
        cases hW1
        refine ⟨idx, ?_, ?_⟩
        · simp only [stateEnd]
          split <;> rfl
        · rw [h2 ⟨res, hm⟩, List.take_length, List.nil_append]
          refine flatMap_single fun i hi => ?_
          obtain ⟨k, hk, rfl⟩ := List.getElem_of_mem hi
          exact locCall_ok hcan hc (mapE_get hm hk)

/-! ### Stacking -/

theorem sampleLoop_beside (rng : Rng S) (rate : K) (s : S) (l : List (FitCall K)) (rows : List (List Nat)) :
    sampleLoop rng.beside rate (s, l) rows =
      ((sampleLoop rng rate s rows).1, ((sampleLoop rng rate s rows).2, l)) := by
  induction rows generalizing s with
  | nil => rfl
  | cons cand rows ih =>
    simp only [sampleLoop, Rng.beside]
    rcases rng.choice s cand (sampleCount rate cand.length) with ⟨e | a, s'⟩
    · rfl
    simp only
    have := ih s'
    simp only [Rng.beside] at this
    rw [this]
    rcases sampleLoop rng rate s' rows with ⟨e | r, s''⟩ <;> rfl

theorem sampleDense_beside (rng : Rng S) (s : S) (W : Mat K) (rate : K) (q : Option K) :
    sampleNeighbourDense (rng.beside (K := K)) (s, []) W rate q =
      ⟨(sampleNeighbourDense rng s W rate q).result, ((sampleNeighbourDense rng s W rate q).rng, []),
        (sampleNeighbourDense rng s W rate q).caller⟩ := by
  unfold sampleNeighbourDense
  rcases sampleMaskDense W q with ⟨e | N, W'⟩
  · rfl
  simp only
  rw [show (rng.beside (K := K)).seed0 = (rng.seed0, []) from rfl, sampleLoop_beside]
  rcases sampleLoop rng rate rng.seed0 ((List.range N.r).map (candidatesDense N)) with ⟨e | r, s'⟩ <;> rfl

theorem sampleSparse_beside (rng : Rng S) (s : S) (A : Csr K) (rate : K) (q : Option K) :
    sampleNeighbourSparse (rng.beside (K := K)) (s, []) A rate q =
      ⟨(sampleNeighbourSparse rng s A rate q).result, ((sampleNeighbourSparse rng s A rate q).rng, []),
        (sampleNeighbourSparse rng s A rate q).caller⟩ := by
  unfold sampleNeighbourSparse
  rcases sampleMaskSparse A q with ⟨e | N, A'⟩
  · rfl
  simp only
  rw [show (rng.beside (K := K)).seed0 = (rng.seed0, []) from rfl, sampleLoop_beside]
  rcases sampleLoop rng rate rng.seed0 ((List.range N.r).map (candidatesSparse N)) with ⟨e | r, s'⟩ <;> rfl

theorem metaStage_beside (M : Learner K G) (rng : Rng S) (p : SParams K C) (N : Nat) (y : Nat → K)
    (W : Mat K) (lo second : Mat Bool) (s : S) (l : List (FitCall K)) (res : List (BaseOut K F)) :
    metaStageDense M rng.beside p N y W lo second (s, l) res =
      ((metaStageDense M rng p N y W lo second s res).1,
        ((metaStageDense M rng p N y W lo second s res).2, l)) := by
  unfold metaStageDense
  split
  · rfl
  have hch : ∀ (s : S) i, chooseBases (rng.beside (K := K)) p.estimatorRate lo (s, l) i =
      ((chooseBases rng p.estimatorRate lo s i).1, ((chooseBases rng p.estimatorRate lo s i).2, l)) := by
    intro s i
    unfold chooseBases
    cases p.estimatorRate with
    | none => rfl
    | some r =>
      simp only [Rng.beside]
      generalize rng.choice s _ _ = t
      rcases t with ⟨e | a, s'⟩ <;> rfl
  generalize (fun sample i => solveMeta M (res.map BaseOut.est)
    (problemDense (metaDense N second res) (othersDense W) W y sample i)) = solve
  generalize List.range N = is
  induction is generalizing s with
  | nil => rfl
  | cons i is ih =>
    simp only [metaLoop, hch]
    rcases chooseBases rng p.estimatorRate lo s i with ⟨e | a, s'⟩
    · rfl
    simp only
    cases solve a i with
    | error e => rfl
    | ok o =>
      simp only
      rw [ih]
      rcases metaLoop (chooseBases rng p.estimatorRate lo) solve s' is with ⟨e | r, s''⟩ <;> rfl

theorem drawBase_log (L : Learner K F) (X : Mat K) (y : Nat → K) (s : S) (l : List (FitCall K)) (e : Nat)
    (idx : List Nat) (ws : List K) (second : List Nat) (x : List K) :
    drawBase L.recording X y (s, l) e idx ws second x =
      (fitBase L X y e idx ws second x, (s, l ++ [(idx.map X.row, idx.map y, ws)])) := by
  unfold drawBase fitBase
  simp only [Learner.recording]
  cases L.fit e (idx.map X.row) (idx.map y) ws with
  | error e => rfl
  | ok f =>
    simp only [Except.bind]
    split <;> rfl

/-- The call made for base estimator `j`, on an ndarray and on a CSR array. -/
def baseCallD (X : Mat K) (y : Nat → K) (Wl : Mat K) (j : Nat) : FitCall K :=
  callOf X y (Wl.get j) (nonzeroIdx Wl.c (Wl.get j))

/-- The same on a CSR array. -/
def baseCallS (X : Mat K) (y : Nat → K) (Wl : Csr K) (j : Nat) : FitCall K :=
  ((Wl.ne0.rowIdx j).map X.row, (Wl.ne0.rowIdx j).map y, Wl.rowData j)

theorem drawDense_log (L : Learner K F) (X : Mat K) (y : Nat → K) (Wl : Mat K) (second : Mat Bool) (s : S)
    (l : List (FitCall K)) (i : Nat) :
    drawDense L.recording X y Wl second (s, l) i =
      (baseDense L X y Wl second i, (s, l ++ [baseCallD X y Wl i])) :=
  drawBase_log L X y s l i _ _ _ _

theorem drawSparse_log (L : Learner K F) (X : Mat K) (y : Nat → K) (Wl : Csr K) (second : Csr Nat) (s : S)
    (l : List (FitCall K)) (i : Nat) :
    drawSparse L.recording X y Wl second (s, l) i =
      (baseSparse L X y Wl second i, (s, l ++ [baseCallS X y Wl i])) :=
  drawBase_log L X y s l i _ _ _ _

theorem calls_length {α : Type} {l : List Nat} {g : Nat → α} (n : Nat) :
    (([] : List α) ++ (l.take n).flatMap fun i => [g i]).length ≤ l.length := by
  rw [flatMap_single (g := g) fun _ _ => rfl]
  simp

theorem stackFinish_beside (cache : Bool) (st : SState K F G C) (caller : Option (WMat K)) (s : S)
    (l : List (FitCall K)) (ys : List K) (res : Except Err (List (BaseOut K F)))
    {run : List (BaseOut K F) → Except Err (List (MetaOut K F G)) × (S × List (FitCall K))}
    {run' : List (BaseOut K F) → Except Err (List (MetaOut K F G)) × S}
    (h : ∀ r, run r = ((run' r).1, ((run' r).2, l))) :
    stackFinish cache st caller (s, l) ys res run =
      ⟨(stackFinish cache st caller s ys res run').result, (stackFinish cache st caller s ys res run').state,
        (stackFinish cache st caller s ys res run').caller,
        ((stackFinish cache st caller s ys res run').rng, l)⟩ := by
  unfold stackFinish
  cases res with
  | error e => rfl
  | ok res =>
    simp only
    rcases stackBase cache st ys res with ⟨e | u, st'⟩
    · rfl
    simp only [h]
    rcases run' res with ⟨e | o, s'⟩ <;> rfl

theorem stackFinish_base_ok {cache : Bool} {st : SState K F G C} {caller : Option (WMat K)} {s : S}
    {ys : List K} {res : Except Err (List (BaseOut K F))}
    {run : List (BaseOut K F) → Except Err (List (MetaOut K F G)) × S}
    (h : (stackFinish cache st caller s ys res run).result = .ok ()) : ∃ r, res = .ok r := by
  cases res with
  | error e => cases h
  | ok r => exact ⟨r, rfl⟩

/-- C167: `StackingWeightModel.fit` with a regressor that records the calls of its `fit`. The outcome is
that of the regressor itself. There is at most one call per observation, and after a successful fit exactly
one for each, in their order, with the observations that have non-zero weight, are not among those the
base estimator is left out for, and are not the location itself under `leave_local_out`. -/
theorem C167_stacking (L : Learner K F) (M Mn : Learner K G) (rng : Rng S) (p : SParams K C)
    (st : SState K F G C) (s : S) (X : Mat K) (y : List K) (coords : Option C)
    (W : Option (WMat K)) (hp : p.storedPatches = some 1) :
    let out := drawStackFit L.recording M Mn rng.beside p st (s, []) X y coords W
    let plain := stackFit L M Mn rng p st s X y coords W
    out.result = plain.result ∧ out.state = plain.state ∧ out.caller = plain.caller ∧
      out.rng.1 = plain.rng ∧ out.rng.2.length ≤ X.r ∧
      (SparseFine rng p W → plain.result = .ok () →
        ∃ W0 rate Sm, chosenWeights p.toWMParams coords W = .ok W0 ∧ p.leaveOutRate = some rate ∧
          (sampleNeighbourDense rng s W0.toMat rate p.leaveOutShrink).result = .ok Sm ∧
          out.rng.2 = (List.range X.r).map fun j => callOf X (fun k => y.getD k 0) (W0.toMat.get j)
            ((List.range X.r).filter fun k => decide (W0.toMat.get j k ≠ 0 ∧ Sm.get k j = false ∧
              ¬ (p.leaveLocalOut = true ∧ k = j)))) := by
  intro out plain
  have hrun : ∀ (f : Nat → Except Err (BaseOut K F)) (N : Nat),
      runBase f N p.storedPatches = mapE f (List.range N) := by
    intro f N
    rw [hp]
    exact runPatches_eq f (List.range N) (by norm_num)
  simp only [out, plain]
  unfold drawStackFit stackFit
  split
  swap
  · exact ⟨rfl, rfl, rfl, rfl, by simp, fun _ h => by cases h⟩
  cases hW0 : chosenWeights p.toWMParams coords W with
  | error e => exact ⟨rfl, rfl, rfl, rfl, by simp, fun _ h => by cases h⟩
  | ok W0 =>
    simp only [drawStackWith, stackWith]
    cases hrate : p.leaveOutRate with
    | none => exact ⟨rfl, rfl, rfl, rfl, by simp, fun _ h => by cases h⟩
    | some rate =>
      cases W0 with
      | dense D =>
        simp only [drawStackDense, stackDense, hrun, sampleDense_beside]
        split
        · exact ⟨rfl, rfl, rfl, rfl, by simp, fun _ h => by cases h⟩
        rename_i hshape
        have hcal := sampleDense_caller rng s D rate p.leaveOutShrink
        rcases hS : sampleNeighbourDense rng s D rate p.leaveOutShrink with ⟨e | Sm, s1, D1⟩
        · exact ⟨rfl, rfl, rfl, rfl, by simp, fun _ h => by cases h⟩
        rw [hS] at hcal
        simp only [sampleLocations_beside] at hcal ⊢
        subst hcal
        rcases sampleLocations rng s1 p.sampleRate X.r with ⟨e | idx, s2⟩
        · exact ⟨rfl, rfl, rfl, rfl, by simp, fun _ h => by cases h⟩
        simp only
        cases shrinkMetaDense p.metaShrink D1 with
        | error e => exact ⟨rfl, rfl, rfl, rfl, by simp, fun _ h => by cases h⟩
        | ok D2 =>
          simp only
          obtain ⟨n, hn, h1, h2⟩ := drawLoop_log (drawDense_log (S := S) L X (fun i => y.getD i 0)
            (localDense p.leaveLocalOut D1 Sm.transpose) (secondOrderDense (gt0 D2) Sm.transpose))
            s2 [] (List.range X.r)
          rw [h1]
          simp only
          rw [stackFinish_beside _ _ _ _ _ _ _ (fun r => metaStage_beside M rng p X.r _ D2 Sm.transpose
            (secondOrderDense (gt0 D2) Sm.transpose) s2 _ r)]
          refine ⟨rfl, rfl, rfl, rfl, by simpa using calls_length (l := List.range X.r) n, ?_⟩
          intro _ hok
          rw [h2 (stackFinish_base_ok hok)]
          refine ⟨_, rate, Sm, rfl, rfl, by rw [show (WMat.dense D1).toMat = D1 from rfl, hS], ?_⟩
          rw [List.take_length, List.nil_append]
          refine flatMap_single fun j hj => ?_
          have hc : D1.c = X.r := by
            by_contra hne
            exact hshape (Or.inr hne)
          unfold baseCallD
          have hT : nonzeroIdx (localDense p.leaveLocalOut D1 Sm.transpose).c
              ((localDense p.leaveLocalOut D1 Sm.transpose).get j) =
              (List.range X.r).filter fun k => decide (D1.get j k ≠ 0 ∧ Sm.get k j = false ∧
                ¬ (p.leaveLocalOut = true ∧ k = j)) := by
            show (List.range D1.c).filter _ = _
            rw [hc]
            refine List.filter_congr fun k _ => decide_eq_decide.2 ?_
            rw [← Bool.not_eq_true]
            exact localDense_ne
          rw [hT]
          refine congrArg (fun c => [c]) ?_
          unfold callOf
          congr 2
          refine List.map_congr_left fun k hk => ?_
          have hk' := of_decide_eq_true (List.mem_filter.1 hk).2
          show (if (Sm.get k j || (p.leaveLocalOut && k == j)) = true then 0 else D1.get j k) = D1.get j k
          rw [if_neg]
          intro hh
          simp only [Bool.or_eq_true, Bool.and_eq_true, beq_iff_eq] at hh
          rcases hh with hh | hh
          · rw [hk'.2.1] at hh
            cases hh
          · exact hk'.2.2 hh
      | sparse A =>
        simp only [drawStackSparse, stackSparse, hrun, sampleSparse_beside]
        split
        · exact ⟨rfl, rfl, rfl, rfl, by simp, fun _ h => by cases h⟩
        rename_i hshape
        have hcal := sampleSparse_caller rng s A rate p.leaveOutShrink
        rcases hS : sampleNeighbourSparse rng s A rate p.leaveOutShrink with ⟨e | Sm, s1, A1⟩
        · exact ⟨rfl, rfl, rfl, rfl, by simp, fun _ h => by cases h⟩
        rw [hS] at hcal
        simp only [sampleLocations_beside] at hcal ⊢
        subst hcal
        rcases sampleLocations rng s1 p.sampleRate X.r with ⟨e | idx, s2⟩
        · exact ⟨rfl, rfl, rfl, rfl, by simp, fun _ h => by cases h⟩
        simp only
        cases shrinkMetaSparse p.metaShrink A1 with
        | error e => exact ⟨rfl, rfl, rfl, rfl, by simp, fun _ h => by cases h⟩
        | ok A2 =>
          simp only
          cases secondSparse A2 Sm.transposePattern with
          | error e => exact ⟨rfl, rfl, rfl, rfl, by simp, fun _ h => by cases h⟩
          | ok second =>
          simp only
          obtain ⟨n, hn, h1, h2⟩ := drawLoop_log (drawSparse_log (S := S) L X (fun i => y.getD i 0)
            (localSparse p.leaveLocalOut A1 Sm.transposePattern) second) s2 [] (List.range X.r)
          rw [h1]
          simp only
          rw [stackFinish_beside (run' := fun res => (metaStageSparse M Mn p X.r (fun i => y.getD i 0) A2 Sm
            second res, s2)) _ _ _ _ _ _ _ (fun r => rfl)]
          refine ⟨rfl, rfl, rfl, rfl, by simpa using calls_length (l := List.range X.r) n, ?_⟩
          intro hfine hok
          obtain ⟨hA, hz, -, -⟩ := hfine A1 (chosenWeights_sparse hW0)
          have hsh : A1.r = X.r ∧ A1.c = X.r := by
            constructor <;> by_contra hne
            · exact hshape (Or.inl hne)
            · exact hshape (Or.inr hne)
          have hok' := hok
          rw [h2 (stackFinish_base_ok hok)]
          have hS' : (sampleNeighbourSparse rng s A1 rate p.leaveOutShrink).result = .ok Sm := by rw [hS]
          have hN : 0 < A1.r := by
            rw [hsh.1]
            rename_i hxy _ _
            simp only [checkXy, decide_eq_true_eq] at *
            tauto
          rcases (C32_sparse_eq_dense rng s A1 hA hz hN rate p.leaveOutShrink).2.2.2 with
            ⟨e, h1, _⟩ | ⟨B, Md, h1, h3, h4, h5⟩
          · rw [hS'] at h1
            cases h1
          rw [hS'] at h1
          injection h1 with h1
          subst h1
          obtain ⟨hSr, hself, hSc⟩ := sampleSparse_ok hS'
          refine ⟨_, rate, Md, rfl, rfl, h3, ?_⟩
          rw [List.take_length, List.nil_append]
          refine flatMap_single fun j hj => ?_
          have hjA : j < A1.r := by rw [hsh.1]; exact List.mem_range.1 hj
          obtain ⟨e1, e2⟩ := localSparse_row (lo := p.leaveLocalOut) hA (leaveOut := Sm.transposePattern) hjA
          have hT : ((List.range A1.c).filter fun k => decide (A1.entry j k ≠ 0 ∧
              k ∉ Sm.transposePattern.rowIdx j ∧ ¬ (p.leaveLocalOut = true ∧ k = j))) =
              (List.range X.r).filter fun k => decide (A1.dense.get j k ≠ 0 ∧ Md.get k j = false ∧
                ¬ (p.leaveLocalOut = true ∧ k = j)) := by
            rw [hsh.2]
            refine List.filter_congr fun k hk => decide_eq_decide.2 ?_
            have hkA : k < A1.r := by rw [hsh.1]; exact List.mem_range.1 hk
            have : k ∈ Sm.transposePattern.rowIdx j ↔ Md.get k j = true := by
              rw [mem_transposePattern (hSc j hjA j (hself j hjA)), ← h5 k hkA j, h4]
              exact and_iff_right hkA
            rw [this, Bool.not_eq_true]
            rfl
          unfold baseCallS callOf
          rw [e1, e2, hT]
          rfl

/-! ### How many -/

/-- C167: without `sample_local_rate`, a successful fit of `WeightModel` calls `regressor.fit` once per
observation, and the rows passed in all calls together are as many as there are non-zero weights outside
the places `leave_local_out` clears. -/
theorem C167_fit_counts (L : Learner K F) (rng : Rng S) (p : WMParams K C) (st : WMState K F C) (s : S)
    (X : Mat K) (y : List K) (coords : Option C) (W : Option (WMat K))
    (hj : p.nJobs = none) (hp : p.storedPatches = some 1) (hs : p.sampleRate = none)
    (W0 : WMat K) (hW0 : chosenWeights p coords W = .ok W0) (hc : W0.toMat.c = X.r)
    (hcan : ∀ A, W0 = .sparse A → A.Canonical ∧ (p.leaveLocalOut = true ∨ A.NoZeros))
    (hok : (wmFit L rng p st s X y coords W).result = .ok ()) :
    let calls := (drawFit L.recording rng.beside p st (s, []) X y coords W).rng.2
    calls.length = X.r ∧ (calls.map fun c => c.1.length).sum =
      (((List.range X.r).product (List.range X.r)).filter fun e =>
        decide (W0.toMat.get e.1 e.2 ≠ 0 ∧ ¬ (p.leaveLocalOut = true ∧ e.2 = e.1))).length := by
  obtain ⟨-, -, -, -, -, h⟩ := C167_fit L rng p st s X y coords W hj hp
  obtain ⟨idx, h1, h2⟩ := h W0 hW0 hc hcan hok
  have hidx : idx = List.range X.r := by
    obtain ⟨W1, idx0, s1, res, sc, -, -, hs', -, -, -, -, hout⟩ := wmFit_ok hok
    rw [hout] at h1
    rw [hs] at hs'
    cases hs'
    cases h1
    rfl
  subst hidx
  simp only
  rw [h2]
  refine ⟨by simp, ?_⟩
  rw [List.map_map]
  have : ∀ l : List Nat, (l.map ((fun c : FitCall K => c.1.length) ∘ fun i => callOf X (fun k => y.getD k 0)
      (W0.toMat.get i) (trainingSet p X.r W0.toMat i))).sum =
      ((l.product (List.range X.r)).filter fun e =>
        decide (W0.toMat.get e.1 e.2 ≠ 0 ∧ ¬ (p.leaveLocalOut = true ∧ e.2 = e.1))).length := by
    intro l
    induction l with
    | nil => rfl
    | cons i l ih =>
      rw [List.map_cons, List.sum_cons, ih]
      show _ = (((List.range X.r).map (Prod.mk i) ++ l.product (List.range X.r)).filter _).length
      rw [List.filter_append, List.length_append, List.filter_map, List.length_map]
      simp [callOf, trainingSet, Function.comp_def]
  exact this _

/-- C167: a successful stacking fit calls `regressor.fit` once per observation, and no call has more rows than
the call a `WeightModel` with the same weights and `leave_local_out` makes for that observation; each has
fewer when the base estimator is left out for some other observation of non-zero weight. -/
theorem C167_stacking_counts (L : Learner K F) (M Mn : Learner K G) (rng : Rng S) (p : SParams K C)
    (st : SState K F G C) (s : S) (X : Mat K) (y : List K) (coords : Option C)
    (W : Option (WMat K)) (hp : p.storedPatches = some 1) (hW : SparseFine rng p W)
    (hok : (stackFit L M Mn rng p st s X y coords W).result = .ok ()) :
    let calls := (drawStackFit L.recording M Mn rng.beside p st (s, []) X y coords W).rng.2
    calls.length = X.r ∧ ∃ W0 rate Sm, chosenWeights p.toWMParams coords W = .ok W0 ∧
      p.leaveOutRate = some rate ∧
      (sampleNeighbourDense rng s W0.toMat rate p.leaveOutShrink).result = .ok Sm ∧
      ∀ j < X.r, ∃ c, calls[j]? = some c ∧
        c.1.length ≤ (trainingSet p.toWMParams X.r W0.toMat j).length ∧
        ((∃ k < X.r, k ≠ j ∧ W0.toMat.get j k ≠ 0 ∧ Sm.get k j = true) →
          c.1.length < (trainingSet p.toWMParams X.r W0.toMat j).length) := by
  obtain ⟨-, -, -, -, -, h⟩ := C167_stacking L M Mn rng p st s X y coords W hp
  obtain ⟨W0, rate, Sm, h1, h2, h3, h4⟩ := h hW hok
  simp only
  rw [h4]
  refine ⟨by simp, W0, rate, Sm, h1, h2, h3, fun j hj => ⟨_, by rw [List.getElem?_map, List.getElem?_range hj]; rfl, ?_⟩⟩
  have hsub : ((List.range X.r).filter fun k => decide (W0.toMat.get j k ≠ 0 ∧ Sm.get k j = false ∧
      ¬ (p.leaveLocalOut = true ∧ k = j))) =
      (trainingSet p.toWMParams X.r W0.toMat j).filter fun k => decide (Sm.get k j = false) := by
    unfold trainingSet
    rw [List.filter_filter]
    refine List.filter_congr fun k _ => ?_
    rw [Bool.eq_iff_iff]
    simp only [decide_eq_true_eq, Bool.and_eq_true]
    tauto
  simp only [callOf, List.length_map, hsub]
  refine ⟨List.length_filter_le _ _, ?_⟩
  rintro ⟨k, hk, hne, hw, hs⟩
  refine List.length_filter_lt_length_iff_exists.2 ⟨k, ?_, by simp [hs]⟩
  unfold trainingSet
  exact List.mem_filter.2 ⟨List.mem_range.2 hk, decide_eq_true ⟨hw, fun hh => hne hh.2⟩⟩

/-- The cases are not empty: four observations, all weights positive, without the observation itself. -/
example :
    (wmFit meanLearner rotRng { exP with nJobs := none, nPatches := some 1 } {} 0 seX seY none
      (some (.dense seW))).result = .ok () ∧
    ((drawFit meanLearner.recording rotRng.beside { exP with nJobs := none, nPatches := some 1 } {} (0, [])
      seX seY none (some (.dense seW))).rng.2.map fun c => (c.1.length, c.2.1)) =
      [(3, [5, 2, 7]), (3, [1, 2, 7]), (3, [1, 5, 7]), (3, [1, 5, 2])] ∧
    ((drawFit meanLearner.recording rotRng.beside { exP with nJobs := none, nPatches := some 1 } {} (0, [])
      seX seY none (some (.dense ⟨4, 4, fun i j => if i = 1 then 0 else seW.get i j⟩))).rng.2.map
        fun c => c.1.length) = [3, 0] := by decide +kernel

/-- Stacking: the same four observations; each base estimator is left out for some. -/
example :
    (stackFit meanLearner meanLearner meanLearner rotRng { seP with nPatches := some 1 } {} 0 seX seY none
      (some (.dense seW))).result = .ok () ∧
    ((drawStackFit meanLearner.recording meanLearner meanLearner rotRng.beside
      { seP with nPatches := some 1 } {} (0, []) seX seY none (some (.dense seW))).rng.2.map
        fun c => c.1.length).length = 4 := by decide +kernel

end Geo
