import Verif.Props.WeightModelState
import Verif.Props.Distance
import Verif.Props.WeightMatrix
import Verif.Props.WeightMatrixArgs
/-
C43-C45: `predict_by_weight` and `predict_by_fit`.
-/
set_option linter.unusedSectionVars false
namespace Geo
variable {K : Type} [Field K] [LinearOrder K] [IsStrictOrderedRing K] [FloorRing K]
variable {F C S : Type}

/-! ### Weights from coordinates -/

/-- The distance matrices of the dimensions. -/
def eagerDists (lib : Lib K) (src tgt : List (Mat K)) (ms : List (Option String)) : List (Mat K) :=
  (dims src tgt ms).map fun d => cdistMat (metricFun lib d.2.2) d.1 d.2.1

theorem allD2_eager (l : List (Mat K × Mat K × Option String)) (lib : Lib K) :
    allD2 (l.map fun d => (⟨false, .d2 (cdistMat (metricFun lib d.2.2) d.1 d.2.1), none⟩ : DistOut K))
      = some (l.map fun d => cdistMat (metricFun lib d.2.2) d.1 d.2.1) := by
  induction l with
  | nil => rfl
  | cons d l ih => simp [allD2, ih]

/-- Weights from coordinates, unfolded. -/
theorem pointSource_iff (lib : Lib K) (env : Env K) (fs : Disk K) (ms : Param (Option String))
    (p : WParams K) (src tgt : List (Mat K)) (hm : src.length ≤ (ms.expand src.length).length)
    (hr : ∀ s ∈ src, 0 < s.r) (M : Mat K) :
    pointSource lib env fs ms p src tgt = .ok M ↔
      (src.length = tgt.length ∧
        ∀ d ∈ dims src tgt (ms.expand src.length), GoodPair lib d.1 d.2.1 d.2.2) ∧
      ∃ W, weightMatrixFromDistance env false (eagerDists lib src tgt (ms.expand src.length))
          { p with sorted := .scalar none } = .ok W ∧
        (∀ i < W.r, ∀ j < W.c, W.get i j = .fin (W.get i j).toK) ∧ M = W.map Num.toK := by
  have hC := C22_validation lib fs src tgt ms hm hr
  unfold pointSource weightMatrixFromPoints
  simp only [DistArgs.truthy]
  by_cases hg : src.length = tgt.length ∧
      ∀ d ∈ dims src tgt (ms.expand src.length), GoodPair lib d.1 d.2.1 d.2.2
  · rw [hC.1 hg]
    rw [and_iff_right hg]
    simp only [weightFromDists, allD2_eager]
    unfold eagerDists
    cases hW : weightMatrixFromDistance env false
        ((dims src tgt (ms.expand src.length)).map fun d => cdistMat (metricFun lib d.2.2) d.1 d.2.1)
        { p with sorted := .scalar none } with
    | error e => simp
    | ok W =>
      have hall : (W.toLists.flatten.all fun w => decide (w = .fin w.toK)) = true ↔
          ∀ i < W.r, ∀ j < W.c, W.get i j = .fin (W.get i j).toK := by
        simp only [List.all_eq_true, List.mem_flatten, Mat.toLists, List.mem_map, List.mem_range,
          decide_eq_true_eq]
        constructor
        · intro h i hi j hj
          exact h _ ⟨_, ⟨i, hi, rfl⟩, Mat.mem_row.2 ⟨j, hj, rfl⟩⟩
        · rintro h w ⟨_, ⟨i, hi, rfl⟩, hw⟩
          obtain ⟨j, hj, rfl⟩ := Mat.mem_row.1 hw
          exact h i hi j hj
      simp only [Except.ok.injEq]
      constructor
      · intro h
        split at h
        · rename_i h1
          exact ⟨W, rfl, hall.1 h1, (Except.ok.inj h).symm⟩
        · cases h
      · rintro ⟨W', rfl, h1, h2⟩
        rw [if_pos (hall.2 h1), h2]
  · obtain ⟨e, he⟩ := hC.2 hg
    rw [he]
    simp only [hg, false_and]
    simp

/-- Distances are never negative. -/
def Lib.Nonneg (lib : Lib K) : Prop :=
  (∀ m f, lib.scipy m {} = some f → ∀ a b, 0 ≤ f a b) ∧ ∀ a b, 0 ≤ lib.great a b

theorem Lib.Nonneg.metricFun {lib : Lib K} (h : lib.Nonneg) (m : Option String) (a b : List K) :
    0 ≤ metricFun lib m a b := by
  unfold Geo.metricFun
  split
  · exact h.2 a b
  · cases hs : lib.scipy m {} with
    | none => simp
    | some f => exact h.1 m f hs a b

theorem eagerDists_nonneg {lib : Lib K} (hl : lib.Nonneg) (src tgt : List (Mat K))
    (ms : List (Option String)) (p : WParams K)
    (hlen : (dims src tgt ms).length = src.length)
    (hb : ∀ b, some b ∈ p.bandwidth.expand src.length → 0 ≤ b) :
    NonnegInput (eagerDists lib src tgt ms) { p with sorted := .scalar none } where
  dist D hD i _ j _ := by
    obtain ⟨d, -, rfl⟩ := List.mem_map.1 hD
    exact hl.metricFun _ _ _
  bandwidth b h := hb b (by
    have : (eagerDists lib src tgt ms).length = src.length := by simp [eagerDists, hlen]
    simpa [this] using h)
  sorted S h := by
    exfalso
    simp [Param.expand, List.mem_replicate] at h

/-- Each row of weights computed from coordinates is a convex combination, or zero. -/
theorem pointSource_rows (lib : Lib K) (hl : lib.Nonneg) (env : Env K) (he : env.Ok) (fs : Disk K)
    (ms : Param (Option String)) (p : WParams K) (src tgt : List (Mat K))
    (hm : src.length ≤ (ms.expand src.length).length) (hr : ∀ s ∈ src, 0 < s.r)
    (hb : ∀ b, some b ∈ p.bandwidth.expand src.length → 0 ≤ b) (M : Mat K)
    (h : pointSource lib env fs ms p src tgt = .ok M) (i : Nat) (hi : i < M.r) :
    (∀ j < M.c, 0 ≤ M.get i j) ∧
    (((List.range M.c).map (M.get i)).sum = 1 ∨ ∀ j < M.c, M.get i j = 0) := by
  obtain ⟨⟨hlen, -⟩, W, hW, hfin, rfl⟩ := (pointSource_iff lib env fs ms p src tgt hm hr M).1 h
  obtain ⟨x, hx, hsum⟩ := C11_rows_normalised env he false _ _ W hW
    (eagerDists_nonneg hl src tgt _ p (dims_length _ _ _ hlen hm) hb) i hi
  have hg : ∀ j < W.c, (W.map Num.toK).get i j = x j := by
    intro j hj
    show (W.get i j).toK = x j
    rw [(hx j hj).1]
    rfl
  refine ⟨fun j hj => by rw [hg j hj]; exact (hx j hj).2.1, ?_⟩
  rcases hsum with h1 | ⟨h0, -⟩
  · left
    rw [← h1, ← list_sum_range]
    exact congrArg List.sum (List.map_congr_left fun j hj => hg j (List.mem_range.1 hj))
  · right
    intro j hj
    rw [hg j hj, h0 j hj]

/-! ### C43 -/

theorem storedEstimators_some (ests : List F) :
    mapE cachedOne (ests.map some) = .ok ests := by
  rw [mapE_ok_iff]
  induction ests with
  | nil => exact .nil
  | cons a l ih => exact .cons rfl ih

theorem weightedSum_square (W P : Mat K) (hr : W.r = P.c) (hc : W.c = P.r) :
    weightedSum W P = .ok ((List.range W.r).map fun i =>
      ((List.range W.c).map fun j => W.get i j * P.get j i).sum) := by
  unfold weightedSum bcast
  rw [if_pos hr, if_pos hc]
  simp only
  congr 1
  apply List.map_congr_left
  intro i hi
  congr 1
  apply List.map_congr_left
  intro j hj
  rw [List.mem_range] at hi hj
  have h1 : (if W.r = 1 then 0 else i) = i := by split <;> omega
  have h2 : (if W.c = 1 then 0 else j) = j := by split <;> omega
  have h3 : (if P.r = 1 then 0 else j) = j := by split <;> omega
  have h4 : (if P.c = 1 then 0 else i) = i := by split <;> omega
  rw [h1, h2, h3, h4]

/-- C43: the value predicted at point `i` is `Σ_j w_ij · ŷ_j(x_i)`, with `w` the weights between
the new points and the training locations and `ŷ_j` the stored local models. -/
theorem C43_weighted_sum (L : Learner K F) (p : WMParams K C) (st : WMState K F C) (X : Mat K)
    (c t : C) (M : Mat K) (ests : List F) (hd : p.cacheData = true) (hce : p.cacheEstimator = true)
    (hest : st.estimators = some (ests.map some)) (hne : ests ≠ []) (ht : st.coords = some t)
    (hM : p.weights c t = .ok M) (hMr : M.r = X.r) (hMc : M.c = ests.length) :
    predictByWeight L p st X (some c) none = .ok ((List.range X.r).map fun i =>
      (List.zipWith (fun w f => w * L.predict f (X.row i)) (M.row i) ests).sum) := by
  unfold predictByWeight
  rw [hd, hce]
  simp only [Bool.not_true, Bool.or_self, Bool.false_eq_true, if_false, guard, storedEstimators,
    hest, storedEstimators_some, predictWeights, ht, hM, bind, Except.bind]
  rw [show unzipNonempty ests = .ok ests from unzipNonempty_ok.2 ⟨rfl, hne⟩]
  simp only
  rw [weightedSum_square _ _ hMr hMc, hMr]
  congr 1
  apply List.map_congr_left
  intro i hi
  congr 1
  apply List.ext_getElem
  · simp [hMc]
  · intro j h1 h2
    have hj : j < ests.length := by simpa [hMc] using h1
    simp [estimatorTable, Mat.row, hj]

theorem weighted_between {n : Nat} {w v : Nat → K} {lo hi : K} (hw : ∀ j < n, 0 ≤ w j)
    (hs : ((List.range n).map w).sum = 1) (hv : ∀ j < n, lo ≤ v j ∧ v j ≤ hi) :
    lo ≤ ((List.range n).map fun j => w j * v j).sum ∧
      ((List.range n).map fun j => w j * v j).sum ≤ hi := by
  rw [list_sum_range] at hs ⊢
  constructor
  · calc lo = ∑ j ∈ Finset.range n, w j * lo := by rw [← Finset.sum_mul, hs, one_mul]
      _ ≤ _ := Finset.sum_le_sum fun j hj =>
        mul_le_mul_of_nonneg_left (hv j (by simpa using hj)).1 (hw j (by simpa using hj))
  · calc _ ≤ ∑ j ∈ Finset.range n, w j * hi := Finset.sum_le_sum fun j hj =>
        mul_le_mul_of_nonneg_left (hv j (by simpa using hj)).2 (hw j (by simpa using hj))
      _ = hi := by rw [← Finset.sum_mul, hs, one_mul]

/-- C43: with weights from coordinates, the prediction at a new point lies between any bounds of
the local predictions at that point, unless no training location is in range; then it is 0. -/
theorem C43_between (L : Learner K F) (lib : Lib K) (hl : lib.Nonneg) (env : Env K) (he : env.Ok)
    (fs : Disk K) (ms : Param (Option String)) (wp : WParams K)
    (p : WMParams K (List (Mat K))) (hp : p.weights = pointSource lib env fs ms wp)
    (st : WMState K F (List (Mat K))) (X : Mat K) (c t : List (Mat K)) (M : Mat K) (ests : List F)
    (hd : p.cacheData = true) (hce : p.cacheEstimator = true)
    (hest : st.estimators = some (ests.map some)) (hne : ests ≠ []) (ht : st.coords = some t)
    (hm : c.length ≤ (ms.expand c.length).length) (hr : ∀ s ∈ c, 0 < s.r)
    (hb : ∀ b, some b ∈ wp.bandwidth.expand c.length → 0 ≤ b)
    (hM : pointSource lib env fs ms wp c t = .ok M) (hMr : M.r = X.r) (hMc : M.c = ests.length) :
    ∃ ps, predictByWeight L p st X (some c) none = .ok ps ∧ ps.length = X.r ∧
      ∀ i (hi : i < ps.length),
        ((∀ j < M.c, M.get i j = 0) → ps[i] = 0) ∧
        ((∃ j < M.c, M.get i j ≠ 0) → ∀ lo hi', (∀ f ∈ ests, lo ≤ L.predict f (X.row i) ∧
          L.predict f (X.row i) ≤ hi') → lo ≤ ps[i] ∧ ps[i] ≤ hi') := by
  refine ⟨_, C43_weighted_sum L p st X c t M ests hd hce hest hne ht (by rw [hp]; exact hM) hMr hMc,
    by simp, ?_⟩
  intro i hi
  have hi' : i < X.r := by simpa using hi
  simp only [List.getElem_map, List.getElem_range]
  obtain ⟨h0, hsum⟩ := pointSource_rows lib hl env he fs ms wp c t hm hr hb M hM i (hMr ▸ hi')
  have hz : ∀ v : Nat → K, (∀ j (hj : j < ests.length), v j = L.predict ests[j] (X.row i)) →
      (List.zipWith (fun w f => w * L.predict f (X.row i)) (M.row i) ests).sum =
      ((List.range M.c).map fun j => M.get i j * v j).sum := by
    intro v hv
    congr 1
    apply List.ext_getElem
    · simp [hMc]
    · intro j h1 h2
      have hj : j < ests.length := by simpa [hMc] using h1
      simp [Mat.row, hv j hj]
  let v : Nat → K := fun j => if hj : j < ests.length then L.predict ests[j] (X.row i) else 0
  have hv : ∀ j (hj : j < ests.length), v j = L.predict ests[j] (X.row i) := by
    intro j hj; simp [v, hj]
  rw [hz v hv]
  constructor
  · intro hall
    apply List.sum_eq_zero
    intro x hx
    obtain ⟨j, hj, rfl⟩ := List.mem_map.1 hx
    rw [hall j (by simpa using hj), zero_mul]
  · rintro ⟨j, hj, hne0⟩ lo hi2 hbd
    refine weighted_between h0 ?_ ?_
    · exact hsum.resolve_right fun h => hne0 (h j hj)
    · intro j hj
      rw [hv j (by omega)]
      exact hbd _ (List.getElem_mem _)

/-- C43: if all local models agree on the value at a point in range, that value is predicted. -/
theorem C43_common_value (L : Learner K F) (lib : Lib K) (hl : lib.Nonneg) (env : Env K)
    (he : env.Ok)
    (fs : Disk K) (ms : Param (Option String)) (wp : WParams K)
    (p : WMParams K (List (Mat K))) (hp : p.weights = pointSource lib env fs ms wp)
    (st : WMState K F (List (Mat K))) (X : Mat K) (c t : List (Mat K)) (M : Mat K) (ests : List F)
    (hd : p.cacheData = true) (hce : p.cacheEstimator = true)
    (hest : st.estimators = some (ests.map some)) (hne : ests ≠ []) (ht : st.coords = some t)
    (hm : c.length ≤ (ms.expand c.length).length) (hr : ∀ s ∈ c, 0 < s.r)
    (hb : ∀ b, some b ∈ wp.bandwidth.expand c.length → 0 ≤ b)
    (hM : pointSource lib env fs ms wp c t = .ok M) (hMr : M.r = X.r) (hMc : M.c = ests.length)
    {i : Nat} (hi : i < X.r) (hin : ∃ j < M.c, M.get i j ≠ 0) (v : K)
    (hv : ∀ f ∈ ests, L.predict f (X.row i) = v) :
    ∃ ps, predictByWeight L p st X (some c) none = .ok ps ∧ ps[i]? = some v := by
  obtain ⟨ps, h1, h2, h3⟩ := C43_between L lib hl env he fs ms wp p hp st X c t M ests hd hce hest
    hne ht hm hr hb hM hMr hMc
  have hi' : i < ps.length := h2 ▸ hi
  have := (h3 i hi').2 hin v v fun f hf => by rw [hv f hf]; exact ⟨le_rfl, le_rfl⟩
  exact ⟨ps, h1, by rw [List.getElem?_eq_getElem hi', le_antisymm this.2 this.1]⟩

/-! ### Example: five training locations on a line -/

theorem sqDist_nonneg (a b : List ℚ) : 0 ≤ sqDist a b := by
  unfold sqDist
  apply List.sum_nonneg
  intro x hx
  rw [List.mem_iff_getElem] at hx
  obtain ⟨k, hk, rfl⟩ := hx
  rw [List.getElem_zipWith]
  positivity

theorem exLib_nonneg : exLib.Nonneg := by
  refine ⟨?_, sqDist_nonneg⟩
  intro m f h a b
  simp only [exLib] at h
  split at h
  · simp only [List.isEmpty_nil, if_true, Option.some.injEq] at h
    rw [← h]; exact sqDist_nonneg a b
  · simp only [List.map_nil, List.head?_nil, Option.getD_none, one_mul, Option.some.injEq] at h
    rw [← h]; exact sqDist_nonneg a b
  · cases h

def exWp : WParams ℚ := { kernel := .scalar "bisquare", bandwidth := .scalar (some 10) }
def exSource : List (Mat ℚ) → List (Mat ℚ) → Except Err (Mat ℚ) :=
  pointSource exLib ratEnv (fun _ => none) (.scalar (some "sqeuclidean")) exWp
def exPc : WMParams ℚ (List (Mat ℚ)) :=
  { cacheData := true, cacheEstimator := true, cpu := 2, weights := exSource }
def exTrain : List (Mat ℚ) := [⟨5, 1, fun i _ => i⟩]
def exX5 : Mat ℚ := ⟨5, 1, fun i _ => i * i⟩
def exY5 : List ℚ := [1, 5, 2, 7, 3]
def exFitted : WMState ℚ ℚ (List (Mat ℚ)) :=
  (wmFit meanLearner countRng exPc {} 0 exX5 exY5 (some exTrain) none).state
/-- Three new points; the last is out of range of every training location. -/
def exNew : List (Mat ℚ) := [⟨3, 1, fun i _ => 20 * i * i + 1 / 2⟩]
def exXnew : Mat ℚ := ⟨3, 1, fun i _ => i + 1⟩

/-- The hypotheses of C43 are met, with points in and out of range. -/
example :
    (wmFit meanLearner countRng exPc {} 0 exX5 exY5 (some exTrain) none).result = .ok () ∧
    (∃ ests : List ℚ, ests.length = 5 ∧ exFitted.estimators = some (ests.map some)) ∧
    okAnd (exSource exNew exTrain) (fun M => M.r == 3 && M.c == 5 && decide (M.get 0 1 ≠ 0) &&
      (List.range 5).all fun j => decide (M.get 2 j = 0)) = true ∧
    okAnd (predictByWeight meanLearner exPc exFitted exXnew (some exNew) none)
      (fun ps => ps.length == 3 && decide (ps[0]? ≠ some 0) && decide (ps[2]? = some 0)) = true := by
  refine ⟨by decide +kernel, ?_, by decide +kernel, by decide +kernel⟩
  refine ⟨(exFitted.estimators.getD []).map fun e => e.getD 0, by decide +kernel, by decide +kernel⟩

/-! ### C44 -/

theorem dims_selRows (ρ : Nat → Nat) (m : Nat) (src tgt : List (Mat K)) (ms : List (Option String)) :
    dims (src.map (selRows ρ m)) tgt ms =
      (dims src tgt ms).map fun d => (selRows ρ m d.1, d.2.1, d.2.2) := by
  induction src generalizing tgt ms with
  | nil => rfl
  | cons s src ih =>
    cases tgt with
    | nil => rfl
    | cons t tgt =>
      cases ms with
      | nil => rfl
      | cons a ms => simp [dims, ih]

theorem eagerDists_selRows (lib : Lib K) (ρ : Nat → Nat) (m : Nat) (src tgt : List (Mat K))
    (ms : List (Option String)) :
    eagerDists lib (src.map (selRows ρ m)) tgt ms = (eagerDists lib src tgt ms).map (selRows ρ m) := by
  unfold eagerDists
  rw [dims_selRows, List.map_map, List.map_map]
  rfl

theorem pointSource_shape (lib : Lib K) (env : Env K) (fs : Disk K) (ms : Param (Option String))
    (p : WParams K) (src tgt : List (Mat K)) (hm : src.length ≤ (ms.expand src.length).length)
    (hr : ∀ s ∈ src, 0 < s.r) (M : Mat K) (h : pointSource lib env fs ms p src tgt = .ok M) :
    AllShape (eagerDists lib src tgt (ms.expand src.length)) M.r M.c ∧
    eagerDists lib src tgt (ms.expand src.length) ≠ [] := by
  obtain ⟨-, W, hW, -, rfl⟩ := (pointSource_iff lib env fs ms p src tgt hm hr M).1 h
  obtain ⟨-, -, Ws, -, -, hsh, -⟩ := weightMatrix_unfold hW
  refine ⟨hsh, fun h0 => ?_⟩
  rw [h0] at hW
  simp [weightMatrixFromDistance] at hW

theorem pointSource_r (lib : Lib K) (env : Env K) (fs : Disk K) (ms : Param (Option String))
    (p : WParams K) (src tgt : List (Mat K)) (hm : src.length ≤ (ms.expand src.length).length)
    (hr : ∀ s ∈ src, 0 < s.r) (M : Mat K) (h : pointSource lib env fs ms p src tgt = .ok M)
    {r : Nat} (hs : ∀ s ∈ src, s.r = r) : M.r = r := by
  obtain ⟨h1, h2⟩ := pointSource_shape lib env fs ms p src tgt hm hr M h
  obtain ⟨D, hD⟩ := List.exists_mem_of_ne_nil _ h2
  have h3 := (h1 D hD).1
  obtain ⟨d, hd, rfl⟩ := List.mem_map.1 hD
  have hmem : ∀ (src tgt : List (Mat K)) (ms : List (Option String)), d ∈ dims src tgt ms →
      d.1 ∈ src := by
    intro src
    induction src with
    | nil => intro tgt ms h; simp [dims] at h
    | cons s src ih =>
      intro tgt ms h
      cases tgt with
      | nil => simp [dims] at h
      | cons t tgt =>
        cases ms with
        | nil => simp [dims] at h
        | cons a ms =>
          simp only [dims, List.mem_cons] at h
          rcases h with rfl | h
          · simp
          · exact List.mem_cons_of_mem _ (ih _ _ h)
  rw [← h3, ← hs _ (hmem _ _ _ hd)]
  rfl

/-- The weights of selected points are the selected rows of the weights. -/
theorem pointSource_selRows (lib : Lib K) (env : Env K) (fs : Disk K) (ms : Param (Option String))
    (p : WParams K) (src tgt : List (Mat K)) (hm : src.length ≤ (ms.expand src.length).length)
    {r : Nat} (h0 : 0 < r) (hs : ∀ s ∈ src, s.r = r) (M : Mat K)
    (h : pointSource lib env fs ms p src tgt = .ok M) (ρ : Nat → Nat) {m : Nat} (hm0 : 0 < m)
    (hρ : ∀ i < m, ρ i < r) :
    pointSource lib env fs ms p (src.map (selRows ρ m)) tgt = .ok (selRows ρ m M) := by
  have hr : ∀ s ∈ src, 0 < s.r := fun s h => hs s h ▸ h0
  have hr' : ∀ s ∈ src.map (selRows ρ m), 0 < s.r := by
    intro s h
    obtain ⟨a, -, rfl⟩ := List.mem_map.1 h
    exact hm0
  have hMr := pointSource_r lib env fs ms p src tgt hm hr M h hs
  obtain ⟨hsh, -⟩ := pointSource_shape lib env fs ms p src tgt hm hr M h
  obtain ⟨⟨hl, hg⟩, W, hW, hfin, rfl⟩ := (pointSource_iff lib env fs ms p src tgt hm hr M).1 h
  rw [pointSource_iff lib env fs ms p _ tgt (by simpa using hm) hr']
  simp only [List.length_map]
  refine ⟨⟨hl, ?_⟩, selRows ρ m W, ?_, ?_, rfl⟩
  · intro d hd
    rw [dims_selRows] at hd
    obtain ⟨d', hd', rfl⟩ := List.mem_map.1 hd
    exact hg d' hd'
  · rw [eagerDists_selRows, C18_row_independence env _ _ _ _ m hsh (by omega) hm0 ρ
      (fun i hi => by rw [hMr]; exact hρ i hi), hW]
    rfl
  · intro i hi j hj
    exact hfin (ρ i) (by have := hρ i hi; rw [← hMr] at this; exact this) j hj

/-- C44: with weights from coordinates, `predict_by_weight` treats every point on its own: for any
selection `ρ` of points (any order, with repetitions), the predictions of the selection are the
selection of the predictions. -/
theorem C44_predict_by_weight (L : Learner K F) (lib : Lib K) (env : Env K) (fs : Disk K)
    (ms : Param (Option String)) (wp : WParams K) (p : WMParams K (List (Mat K)))
    (hp : p.weights = pointSource lib env fs ms wp) (st : WMState K F (List (Mat K))) (X : Mat K)
    (c : List (Mat K)) (hm : c.length ≤ (ms.expand c.length).length) (h0 : 0 < X.r)
    (hs : ∀ s ∈ c, s.r = X.r) (ps : List K)
    (h : predictByWeight L p st X (some c) none = .ok ps) (ρ : Nat → Nat) {m : Nat} (hm0 : 0 < m)
    (hρ : ∀ i < m, ρ i < X.r) :
    predictByWeight L p st (selRows ρ m X) (some (c.map (selRows ρ m))) none =
      .ok ((List.range m).map fun i => ps.getD (ρ i) 0) := by
  unfold predictByWeight at h ⊢
  split at h
  · cases h
  rename_i hc
  rw [if_neg hc]
  simp only [guard, bind, Except.bind] at h ⊢
  cases hest : storedEstimators st with
  | error e => rw [hest] at h; cases h
  | ok ests =>
  rw [hest] at h
  simp only at h ⊢
  cases hu : unzipNonempty ests with
  | error e => rw [hu] at h; cases h
  | ok ests' =>
  rw [hu] at h
  simp only [predictWeights, hp] at h ⊢
  cases ht : st.coords with
  | none => rw [ht] at h; cases h
  | some t =>
  rw [ht] at h
  simp only at h ⊢
  cases hM : pointSource lib env fs ms wp c t with
  | error e => rw [hM] at h; cases h
  | ok M =>
  rw [hM] at h
  have hMr := pointSource_r lib env fs ms wp c t hm (fun s h => hs s h ▸ h0) M hM hs
  rw [pointSource_selRows lib env fs ms wp c t hm h0 hs M hM ρ hm0 hρ]
  simp only at h ⊢
  unfold weightedSum at h ⊢
  have e1 : bcast M.r (estimatorTable L ests' X).c = .ok X.r := by
    unfold bcast; rw [hMr]; simp [estimatorTable]
  have e2 : bcast (selRows ρ m M).r (estimatorTable L ests' (selRows ρ m X)).c = .ok m := by
    unfold bcast; simp [selRows, estimatorTable]
  have e3 : bcast (selRows ρ m M).c (estimatorTable L ests' (selRows ρ m X)).r =
      bcast M.c (estimatorTable L ests' X).r := rfl
  rw [e1] at h
  rw [e2, e3]
  cases hk : bcast M.c (estimatorTable L ests' X).r with
  | error e => rw [hk] at h; cases h
  | ok k =>
  rw [hk] at h
  cases h
  refine congrArg Except.ok ?_
  apply List.map_congr_left
  intro i hi
  rw [List.mem_range] at hi
  have hi' := hρ i hi
  rw [List.getD_eq_getElem _ _ (by simpa using hi')]
  simp only [List.getElem_map, List.getElem_range]
  congr 1
  apply List.map_congr_left
  intro j _
  have a1 : (if (selRows ρ m M).r = 1 then 0 else i) = i := by
    show (if m = 1 then 0 else i) = i; split <;> omega
  have a2 : (if M.r = 1 then 0 else ρ i) = ρ i := by split <;> omega
  have a3 : (if (estimatorTable L ests' (selRows ρ m X)).c = 1 then 0 else i) = i := by
    show (if m = 1 then 0 else i) = i; split <;> omega
  have a4 : (if (estimatorTable L ests' X).c = 1 then 0 else ρ i) = ρ i := by
    show (if X.r = 1 then 0 else ρ i) = ρ i; split <;> omega
  rw [a1, a2, a3, a4]
  rfl

/-- C44 on the example: the points in reverse order, the first one twice. -/
example : okAnd (predictByWeight meanLearner exPc exFitted exXnew (some exNew) none) (fun ps =>
    okAnd (predictByWeight meanLearner exPc exFitted (selRows (fun i => 2 - i) 4 exXnew)
      (some (exNew.map (selRows (fun i => 2 - i) 4))) none) fun qs =>
      qs == [ps.getD 2 0, ps.getD 1 0, ps.getD 0 0, ps.getD 0 0]) = true := by decide +kernel

theorem mapE_ok_map {α β γ : Type} {f : α → Except Err β} {g : α → γ} {h : β → γ} {l : List α}
    (hf : ∀ a ∈ l, ∃ v, f a = .ok v ∧ h v = g a) : ∃ bs, mapE f l = .ok bs ∧ bs.map h = l.map g := by
  induction l with
  | nil => exact ⟨[], rfl, rfl⟩
  | cons a l ih =>
    obtain ⟨v, h1, h2⟩ := hf a (by simp)
    obtain ⟨bs, h3, h4⟩ := ih fun b hb => hf b (by simp [hb])
    exact ⟨v :: bs, by simp [mapE, h1, h3], by simp [h2, h4]⟩

theorem dims_mem_right (d : Mat K × Mat K × Option String) (src tgt : List (Mat K))
    (ms : List (Option String)) (h : d ∈ dims src tgt ms) : d.2.1 ∈ tgt := by
  induction src generalizing tgt ms with
  | nil => simp [dims] at h
  | cons s src ih =>
    cases tgt with
    | nil => simp [dims] at h
    | cons t tgt =>
      cases ms with
      | nil => simp [dims] at h
      | cons a ms =>
        simp only [dims, List.mem_cons] at h
        rcases h with rfl | h
        · simp
        · exact List.mem_cons_of_mem _ (ih _ _ h)

/-- C44: with a weight matrix given, `predict_by_fit` treats every point on its own too, if the
clones of the estimator do not differ. -/
theorem C44_predict_by_fit_given_weights (L : Learner K F) (hL : ∀ e e', L.fit e = L.fit e')
    (p : WMParams K C) (hcpu : 0 < p.cpu) (st : WMState K F C) (X : Mat K) (c : C) (W : Mat K)
    (hW : W.r = X.r) (ps : List K) (h : predictByFit L p st X (some c) (some W) = .ok ps)
    (ρ : Nat → Nat) {m : Nat} (hρ : ∀ i < m, ρ i < X.r) :
    predictByFit L p st (selRows ρ m X) (some c) (some (selRows ρ m W)) =
      .ok ((List.range m).map fun i => ps.getD (ρ i) 0) := by
  unfold predictByFit at h ⊢
  split at h
  · cases h
  rename_i hc
  rw [if_neg hc]
  simp only [guard, bind, Except.bind, predictFitWeights] at h ⊢
  cases hd : cachedData st with
  | error e => rw [hd] at h; cases h
  | ok d =>
  rw [hd] at h
  obtain ⟨Xt, yt⟩ := d
  simp only at h ⊢
  have hf : ∀ (X : Mat K) (W : Mat K), fitAll L Xt (fun i => yt.getD i 0) (some X) (.dense W) X.r
      none none none p.cpu = mapE (locTask L Xt (yfun yt) X (.dense W) X.r) (List.range W.r) := by
    intro X W
    unfold fitAll
    simp only [Option.getD_none, Option.getD_some]
    exact runPatches_eq _ _ (by omega)
  rw [hf] at h ⊢
  cases hm : mapE (locTask L Xt (yfun yt) X (.dense W) X.r) (List.range W.r) with
  | error e => rw [hm] at h; cases h
  | ok res =>
  rw [hm] at h
  cases h
  have hlen := mapE_length hm
  rw [List.length_range] at hlen
  have hg : ∀ i ∈ List.range m, ∃ v, locTask L Xt (yfun yt) (selRows ρ m X)
      (.dense (selRows ρ m W)) (selRows ρ m X).r i = .ok v ∧
      v.1 = (res.map Prod.fst).getD (ρ i) 0 := by
    intro i hi
    rw [List.mem_range] at hi
    have hi' := hρ i hi
    have hk : ρ i < res.length := by omega
    refine ⟨res[ρ i], ?_, by rw [List.getD_eq_getElem _ _ (by simpa using hk)]; simp⟩
    have := mapE_get hm (i := ρ i) (by rw [List.length_range]; omega)
    simp only [List.getElem_range] at this
    rw [locTask_eq (locTask_ok this)] at this
    rw [locTask_eq (W := .dense (selRows ρ m W)) (Xp := selRows ρ m X)
      (nEst := (selRows ρ m X).r) (i := i)
      ⟨hi, hi, hi⟩]
    rw [← this]
    show denseTask L Xt (yfun yt) (selRows ρ m X) (selRows ρ m W) i i = _
    unfold denseTask fitLocal
    rw [hL i (ρ i)]
    rfl
  obtain ⟨bs, h1, h2⟩ := mapE_ok_map hg
  rw [show (selRows ρ m W).r = m from rfl, h1]
  exact congrArg Except.ok h2

/-- C44: with weights from coordinates, `predict_by_fit` is not independent of the batch. The
weights are normalised over the *prediction* points, so for a single point every training
location in range gets weight exactly 1: the point is predicted by an unweighted local model,
whatever kernel was chosen. -/
theorem C44_predict_by_fit_single_point (L : Learner K F) (lib : Lib K) (hl : lib.Nonneg)
    (env : Env K) (he : env.Ok) (fs : Disk K) (ms : Param (Option String)) (wp : WParams K)
    (p : WMParams K (List (Mat K))) (hp : p.weights = pointSource lib env fs ms wp)
    (hcpu : 0 < p.cpu) (st : WMState K F (List (Mat K))) (X : Mat K) (c t : List (Mat K))
    (Xt : Mat K) (yt : List K) (hX : st.X = some Xt) (hy : st.y = some yt) (ht : st.coords = some t)
    (hm : t.length ≤ (ms.expand t.length).length) (hr : ∀ s ∈ t, 0 < s.r)
    (hb : ∀ b, some b ∈ wp.bandwidth.expand t.length → 0 ≤ b) (hc : ∀ s ∈ c, s.r = 1)
    (ps : List K) (h : predictByFit L p st X (some c) none = .ok ps) :
    ∃ (M : Mat K) (idx : List Nat) (f : F), pointSource lib env fs ms wp t c = .ok M ∧
      (∀ j < Xt.r, M.get j 0 = 0 ∨ M.get j 0 = 1) ∧
      idx = (List.range Xt.r).filter (fun j => decide (M.get j 0 ≠ 0)) ∧
      L.fit 0 (idx.map Xt.row) (idx.map fun j => yt.getD j 0) (idx.map fun _ => 1) = .ok f ∧
      ps = [L.predict f (X.row 0)] := by
  unfold predictByFit at h
  split at h
  · cases h
  simp only [guard, bind, Except.bind, predictFitWeights, ht, hp, cachedData, hX, hy] at h
  cases hM : pointSource lib env fs ms wp t c with
  | error e => rw [hM] at h; cases h
  | ok M =>
  rw [hM] at h
  simp only [Except.map] at h
  have hMc : M.c = 1 := by
    obtain ⟨h1, h2⟩ := pointSource_shape lib env fs ms wp t c hm hr M hM
    obtain ⟨D, hD⟩ := List.exists_mem_of_ne_nil _ h2
    have h3 := (h1 D hD).2
    obtain ⟨d, hd, rfl⟩ := List.mem_map.1 hD
    rw [← h3, ← hc _ (dims_mem_right _ _ _ _ hd)]
    rfl
  have hrows := pointSource_rows lib hl env he fs ms wp t c hm hr hb M hM
  have h1 : ∀ j < M.r, M.get j 0 ≠ 0 → M.get j 0 = 1 := by
    intro j hj hne
    obtain ⟨-, h2⟩ := hrows j hj
    rw [hMc] at h2
    rcases h2 with h2 | h2
    · simpa using h2
    · exact absurd (h2 0 one_pos) hne
  have hf : fitAll L Xt (fun i => yt.getD i 0) (some X) (.dense M.transpose) X.r none none none p.cpu
      = mapE (locTask L Xt (yfun yt) X (.dense M.transpose) X.r) (List.range M.transpose.r) := by
    unfold fitAll
    simp only [Option.getD_none, Option.getD_some]
    exact runPatches_eq _ _ (by omega)
  rw [hf, show M.transpose.r = 1 from hMc] at h
  cases hres : mapE (locTask L Xt (yfun yt) X (.dense M.transpose) X.r) (List.range 1) with
  | error e => rw [hres] at h; cases h
  | ok res =>
  rw [hres] at h
  cases h
  have hlen := mapE_length hres
  rw [List.length_range] at hlen
  have h0 := mapE_get hres (i := 0) (by simp)
  simp only [List.getElem_range] at h0
  rw [locTask_eq (locTask_ok h0)] at h0
  simp only [denseTask] at h0
  split at h0
  · cases h0
  rename_i hcx
  unfold fitLocal at h0
  cases hfit : L.fit 0 ((nonzeroIdx M.transpose.c (M.transpose.get 0)).map Xt.row)
      ((nonzeroIdx M.transpose.c (M.transpose.get 0)).map (yfun yt))
      ((nonzeroIdx M.transpose.c (M.transpose.get 0)).map (M.transpose.get 0)) with
  | error e => rw [hfit] at h0; cases h0
  | ok f =>
  rw [hfit] at h0
  have h0 := Except.ok.inj h0
  have hMr : M.r = Xt.r := not_not.1 hcx
  refine ⟨M, nonzeroIdx M.transpose.c (M.transpose.get 0), f, rfl, ?_, ?_, ?_, ?_⟩
  · intro j hj
    by_cases h0 : M.get j 0 = 0
    · exact .inl h0
    · exact .inr (h1 j (by omega) h0)
  · rw [← hMr]
    rfl
  · rw [← hfit]
    congr 1
    apply List.map_congr_left
    intro j hj
    obtain ⟨ha, hb⟩ := mem_nonzeroIdx.1 hj
    exact (h1 j ha hb).symm
  · match res, hlen with
    | [v], _ =>
      simp only [List.getElem_cons_zero] at h0
      rw [List.map_cons, List.map_nil, ← h0]

/-- The same point predicted alone and together with another one: two different values. -/
theorem C44_predict_by_fit_batch_dependent :
    let X : Mat ℚ := ⟨2, 1, fun i _ => i⟩
    let c : List (Mat ℚ) := [⟨2, 1, fun i _ => 2 * i + 1 / 2⟩]
    okAnd (predictByFit meanLearner exPc exFitted X (some c) none) (fun ps =>
    okAnd (predictByFit meanLearner exPc exFitted (selRows id 1 X) (some (c.map (selRows id 1))) none)
      fun qs => decide (ps.getD 0 0 ≠ qs.getD 0 0)) = true := by decide +kernel

/-! ### C45 -/

/-- C45: the caches are required. -/
theorem C45_caches_required (L : Learner K F) (p : WMParams K C) (st : WMState K F C) (X : Mat K)
    (coords : Option C) (W : Option (Mat K)) :
    (p.cacheData = false ∨ p.cacheEstimator = false →
      predictByWeight L p st X coords W = .error .exception) ∧
    (p.cacheData = false → predictByFit L p st X coords W = .error .exception) := by
  constructor
  · intro h
    unfold predictByWeight
    rw [if_pos]
    rcases h with h | h <;> simp [h]
  · intro h
    unfold predictByFit
    rw [if_pos]
    simp [h]

/-- C45: giving a weight matrix *instead of* coordinates does not work: the check raises
`ValueError` for every matrix with other than one entry, in both methods. -/
theorem C45_weights_only_rejected (L : Learner K F) (p : WMParams K C) (st : WMState K F C)
    (X W : Mat K) (hd : p.cacheData = true) (hW : W.r * W.c ≠ 1) :
    (p.cacheEstimator = true → predictByWeight L p st X none (some W) = .error .valueError) ∧
    predictByFit L p st X none (some W) = .error .valueError := by
  constructor
  · intro he
    unfold predictByWeight
    simp [hd, he, guard, hW, bind, Except.bind]
  · unfold predictByFit
    simp [hd, guard, hW, bind, Except.bind]

/-- C45: with coordinates and a weight matrix, the coordinates are ignored. -/
theorem C45_coordinates_ignored (L : Learner K F) (p : WMParams K C) (st : WMState K F C)
    (X W : Mat K) (c c' : C) :
    predictByWeight L p st X (some c) (some W) = predictByWeight L p st X (some c') (some W) ∧
    predictByFit L p st X (some c) (some W) = predictByFit L p st X (some c') (some W) := ⟨rfl, rfl⟩

/-- C45: without both, or from coordinates after a fit from a weight matrix only, there is no
prediction. -/
theorem C45_nothing_given (L : Learner K F) (p : WMParams K C) (st : WMState K F C) (X : Mat K)
    (coords : Option C) (h : coords = none ∨ st.coords = none) :
    (∃ e, predictByWeight L p st X coords none = .error e) ∧
    ∃ e, predictByFit L p st X coords none = .error e := by
  have h1 : predictWeights p coords st.coords none = .error .typeError := by
    unfold predictWeights
    rcases h with h | h
    · rw [h]
    · rw [h]; cases coords <;> rfl
  have h2 : predictFitWeights p coords st.coords none = .error .typeError := by
    unfold predictFitWeights
    rcases h with h | h
    · rw [h]
    · rw [h]; cases coords <;> rfl
  have hg : guard coords (none : Option (Mat K)) = .ok () := by cases coords <;> rfl
  constructor
  · unfold predictByWeight
    split
    · exact ⟨_, rfl⟩
    · simp only [hg, h1, bind, Except.bind]
      cases storedEstimators st with
      | error e => exact ⟨_, rfl⟩
      | ok ests =>
        simp only
        cases unzipNonempty ests <;> exact ⟨_, rfl⟩
  · unfold predictByFit
    split
    · exact ⟨_, rfl⟩
    · simp only [hg, h2, bind, Except.bind]
      exact ⟨_, rfl⟩

/-- A fitted model and a weight matrix for which prediction is possible only with the (unused)
coordinates. -/
example : okAnd (predictByWeight meanLearner exPc exFitted exXnew (some [])
      (some ⟨3, 5, fun i j => i + j⟩)) (fun ps => ps.length == 3) = true ∧
    predictByWeight meanLearner exPc exFitted exXnew none (some ⟨3, 5, fun i j => i + j⟩) =
      .error .valueError := ⟨by decide +kernel, by decide +kernel⟩

end Geo
