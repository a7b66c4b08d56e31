import Verif.Props.Penalty
import Verif.Props.Range
/-
C172: which shapes of the local predictions (monotone, convex, linear, slowly varying in the features) the
predictions of a model have.
-/
set_option linter.unusedSectionVars false
namespace Geo
variable {K : Type} [Field K] [LinearOrder K] [IsStrictOrderedRing K] [FloorRing K]
  {F G C S : Type}

theorem zip_linear (a : K) (g h : F → K) : ∀ (ws : List K) (fs : List F),
    a * (List.zipWith (fun w f => w * g f) ws fs).sum + (List.zipWith (fun w f => w * h f) ws fs).sum =
      (List.zipWith (fun w f => w * (a * g f + h f)) ws fs).sum := by
  intro ws
  induction ws with
  | nil => simp
  | cons w ws ih =>
    intro fs
    cases fs with
    | nil => simp
    | cons f fs =>
      simp only [List.zipWith_cons_cons, List.sum_cons, ← ih fs]
      ring

theorem zip_combination (qs : List (K × (F → K))) (ws : List K) (fs : List F) :
    (qs.map fun q => q.1 * (List.zipWith (fun w f => w * q.2 f) ws fs).sum).sum =
      (List.zipWith (fun w f => w * (qs.map fun q => q.1 * q.2 f).sum) ws fs).sum := by
  induction qs with
  | nil =>
    have : ∀ (ws : List K) (fs : List F), (List.zipWith (fun w (_ : F) => w * (0 : K)) ws fs).sum = 0 := by
      intro ws
      induction ws with
      | nil => simp
      | cons w ws ih =>
        intro fs
        cases fs with
        | nil => simp
        | cons f fs => simpa using ih fs
    simpa using (this ws fs).symm
  | cons q qs ih =>
    simp only [List.map_cons, List.sum_cons, ih]
    exact zip_linear _ _ _ ws fs

theorem zip_le (v : F → K) (hi : K) : ∀ (ws : List K) (fs : List F), ws.length = fs.length →
    (∀ w ∈ ws, 0 ≤ w) → (∀ f ∈ fs, v f ≤ hi) →
    (List.zipWith (fun w f => w * v f) ws fs).sum ≤ hi * ws.sum := by
  intro ws
  induction ws with
  | nil => simp
  | cons w ws ih =>
    intro fs hl hw hv
    cases fs with
    | nil => simp at hl
    | cons f fs =>
      have h2 := ih fs (by simpa using hl) (fun w hw' => hw w (List.mem_cons_of_mem _ hw'))
        (fun f hf => hv f (List.mem_cons_of_mem _ hf))
      have h4 := hv f (List.mem_cons_self ..)
      have h5 := hw w (List.mem_cons_self ..)
      simp only [List.zipWith_cons_cons, List.sum_cons]
      nlinarith [mul_le_mul_of_nonneg_left h4 h5]

/-- C172: `predict_by_weight` at the same places for several tables of features. Every linear comparison of
the predictions (`q.1` times the prediction for the table `q.2`, added up) lies between any bounds that hold
of that comparison for every stored regressor, at every place with a training location in range. Out of
range all predictions are zero. -/
theorem C172_by_weight (L : Learner K F) (lib : Lib K) (hl : lib.Nonneg) (env : Env K) (he : env.Ok)
    (fs : Disk K) (ms : Param (Option String)) (wp : WParams K)
    (p : WMParams K (List (Mat K))) (hp : p.weights = pointSource lib env fs ms wp)
    (st : WMState K F (List (Mat K))) (c t : List (Mat K)) (M : Mat K) (ests : List F)
    (hd : p.cacheData = true) (hce : p.cacheEstimator = true)
    (hest : st.estimators = some (ests.map some)) (hne : ests ≠ []) (ht : st.coords = some t)
    (hm : c.length ≤ (ms.expand c.length).length) (hr : ∀ s ∈ c, 0 < s.r)
    (hb : ∀ b, some b ∈ wp.bandwidth.expand c.length → 0 ≤ b)
    (hM : pointSource lib env fs ms wp c t = .ok M) (hMc : M.c = ests.length)
    (qs : List (K × Mat K)) (hq : ∀ q ∈ qs, q.2.r = M.r) :
    ∃ ps : Mat K → List K,
      (∀ q ∈ qs, predictByWeight L p st q.2 (some c) none = .ok (ps q.2) ∧ (ps q.2).length = M.r) ∧
      ∀ i < M.r,
        ((∀ j < M.c, M.get i j = 0) → ∀ q ∈ qs, (ps q.2).getD i 0 = 0) ∧
        ((∃ j < M.c, M.get i j ≠ 0) → ∀ bd,
          ((∀ f ∈ ests, (qs.map fun q => q.1 * L.predict f (q.2.row i)).sum ≤ bd) →
            (qs.map fun q => q.1 * (ps q.2).getD i 0).sum ≤ bd) ∧
          ((∀ f ∈ ests, bd ≤ (qs.map fun q => q.1 * L.predict f (q.2.row i)).sum) →
            bd ≤ (qs.map fun q => q.1 * (ps q.2).getD i 0).sum)) := by
  refine ⟨fun X => (List.range M.r).map fun i =>
    (List.zipWith (fun w f => w * L.predict f (X.row i)) (M.row i) ests).sum, fun q hqm => ⟨?_, by simp⟩,
    fun i hi => ⟨fun hz q hqm => ?_, fun hin bd => ?_⟩⟩
  · rw [← hq q hqm]
    exact C43_weighted_sum L p st q.2 c t M ests hd hce hest hne ht (by rw [hp]; exact hM) (hq q hqm).symm hMc
  · have h0 : ∀ w ∈ M.row i, w = 0 := by
      intro w hw
      obtain ⟨j, hj, rfl⟩ := List.mem_map.1 hw
      exact hz j (List.mem_range.1 hj)
    have : ∀ (ws : List K) (fs : List F), (∀ w ∈ ws, w = 0) →
        (List.zipWith (fun w f => w * L.predict f (q.2.row i)) ws fs).sum = 0 := by
      intro ws
      induction ws with
      | nil => simp
      | cons w ws ih =>
        intro fs hw
        cases fs with
        | nil => simp
        | cons f fs =>
          simp only [List.zipWith_cons_cons, List.sum_cons, hw w (List.mem_cons_self ..), zero_mul, zero_add]
          exact ih fs fun w hw' => hw w (List.mem_cons_of_mem _ hw')
    simp [List.getD_eq_getElem?_getD, hi, this _ ests h0]
  · obtain ⟨h0, hsum⟩ := pointSource_rows lib hl env he fs ms wp c t hm hr hb M hM i hi
    have h1 : (M.row i).sum = 1 := by
      rcases hsum with h | h
      · exact h
      · obtain ⟨j, hj, hne⟩ := hin
        exact absurd (h j hj) hne
    have hpos : ∀ w ∈ M.row i, 0 ≤ w := by
      intro w hw
      obtain ⟨j, hj, rfl⟩ := List.mem_map.1 hw
      exact h0 j (List.mem_range.1 hj)
    have e : (qs.map fun q => q.1 * ((List.range M.r).map fun i =>
        (List.zipWith (fun w f => w * L.predict f (q.2.row i)) (M.row i) ests).sum).getD i 0).sum =
        (List.zipWith (fun w f => w * (qs.map fun q => q.1 * L.predict f (q.2.row i)).sum) (M.row i) ests).sum := by
      have := zip_combination (qs.map fun q => (q.1, fun f => L.predict f (q.2.row i))) (M.row i) ests
      simp only [List.map_map] at this
      rw [show (List.zipWith (fun w f => w * (qs.map fun q => q.1 * L.predict f (q.2.row i)).sum) (M.row i)
        ests).sum = _ from this.symm]
      congr 1
      refine List.map_congr_left fun q _ => ?_
      simp [List.getD_eq_getElem?_getD, hi]
    rw [e]
    refine ⟨fun hv => ?_, fun hv => ?_⟩
    · have := zip_le (fun f => (qs.map fun q => q.1 * L.predict f (q.2.row i)).sum) bd (M.row i) ests
        (by simp [Mat.row, hMc]) hpos hv
      rwa [h1, mul_one] at this
    · have := zip_le (fun f => -(qs.map fun q => q.1 * L.predict f (q.2.row i)).sum) (-bd) (M.row i) ests
        (by simp [Mat.row, hMc]) hpos (fun f hf => neg_le_neg (hv f hf))
      rw [h1, mul_one] at this
      have hn : ∀ (v : F → K) (ws : List K) (fs : List F),
          (List.zipWith (fun w f => w * -v f) ws fs).sum = -(List.zipWith (fun w f => w * v f) ws fs).sum := by
        intro v ws
        induction ws with
        | nil => simp
        | cons w ws ih =>
          intro fs
          cases fs with
          | nil => simp
          | cons f fs =>
            simp only [List.zipWith_cons_cons, List.sum_cons, ih fs]
            ring
      rw [hn] at this
      exact neg_le_neg_iff.1 this

/-- C172: what the comparison means for two tables of features at the same places: if every stored regressor
predicts at most as much for the first as for the second, so does the model; if the predictions of every
stored regressor differ by at most `d`, so do those of the model. -/
theorem C172_two_tables (L : Learner K F) (lib : Lib K) (hl : lib.Nonneg) (env : Env K) (he : env.Ok)
    (fs : Disk K) (ms : Param (Option String)) (wp : WParams K)
    (p : WMParams K (List (Mat K))) (hp : p.weights = pointSource lib env fs ms wp)
    (st : WMState K F (List (Mat K))) (c t : List (Mat K)) (M : Mat K) (ests : List F)
    (hd : p.cacheData = true) (hce : p.cacheEstimator = true)
    (hest : st.estimators = some (ests.map some)) (hne : ests ≠ []) (ht : st.coords = some t)
    (hm : c.length ≤ (ms.expand c.length).length) (hr : ∀ s ∈ c, 0 < s.r)
    (hb : ∀ b, some b ∈ wp.bandwidth.expand c.length → 0 ≤ b)
    (hM : pointSource lib env fs ms wp c t = .ok M) (hMc : M.c = ests.length)
    (X X' : Mat K) (hX : X.r = M.r) (hX' : X'.r = M.r) :
    ∃ ps ps', predictByWeight L p st X (some c) none = .ok ps ∧
      predictByWeight L p st X' (some c) none = .ok ps' ∧ ps.length = M.r ∧ ps'.length = M.r ∧
      ∀ i < M.r, ((∀ f ∈ ests, L.predict f (X.row i) ≤ L.predict f (X'.row i)) → ps.getD i 0 ≤ ps'.getD i 0) ∧
        ∀ d ≥ 0, (∀ f ∈ ests, |L.predict f (X.row i) - L.predict f (X'.row i)| ≤ d) →
          |ps.getD i 0 - ps'.getD i 0| ≤ d := by
  obtain ⟨ps, h1, h2⟩ := C172_by_weight L lib hl env he fs ms wp p hp st c t M ests hd hce hest hne ht hm hr hb hM
    hMc [(1, X), (-1, X')] (by simp [hX, hX'])
  obtain ⟨a1, a2⟩ := h1 (1, X) (by simp)
  obtain ⟨b1, b2⟩ := h1 (-1, X') (by simp)
  refine ⟨ps X, ps X', a1, b1, a2, b2, fun i hi => ?_⟩
  obtain ⟨hz, hin⟩ := h2 i hi
  simp only [List.map_cons, List.map_nil, List.sum_cons, List.sum_nil, add_zero, one_mul, neg_one_mul] at hin
  by_cases hc : ∃ j < M.c, M.get i j ≠ 0
  · refine ⟨fun hle => ?_, fun d hd0 habs => ?_⟩
    · have := (hin hc 0).1 fun f hf => by linarith [hle f hf]
      linarith
    · have h3 := (hin hc d).1 fun f hf => by linarith [(abs_le.1 (habs f hf)).2]
      have h4 := (hin hc (-d)).2 fun f hf => by linarith [(abs_le.1 (habs f hf)).1]
      exact abs_le.2 ⟨by linarith, by linarith⟩
  · push Not at hc
    have e1 := hz hc (1, X) (by simp)
    have e2 := hz hc (-1, X') (by simp)
    simp only at e1 e2
    rw [e1, e2]
    exact ⟨fun _ => le_rfl, fun d hd0 _ => by simpa using hd0⟩

theorem mapE_mapIdx {α β : Type} (f : Nat → Except Err α) : ∀ (N s : Nat) (g : Nat → α → β),
    mapE (fun i => (f i).map (g i)) (List.range' s N) =
      (mapE f (List.range' s N)).map (List.mapIdx fun i a => g (s + i) a) := by
  intro N
  induction N with
  | zero => intro s g; rfl
  | succ N ih =>
    intro s g
    simp only [List.range'_succ, mapE, ih]
    cases f s with
    | error e => rfl
    | ok a =>
      cases mapE f (List.range' (s + 1) N) with
      | error e => rfl
      | ok as =>
        simp only [Except.map, List.mapIdx_cons, Nat.add_zero]
        congr 4
        funext i a
        congr 1
        omega

/-- C172: which regressors answer in `predict_by_fit` is decided by the places (or the given weights) and the
training data: for given places, all tables of features with one row per place either fail with the same error,
or are answered row by row by the same regressors. So the answers at a place have every shape (monotone, convex,
linear, bounded slope) that the fitted regressors of the package's user have. -/
theorem C172_by_fit (L : Learner K F) (p : WMParams K C) (st : WMState K F C) (coords : Option C)
    (W : Option (Mat K)) (n : Nat) :
    ∃ r : Except Err (List F), ∀ Xn : Mat K, Xn.r = n →
      predictByFit L p st Xn coords W = r.map fun fs => fs.mapIdx fun i f => L.predict f (Xn.row i) := by
  unfold predictByFit
  by_cases hcd : (!p.cacheData) = true
  · exact ⟨.error .exception, fun Xn _ => by rw [if_pos hcd]; rfl⟩
  simp only [if_neg hcd, bind, Except.bind]
  cases guard coords W with
  | error e => exact ⟨.error e, fun _ _ => rfl⟩
  | ok _ =>
  cases predictFitWeights p coords st.coords W with
  | error e => exact ⟨.error e, fun _ _ => rfl⟩
  | ok V =>
  cases cachedData st with
  | error e => exact ⟨.error e, fun _ _ => rfl⟩
  | ok D =>
  obtain ⟨Xt, yt⟩ := D
  refine ⟨(fitAll L Xt (fun i => yt.getD i 0) (some ⟨n, 0, fun _ _ => 0⟩) (.dense V) n none none none p.cpu).map
    (List.map Prod.snd), fun Xn hn => ?_⟩
  have ht : ∀ i, locTask L Xt (fun i => yt.getD i 0) Xn (.dense V) n i =
      (locTask L Xt (fun i => yt.getD i 0) ⟨n, 0, fun _ _ => 0⟩ (.dense V) n i).map
        fun v => (L.predict v.2 (Xn.row i), v.2) := by
    intro i
    simp only [locTask, atIndex, hn]
    split
    · simp only [denseTask]
      split
      · rfl
      · unfold fitLocal
        cases L.fit i ((nonzeroIdx V.c (V.get i)).map Xt.row) ((nonzeroIdx V.c (V.get i)).map fun i => yt.getD i 0)
          ((nonzeroIdx V.c (V.get i)).map (V.get i)) with
        | error e => rfl
        | ok f => rfl
    · rfl
  have hall : fitAll L Xt (fun i => yt.getD i 0) (some Xn) (.dense V) n none none none p.cpu =
      (fitAll L Xt (fun i => yt.getD i 0) (some ⟨n, 0, fun _ _ => 0⟩) (.dense V) n none none none p.cpu).map
        (List.mapIdx fun i v => (L.predict v.2 (Xn.row i), v.2)) := by
    unfold fitAll
    simp only [Option.getD_none, Option.getD_some]
    by_cases hc : (p.cpu : ℤ) ≤ 0
    · simp only [runPatches, if_pos hc]
      rfl
    · rw [runPatches_eq _ _ (by omega), runPatches_eq _ _ (by omega), List.range_eq_range',
        mapE_congr (g := fun i => (locTask L Xt (fun i => yt.getD i 0) ⟨n, 0, fun _ _ => 0⟩ (.dense V) n i).map
        fun v => (L.predict v.2 (Xn.row i), v.2)) fun i _ => ht i,
        mapE_mapIdx _ _ _ fun i (v : K × F) => (L.predict v.2 (Xn.row i), v.2)]
      simp only [Nat.zero_add]
  dsimp only
  rw [hn, hall]
  cases fitAll L Xt (fun i => yt.getD i 0) (some ⟨n, 0, fun _ _ => 0⟩) (.dense V) n none none none p.cpu with
  | error e => rfl
  | ok res =>
    simp only [Except.map]
    congr 1
    apply List.ext_getElem
    · simp
    · intro i h1 h2
      simp

/-- C172: a stacked regressor whose meta regressor is linear, such as ridge regression, keeps every linear
relation of its base regressors whose coefficients add up to zero, and is therefore affine if they are. -/
theorem C172_stack_affine {F : Type} (L : Learner ℝ F) (alpha : ℝ) (M : Learner ℝ (List ℝ × ℝ))
    (hM : IsRidge alpha M) (g : List ℝ × ℝ) (bs : List F) (qs : List (ℝ × List ℝ))
    (h0 : (qs.map Prod.fst).sum = 0) (h : ∀ f ∈ bs, (qs.map fun q => q.1 * L.predict f q.2).sum = 0) :
    (qs.map fun q => q.1 * stackPredict L M (.stacked g bs) q.2).sum = 0 := by
  obtain ⟨c, b⟩ := g
  have key : ∀ (bs : List F) (c : List ℝ), (∀ f ∈ bs, (qs.map fun q => q.1 * L.predict f q.2).sum = 0) →
      (qs.map fun q => q.1 * (List.zipWith (· * ·) (bs.map fun f => L.predict f q.2) c).sum).sum = 0 := by
    intro bs
    induction bs with
    | nil => intro c _; simp
    | cons f bs ih =>
      intro c hf
      cases c with
      | nil => simp
      | cons u c =>
        have e : ∀ q : ℝ × List ℝ,
            q.1 * (List.zipWith (· * ·) ((f :: bs).map fun f => L.predict f q.2) (u :: c)).sum =
            u * (q.1 * L.predict f q.2) +
              q.1 * (List.zipWith (· * ·) (bs.map fun f => L.predict f q.2) c).sum := by
          intro q
          simp only [List.map_cons, List.zipWith_cons_cons, List.sum_cons]
          ring
        simp only [e]
        rw [List.sum_map_add, List.sum_map_mul_left, hf f (List.mem_cons_self ..), mul_zero, zero_add]
        exact ih c fun f hf' => hf f (List.mem_cons_of_mem _ hf')
  simp only [stackPredict, hM.predict, mul_add]
  rw [List.sum_map_add, key bs c h, zero_add, List.sum_map_mul_right, h0, zero_mul]

section Fin
open Finset
variable {m n : Nat} {X : Fin m → Fin n → ℝ} {y : Fin m → ℝ} {alpha : ℝ} {w : Fin m → ℝ}
  {c : Fin n → ℝ} {b : ℝ}

/-- At the minimum of the ridge cost the penalty balances the residuals in every direction. -/
theorem minimiser_direction (hal : 0 < alpha) (hw : ∀ i, 0 ≤ w i)
    (h : ∀ c' b', ridgeObjective X y alpha w c b ≤ ridgeObjective X y alpha w c' b') (k : Fin n) :
    alpha * c k = ∑ i, w i * (y i - (∑ k, X i k * c k) - b) * X i k := by
  set B := alpha * c k - ∑ i, w i * (y i - (∑ k, X i k * c k) - b) * X i k with hB
  set A := (∑ i, w i * X i k ^ 2) + alpha with hA
  have hApos : 0 < A := by
    have : 0 ≤ ∑ i, w i * X i k ^ 2 := Finset.sum_nonneg fun i _ => mul_nonneg (hw i) (sq_nonneg _)
    linarith
  have key : ∀ t : ℝ, 0 ≤ A * t ^ 2 + 2 * t * B := by
    intro t
    have h1 := h (fun l => c l + if l = k then t else 0) b
    unfold ridgeObjective at h1
    have e1 : ∀ i, ∑ l, X i l * (c l + if l = k then t else 0) = (∑ l, X i l * c l) + X i k * t := by
      intro i
      simp only [mul_add, Finset.sum_add_distrib, mul_ite, mul_zero, Finset.sum_ite_eq', Finset.mem_univ,
        if_true]
    have e2 : ∑ l, (c l + if l = k then t else 0) ^ 2 = (∑ l, c l ^ 2) + (2 * c k * t + t ^ 2) := by
      have : ∀ l, (c l + if l = k then t else 0) ^ 2 = c l ^ 2 + if l = k then 2 * c l * t + t ^ 2 else 0 := by
        intro l
        split_ifs <;> ring
      simp only [this, Finset.sum_add_distrib, Finset.sum_ite_eq', Finset.mem_univ, if_true]
    have e3 : ∑ i, w i * (y i - (∑ l, X i l * (c l + if l = k then t else 0)) - b) ^ 2 =
        (∑ i, w i * (y i - (∑ l, X i l * c l) - b) ^ 2) + ((∑ i, w i * X i k ^ 2) * t ^ 2 -
          2 * t * ∑ i, w i * (y i - (∑ k, X i k * c k) - b) * X i k) := by
      rw [Finset.sum_mul, Finset.mul_sum, ← Finset.sum_sub_distrib, ← Finset.sum_add_distrib]
      refine Finset.sum_congr rfl fun i _ => ?_
      rw [e1]
      ring
    rw [e2, e3] at h1
    rw [hA, hB]
    nlinarith
  have h2 := key (-B / A)
  have h3 : A * (-B / A) ^ 2 + 2 * (-B / A) * B = -(B ^ 2 / A) := by
    field_simp
    ring
  rw [h3] at h2
  have h4 : B ^ 2 / A ≤ 0 := by linarith
  have h5 : B ^ 2 ≤ 0 := by
    by_contra hne
    push Not at hne
    exact absurd h4 (not_le.2 (div_pos hne hApos))
  have h6 : B = 0 := by
    have : B ^ 2 = 0 := le_antisymm h5 (sq_nonneg _)
    exact pow_eq_zero_iff (two_ne_zero) |>.1 this
  linarith

/-- The sum of the coefficients when all columns are the same up to a constant. -/
theorem minimiser_parallel (hal : 0 < alpha) (hw : ∀ i, 0 ≤ w i) (hs : 0 < ∑ i, w i)
    (h : ∀ c' b', ridgeObjective X y alpha w c b ≤ ridgeObjective X y alpha w c' b')
    (a : Fin n → ℝ) (t : Fin m → ℝ) (hX : ∀ i k, X i k = a k + t i) :
    (∑ k, c k) * (alpha + n * ∑ i, w i * (t i - (∑ i, w i * t i) / ∑ i, w i) ^ 2) =
      n * ∑ i, w i * (t i - (∑ i, w i * t i) / ∑ i, w i) * y i := by
  set tb := (∑ i, w i * t i) / ∑ i, w i with htb
  have hbal := minimiser_balanced (h c) hs
  set r : Fin m → ℝ := fun i => y i - (∑ k, X i k * c k) - b with hr
  set T := ∑ i, w i * r i * (t i - tb) with hT
  have hck : ∀ k, alpha * c k = T := by
    intro k
    rw [minimiser_direction hal hw h k]
    have : T = (∑ i, w i * r i * X i k) - (a k + tb) * ∑ i, w i * r i := by
      rw [hT, Finset.mul_sum, ← Finset.sum_sub_distrib]
      refine Finset.sum_congr rfl fun i _ => ?_
      rw [hX]
      ring
    rw [this]
    have : ∑ i, w i * r i = 0 := hbal
    rw [this, mul_zero, sub_zero]
  have hsum : alpha * ∑ k, c k = n * T := by
    rw [Finset.mul_sum, Finset.sum_congr rfl fun k _ => hck k]
    simp
  have hmid : ∑ i, w i * (t i - tb) = 0 := by
    simp only [mul_sub, Finset.sum_sub_distrib, ← Finset.sum_mul]
    rw [htb, mul_div_cancel₀ _ hs.ne', sub_self]
  have hTe : T = (∑ i, w i * (t i - tb) * y i) - (∑ k, c k) * ∑ i, w i * (t i - tb) ^ 2 := by
    have e : ∀ i, r i = y i - (∑ k, a k * c k) - t i * (∑ k, c k) - b := by
      intro i
      simp only [hr, hX, add_mul, Finset.sum_add_distrib, ← Finset.mul_sum]
      ring
    have e2 : T = (∑ i, w i * (t i - tb) * y i) - (∑ k, c k) * (∑ i, w i * (t i - tb) ^ 2) -
        ((∑ k, a k * c k) + b + tb * ∑ k, c k) * ∑ i, w i * (t i - tb) := by
      rw [hT, Finset.mul_sum, Finset.mul_sum, ← Finset.sum_sub_distrib, ← Finset.sum_sub_distrib]
      refine Finset.sum_congr rfl fun i _ => ?_
      rw [e]
      ring
    rw [e2, hmid, mul_zero, sub_zero]
  rw [hTe] at hsum
  linarith

end Fin

/-- A fitted ridge regression in terms of its cost. -/
theorem ridge_fit_fin {alpha : ℝ} {M : Learner ℝ (List ℝ × ℝ)}
    (hM : IsRidge alpha M) {nb sel : List Nat} (hnb : nb ≠ []) (hsel : 0 < sel.length)
    (x : Nat → Nat → ℝ) (y w : Nat → ℝ) (hw : ∀ k ∈ nb, 0 < w k) {g : List ℝ × ℝ}
    (h : M.fit 0 (nb.map fun k => sel.map fun j => x j k) (nb.map y) (nb.map w) = .ok g) :
    g.1.length = sel.length ∧ ∀ (c' : Fin sel.length → ℝ) (b' : ℝ),
      ridgeObjective (m := nb.length) (n := sel.length) (fun i k => x (sel.getD k 0) (nb.getD i 0))
        (fun i => y (nb.getD i 0)) alpha (fun i => w (nb.getD i 0)) (fun k => g.1.getD k 0) g.2 ≤
      ridgeObjective (m := nb.length) (n := sel.length) (fun i k => x (sel.getD k 0) (nb.getD i 0))
        (fun i => y (nb.getD i 0)) alpha (fun i => w (nb.getD i 0)) c' b' := by
  have hr : ∀ r ∈ nb.map fun k => sel.map fun j => x j k, r.length = sel.length := by
    intro r hr
    obtain ⟨k, -, rfl⟩ := List.mem_map.1 hr
    simp
  obtain ⟨c, b, h1, h2, h3⟩ := hM.fit (nb.map fun k => sel.map fun j => x j k) (nb.map y)
    (nb.map w) sel.length (by simpa using hnb) hsel hr (by simp) (by simp)
    (by intro u hu; obtain ⟨k, hk, rfl⟩ := List.mem_map.1 hu; exact hw k hk)
  rw [h] at h1
  cases h1
  refine ⟨h2, ?_⟩
  have e : ∀ (d : List ℝ) (β : ℝ), d.length = sel.length →
      ridgeCost alpha (nb.map fun k => sel.map fun j => x j k) (nb.map y) (nb.map w) d β =
      ridgeObjective (m := nb.length) (n := sel.length) (fun i k => x (sel.getD k 0) (nb.getD i 0))
      (fun i => y (nb.getD i 0)) alpha (fun i => w (nb.getD i 0))
      (fun k : Fin sel.length => d.getD k 0) β := by
    intro d β hd
    unfold ridgeCost ridgeObjective
    rw [List.length_map, sum_range_fin]
    congr 1
    · refine Finset.sum_congr rfl fun i _ => ?_
      rw [getD_map_nat _ _ _ i.2, getD_map_nat _ _ _ i.2, getD_map_nat _ _ _ i.2,
        dot_fin _ d (n := sel.length) (by simp) hd]
      congr 4
      refine Finset.sum_congr rfl fun k _ => ?_
      rw [getD_map_nat _ _ _ k.2]
    · conv_lhs => rw [list_eq_range d hd]
      rw [List.map_map, sum_range_fin]
      rfl
  intro c' b'
  have := h3 (List.ofFn c') b' (by simp)
  rw [e c b h2, e (List.ofFn c') b' (by simp)] at this
  simpa only [ofFn_getD] using this

/-- C172: the base regressors of a stacking model can all be increasing and the stacked regressors
decreasing. Let all base regressors be parallel: each predicts `h` of the features up to a constant of its
own. Then the stacked regressor of every location is a multiple `slope` of `h` up to a constant, and the sign
of the multiple is that of the weighted covariance of `h` and the targets among the neighbours, whatever the
base regressors say: `slope · (alpha + n · var) = n · cov`, with `n` base regressors used at the location. -/
theorem C172_stack_slope {F C S : Type} (alpha : ℝ) (hal : 0 < alpha) (L : Learner ℝ F)
    (M Mn : Learner ℝ (List ℝ × ℝ)) (hM : IsRidge alpha M) (hMn : IsRidge alpha Mn)
    (rng : Rng S) (p : SParams ℝ C) (st : SState ℝ F (List ℝ × ℝ) C) (s : S) (X : Mat ℝ)
    (y : List ℝ) (coords : Option C) (W : Option (WMat ℝ))
    (hest : p.estimatorRate = none ∨ ∃ A, W = some (.sparse A)) (hW : SparseFine rng p W)
    (W0 : WMat ℝ) (W1 : Mat ℝ) (hW0 : chosenWeights p.toWMParams coords W = .ok W0)
    (hW1 : shrinkMetaDense p.metaShrink W0.toMat = .ok W1)
    (a : F → ℝ) (h : List ℝ → ℝ) (hpar : ∀ f x, L.predict f x = a f + h x)
    (hfit : (stackFit L M Mn rng p st s X y coords W).result = .ok ()) :
    ∃ es : List (StackedEst F (List ℝ × ℝ)),
      (stackFit L M Mn rng p st s X y coords W).state.wm.estimators = some (es.map some) ∧
      ∀ i < X.r,
        let nb := (List.range X.r).filter fun k => decide (0 < W1.get i k ∧ k ≠ i)
        let hbar := weightedAverage nb (W1.get i) fun k => h (X.row k)
        ∃ g bs slope, es[i]? = some (.stacked g bs) ∧ bs ≠ [] ∧
          (∀ x x', stackPredict L (if p.useNumba then Mn else M) (.stacked g bs) x -
            stackPredict L (if p.useNumba then Mn else M) (.stacked g bs) x' = slope * (h x - h x')) ∧
          slope * (alpha + bs.length * (nb.map fun k => W1.get i k * (h (X.row k) - hbar) ^ 2).sum) =
            bs.length * (nb.map fun k => W1.get i k * (h (X.row k) - hbar) * y.getD k 0).sum := by
  obtain ⟨V0, rate, Sm, V1, fs, ps, es, q1, q2, q3, q4, q5, q6, q7, q8⟩ :=
    C50_genuine_predictions L M Mn rng p st s X y coords W hest hW hfit
  rw [hW0] at q1
  cases q1
  rw [hW1] at q4
  cases q4
  have hMM : IsRidge alpha (if p.useNumba then Mn else M) := by
    split
    · exact hMn
    · exact hM
  refine ⟨es, q7, fun i hi => ?_⟩
  obtain ⟨g, ⟨h1, h2⟩, ⟨gs, h3, h4⟩, -⟩ := q8.fitted i hi
  have hwp : ∀ k ∈ (List.range X.r).filter fun k => decide (0 < W1.get i k ∧ k ≠ i), 0 < W1.get i k :=
    fun k hk => (of_decide_eq_true (List.mem_filter.1 hk).2).1
  have hselp := List.length_pos_of_mem (q8.self i hi)
  obtain ⟨hlen, hmin⟩ := ridge_fit_fin hMM h1 hselp (basePred L X fs) (fun k => y.getD k 0) (W1.get i) hwp h2
  set nb := (List.range X.r).filter fun k => decide (0 < W1.get i k ∧ k ≠ i) with hnb
  set sel := (List.range X.r).filter fun j => Sm.get i j with hsel
  have hpos : 0 < ∑ k : Fin nb.length, W1.get i (nb.getD k 0) := by
    have : Nonempty (Fin nb.length) := ⟨⟨0, List.length_pos_of_ne_nil h1⟩⟩
    exact Finset.sum_pos (fun k _ => hwp _ (getD_mem_nat nb k.2)) Finset.univ_nonempty
  have hgl : gs.length = sel.length := by
    have := congrArg List.length h4
    simpa using this
  have hgk : ∀ k (hk : k < sel.length), fs[sel.getD k 0]? = some (gs[k]'(by omega)) := by
    intro k hk
    have e := congrArg (fun l => l[k]?) h4
    simp only [List.getElem?_map, List.getElem?_eq_getElem hk, List.getElem?_eq_getElem (by omega : k < gs.length),
      Option.map_some, Option.some.injEq] at e
    rw [List.getD_eq_getElem?_getD, List.getElem?_eq_getElem hk]
    exact e.symm
  have hbp : ∀ (l : Fin nb.length) (k : Fin sel.length),
      basePred L X fs (sel.getD k 0) (nb.getD l 0) =
        a (gs[k.1]'(by omega)) + h (X.row (nb.getD l 0)) := by
    intro l k
    unfold basePred
    rw [hgk k k.2]
    exact hpar _ _
  have key := minimiser_parallel hal (fun k => (hwp _ (getD_mem_nat nb k.2)).le) hpos hmin _ _ hbp
  refine ⟨g, gs, ∑ k : Fin sel.length, g.1.getD k 0, h3, List.ne_nil_of_length_pos (by omega), fun x x' => ?_, ?_⟩
  · simp only [stackPredict]
    rw [hMM.predict, hMM.predict, dot_fin _ g.1 (n := sel.length) (by simp [hgl]) hlen,
      dot_fin _ g.1 (n := sel.length) (by simp [hgl]) hlen, add_sub_add_right_eq_sub, ← Finset.sum_sub_distrib,
      Finset.sum_mul]
    refine Finset.sum_congr rfl fun k _ => ?_
    have hk : k.1 < gs.length := by omega
    simp only [List.getD_eq_getElem?_getD, List.getElem?_map, List.getElem?_eq_getElem hk, Option.map_some,
      Option.getD_some, hpar]
    ring
  · unfold weightedAverage
    rw [hgl]
    simp only [sum_map_fin nb 0]
    exact key

/-- Base regressors that add the features to the average of the targets, in the real numbers. -/
noncomputable def realTilt : Learner ℝ ℝ :=
  ⟨fun _ _ ys _ => .ok (ys.sum / (ys.length : ℝ)), fun f x => f + x.sum⟩

theorem realTiltFit (alpha : ℝ) (ha : 0 < alpha) :
    (stackFit realTilt (numbaRidge alpha) (numbaRidge alpha) rotRng realP {} 0
      ⟨3, 1, fun i _ => i⟩ [6, 5, 1] none (some (.dense realOnes))).result = .ok () := by
  obtain ⟨Sm, hSm, -⟩ := C30_sample_dense rotRng rotRng_valid 0 realOnes realOnes (1 / 2 : ℝ)
    (by norm_num) none rfl
  rw [C138_dense_fit realTilt _ _ (numbaRidge_isRidge ha).takes rotRng realP {} 0 _ _ none _ rfl rfl
    rfl 1 rfl one_pos realOnes rfl (1 / 2) rfl Sm hSm realOnes rfl]
  refine ⟨⟨rfl, by decide, by decide, rfl, rfl⟩, fun j _ => ⟨_, rfl⟩, fun i hi => ?_⟩
  refine ⟨if i = 0 then 1 else 0, ?_, ?_, one_pos⟩
  · split <;> decide
  · split <;> omega

/-- C172, a case: every base regressor grows with the features, whatever the penalty, and the stacked regressor
of every location falls with them. -/
theorem C172_stack_reverses (alpha : ℝ) (ha : 0 < alpha) :
    (∀ f x x', x.sum < x'.sum → realTilt.predict f x < realTilt.predict f x') ∧
    ∃ es : List (StackedEst ℝ (List ℝ × ℝ)),
      (stackFit realTilt (numbaRidge alpha) (numbaRidge alpha) rotRng realP {} 0
        ⟨3, 1, fun i _ => i⟩ [6, 5, 1] none (some (.dense realOnes))).state.wm.estimators = some (es.map some) ∧
      es.length = 3 ∧ ∀ e ∈ es, ∀ x x', x.sum < x'.sum →
        stackPredict realTilt (numbaRidge alpha) e x' < stackPredict realTilt (numbaRidge alpha) e x := by
  refine ⟨fun f x x' h => by simpa [realTilt] using h, ?_⟩
  obtain ⟨es, h1, h2⟩ := C172_stack_slope alpha ha realTilt (numbaRidge alpha) (numbaRidge alpha)
    (numbaRidge_isRidge ha) (numbaRidge_isRidge ha) rotRng realP {} 0 ⟨3, 1, fun i _ => i⟩ [6, 5, 1] none
    (some (.dense realOnes)) (Or.inl rfl) (fun A h => by cases h) (.dense realOnes) realOnes rfl rfl
    id List.sum (fun _ _ => rfl) (realTiltFit alpha ha)
  have hlen : es.length = 3 := by
    obtain ⟨V0, rate, Sm, V1, fs, ps, es', -, -, -, -, -, -, q7, q8⟩ :=
      C50_genuine_predictions realTilt (numbaRidge alpha) (numbaRidge alpha) rotRng realP {} 0 _ _ none _
        (Or.inl rfl) (fun A h => by cases h) (realTiltFit alpha ha)
    rw [h1, Option.some.injEq] at q7
    rw [List.map_injective_iff.2 (Option.some_injective _) q7]
    exact q8.lenEs
  refine ⟨es, h1, hlen, fun e he x x' hx => ?_⟩
  obtain ⟨i, hi, rfl⟩ := List.getElem_of_mem he
  have hi3 : i < 3 := by omega
  obtain ⟨g, bs, slope, k1, k2, k3, k4⟩ := h2 i hi3
  rw [List.getElem?_eq_getElem hi, Option.some.injEq] at k1
  have k5 := k3 x' x
  simp only [ite_self] at k5
  have hb : (0 : ℝ) < bs.length := by
    have := List.length_pos_of_ne_nil k2
    exact_mod_cast this
  have hs : slope < 0 := by
    have f0 : ((List.range 3).filter fun k => decide ((0 : ℝ) < realOnes.get 0 k ∧ k ≠ 0)) = [1, 2] := by
      simp [realOnes, List.range_succ]
    have f1 : ((List.range 3).filter fun k => decide ((0 : ℝ) < realOnes.get 1 k ∧ k ≠ 1)) = [0, 2] := by
      simp [realOnes, List.range_succ]
    have f2 : ((List.range 3).filter fun k => decide ((0 : ℝ) < realOnes.get 2 k ∧ k ≠ 2)) = [0, 1] := by
      simp [realOnes, List.range_succ]
    by_contra hn
    push Not at hn
    have : i = 0 ∨ i = 1 ∨ i = 2 := by omega
    rcases this with rfl | rfl | rfl
    · rw [f0] at k4
      norm_num [weightedAverage, realOnes, Mat.row] at k4
      nlinarith [mul_nonneg hn hb.le, mul_nonneg hn ha.le]
    · rw [f1] at k4
      norm_num [weightedAverage, realOnes, Mat.row] at k4
      nlinarith [mul_nonneg hn hb.le, mul_nonneg hn ha.le]
    · rw [f2] at k4
      norm_num [weightedAverage, realOnes, Mat.row] at k4
      nlinarith [mul_nonneg hn hb.le, mul_nonneg hn ha.le]
  rw [k1]
  nlinarith [mul_neg_of_neg_of_pos hs (sub_pos.2 hx)]

/-- The hypotheses are met: five training locations, three new places, the first of them in range. Raising
the feature by one raises the prediction in range by one. The regressors that answer in `predict_by_fit` do not
depend on the features. -/
example : (∃ ests : List ℚ, ests.length = 5 ∧ exFitted.estimators = some (ests.map some)) ∧
    okAnd (predictByWeight meanLearner exPc exFitted exXnew (some exNew) none) (fun ps =>
      okAnd (predictByWeight meanLearner exPc exFitted ⟨3, 1, fun i j => exXnew.get i j + 1⟩ (some exNew) none)
        fun qs => qs == [ps.getD 0 0 + 1, 0, 0] && ps.getD 2 0 == 0) = true ∧
    okAnd (predictByFit meanLearner exPc exFitted ⟨2, 1, fun i _ => i⟩ (some [⟨2, 1, fun i _ => i⟩]) none)
      (fun ps => okAnd (predictByFit meanLearner exPc exFitted ⟨2, 1, fun i _ => i + 1⟩
        (some [⟨2, 1, fun i _ => i⟩]) none) fun qs => qs == ps.map (· + 1)) = true := by
  refine ⟨⟨(exFitted.estimators.getD []).map fun e => e.getD 0, by decide +kernel, by decide +kernel⟩,
    by decide +kernel, by decide +kernel⟩

end Geo
