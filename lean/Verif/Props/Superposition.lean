import Verif.Props.TrainingSets
import Verif.Props.Exactness
import Verif.Props.TargetUnits
/-
C143: regressors that are linear in the target make the whole weight model linear in the target.
-/
set_option linter.unusedSectionVars false
namespace Geo
variable {K : Type} [Field K] [LinearOrder K] [IsStrictOrderedRing K] [FloorRing K]
  {F C S : Type}

/-- `a * y + b * y'`, entry by entry. -/
def combine (a b : K) (ys ys' : List K) : List K := List.zipWith (fun u v => a * u + b * v) ys ys'

theorem combine_length {a b : K} {ys ys' : List K} (h : ys.length = ys'.length) :
    (combine a b ys ys').length = ys.length := by simp [combine, h]

theorem combine_getD {a b : K} {ys ys' : List K} (h : ys.length = ys'.length) (k : Nat) :
    (combine a b ys ys').getD k 0 = a * ys.getD k 0 + b * ys'.getD k 0 := by
  by_cases hk : k < ys.length
  · simp [combine, List.getD_eq_getElem?_getD, hk, h ▸ hk]
  · have hk' : ys'.length ≤ k := by omega
    have hk : ys.length ≤ k := by omega
    simp [combine, List.getD_eq_getElem?_getD, hk, hk']

theorem combine_map {a b : K} (T : List Nat) (y y' : Nat → K) :
    combine a b (T.map y) (T.map y') = T.map fun k => a * y k + b * y' k := by
  unfold combine
  rw [List.zipWith_map, List.zipWith_self]

/-- The regressor superposes at the features `x` when trained on these rows with these weights: trained
on `a * y + b * y'` it predicts `a` times what it predicts trained on `y` plus `b` times what it
predicts trained on `y'`. -/
def SuperposesAt (L : Learner K F) (e : Nat) (rows : List (List K)) (ws : List K) (x : List K) : Prop :=
  ∀ (a b : K) (ys ys' : List K) (f f' g : F), ys.length = rows.length → ys'.length = rows.length →
    L.fit e rows ys ws = .ok f → L.fit e rows ys' ws = .ok f' →
    L.fit e rows (combine a b ys ys') ws = .ok g →
    L.predict g x = a * L.predict f x + b * L.predict f' x

/-- What a location's task returns. -/
theorem locTask_trained {L : Learner K F} {p : WMParams K C} {X D : Mat K} {y : Nat → K} {i : Nat}
    {v : K × F} (h : locTask L X y X (leaveOut p (.dense D)) X.r i = .ok v) :
    L.fit i ((trainingSet p X.r D i).map X.row) ((trainingSet p X.r D i).map y)
      ((trainingSet p X.r D i).map (D.get i)) = .ok v.2 ∧ v.1 = L.predict v.2 (X.row i) := by
  obtain ⟨⟨h1, h2, h3⟩, f, hf⟩ := denseTask_ok_iff.1 ⟨v, h⟩
  obtain ⟨D', hD', hr, hc, hg⟩ : ∃ D' : Mat K, leaveOut p (.dense D) = .dense D' ∧ D'.r = D.r ∧
      D'.c = D.c ∧ ∀ i j, D'.get i j = if p.leaveLocalOut = true ∧ j = i then 0 else D.get i j := by
    unfold leaveOut
    split
    · rename_i hl
      refine ⟨_, rfl, rfl, rfl, fun i j => ?_⟩
      simp only [hl, true_and, eq_comm]
    · rename_i hl
      refine ⟨_, rfl, rfl, rfl, fun i j => ?_⟩
      simp [hl]
  rw [hD', locTask_eq (W := .dense D') ⟨h1, show i < D'.r by omega, h1⟩] at h
  have hn : D'.c = X.r := hc.trans h3
  have hidx : nonzeroIdx D'.c (D'.get i) = trainingSet p X.r D i := by
    unfold nonzeroIdx trainingSet
    rw [hn]
    refine List.filter_congr fun k _ => decide_eq_decide.2 ?_
    rw [hg]
    by_cases hk : p.leaveLocalOut = true ∧ k = i <;> simp [hk]
  have hws : (trainingSet p X.r D i).map (D'.get i) = (trainingSet p X.r D i).map (D.get i) := by
    refine List.map_congr_left fun k hk => ?_
    have := (List.mem_filter.1 hk).2
    simp only [decide_eq_true_eq] at this
    rw [hg, if_neg this.2]
  simp only [denseTask] at h
  rw [if_neg (not_not.2 hn), hidx, hws, fitLocal, hf] at h
  cases h
  exact ⟨hf, rfl⟩

/-- The recorded predictions of a fit, location by location. -/
theorem fit_values {L : Learner K F} {rng : Rng S} {p : WMParams K C}
    (hal : p.nJobs = none ∨ p.sampleRate = none) {st : WMState K F C} {s : S} {X : Mat K}
    {y : List K} {coords : Option C} {W : Option (WMat K)} {D : Mat K}
    (hD : chosenWeights p coords W = .ok (.dense D))
    (hok : (wmFit L rng p st s X y coords W).result = .ok ()) :
    ∃ (idx : List Nat) (s' : S) (fs : List F), sampleLocations rng s p.sampleRate X.r = (.ok idx, s') ∧
      X.r = y.length ∧ fs.length = idx.length ∧
      (wmFit L rng p st s X y coords W).state.localIndices = some idx ∧
      (wmFit L rng p st s X y coords W).state.estimators =
        some (fs.map fun f => if p.cacheEstimator then some f else none) ∧
      (∃ ps, (wmFit L rng p st s X y coords W).state.localPredict = some ps ∧ ps.length = idx.length ∧
        (wmFit L rng p st s X y coords W).state.residual =
          some (List.zipWith (fun a b => a - b) (idx.map fun i => y.getD i 0) ps) ∧
        ∀ (k i : Nat) (f : F), idx[k]? = some i → fs[k]? = some f → ps[k]? = some (L.predict f (X.row i))) ∧
      ∀ (k i : Nat) (f : F), idx[k]? = some i → fs[k]? = some f →
        L.fit i ((trainingSet p X.r D i).map X.row)
          ((trainingSet p X.r D i).map fun k => y.getD k 0) ((trainingSet p X.r D i).map (D.get i)) = .ok f := by
  obtain ⟨W0, idx, s', res, sc, hck, hW0, hs, hf, hl, -, hsc, hout⟩ := wmFit_ok hok
  have hWD : W0 = .dense D := by
    rw [hW0] at hD
    injection hD
  subst hWD
  have hm := fitAll_ok hf (aligned_of hW0 hs (hal.imp id .inl)) hl
  have hv : ∀ (k i : Nat) (v : K × F), idx[k]? = some i → res[k]? = some v →
      L.fit i ((trainingSet p X.r D i).map X.row)
        ((trainingSet p X.r D i).map (yfun y)) ((trainingSet p X.r D i).map (D.get i)) = .ok v.2 ∧
      v.1 = L.predict v.2 (X.row i) := by
    intro k i v hk hr
    obtain ⟨hk', rfl⟩ := List.getElem?_eq_some_iff.1 hk
    obtain ⟨hr', rfl⟩ := List.getElem?_eq_some_iff.1 hr
    exact locTask_trained (mapE_get hm hk')
  refine ⟨idx, s', res.map Prod.snd, hs, (of_decide_eq_true hck).1, by simpa using hl,
    by rw [hout], ?_, ⟨res.map Prod.fst, by rw [hout], by simpa using hl, by rw [hout], ?_⟩, ?_⟩
  · rw [hout]
    simp
  · intro k i f hk hfk
    rw [List.getElem?_map, Option.map_eq_some_iff] at hfk
    obtain ⟨v, hvk, rfl⟩ := hfk
    rw [List.getElem?_map, hvk, Option.map_some, (hv k i v hk hvk).2]
  · intro k i f hk hfk
    rw [List.getElem?_map, Option.map_eq_some_iff] at hfk
    obtain ⟨v, hvk, rfl⟩ := hfk
    exact (hv k i v hk hvk).1

/-- C143: superposition. The same weights, the same sampled locations, three targets of which the third
is `a` times the first plus `b` times the second, and a regressor that superposes at the features of the
fitted locations. If all three fits succeed the third one's local predictions are `a` times those of the
first plus `b` times those of the second, and so are the residuals. -/
theorem C143_superposition (L : Learner K F) (rng : Rng S) (p : WMParams K C)
    (hal : p.nJobs = none ∨ p.sampleRate = none) (st st' st'' : WMState K F C) (s : S) (X : Mat K)
    (a b : K) (y y' : List K) (coords : Option C) (W : Option (WMat K)) (D : Mat K)
    (hD : chosenWeights p coords W = .ok (.dense D))
    (hsup : ∀ i < X.r, SuperposesAt L i ((trainingSet p X.r D i).map X.row)
      ((trainingSet p X.r D i).map (D.get i)) (X.row i))
    (hrng : rng.Valid) (hrate : ∀ r, p.sampleRate = some r → 0 ≤ r ∧ r ≤ 1)
    (h : (wmFit L rng p st s X y coords W).result = .ok ())
    (h' : (wmFit L rng p st' s X y' coords W).result = .ok ())
    (h'' : (wmFit L rng p st'' s X (combine a b y y') coords W).result = .ok ()) :
    ∃ ps ps' rs rs' : List K, (wmFit L rng p st s X y coords W).state.localPredict = some ps ∧
      (wmFit L rng p st' s X y' coords W).state.localPredict = some ps' ∧
      (wmFit L rng p st'' s X (combine a b y y') coords W).state.localPredict =
        some (combine a b ps ps') ∧
      (wmFit L rng p st s X y coords W).state.residual = some rs ∧
      (wmFit L rng p st' s X y' coords W).state.residual = some rs' ∧
      (wmFit L rng p st'' s X (combine a b y y') coords W).state.residual =
        some (combine a b rs rs') := by
  obtain ⟨idx, s1, fs, hs, hy, hl, -, -, ⟨ps, hps, hpl, hrs, hpv⟩, hfit⟩ := fit_values hal hD h
  obtain ⟨idx', s1', fs', hs', hy', hl', -, -, ⟨ps', hps', hpl', hrs', hpv'⟩, hfit'⟩ := fit_values hal hD h'
  obtain ⟨idx'', s1'', fs'', hs'', hy'', hl'', -, -, ⟨ps'', hps'', hpl'', hrs'', hpv''⟩, hfit''⟩ :=
    fit_values hal hD h''
  rw [hs] at hs' hs''
  cases hs'
  cases hs''
  have hlt : ∀ i ∈ idx, i < X.r := (sampleLocations_spec hrng hrate hs).2.1
  have hyy : y.length = y'.length := hy.symm.trans hy'
  have hp3 : ps'' = combine a b ps ps' := by
    apply List.ext_getElem
    · rw [combine_length (by omega)]; omega
    intro k h1 h2
    have hk : k < idx.length := by omega
    have e0 := List.getElem?_eq_getElem hk
    have e1 := hpv k _ _ e0 (List.getElem?_eq_getElem (by omega : k < fs.length))
    have e2 := hpv' k _ _ e0 (List.getElem?_eq_getElem (by omega : k < fs'.length))
    have e3 := hpv'' k _ _ e0 (List.getElem?_eq_getElem (by omega : k < fs''.length))
    have g1 := hfit k _ _ e0 (List.getElem?_eq_getElem (by omega : k < fs.length))
    have g2 := hfit' k _ _ e0 (List.getElem?_eq_getElem (by omega : k < fs'.length))
    have g3 := hfit'' k _ _ e0 (List.getElem?_eq_getElem (by omega : k < fs''.length))
    simp only [combine_getD hyy] at g3
    rw [← combine_map] at g3
    have := hsup _ (hlt _ (List.getElem_mem hk)) a b _ _ _ _ _ (by simp) (by simp) g1 g2 g3
    have q1 := (List.getElem?_eq_some_iff.1 e1).2
    have q2 := (List.getElem?_eq_some_iff.1 e2).2
    have q3 := (List.getElem?_eq_some_iff.1 e3).2
    rw [q3, this]
    simp only [combine, List.getElem_zipWith]
    rw [q1, q2]
  refine ⟨ps, ps', _, _, hps, hps', hp3 ▸ hps'', hrs, hrs', ?_⟩
  rw [hrs'', hp3]
  congr 1
  apply List.ext_getElem
  · simp [combine, hpl, hpl']
  intro k h1 h2
  simp only [combine, List.length_zipWith, List.length_map] at h1
  have e := combine_getD (a := a) (b := b) hyy (idx[k]'(by omega))
  simp only [combine] at e
  simp only [combine, List.getElem_zipWith, List.getElem_map]
  rw [e]
  ring

/-- What a regressor trained on these rows predicts at `x`, as a function of the targets. -/
def trainedValue (L : Learner K F) (e : Nat) (rows : List (List K)) (ws x : List K) (ys : List K) : K :=
  match L.fit e rows ys ws with
  | .ok f => L.predict f x
  | .error _ => 0

/-- A superposing regressor is a linear functional of the targets. -/
theorem trainedValue_linear {L : Learner K F} {e : Nat} {rows : List (List K)} {ws x : List K}
    (h : SuperposesAt L e rows ws x)
    (hok : ∀ ys : List K, ys.length = rows.length → ∃ f, L.fit e rows ys ws = .ok f) (a b : K)
    {ys ys' : List K} (h1 : ys.length = rows.length) (h2 : ys'.length = rows.length) :
    trainedValue L e rows ws x (combine a b ys ys') =
      a * trainedValue L e rows ws x ys + b * trainedValue L e rows ws x ys' := by
  obtain ⟨f, hf⟩ := hok ys h1
  obtain ⟨f', hf'⟩ := hok ys' h2
  obtain ⟨g, hg⟩ := hok (combine a b ys ys') (by rw [combine_length (by omega)]; exact h1)
  simp only [trainedValue, hf, hf', hg]
  exact h a b ys ys' f f' g h1 h2 hf hf' hg

/-- … hence the targets enter through fixed coefficients: the values for targets that are one at a single
observation. -/
theorem trainedValue_sum {L : Learner K F} {e : Nat} {T : List Nat} {row : Nat → List K} {ws x : List K}
    (h : SuperposesAt L e (T.map row) ws x)
    (hok : ∀ ys : List K, ys.length = (T.map row).length → ∃ f, L.fit e (T.map row) ys ws = .ok f)
    (y : Nat → K) (n : Nat) :
    trainedValue L e (T.map row) ws x (T.map fun k => if k < n then y k else 0) =
      ∑ k ∈ Finset.range n,
        trainedValue L e (T.map row) ws x (T.map fun j => if j = k then 1 else 0) * y k := by
  induction n with
  | zero =>
    have := trainedValue_linear h hok 0 0 (ys := T.map fun _ => (0 : K)) (ys' := T.map fun _ => (0 : K))
      (by simp) (by simp)
    rw [combine_map] at this
    simpa using this
  | succ n ih =>
    have := trainedValue_linear h hok 1 (y n) (ys := T.map fun k => if k < n then y k else 0)
      (ys' := T.map fun j => if j = n then 1 else 0) (by simp) (by simp)
    rw [combine_map, ih] at this
    rw [Finset.sum_range_succ, mul_comm _ (y n), ← one_mul (∑ k ∈ Finset.range n, _), ← this]
    congr 1
    refine List.map_congr_left fun k _ => ?_
    rcases lt_trichotomy k n with hk | rfl | hk
    · simp [hk, hk.ne, Nat.lt_succ_of_lt hk]
    · simp
    · simp [hk.not_gt, hk.ne', Nat.not_lt.2 (Nat.succ_le_of_lt hk)]

/-- C143: the weight model is a linear smoother. With a regressor that superposes and refuses no
targets there is one matrix `H`, the same for all targets, such that the local predictions are `H y`;
`H i k` is zero unless observation `k` trains the model of location `i` (so the diagonal is zero with
`leave_local_out`); and if the regressor reproduces constant targets the rows of `H` sum to one. -/
theorem C143_hat_matrix (L : Learner K F) (rng : Rng S) (hrng : rng.Valid) (p : WMParams K C)
    (hrate : ∀ r, p.sampleRate = some r → 0 ≤ r ∧ r ≤ 1)
    (hal : p.nJobs = none ∨ p.sampleRate = none) (s : S) (X : Mat K)
    (coords : Option C) (W : Option (WMat K)) (D : Mat K)
    (hD : chosenWeights p coords W = .ok (.dense D))
    (hsup : ∀ i < X.r, SuperposesAt L i ((trainingSet p X.r D i).map X.row)
      ((trainingSet p X.r D i).map (D.get i)) (X.row i))
    (hany : ∀ e rows ys ys' ws f, ys.length = ys'.length → L.fit e rows ys ws = .ok f →
      ∃ f', L.fit e rows ys' ws = .ok f') :
    ∃ H : Nat → Nat → K,
      (∀ i k, H i k ≠ 0 → D.get i k ≠ 0 ∧ ¬ (p.leaveLocalOut = true ∧ k = i)) ∧
      ∀ (st : WMState K F C) (y : List K), (wmFit L rng p st s X y coords W).result = .ok () →
        ∃ idx, (wmFit L rng p st s X y coords W).state.localIndices = some idx ∧
          (wmFit L rng p st s X y coords W).state.localPredict =
            some (idx.map fun i => ∑ k ∈ Finset.range X.r, H i k * y.getD k 0) ∧
          ((∀ e rows ws c f x, L.fit e rows (rows.map fun _ => c) ws = .ok f → L.predict f x = c) →
            ∀ i ∈ idx, ∑ k ∈ Finset.range X.r, H i k = 1) := by
  let T := fun i => trainingSet p X.r D i
  let H : Nat → Nat → K := fun i k => if k ∈ T i then
    trainedValue L i ((T i).map X.row) ((T i).map (D.get i)) (X.row i)
      ((T i).map fun j => if j = k then 1 else 0) else 0
  refine ⟨H, fun i k hik => ?_, fun st y hok => ?_⟩
  · by_cases hk : k ∈ T i
    · exact of_decide_eq_true (List.mem_filter.1 hk).2
    · simp [H, hk] at hik
  obtain ⟨idx, s1, fs, hs, hy, hl, hidx, -, ⟨ps, hps, hpl, -, hpv⟩, hfit⟩ := fit_values hal hD hok
  have hlt : ∀ i ∈ idx, i < X.r := (sampleLocations_spec hrng hrate hs).2.1
  have key : ∀ i ∈ idx, ∀ y0 : Nat → K,
      trainedValue L i ((T i).map X.row) ((T i).map (D.get i)) (X.row i) ((T i).map y0) =
        ∑ k ∈ Finset.range X.r, H i k * y0 k := by
    intro i hi y0
    obtain ⟨k, hk, rfl⟩ := List.getElem_of_mem hi
    have g := hfit k _ _ (List.getElem?_eq_getElem hk) (List.getElem?_eq_getElem (by omega : k < fs.length))
    have hT : ∀ ys : List K, ys.length = ((T idx[k]).map X.row).length →
        ∃ f, L.fit idx[k] ((T idx[k]).map X.row) ys ((T idx[k]).map (D.get idx[k])) = .ok f :=
      fun ys hys => hany _ _ _ _ _ _ (by simpa using hys.symm) g
    have hz : trainedValue L idx[k] ((T idx[k]).map X.row) ((T idx[k]).map (D.get idx[k])) (X.row idx[k])
        ((T idx[k]).map fun _ => (0 : K)) = 0 := by
      have := trainedValue_linear (hsup _ (hlt _ hi)) hT 0 0 (ys := (T idx[k]).map fun _ => (0 : K))
        (ys' := (T idx[k]).map fun _ => (0 : K)) (by simp [T]) (by simp [T])
      rw [combine_map] at this
      simp only [zero_mul, add_zero] at this
      exact this
    have e := trainedValue_sum (hsup _ (hlt _ hi)) hT y0 X.r
    have e2 : (T idx[k]).map (fun k => if k < X.r then y0 k else 0) = (T idx[k]).map y0 := by
      refine List.map_congr_left fun j hj => ?_
      rw [if_pos (List.mem_range.1 (List.mem_filter.1 hj).1)]
    change trainedValue L idx[k] ((T idx[k]).map X.row) ((T idx[k]).map (D.get idx[k])) (X.row idx[k])
      ((T idx[k]).map fun k => if k < X.r then y0 k else 0) = _ at e
    rw [e2] at e
    rw [e]
    refine Finset.sum_congr rfl fun m _ => ?_
    by_cases hm : m ∈ T idx[k]
    · simp only [H, if_pos hm]
      rfl
    · simp only [H, if_neg hm]
      have : ((T idx[k]).map fun j => if j = m then (1 : K) else 0) = (T idx[k]).map fun _ => 0 := by
        refine List.map_congr_left fun j hj => if_neg ?_
        rintro rfl
        exact hm hj
      change trainedValue L idx[k] ((T idx[k]).map X.row) ((T idx[k]).map (D.get idx[k])) (X.row idx[k])
        ((T idx[k]).map fun j => if j = m then (1 : K) else 0) * y0 m = _
      rw [this, hz]
  refine ⟨idx, hidx, ?_, fun hconst i hi => ?_⟩
  · rw [hps]
    congr 1
    apply List.ext_getElem
    · simpa using hpl
    intro k h1 h2
    have hk : k < idx.length := by omega
    have e0 := List.getElem?_eq_getElem hk
    have e1 := hpv k _ _ e0 (List.getElem?_eq_getElem (by omega : k < fs.length))
    have g := hfit k _ _ e0 (List.getElem?_eq_getElem (by omega : k < fs.length))
    have := key _ (List.getElem_mem hk) fun k => y.getD k 0
    rw [List.getElem_map, ← this, (List.getElem?_eq_some_iff.1 e1).2]
    simp only [trainedValue, T, g]
  · obtain ⟨k, hk, rfl⟩ := List.getElem_of_mem hi
    have g := hfit k _ _ (List.getElem?_eq_getElem hk) (List.getElem?_eq_getElem (by omega : k < fs.length))
    have := key _ hi fun _ => 1
    simp only [mul_one] at this
    rw [← this]
    obtain ⟨f, hf⟩ := hany _ _ _ (((T idx[k]).map X.row).map fun _ => (1 : K)) _ _ (by simp [T]) g
    have e := hconst _ _ _ _ _ (X.row idx[k]) hf
    rw [List.map_map] at hf
    change L.fit idx[k] ((T idx[k]).map X.row) ((T idx[k]).map fun _ => (1 : K)) _ = _ at hf
    simp only [trainedValue]
    rw [hf]
    exact e

/-! ### Least squares -/

theorem linVal_combine (n : Nat) (a b c c' : K) (β β' : Nat → K) (x : List K) :
    linVal n (a * c + b * c') (fun q => a * β q + b * β' q) x =
      a * linVal n c β x + b * linVal n c' β' x := by
  unfold linVal
  rw [mul_add, mul_add, Finset.mul_sum, Finset.mul_sum]
  have : ∑ q ∈ Finset.range n, (a * β q + b * β' q) * x.getD q 0 =
      ∑ q ∈ Finset.range n, a * (β q * x.getD q 0) + ∑ q ∈ Finset.range n, b * (β' q * x.getD q 0) := by
    rw [← Finset.sum_add_distrib]
    exact Finset.sum_congr rfl fun q _ => by ring
  rw [this]
  ring

/-- The residuals of a least-squares fit are orthogonal to all linear functions. -/
theorem normal_equations {n : Nat} {rows : List (List K)} {ys ws : List K} {c : K} {β : Nat → K}
    (h : ∀ c' β', weightedSse n rows ys ws c β ≤ weightedSse n rows ys ws c' β')
    (hw : ∀ k < rows.length, 0 ≤ ws.getD k 0) (d : K) (γ : Nat → K) :
    ∑ k ∈ Finset.range rows.length, ws.getD k 0 * (ys.getD k 0 - linVal n c β (rows.getD k [])) *
      linVal n d γ (rows.getD k []) = 0 := by
  generalize hB : ∑ k ∈ Finset.range rows.length, ws.getD k 0 *
    (ys.getD k 0 - linVal n c β (rows.getD k [])) * linVal n d γ (rows.getD k []) = B
  generalize hA : ∑ k ∈ Finset.range rows.length, ws.getD k 0 * linVal n d γ (rows.getD k []) ^ 2 = A
  have hA0 : 0 ≤ A := by
    rw [← hA]
    exact Finset.sum_nonneg fun k hk => mul_nonneg (hw k (Finset.mem_range.1 hk)) (sq_nonneg _)
  have hq : ∀ t : K, 0 ≤ t ^ 2 * A - 2 * t * B := by
    intro t
    have h1 := h (1 * c + t * d) fun q => 1 * β q + t * γ q
    unfold weightedSse at h1
    simp only [linVal_combine] at h1
    rw [← sub_nonneg, ← Finset.sum_sub_distrib] at h1
    rw [← hA, ← hB, Finset.mul_sum, Finset.mul_sum, ← Finset.sum_sub_distrib]
    refine h1.trans (le_of_eq (Finset.sum_congr rfl fun k _ => ?_))
    ring
  rcases hA0.eq_or_lt with h0 | h0
  · have := hq B
    rw [← h0] at this
    nlinarith [sq_nonneg B]
  · have := hq (B / A)
    have e : (B / A) ^ 2 * A - 2 * (B / A) * B = -(B ^ 2 / A) := by
      field_simp
      ring
    rw [e] at this
    have h2 : 0 ≤ B ^ 2 / A := div_nonneg (sq_nonneg _) hA0
    have h3 : B ^ 2 / A = 0 := by linarith
    rcases div_eq_zero_iff.1 h3 with h4 | h4
    · exact pow_eq_zero_iff two_ne_zero |>.1 h4
    · exact absurd h4 h0.ne'

/-- C143: weighted least squares with an intercept superposes at all features that are an affine
combination of those it is trained on (for positive weights), whichever minimiser is taken. -/
theorem C143_least_squares (L : Learner K F) (X : Mat K) (hL : LeastSquares X.c L) (e : Nat)
    (T : List Nat) (w : Nat → K) (hw : ∀ j ∈ T, 0 < w j) (x : List K) (hx : AffineOf X (· ∈ T) x) :
    SuperposesAt L e (T.map X.row) (T.map w) x := by
  intro a b ys ys' f f' g h1 h2 hf hf' hg
  simp only [List.length_map] at h1 h2
  obtain ⟨c, β, hp, hm⟩ := hL _ _ _ _ _ hf
  obtain ⟨c', β', hp', hm'⟩ := hL _ _ _ _ _ hf'
  obtain ⟨d, γ, hpg, hmg⟩ := hL _ _ _ _ _ hg
  rw [hp, hp', hpg, ← linVal_combine]
  have hw0 : ∀ k < (T.map X.row).length, 0 ≤ (T.map w).getD k 0 := by
    intro k hk
    have hk : k < T.length := by simpa using hk
    simpa [hk] using (hw _ (List.getElem_mem hk)).le
  -- the difference of the two candidates
  have hδ : ∀ z, linVal X.c (1 * d + (-1) * (a * c + b * c')) (fun q => 1 * γ q + (-1) * (a * β q + b * β' q)) z
      = linVal X.c d γ z - (a * linVal X.c c β z + b * linVal X.c c' β' z) := by
    intro z
    rw [linVal_combine, linVal_combine]
    ring
  have n1 := normal_equations hm hw0 (1 * d + (-1) * (a * c + b * c'))
    fun q => 1 * γ q + (-1) * (a * β q + b * β' q)
  have n2 := normal_equations hm' hw0 (1 * d + (-1) * (a * c + b * c'))
    fun q => 1 * γ q + (-1) * (a * β q + b * β' q)
  have n3 := normal_equations hmg hw0 (1 * d + (-1) * (a * c + b * c'))
    fun q => 1 * γ q + (-1) * (a * β q + b * β' q)
  have hsum : ∑ k ∈ Finset.range (T.map X.row).length, (T.map w).getD k 0 *
      (linVal X.c d γ ((T.map X.row).getD k []) - (a * linVal X.c c β ((T.map X.row).getD k []) +
        b * linVal X.c c' β' ((T.map X.row).getD k []))) ^ 2 = 0 := by
    have : ∀ u v z : K, u = 0 → v = 0 → z = 0 → a * u + b * v - z = 0 := by
      rintro u v z rfl rfl rfl
      ring
    have := this _ _ _ n1 n2 n3
    rw [Finset.mul_sum, Finset.mul_sum, ← Finset.sum_add_distrib, ← Finset.sum_sub_distrib] at this
    refine Eq.trans (Finset.sum_congr rfl fun k _ => ?_) this
    rw [hδ, combine_getD (h1.trans h2.symm)]
    ring
  have hterm := (Finset.sum_eq_zero_iff_of_nonneg fun k hk =>
    mul_nonneg (hw0 k (Finset.mem_range.1 hk)) (sq_nonneg _)).1 hsum
  refine hx.linVal fun j _ hj => ?_
  obtain ⟨k, hk, rfl⟩ := List.getElem_of_mem hj
  have h3 := hterm k (by simpa using hk)
  have hpos := hw _ (List.getElem_mem hk)
  simp only [List.getD_eq_getElem?_getD, List.getElem?_map, List.getElem?_eq_getElem hk,
    Option.map_some, Option.getD_some, mul_eq_zero, hpos.ne', false_or,
    pow_eq_zero_iff two_ne_zero, sub_eq_zero] at h3
  rw [linVal_combine]
  exact h3

/-- C143: new points by fitting there: `predict_by_fit` superposes as well. -/
theorem C143_predict_by_fit (L : Learner K F) (p : WMParams K C) (st st' st'' : WMState K F C)
    (Xn : Mat K) (cn ct : C) (ps ps' ps'' : List K) (X : Mat K) (a b : K) (y y' : List K)
    (hyy : y.length = y'.length)
    (hX : st.X = some X ∧ st'.X = some X ∧ st''.X = some X)
    (hy : st.y = some y ∧ st'.y = some y' ∧ st''.y = some (combine a b y y'))
    (hc : st.coords = some ct ∧ st'.coords = some ct ∧ st''.coords = some ct)
    (M : Mat K) (hM : p.weights ct cn = .ok M)
    (h : predictByFit L p st Xn (some cn) none = .ok ps)
    (h' : predictByFit L p st' Xn (some cn) none = .ok ps')
    (h'' : predictByFit L p st'' Xn (some cn) none = .ok ps'')
    (hsup : ∀ i < M.c,
      let T := (List.range X.r).filter fun k => decide (M.get k i ≠ 0)
      SuperposesAt L i (T.map X.row) (T.map fun k => M.get k i) (Xn.row i)) :
    ps'' = combine a b ps ps' := by
  have key : ∀ (st : WMState K F C) (y ps : List K), st.X = some X → st.y = some y → st.coords = some ct →
      predictByFit L p st Xn (some cn) none = .ok ps → ps.length = M.c ∧ ∀ i < M.c, ∃ f,
        let T := (List.range X.r).filter fun k => decide (M.get k i ≠ 0)
        L.fit i (T.map X.row) (T.map fun k => y.getD k 0) (T.map fun k => M.get k i) = .ok f ∧
        ps[i]? = some (L.predict f (Xn.row i)) := by
    intro st y ps hX hyc hc h
    unfold predictByFit at h
    split at h
    · cases h
    simp only [guard, bind, Except.bind, predictFitWeights, hc, hM, cachedData, hX, hyc,
      Except.map] at h
    cases hf : fitAll L X (fun i => y.getD i 0) (some Xn) (.dense M.transpose) Xn.r none none none
        p.cpu with
    | error e => rw [hf] at h; cases h
    | ok res =>
      rw [hf] at h
      injection h with h
      subst h
      unfold fitAll at hf
      simp only [Option.getD_none, Option.getD_some] at hf
      have hm := runPatches_ok hf
      have hr : (WMat.dense M.transpose).r = M.c := rfl
      have hlen : res.length = M.c := by
        rw [mapE_length hm]
        simp [hr]
      refine ⟨by simpa using hlen, fun i hi => ?_⟩
      have hi' : i < (List.range (WMat.dense M.transpose).r).length := by simpa [hr] using hi
      have h1 := mapE_get hm hi'
      simp only [List.getElem_range] at h1
      rw [locTask_eq (locTask_ok h1)] at h1
      simp only [denseTask] at h1
      split at h1
      · cases h1
      rename_i hcc
      have hcc : M.transpose.c = X.r := not_not.1 hcc
      have hT : nonzeroIdx M.transpose.c (M.transpose.get i) =
          (List.range X.r).filter fun k => decide (M.get k i ≠ 0) := by
        unfold nonzeroIdx
        rw [hcc]
        rfl
      rw [hT] at h1
      unfold fitLocal at h1
      change Except.map _ (L.fit i (((List.range X.r).filter fun k => decide (M.get k i ≠ 0)).map X.row)
        (((List.range X.r).filter fun k => decide (M.get k i ≠ 0)).map fun k => y.getD k 0)
        (((List.range X.r).filter fun k => decide (M.get k i ≠ 0)).map fun k => M.get k i)) = _ at h1
      cases hff : L.fit i (((List.range X.r).filter fun k => decide (M.get k i ≠ 0)).map X.row)
          (((List.range X.r).filter fun k => decide (M.get k i ≠ 0)).map fun k => y.getD k 0)
          (((List.range X.r).filter fun k => decide (M.get k i ≠ 0)).map fun k => M.get k i) with
      | error e => rw [hff] at h1; cases h1
      | ok f =>
        rw [hff] at h1
        refine ⟨f, hff, ?_⟩
        have h1 := (Except.ok.inj h1).symm
        rw [List.getElem?_map, List.getElem?_eq_getElem (by omega), Option.map_some, h1]
  obtain ⟨l1, k1⟩ := key st y ps hX.1 hy.1 hc.1 h
  obtain ⟨l2, k2⟩ := key st' y' ps' hX.2.1 hy.2.1 hc.2.1 h'
  obtain ⟨l3, k3⟩ := key st'' _ ps'' hX.2.2 hy.2.2 hc.2.2 h''
  apply List.ext_getElem
  · rw [combine_length (by omega)]
    omega
  intro i h1 h2
  have hi : i < M.c := by omega
  obtain ⟨f, e1, g1⟩ := k1 i hi
  obtain ⟨f', e2, g2⟩ := k2 i hi
  obtain ⟨f'', e3, g3⟩ := k3 i hi
  simp only [combine_getD hyy] at e3
  rw [← combine_map] at e3
  have := hsup i hi a b _ _ _ _ _ (by simp) (by simp) e1 e2 e3
  rw [(List.getElem?_eq_some_iff.1 g3).2, this]
  simp only [combine, List.getElem_zipWith]
  rw [(List.getElem?_eq_some_iff.1 g1).2, (List.getElem?_eq_some_iff.1 g2).2]

/-- C143: new points by averaging: `predict_by_weight` superposes if the local regressors do at the new
features. -/
theorem C143_predict_by_weight (L : Learner K F) (rng : Rng S) (hrng : rng.Valid) (p : WMParams K C)
    (hd : p.cacheData = true) (hce : p.cacheEstimator = true)
    (hrate : ∀ r, p.sampleRate = some r → 0 ≤ r ∧ r ≤ 1)
    (hal : p.nJobs = none ∨ p.sampleRate = none) (st st' st'' : WMState K F C) (s : S) (X : Mat K)
    (a b : K) (y y' : List K) (ct cn : C) (D M : Mat K) (Xn : Mat K)
    (hD : p.weights ct ct = .ok D) (hM : p.weights cn ct = .ok M) (hMr : M.r = Xn.r)
    (hsup : ∀ i < X.r, ∀ m < Xn.r, SuperposesAt L i ((trainingSet p X.r D i).map X.row)
      ((trainingSet p X.r D i).map (D.get i)) (Xn.row m))
    (h : (wmFit L rng p st s X y (some ct) none).result = .ok ())
    (h' : (wmFit L rng p st' s X y' (some ct) none).result = .ok ())
    (h'' : (wmFit L rng p st'' s X (combine a b y y') (some ct) none).result = .ok ())
    (hMc : ∀ idx, (wmFit L rng p st s X y (some ct) none).state.localIndices = some idx →
      M.c = idx.length) :
    ∃ ps ps', predictByWeight L p (wmFit L rng p st s X y (some ct) none).state Xn (some cn) none = .ok ps ∧
      predictByWeight L p (wmFit L rng p st' s X y' (some ct) none).state Xn (some cn) none = .ok ps' ∧
      predictByWeight L p (wmFit L rng p st'' s X (combine a b y y') (some ct) none).state Xn (some cn) none =
        .ok (combine a b ps ps') := by
  have hcw : chosenWeights p (some ct) none = .ok (.dense D) := by
    simp [chosenWeights, hD, Except.map]
  have hco : ∀ (st : WMState K F C) (y : List K), (wmFit L rng p st s X y (some ct) none).result = .ok () →
      (wmFit L rng p st s X y (some ct) none).state.coords = some ct ∧
      ∀ idx, (wmFit L rng p st s X y (some ct) none).state.localIndices = some idx → idx ≠ [] := by
    intro st y h
    obtain ⟨W0, idx, s', res, sc, hck, hW0, hs, hf, hl, h2, hsc, hout⟩ := wmFit_ok h
    rw [hout]
    refine ⟨by simp [stateBegin, hd], fun idx' hi => ?_⟩
    cases Option.some.inj hi
    intro h0
    rw [h0] at h2
    simp at h2
  obtain ⟨idx, s1, fs, hs, hy, hl, hix, hes, -, hfit⟩ := fit_values hal hcw h
  obtain ⟨idx', s1', fs', hs', hy', hl', hix', hes', -, hfit'⟩ := fit_values hal hcw h'
  obtain ⟨idx'', s1'', fs'', hs'', hy'', hl'', hix'', hes'', -, hfit''⟩ := fit_values hal hcw h''
  rw [hs] at hs' hs''
  cases hs'
  cases hs''
  have hlt : ∀ i ∈ idx, i < X.r := (sampleLocations_spec hrng hrate hs).2.1
  have hyy : y.length = y'.length := hy.symm.trans hy'
  have hne := (hco st y h).2 idx hix
  have hn : idx.length ≠ 0 := fun h0 => hne (List.length_eq_zero_iff.1 h0)
  simp only [hce, if_true] at hes hes' hes''
  have hc := hMc idx hix
  have hz : ∀ gs : List F, gs.length = idx.length → gs ≠ [] := fun gs hg h0 => by
    rw [h0] at hg
    exact hn hg.symm
  refine ⟨_, _, C43_weighted_sum L p _ Xn cn ct M fs hd hce hes (hz _ hl) (hco st y h).1 hM hMr (by omega),
    C43_weighted_sum L p _ Xn cn ct M fs' hd hce hes' (hz _ hl') (hco st' y' h').1 hM hMr (by omega), ?_⟩
  rw [C43_weighted_sum L p _ Xn cn ct M fs'' hd hce hes'' (hz _ hl'') (hco st'' _ h'').1 hM hMr (by omega),
    combine_map]
  congr 1
  refine List.map_congr_left fun m hm => ?_
  have hm := List.mem_range.1 hm
  have hsum : ∀ gs : List F, gs.length = idx.length →
      (List.zipWith (fun w f => w * L.predict f (Xn.row m)) (M.row m) gs).sum =
      ((List.range idx.length).map fun k => M.get m k *
        (gs[k]?.map fun f => L.predict f (Xn.row m)).getD 0).sum := by
    intro gs hg
    congr 1
    apply List.ext_getElem
    · simp [Mat.row, hg, hc]
    intro k h1 h2
    have hk : k < gs.length := by simpa [hg] using h2
    simp [Mat.row, hk]
  rw [hsum _ hl, hsum _ hl', hsum _ hl'', ← List.sum_map_mul_left, ← List.sum_map_mul_left,
    ← List.sum_map_add]
  congr 1
  refine List.map_congr_left fun k hk => ?_
  have hk := List.mem_range.1 hk
  have e0 := List.getElem?_eq_getElem hk
  have e1 := List.getElem?_eq_getElem (by omega : k < fs.length)
  have e2 := List.getElem?_eq_getElem (by omega : k < fs'.length)
  have e3 := List.getElem?_eq_getElem (by omega : k < fs''.length)
  have g1 := hfit k _ _ e0 e1
  have g2 := hfit' k _ _ e0 e2
  have g3 := hfit'' k _ _ e0 e3
  simp only [combine_getD hyy] at g3
  rw [← combine_map] at g3
  have := hsup _ (hlt _ (List.getElem_mem hk)) m hm a b _ _ _ _ _ (by simp) (by simp) g1 g2 g3
  rw [e1, e2, e3]
  simp only [Option.map_some, Option.getD_some]
  rw [this]
  ring

/-! ### Examples -/

theorem zipWith_combine (a b : ℚ) (w y y' : List ℚ) (h : y.length = w.length) (h' : y'.length = w.length) :
    (List.zipWith (· * ·) w (combine a b y y')).sum =
      a * (List.zipWith (· * ·) w y).sum + b * (List.zipWith (· * ·) w y').sum := by
  induction w generalizing y y' with
  | nil => simp
  | cons u w ih =>
    cases y with
    | nil => simp at h
    | cons v y =>
    cases y' with
    | nil => simp at h'
    | cons v' y' =>
      have := ih y y' (by simpa using h) (by simpa using h')
      unfold combine at this
      simp only [combine, List.zipWith_cons_cons, List.sum_cons, this]
      ring

/-- The weighted mean superposes everywhere and refuses no targets. -/
theorem localMean_superposes (e : Nat) (rows : List (List ℚ)) (ws x : List ℚ) :
    SuperposesAt localMean e rows ws x := by
  intro a b ys ys' f f' g h1 h2 hf hf' hg
  simp only [localMean] at hf hf' hg ⊢
  split at hf
  · cases hf
  split at hf'
  · cases hf'
  split at hg
  · cases hg
  rename_i k1 k2 k3
  push Not at k1 k2
  cases hf
  cases hf'
  cases hg
  rw [zipWith_combine a b ws ys ys' k1.2 k2.2]
  ring

theorem localMean_takes (e : Nat) (rows : List (List ℚ)) (ys ys' ws : List ℚ) (f : ℚ)
    (hl : ys.length = ys'.length) (h : localMean.fit e rows ys ws = .ok f) :
    ∃ f', localMean.fit e rows ys' ws = .ok f' := by
  simp only [localMean] at h ⊢
  rw [← hl]
  split at h
  · cases h
  · rename_i hn
    rw [if_neg hn]
    exact ⟨_, rfl⟩

/-- The hypotheses of `C143_superposition`, `C143_hat_matrix` and `C143_predict_by_weight`: fits of the
weighted mean on three targets succeed, and so do the predictions. -/
example :
    (∀ y ∈ [exY5, [0, 1, 0, 2, 5], combine 2 (-3) exY5 [0, 1, 0, 2, 5]],
      (wmFit localMean countRng exPc {} 0 exX5 y (some exTrain) none).result = .ok ()) ∧
    (wmFit localMean countRng exPc {} 0 exX5 (combine 2 (-3) exY5 [0, 1, 0, 2, 5]) (some exTrain)
      none).state.localPredict ≠ (wmFit localMean countRng exPc {} 0 exX5 exY5 (some exTrain)
      none).state.localPredict ∧ countRng.Valid ∧ exPc.sampleRate = none ∧ exPc.cacheData = true ∧
    exPc.cacheEstimator = true :=
  ⟨by decide +kernel, by decide +kernel, countRng_valid, rfl, rfl, rfl⟩

/-- The hat matrix of this fit exists and its rows sum to one. -/
example : ∃ D, chosenWeights exPc (some exTrain) none = .ok (.dense D) ∧ ∃ H : Nat → Nat → ℚ,
    (∀ i k, H i k ≠ 0 → k ≠ i) ∧
    (wmFit localMean countRng exPc {} 0 exX5 exY5 (some exTrain) none).state.localPredict =
      some ((List.range 5).map fun i => ∑ k ∈ Finset.range 5, H i k * exY5.getD k 0) := by
  have hok : (wmFit localMean countRng exPc {} 0 exX5 exY5 (some exTrain) none).result = .ok () := by
    decide +kernel
  obtain ⟨D, hD⟩ : ∃ D, chosenWeights exPc (some exTrain) none = .ok (.dense D) := by
    simp only [chosenWeights]
    cases h : exPc.weights exTrain exTrain with
    | error e =>
      obtain ⟨W0, idx, s', res, sc, -, hW0, -, -, -, -, -, -⟩ := wmFit_ok hok
      simp only [chosenWeights, h] at hW0
      cases hW0
    | ok M => exact ⟨M, rfl⟩
  refine ⟨D, hD, ?_⟩
  obtain ⟨H, h1, h2⟩ := C143_hat_matrix localMean countRng countRng_valid exPc (by simp [exPc]) (.inr rfl) 0
    exX5 (some exTrain) none D hD (fun i _ => localMean_superposes _ _ _ _) localMean_takes
  refine ⟨H, fun i k hk => ?_, ?_⟩
  · have := (h1 i k hk).2
    intro h
    exact this ⟨rfl, h⟩
  · obtain ⟨idx, hi, hp, -⟩ := h2 {} exY5 hok
    have : (wmFit localMean countRng exPc {} 0 exX5 exY5 (some exTrain) none).state.localIndices =
        some (List.range 5) := by decide +kernel
    rw [this] at hi
    cases hi
    exact hp

/-- Local regression lines on three targets (`C143_least_squares`). -/
example : LeastSquares exX5.c simpleRegression ∧
    (∀ y ∈ [exY5, [0, 1, 0, 2, 5], combine 2 (-3) exY5 [0, 1, 0, 2, 5]],
      (wmFit simpleRegression countRng exPc {} 0 exX5 y (some exTrain) none).result = .ok ()) :=
  ⟨simpleRegression_leastSquares, by decide +kernel⟩

end Geo
