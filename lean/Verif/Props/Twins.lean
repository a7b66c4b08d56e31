import Verif.Props.Superposition
import Verif.Props.Coincident
/-
C145: copies of an observation defeat leave_local_out.
-/
set_option linter.unusedSectionVars false
namespace Geo
variable {K : Type} [Field K] [LinearOrder K] [IsStrictOrderedRing K] [FloorRing K]
  {F C S : Type}

/-- C145: of a pair at the same coordinates (in every dimension) each gives the other the weight it gives
itself, the largest of its row. -/
theorem C145_twin_weight (lib : Lib K) (hl : lib.Nonneg) (hself : ∀ m a, metricFun lib m a a = 0)
    (env : Env K) (he : env.Ok) (fs : Disk K) (ms : Param (Option String)) (wp : WParams K)
    (c : List (Mat K)) (hm : c.length ≤ (ms.expand c.length).length) {n : Nat} (hcr : ∀ t ∈ c, t.r = n)
    (hb : ∀ b, some b ∈ wp.bandwidth.expand c.length → 0 ≤ b) (M : Mat K)
    (h : pointSource lib env fs ms wp c c = .ok M) {i j : Nat} (hi : i < n) (hj : j < n)
    (hij : ∀ t ∈ c, t.row j = t.row i) :
    M.get i j = M.get i i ∧ 0 < M.get i j ∧ ∀ k < n, M.get i k ≤ M.get i j := by
  have hpos : ∀ t ∈ c, 0 < t.r := fun t ht => by rw [hcr t ht]; omega
  have hMr := pointSource_r lib env fs ms wp c c hm hpos M h hcr
  have hMc := pointSource_c lib env fs ms wp c c hm hpos M h hcr
  have h1 : M.get i j = M.get i i := by
    unfold pointSource at h
    cases hW : (weightMatrixFromPoints lib env fs c (some c) ms wp none).1 with
    | error e => rw [hW] at h; cases h
    | ok W =>
      rw [hW] at h
      simp only at h
      split at h
      · cases h
        change (W.get i j).toK = (W.get i i).toK
        rw [C105_same_targets lib env fs c c ms wp none j i (fun t ht => by rw [hcr t ht]; exact ⟨hj, hi⟩)
          hij W hW i]
      · cases h
  obtain ⟨⟨hlen, -⟩, W, hW, -, rfl⟩ := (pointSource_iff lib env fs ms wp c c hm hpos M).1 h
  have hWr : W.r = n := hMr
  have hWc : W.c = n := hMc
  have hdl := dims_length _ _ _ hlen hm
  obtain ⟨x, hx, -, hx0, hmax⟩ := C14_self_is_heaviest env he false _ _ W hW
    (eagerDists_nonneg hl c c _ wp hdl hb) i (by omega) (by omega) (by
      intro D hD
      obtain ⟨d, hd, rfl⟩ := List.mem_map.1 hD
      have hdd : d.1 = d.2.1 := by
        have : ∀ (src : List (Mat K)) (ms : List (Option String)), d ∈ dims src src ms → d.1 = d.2.1 := by
          intro src
          induction src with
          | nil => intro ms h; simp [dims] at h
          | cons s src ih =>
            intro ms h
            cases ms with
            | nil => simp [dims] at h
            | cons a ms =>
              rcases List.mem_cons.1 h with rfl | h
              · rfl
              · exact ih ms h
        exact this _ _ hd
      change metricFun lib d.2.2 (d.1.row i) (d.2.1.row i) = 0
      rw [hdd]
      exact hself _ _)
  have hg : ∀ k < n, (W.map Num.toK).get i k = x k := by
    intro k hk
    change (W.get i k).toK = x k
    rw [hx k (by omega)]
    rfl
  refine ⟨h1, ?_, fun k hk => ?_⟩
  · rw [h1, hg i hi]
    exact hx0
  · rw [h1, hg i hi, hg k hk]
    exact hmax k (by omega)

/-- A regressor that reproduces its training data wherever they do not contradict themselves, such as
nearest neighbours and trees grown to the end. -/
def Reproduces (L : Learner K F) : Prop :=
  ∀ (e : Nat) (rows : List (List K)) (ys ws : List K) (f : F), L.fit e rows ys ws = .ok f →
    ys.length = rows.length → ws.length = rows.length → (∀ w ∈ ws, w ≠ 0) →
    ∀ (k : Nat) (x : List K) (v : K), rows[k]? = some x → ys[k]? = some v →
      (∀ m : Nat, rows[m]? = some x → ys[m]? = some v) → L.predict f x = v

/-- A location whose neighbours include a copy of its observation is predicted exactly. -/
theorem twin_predict {L : Learner K F} (hL : Reproduces L) {p : WMParams K C} {X : Mat K} {y : List K}
    {D : Mat K} {i j : Nat} (hj : j < X.r) (hji : j ≠ i) (hw : D.get i j ≠ 0)
    (hrow : X.row j = X.row i) (hy : ∀ k < X.r, X.row k = X.row i → y.getD k 0 = y.getD i 0) {f : F}
    (hf : L.fit i ((trainingSet p X.r D i).map X.row) ((trainingSet p X.r D i).map fun k => y.getD k 0)
      ((trainingSet p X.r D i).map (D.get i)) = .ok f) :
    L.predict f (X.row i) = y.getD i 0 := by
  have hmem : j ∈ trainingSet p X.r D i := by
    unfold trainingSet
    rw [List.mem_filter]
    exact ⟨List.mem_range.2 hj, decide_eq_true ⟨hw, fun h => hji h.2⟩⟩
  obtain ⟨k, hk, e⟩ := List.getElem_of_mem hmem
  have hk' : (trainingSet p X.r D i)[k]? = some j := by rw [List.getElem?_eq_getElem hk, e]
  refine hL i _ _ _ f hf (by simp) (by simp) ?_ k (X.row i) (y.getD i 0) ?_ ?_ ?_
  · intro w hw
    obtain ⟨m, hm, rfl⟩ := List.mem_map.1 hw
    exact (of_decide_eq_true (List.mem_filter.1 hm).2).1
  · rw [List.getElem?_map, hk', Option.map_some, hrow]
  · rw [List.getElem?_map, hk', Option.map_some, hy j hj hrow]
  · intro m hm
    rw [List.getElem?_map] at hm ⊢
    cases ht : (trainingSet p X.r D i)[m]? with
    | none => rw [ht] at hm; cases hm
    | some k =>
      rw [ht] at hm
      have hk : k < X.r := List.mem_range.1 (List.mem_filter.1 (List.mem_of_getElem? ht)).1
      rw [Option.map_some, hy k hk (Option.some.inj hm)]

/-- C145: a fit on coordinates, with or without leave_local_out. An observation that occurs twice (same
place, same features, same target; equal features never go with different targets) is predicted exactly
by a regressor that reproduces its training data. -/
theorem C145_twin (L : Learner K F) (hL : Reproduces L) (rng : Rng S) (lib : Lib K) (hl : lib.Nonneg)
    (hself : ∀ m a, metricFun lib m a a = 0) (env : Env K) (he : env.Ok) (fs : Disk K)
    (ms : Param (Option String)) (wp : WParams K) (p : WMParams K (List (Mat K)))
    (hp : p.weights = pointSource lib env fs ms wp) (hal : p.nJobs = none ∨ p.sampleRate = none)
    (st : WMState K F (List (Mat K))) (s : S) (X : Mat K) (y : List K)
    (c : List (Mat K)) (hm : c.length ≤ (ms.expand c.length).length) (hcr : ∀ t ∈ c, t.r = X.r)
    (hb : ∀ b, some b ∈ wp.bandwidth.expand c.length → 0 ≤ b)
    (hok : (wmFit L rng p st s X y (some c) none).result = .ok ())
    (hy : ∀ k < X.r, ∀ m < X.r, X.row k = X.row m → y.getD k 0 = y.getD m 0)
    {i j a : Nat} (hi : i < X.r) (hj : j < X.r) (hji : j ≠ i)
    (hplace : ∀ t ∈ c, t.row j = t.row i) (hrow : X.row j = X.row i)
    (ha : (wmFit L rng p st s X y (some c) none).state.localIndices.bind (·[a]?) = some i) :
    (wmFit L rng p st s X y (some c) none).state.localPredict.bind (·[a]?) = some (y.getD i 0) ∧
    (wmFit L rng p st s X y (some c) none).state.residual.bind (·[a]?) = some 0 := by
  obtain ⟨W0, -, -, -, -, -, hW0, -⟩ := wmFit_ok hok
  have hch := hW0
  simp only [chosenWeights, hp] at hW0
  cases hM : pointSource lib env fs ms wp c c with
  | error e => rw [hM] at hW0; cases hW0
  | ok M =>
  rw [hM] at hW0
  cases hW0
  obtain ⟨-, hpos, -⟩ := C145_twin_weight lib hl hself env he fs ms wp c hm hcr hb M hM hi hj hplace
  obtain ⟨idx, s', es, hs, -, hlen, hli, -, ⟨ps, hps, hpl, hres, hpv⟩, hfit⟩ := fit_values hal hch hok
  rw [hli, Option.bind_some] at ha
  have hlt : a < idx.length := (List.getElem?_eq_some_iff.1 ha).1
  have hes := List.getElem?_eq_getElem (by omega : a < es.length)
  have hv := twin_predict hL hj hji hpos.ne' hrow (fun k hk h => hy k hk i hi h) (hfit a i _ ha hes)
  have hpa : ps[a]? = some (y.getD i 0) := by rw [hpv a i _ ha hes, hv]
  refine ⟨by rw [hps, Option.bind_some, hpa], ?_⟩
  rw [hres, Option.bind_some, List.getElem?_zipWith, List.getElem?_map, ha, hpa]
  simp

/-- C145: if every observation occurs twice, `llocv_score_` is 1, whatever the targets. -/
theorem C145_score (L : Learner K F) (hL : Reproduces L) (rng : Rng S) (lib : Lib K) (hl : lib.Nonneg)
    (hself : ∀ m a, metricFun lib m a a = 0) (env : Env K) (he : env.Ok) (fs : Disk K)
    (ms : Param (Option String)) (wp : WParams K) (p : WMParams K (List (Mat K)))
    (hp : p.weights = pointSource lib env fs ms wp) (hsr : p.sampleRate = none)
    (st : WMState K F (List (Mat K))) (s : S) (X : Mat K) (y : List K)
    (c : List (Mat K)) (hm : c.length ≤ (ms.expand c.length).length) (hcr : ∀ t ∈ c, t.r = X.r)
    (hb : ∀ b, some b ∈ wp.bandwidth.expand c.length → 0 ≤ b)
    (hok : (wmFit L rng p st s X y (some c) none).result = .ok ())
    (hy : ∀ k < X.r, ∀ m < X.r, X.row k = X.row m → y.getD k 0 = y.getD m 0)
    (htwin : ∀ i < X.r, ∃ j < X.r, j ≠ i ∧ X.row j = X.row i ∧ ∀ t ∈ c, t.row j = t.row i) :
    (wmFit L rng p st s X y (some c) none).state.localPredict = some y ∧
    (wmFit L rng p st s X y (some c) none).state.score = some 1 := by
  have hone := fun i hi a ha =>
    let ⟨_, hj, hji, hrow, hplace⟩ := htwin i hi
    (C145_twin L hL rng lib hl hself env he fs ms wp p hp (.inr hsr) st s X y c hm hcr hb hok hy
      (i := i) (a := a) hi hj hji hplace hrow ha).1
  obtain ⟨W0, idx, s', res, score, hck, -, hs, -, hlen, -, hsc, hout⟩ := wmFit_ok hok
  rw [hsr] at hs
  have hidx := sampleLocations_all hs
  subst hidx
  have hXy : X.r = y.length := by
    have := of_decide_eq_true hck
    omega
  have hps : res.map Prod.fst = y := by
    apply List.ext_getElem?
    intro a
    by_cases ha : a < X.r
    · have := hone a ha a (by rw [hout]; simp [ha])
      rw [hout] at this
      simp only [Option.bind_some] at this
      rw [this, List.getD_eq_getElem _ _ (by omega), List.getElem?_eq_getElem (by omega)]
    · rw [List.getElem?_eq_none (by simp at hlen ⊢; omega), List.getElem?_eq_none (by omega)]
  have hys : (List.range X.r).map (yfun y) = y := by
    apply List.ext_getElem?
    intro a
    by_cases ha : a < X.r
    · rw [List.getElem?_map, List.getElem?_range ha, List.getElem?_eq_getElem (by omega : a < y.length)]
      simp [yfun, show a < y.length by omega]
    · rw [List.getElem?_eq_none (by simp; omega), List.getElem?_eq_none (by omega)]
  rw [hps, hys] at hsc
  rw [hout]
  exact ⟨by simp only [hps], by simp only [skR2_self hsc]⟩

/-! ### A concrete case -/

/-- The target of the first training row with the same features, 0 for others; refuses to be trained on
nothing. -/
def sameRow : Learner ℚ (List (List ℚ × ℚ)) where
  fit _ rows ys _ := if rows = [] then .error .valueError else .ok (rows.zip ys)
  predict f x := ((f.find? fun e => decide (e.1 = x)).map Prod.snd).getD 0

theorem sameRow_reproduces : Reproduces sameRow := by
  intro e rows ys ws f hf hl _ _ k x v hx hv hall
  simp only [sameRow] at hf
  split at hf
  · cases hf
  cases hf
  have hz : (rows.zip ys)[k]? = some (x, v) := by
    simp [List.zip, List.getElem?_zipWith, hx, hv]
  have hsome : ((rows.zip ys).find? fun e => decide (e.1 = x)).isSome := by
    rw [List.find?_isSome]
    exact ⟨(x, v), List.mem_of_getElem? hz, by simp⟩
  obtain ⟨q, hq⟩ := Option.isSome_iff_exists.1 hsome
  have hqx : q.1 = x := by simpa using List.find?_some hq
  obtain ⟨m, hm⟩ := List.getElem?_of_mem (List.mem_of_find?_eq_some hq)
  obtain ⟨h1, h2⟩ := List.getElem?_zip_eq_some.1 hm
  rw [hqx] at h1
  have := (hall m h1).symm.trans h2
  change (Option.map Prod.snd _).getD 0 = v
  rw [hq]
  exact (Option.some.inj this).symm

theorem exLib_self (m : Option String) (a : List ℚ) : metricFun exLib m a a = 0 := by
  have h0 : sqDist a a = 0 := by
    induction a with
    | nil => rfl
    | cons x a ih => simp_all [sqDist]
  unfold metricFun
  split
  · exact h0
  · simp only [exLib]
    split <;> simp [h0]

/-- Three observations, each twice: places, features, targets. -/
def twPlaces : List (Mat ℚ) := [⟨6, 1, fun i _ => [0, 1, 3].getD (i % 3) 0⟩]
def twX : Mat ℚ := ⟨6, 1, fun i _ => [5, 7, 2].getD (i % 3) 0⟩
def twY : List ℚ := [4, 1, 9, 4, 1, 9]

/-- The hypotheses of `C145_score` are met (with four neighbours), and the
predictions are exact. The same observations once are predicted worse than by their mean. -/
example : (wmFit sameRow countRng { tsP 4 "bisquare" with leaveLocalOut := true } {} 0 twX twY
      (some twPlaces) none).result = .ok () ∧
    (∀ k < 6, ∀ m < 6, twX.row k = twX.row m → twY.getD k 0 = twY.getD m 0) ∧
    (∀ i < 6, ∃ j < 6, j ≠ i ∧ twX.row j = twX.row i ∧ ∀ t ∈ twPlaces, t.row j = t.row i) ∧
    (wmFit sameRow countRng { tsP 4 "bisquare" with leaveLocalOut := true } {} 0 twX twY
      (some twPlaces) none).state.score = some 1 ∧
    (wmFit sameRow countRng { tsP 3 "boxcar" with leaveLocalOut := true } {} 0 ⟨3, 1, twX.get⟩ (twY.take 3)
      (some (twPlaces.map fun t => ⟨3, 1, t.get⟩)) none).state.score.map (fun v => decide (v < 0)) =
        some true := by
  refine ⟨?_, ?_, ?_, ?_, ?_⟩ <;> decide +kernel

end Geo
