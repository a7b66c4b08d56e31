import Verif.Props.FitSucceeds
import Verif.Props.Reach
import Verif.Props.Bandwidth
import Verif.Props.WeightModelState
/-
C139: when a weight model can be fitted.
C140: how many observations a local model is trained on with an integer `neighbour_count`.
-/
set_option linter.unusedSectionVars false
namespace Geo
variable {K : Type} [Field K] [LinearOrder K] [IsStrictOrderedRing K] [FloorRing K]
  {F C S : Type}

/-- Admissible `n_jobs` and `n_patches`: not both, no zero jobs, at least one batch. -/
def WMParams.JobsFine (p : WMParams K C) : Prop :=
  (∀ j, p.nJobs = some j → j ≠ 0 ∧ p.nPatches = none) ∧
  (p.nJobs = none → ∀ n, p.storedPatches = some n → 0 < n)

/-- The observations the local model of location `i` is trained on, with weights `D`. -/
def trainingSet (p : WMParams K C) (n : Nat) (D : Mat K) (i : Nat) : List Nat :=
  (List.range n).filter fun k => decide (D.get i k ≠ 0 ∧ ¬ (p.leaveLocalOut = true ∧ k = i))

theorem denseTask_ok_iff {L : Learner K F} {p : WMParams K C} {X D : Mat K} {y : Nat → K} {i : Nat} :
    (∃ v, locTask L X y X (leaveOut p (.dense D)) X.r i = .ok v) ↔
      (i < X.r ∧ i < D.r ∧ D.c = X.r) ∧ ∃ f, L.fit i ((trainingSet p X.r D i).map X.row)
        ((trainingSet p X.r D i).map y) ((trainingSet p X.r D i).map (D.get i)) = .ok f := by
  obtain ⟨D', hD', hr, hc, hg⟩ : ∃ D' : Mat K, leaveOut p (.dense D) = .dense D' ∧ D'.r = D.r ∧
      D'.c = D.c ∧ ∀ i j, D'.get i j = if p.leaveLocalOut = true ∧ j = i then 0 else D.get i j := by
    unfold leaveOut
    split
    · rename_i hl
      refine ⟨_, rfl, rfl, rfl, fun i j => ?_⟩
      simp only [hl, true_and, eq_comm]
    · rename_i hl
      refine ⟨_, rfl, rfl, rfl, fun i j => ?_⟩
      simp [hl]
  rw [hD']
  have hidx : D'.c = X.r → nonzeroIdx D'.c (D'.get i) = trainingSet p X.r D i := by
    intro h
    unfold nonzeroIdx trainingSet
    rw [h]
    refine List.filter_congr fun k _ => decide_eq_decide.2 ?_
    rw [hg]
    by_cases hk : p.leaveLocalOut = true ∧ k = i <;> simp [hk]
  have hws : (trainingSet p X.r D i).map (D'.get i) = (trainingSet p X.r D i).map (D.get i) := by
    refine List.map_congr_left fun k hk => ?_
    have := (List.mem_filter.1 hk).2
    simp only [decide_eq_true_eq] at this
    rw [hg, if_neg this.2]
  constructor
  · rintro ⟨v, hv⟩
    obtain ⟨h1, h2, h3⟩ := locTask_ok hv
    rw [locTask_eq ⟨h1, h2, h3⟩] at hv
    simp only [denseTask] at hv
    by_cases hn : D'.c ≠ X.r
    · rw [if_pos hn] at hv; cases hv
    rw [if_neg hn] at hv
    push Not at hn
    rw [hidx hn, hws] at hv
    refine ⟨⟨h1, hr ▸ h2, hc ▸ hn⟩, ?_⟩
    unfold fitLocal at hv
    cases hf : L.fit i ((trainingSet p X.r D i).map X.row) ((trainingSet p X.r D i).map y)
        ((trainingSet p X.r D i).map (D.get i)) with
    | error e => rw [hf] at hv; cases hv
    | ok f => exact ⟨f, rfl⟩
  · rintro ⟨⟨h1, h2, h3⟩, f, hf⟩
    refine ⟨(L.predict f (X.row i), f), ?_⟩
    rw [locTask_eq (W := .dense D') ⟨h1, show i < D'.r by omega, h1⟩]
    simp only [denseTask]
    have hn : D'.c = X.r := hc.trans h3
    rw [if_neg (not_not.2 hn), hidx hn, hws, fitLocal, hf]
    rfl

theorem fitAll_goes {L : Learner K F} {p : WMParams K C} (hj : p.JobsFine) {X : Mat K} {y : Nat → K}
    {W : WMat K} {n : Nat} (hn : 0 < n) {res : List (K × F)}
    (h : mapE (locTask L X y X W X.r) (List.range n) = .ok res) :
    fitAll L X y (some X) W X.r (some (List.range n)) p.nJobs p.storedPatches p.cpu = .ok res := by
  cases hjb : p.nJobs with
  | none =>
    cases hp : p.storedPatches with
    | none =>
      unfold WMParams.storedPatches at hp
      rw [hjb] at hp
      cases hq : p.nPatches <;> rw [hq] at hp <;> cases hp
    | some m =>
      unfold fitAll
      simp only [Option.getD_some]
      rw [runPatches_eq _ _ (hj.2 hjb m hp), h]
  | some j =>
    obtain ⟨h0, h1⟩ := hj.1 j hjb
    have hp : p.storedPatches = none := by
      unfold WMParams.storedPatches
      rw [hjb, h1]
    rw [hp]
    exact fitAll_jobs h0 h (by simp; omega) (.inr (.inr ⟨n, rfl⟩))

/-- C139: when a weight model can be fitted with an ndarray of weights (given, or made from the
coordinates), with admissible `n_jobs` and `n_patches` and without `sample_local_rate`: exactly when
there are at least two observations, at least one feature, as many targets as observations, a
weight for every pair, and the regressor takes the training set of every location: the observations
of non-zero weight, without the location itself if it is left out. -/
theorem C139_fit (L : Learner K F) (rng : Rng S) (p : WMParams K C) (hj : p.JobsFine)
    (hsr : p.sampleRate = none) (st : WMState K F C) (s : S) (X : Mat K) (y : List K)
    (coords : Option C) (W : Option (WMat K)) (D : Mat K)
    (hD : chosenWeights p coords W = .ok (.dense D)) :
    (wmFit L rng p st s X y coords W).result = .ok () ↔
      (X.r = y.length ∧ 2 ≤ X.r ∧ 0 < X.c ∧ X.r ≤ D.r ∧ D.c = X.r) ∧
      ∀ i < X.r, ∃ f,
        let T := (List.range X.r).filter fun k =>
          decide (D.get i k ≠ 0 ∧ ¬ (p.leaveLocalOut = true ∧ k = i))
        L.fit i (T.map X.row) (T.map fun k => y.getD k 0) (T.map (D.get i)) = .ok f := by
  constructor
  · intro h
    obtain ⟨W0, idx, s', res, score, hc, hW0, hs, hf, hl, h2, -, -⟩ := wmFit_ok h
    rw [hD] at hW0
    cases hW0
    simp only [sampleLocations, hsr] at hs
    cases hs
    have hm := fitAll_ok hf (.inr (.inr ⟨_, rfl⟩)) hl
    obtain ⟨c1, c2, c3⟩ := of_decide_eq_true hc
    simp only [List.length_range] at h2
    have hall : ∀ i < X.r, ∃ v, locTask L X (yfun y) X (leaveOut p (.dense D)) X.r i = .ok v := by
      intro i hi
      have := mapE_get hm (i := i) (by simpa using hi)
      rw [List.getElem_range] at this
      exact ⟨_, this⟩
    have hlast := (denseTask_ok_iff.1 (hall (X.r - 1) (by omega))).1
    refine ⟨⟨c1, h2, c3, by omega, hlast.2.2⟩, fun i hi => ?_⟩
    exact (denseTask_ok_iff.1 (hall i hi)).2
  · rintro ⟨⟨c1, c2, c3, c4, c5⟩, hall⟩
    obtain ⟨res, hres⟩ := mapE_goes (f := locTask L X (yfun y) X (leaveOut p (.dense D)) X.r)
      (l := List.range X.r) fun i hi => by
        have hi := List.mem_range.1 hi
        exact denseTask_ok_iff.2 ⟨⟨hi, by omega, c5⟩, hall i hi⟩
    have hlen := mapE_length hres
    simp only [List.length_range] at hlen
    have hf := fitAll_goes hj (by omega : 0 < X.r) hres
    have hck : checkXy X y = true := decide_eq_true ⟨c1, by omega, c3⟩
    obtain ⟨v, hv⟩ : ∃ v, skR2 ((List.range X.r).map (yfun y)) (res.map Prod.fst) = .ok v := by
      unfold skR2
      rw [if_neg (by rw [List.length_map]; omega), if_neg (by simp only [List.length_map, List.length_range]; omega)]
      exact ⟨_, rfl⟩
    unfold wmFit
    rw [if_pos hck, hD]
    simp only [fitWith, sampleLocations, hsr]
    have hf' : fitAll L X (fun i => y.getD i 0) none (leaveOut p (.dense D)) X.r
        (some (List.range X.r)) p.nJobs p.storedPatches p.cpu = .ok res := hf
    rw [hf']
    simp only [stateEnd]
    have hv' : skR2 ((List.range X.r).map fun i => y.getD i 0) (res.map Prod.fst) = .ok v := hv
    rw [hv']

/-- C139, for a CSR array of weights without stored zeros (or with the location left out). -/
theorem C139_sparse_fit (L : Learner K F) (rng : Rng S) (p : WMParams K C) (hj : p.JobsFine)
    (hjn : p.nJobs = none) (hsr : p.sampleRate = none) (st : WMState K F C) (s : S) (X : Mat K)
    (y : List K) (coords : Option C) (A : Csr K) (hA : A.Canonical)
    (hz : p.leaveLocalOut = true ∨ A.NoZeros) (hc : A.c = X.r) :
    (wmFit L rng p st s X y coords (some (.sparse A))).result = .ok () ↔
      (X.r = y.length ∧ 2 ≤ X.r ∧ 0 < X.c ∧ X.r ≤ A.r) ∧
      ∀ i < X.r, ∃ f,
        let T := (List.range X.r).filter fun k =>
          decide (A.entry i k ≠ 0 ∧ ¬ (p.leaveLocalOut = true ∧ k = i))
        L.fit i (T.map X.row) (T.map fun k => y.getD k 0) (T.map (A.entry i)) = .ok f := by
  rw [(C40_sparse_eq_dense L rng p st s X y coords A hA hz hc hjn).1,
    C139_fit L rng p hj hsr st s X y coords (some (.dense A.dense)) A.dense
      (by cases coords <;> rfl)]
  constructor
  · rintro ⟨⟨h1, h2, h3, h4, -⟩, h⟩
    exact ⟨⟨h1, h2, h3, h4⟩, h⟩
  · rintro ⟨⟨h1, h2, h3, h4⟩, h⟩
    exact ⟨⟨h1, h2, h3, h4, hc⟩, h⟩

/-! ### C140 -/

/-- Number of the first `n` points that satisfy a condition. -/
def countPoints (n : Nat) (q : Nat → Prop) [DecidablePred q] : Nat :=
  ((List.range n).filter fun j => decide (q j)).length

theorem countPoints_mono {n : Nat} {q q' : Nat → Prop} [DecidablePred q] [DecidablePred q']
    (h : ∀ j < n, q j → q' j) : countPoints n q ≤ countPoints n q' := by
  unfold countPoints
  rw [← List.countP_eq_length_filter, ← List.countP_eq_length_filter]
  exact List.countP_mono_left fun j hj hq => by
    simp only [decide_eq_true_eq] at hq ⊢
    exact h j (List.mem_range.1 hj) hq

/-- Setting one point aside. -/
theorem countPoints_erase {n i : Nat} (hi : i < n) {q : Nat → Prop} [DecidablePred q] (hq : q i) :
    countPoints n (fun j => j ≠ i ∧ q j) + 1 = countPoints n q := by
  unfold countPoints
  have e1 : ∀ (q : Nat → Prop) [DecidablePred q], ((List.range n).filter fun j => decide (q j)).length =
      ((Finset.range n).filter q).card := by
    intro q _
    rfl
  rw [e1, e1]
  have : (Finset.range n).filter (fun j => j ≠ i ∧ q j) = ((Finset.range n).filter q).erase i := by
    ext j
    simp only [Finset.mem_filter, Finset.mem_erase, Finset.mem_range]
    tauto
  rw [this, Finset.card_erase_of_mem (by simp [hi, hq])]
  have : 0 < ((Finset.range n).filter q).card := Finset.card_pos.2 ⟨i, by simp [hi, hq]⟩
  omega

/-- With an adaptive bandwidth in dimension `d`: the bandwidth of a row, and which weights it leaves. -/
theorem pointSource_adaptive (lib : Lib K) (hl : lib.Nonneg) (env : Env K) (he : env.Ok) (fs : Disk K)
    (ms : Param (Option String)) (p : WParams K) (src tgt : List (Mat K))
    (hm : src.length ≤ (ms.expand src.length).length) (hr : ∀ s ∈ src, 0 < s.r)
    (hb : ∀ b, some b ∈ p.bandwidth.expand src.length → 0 ≤ b) (M : Mat K)
    (h : pointSource lib env fs ms p src tgt = .ok M) (d : Nat) (hd : d < src.length) (n : Count K)
    (hk : (p.count.expand src.length)[d]? = some (some n)) (i : Nat) (hi : i < M.r) :
    ∃ (name : String) (D : Mat K) (bw : Nat → K), (p.kernel.expand src.length)[d]? = some name ∧
      adaptiveBandwidth false D n none = .ok bw ∧ D.r = M.r ∧ D.c = M.c ∧
      (∀ j, D.get i j = pointDist lib (ms.expand src.length) src tgt d i j) ∧
      0 ≤ bw i ∧
      ∀ j < M.c, (M.get i j ≠ 0 →
          kval env name (pointDist lib (ms.expand src.length) src tgt d i j) (bw i) ≠ 0) ∧
        (src.length = 1 → kval env name (pointDist lib (ms.expand src.length) src tgt d i j) (bw i) ≠ 0 →
          M.get i j ≠ 0) := by
  obtain ⟨⟨hlen, -⟩, W, hW, hfin, rfl⟩ := (pointSource_iff lib env fs ms p src tgt hm hr M).1 h
  have hdl := dims_length _ _ _ hlen hm
  have hel : (eagerDists lib src tgt (ms.expand src.length)).length = src.length := by
    simp [eagerDists, hdl]
  have hin := eagerDists_nonneg hl src tgt (ms.expand src.length) p hdl hb
  obtain ⟨Ws, hWs, hsh, hu, hg⟩ := weightMatrix_master env he hW hin
  have hlW := dimWeights_length hWs
  have hdW : d < Ws.length := by omega
  obtain ⟨D, name, b, n', S, hD, hname, hbb, hn, hS, hw⟩ := dimWeight_unfold (dimWeights_get hWs (by omega : d < _))
  rw [hel] at hname hn hbb
  have hn' : n' = some n := by
    have := hn.symm.trans hk
    exact Option.some.inj this
  subst hn'
  have hDe : D = cdistMat (metricFun lib ((ms.expand src.length).getD d none))
      (src.getD d ⟨0, 0, fun _ _ => 0⟩) (tgt.getD d ⟨0, 0, fun _ _ => 0⟩) := by
    rw [eagerDists, List.getElem?_map, dims_get hd hlen hm] at hD
    exact (Option.some.inj hD).symm
  have hDg : ∀ j, D.get i j = pointDist lib (ms.expand src.length) src tgt d i j := by
    intro j
    rw [hDe]
    rfl
  have hDm := List.mem_of_getElem? hD
  obtain ⟨hDr, hDc⟩ := hsh D hDm
  have hD0 := hin.dist D hDm
  cases b with
  | some b => cases hw
  | none =>
  have hSn : S = none := by
    rcases hS with ⟨h0, -⟩ | ⟨-, h0⟩
    · cases h0
    · exact h0
  subst hSn
  simp only [weightByDistance, adaptiveKernel] at hw
  cases hbw : adaptiveBandwidth false D n none with
  | error e => rw [hbw] at hw; cases hw
  | ok bw =>
  rw [hbw] at hw
  have hb0 : 0 ≤ bw i := adaptiveBandwidth_nonneg hbw (fun j hj => hD0 i (hDr ▸ hi) j hj)
    (fun S' hS' => by cases hS')
  simp only [kernelFunction] at hw
  cases hke : kernelElem env false name with
  | error e => rw [hke] at hw; cases hw
  | ok w =>
  rw [hke] at hw
  have hw := Except.ok.inj hw
  have hnm : name ∈ kernelTypeEnum := by
    by_contra hn
    simp only [mem_kernelTypeEnum, not_or] at hn
    obtain ⟨h1, h2, h3, h4, h5, h6, h7⟩ := hn
    simp [kernelElem, h1, h2, h3, h4, h5, h6, h7] at hke
  have hval : ∀ j < W.c, (Ws[d].get i j).toK =
      kval env name (pointDist lib (ms.expand src.length) src tgt d i j) (bw i) := by
    intro j hj
    have hv := kernelWeight_eq env false hnm (hD0 i (hDr ▸ hi) j (hDc ▸ hj)) hb0
    simp only [kernelWeight, hke, Except.ok.injEq] at hv
    rw [← hw, ← hDg]
    show (w (D.get i j) (bw i)).toK = _
    rw [hv]
    rfl
  refine ⟨name, D, bw, hname, hbw, hDr, hDc, hDg, hb0, fun j hj => ?_⟩
  · have hj : j < W.c := hj
    have hM : (W.map Num.toK).get i j = prodK Ws i j / normK Ws W.c i := by
      show (W.get i j).toK = _
      rw [hg i hi j hj]
      rfl
    have hnk := hu.normK_pos (i := i) hi
    rw [hM]
    constructor
    · intro h0
      have hp : 0 < prodK Ws i j := lt_of_le_of_ne (hu.prodK_unit hi hj).1
        (fun e => h0 (by rw [← e, zero_div]))
      have := (hu.prodK_pos hi hj).1 hp Ws[d] (List.getElem_mem hdW)
      rw [hval j hj] at this
      exact this.ne'
    · intro h1 hk0
      have hWs1 : Ws.length = 1 := by omega
      obtain ⟨W1, hW1⟩ := List.length_eq_one_iff.1 hWs1
      have hd0 : d = 0 := by omega
      have e : prodK Ws i j = (Ws[d].get i j).toK := by
        unfold prodK
        subst hd0
        simp [hW1]
      rw [e, hval j hj]
      exact div_ne_zero hk0 hnk.ne'

theorem kval_strict {env : Env K} {name : String} (hn : name ∈ ["linear", "bisquare", "tricube"])
    {d b : K} (hd : 0 ≤ d) (hb : 0 < b) : kval env name d b ≠ 0 ↔ d < b := by
  have hx := div_nonneg hd hb.le
  have h1 : d < b ↔ d / b < 1 := by rw [div_lt_one hb]
  rw [kval_eq_kshape env name hb, h1]
  generalize d / b = x at hx
  by_cases hlt : 1 < x
  · rcases (by simpa using hn) with rfl | rfl | rfl <;> simp [kshape, hlt, hlt.le]
  · have hxx : x * x = 1 ↔ x = 1 := by
      constructor
      · intro h; nlinarith
      · rintro rfl; ring
    have hxxx : x * x * x = 1 ↔ x = 1 := by
      constructor
      · intro h
        have := sq_le_one hx (not_lt.1 hlt)
        apply le_antisymm (not_lt.1 hlt)
        nlinarith
      · rintro rfl; ring
    have hlt1 : x < 1 ↔ x ≠ 1 := ⟨fun h => h.ne, fun h => lt_of_le_of_ne (not_lt.1 hlt) h⟩
    rw [hlt1]
    rcases (by simpa using hn) with rfl | rfl | rfl <;>
      simp [kshape, hlt, sub_eq_zero, eq_comm (a := (1:K)), hxx, hxxx]

theorem kval_far {env : Env K} {name : String}
    (hn : name ∈ ["linear", "bisquare", "tricube", "boxcar"]) {d b : K} (h : b < d) :
    kval env name d b = 0 := by
  rcases (by simpa using hn : name = "linear" ∨ name = "bisquare" ∨ name = "tricube" ∨ name = "boxcar") with
    rfl | rfl | rfl | rfl <;> simp [kval, h]

theorem kval_boxcar {env : Env K} {d b : K} : kval env "boxcar" d b ≠ 0 ↔ d ≤ b := by
  simp only [kval]
  by_cases h : b < d
  · simp [h]
  · simp [h, not_lt.1 h]

/-- The weight matrix of a successful fit on coordinates. -/
theorem fitted_weights {L : Learner K F} {rng : Rng S} {lib : Lib K} {env : Env K} {fs : Disk K}
    {ms : Param (Option String)} {wp : WParams K} {p : WMParams K (List (Mat K))}
    (hp : p.weights = pointSource lib env fs ms wp) (hll : p.leaveLocalOut = true)
    {st : WMState K F (List (Mat K))} {s : S} {X : Mat K} {y : List K} {c : List (Mat K)}
    (hok : (wmFit L rng p st s X y (some c) none).result = .ok ()) :
    ∃ M, pointSource lib env fs ms wp c c = .ok M ∧
      (wmFit L rng p st s X y (some c) none).state.weightMatrix =
        some (.dense ⟨M.r, M.c, fun i j => if i = j then 0 else M.get i j⟩) := by
  obtain ⟨W0, idx, s', res, score, -, hW0, -, -, -, -, -, heq⟩ := wmFit_ok hok
  rw [heq]
  simp only [chosenWeights, hp] at hW0
  cases hM : pointSource lib env fs ms wp c c with
  | error e => rw [hM] at hW0; cases hW0
  | ok M =>
    rw [hM] at hW0
    cases hW0
    exact ⟨M, rfl, by simp [leaveOut, hll, WMat.clearDiag]⟩

/-- Number of the `n` observations that have a weight in row `i` of the recorded weight matrix. -/
def trainedOn (n : Nat) : Option (WMat K) → Nat → Nat
  | some W, i => countPoints n fun j => W.toMat.get i j ≠ 0
  | none, _ => 0

/-- What the training sets of a model fitted on coordinates look like, with an adaptive bandwidth in
dimension `d`. -/
theorem trained_adaptive {L : Learner K F} {rng : Rng S} {lib : Lib K} (hl : lib.Nonneg)
    {env : Env K} (he : env.Ok) {fs : Disk K} {ms : Param (Option String)} {wp : WParams K}
    {p : WMParams K (List (Mat K))} (hp : p.weights = pointSource lib env fs ms wp)
    (hll : p.leaveLocalOut = true) {st : WMState K F (List (Mat K))} {s : S} {X : Mat K} {y : List K}
    {c : List (Mat K)} (hm : c.length ≤ (ms.expand c.length).length) (hcr : ∀ t ∈ c, t.r = X.r)
    (hb : ∀ b, some b ∈ wp.bandwidth.expand c.length → 0 ≤ b)
    (hok : (wmFit L rng p st s X y (some c) none).result = .ok ()) {d : Nat} (hd : d < c.length)
    {n : Count K} (hk : (wp.count.expand c.length)[d]? = some (some n)) {name : String}
    (hname : (wp.kernel.expand c.length)[d]? = some name) {i : Nat} (hi : i < X.r) :
    ∃ (D : Mat K) (bw : Nat → K), adaptiveBandwidth false D n none = .ok bw ∧ D.c = X.r ∧
      (∀ j, D.get i j = pointDist lib (ms.expand c.length) c c d i j) ∧ 0 ≤ bw i ∧
      (name ∈ ["linear", "bisquare", "tricube"] → 0 < bw i →
        trainedOn X.r (wmFit L rng p st s X y (some c) none).state.weightMatrix i ≤
          countPoints X.r (fun j => j ≠ i ∧ D.get i j < bw i) ∧
        (c.length = 1 → countPoints X.r (fun j => j ≠ i ∧ D.get i j < bw i) ≤
          trainedOn X.r (wmFit L rng p st s X y (some c) none).state.weightMatrix i)) ∧
      (name ∈ ["linear", "bisquare", "tricube", "boxcar"] →
        trainedOn X.r (wmFit L rng p st s X y (some c) none).state.weightMatrix i ≤
          countPoints X.r (fun j => j ≠ i ∧ D.get i j ≤ bw i)) ∧
      (name = "boxcar" → c.length = 1 → countPoints X.r (fun j => j ≠ i ∧ D.get i j ≤ bw i) ≤
          trainedOn X.r (wmFit L rng p st s X y (some c) none).state.weightMatrix i) := by
  obtain ⟨M, hM, hWm⟩ := fitted_weights hp hll hok
  have hpos : ∀ t ∈ c, 0 < t.r := fun t ht => by rw [hcr t ht]; omega
  have hMr := pointSource_r lib env fs ms wp c c hm hpos M hM hcr
  have hMc := pointSource_c lib env fs ms wp c c hm hpos M hM hcr
  obtain ⟨name', D, bw, hname', hbw, -, hDc, hDg, hb0, hw⟩ :=
    pointSource_adaptive lib hl env he fs ms wp c c hm hpos hb M hM d hd n hk i (hMr ▸ hi)
  rw [hname] at hname'
  cases hname'
  rw [hMc] at hw hDc
  have hδ0 : ∀ j, 0 ≤ D.get i j := fun j => by rw [hDg]; exact hl.metricFun _ _ _
  rw [hWm]
  have hT : trainedOn X.r (some (.dense ⟨M.r, M.c, fun i j => if i = j then 0 else M.get i j⟩)) i =
      countPoints X.r fun j => j ≠ i ∧ M.get i j ≠ 0 := by
    unfold trainedOn
    refine le_antisymm (countPoints_mono fun j _ hj => ?_) (countPoints_mono fun j _ hj => ?_)
    · simp only [WMat.toMat] at hj
      by_cases hij : i = j
      · simp [hij] at hj
      · rw [if_neg hij] at hj
        exact ⟨fun e => hij e.symm, hj⟩
    · simp only [WMat.toMat]
      rw [if_neg fun e => hj.1 e.symm]
      exact hj.2
  rw [hT]
  simp only [← hDg] at hw
  refine ⟨D, bw, hbw, hDc, hDg, hb0, fun hn hbp => ⟨?_, fun h1 => ?_⟩, fun hn => ?_, ?_⟩
  · exact countPoints_mono fun j hj h => ⟨h.1, (kval_strict hn (hδ0 j) hbp).1 ((hw j hj).1 h.2)⟩
  · exact countPoints_mono fun j hj h =>
      ⟨h.1, (hw j hj).2 h1 ((kval_strict hn (hδ0 j) hbp).2 h.2)⟩
  · refine countPoints_mono fun j hj h => ⟨h.1, not_lt.1 fun hlt => (hw j hj).1 h.2 (kval_far hn hlt)⟩
  · rintro rfl h1
    exact countPoints_mono fun j hj h => ⟨h.1, (hw j hj).2 h1 (kval_boxcar.2 h.2)⟩

/-- With different values, one more point is within a value that is taken than is below it. -/
theorem countPoints_distinct {n : Nat} {g : Nat → K}
    (hinj : ∀ j < n, ∀ j' < n, g j = g j' → j = j') {b : K} {j0 : Nat} (hj0 : j0 < n) (h0 : g j0 = b) :
    countPoints n (fun j => g j ≤ b) = countPoints n (fun j => g j < b) + 1 := by
  rw [← countPoints_erase hj0 (q := fun j => g j ≤ b) (by simp [h0])]
  congr 1
  refine le_antisymm (countPoints_mono fun j hj h => ?_) (countPoints_mono fun j hj h => ?_)
  · exact lt_of_le_of_ne h.2 fun e => h.1 (hinj j hj j0 hj0 (e.trans h0.symm))
  · refine ⟨?_, h.le⟩
    rintro rfl
    rw [h0] at h
    exact lt_irrefl _ h

/-- C140: a model fitted on coordinates with an integer `neighbour_count` `k` in dimension `d` and
with the location left out. Let fewer than `k` observations (itself included) be in the same place
as location `i` in that dimension. With `linear`, `bisquare` and `tricube` the local model of `i` is
trained on at most `k - 2` observations. If the dimension is the only one, with `boxcar` it is
trained on at least `k - 1`; and if moreover no two observations are equally far from `i`, on exactly
`k - 2` (`linear`, `bisquare`, `tricube`) or `k - 1` (`boxcar`). -/
theorem C140_training_size (L : Learner K F) (rng : Rng S) (lib : Lib K) (hl : lib.Nonneg)
    (env : Env K) (he : env.Ok) (fs : Disk K) (ms : Param (Option String)) (wp : WParams K)
    (p : WMParams K (List (Mat K))) (hp : p.weights = pointSource lib env fs ms wp)
    (hll : p.leaveLocalOut = true) (st : WMState K F (List (Mat K))) (s : S) (X : Mat K) (y : List K)
    (c : List (Mat K)) (hm : c.length ≤ (ms.expand c.length).length) (hcr : ∀ t ∈ c, t.r = X.r)
    (hb : ∀ b, some b ∈ wp.bandwidth.expand c.length → 0 ≤ b)
    (hok : (wmFit L rng p st s X y (some c) none).result = .ok ()) (d : Nat) (hd : d < c.length)
    (k : ℤ) (hk : (wp.count.expand c.length)[d]? = some (some (.int k))) (name : String)
    (hname : (wp.kernel.expand c.length)[d]? = some name) (i : Nat) (hi : i < X.r)
    (hself : pointDist lib (ms.expand c.length) c c d i i = 0)
    (hfew : (countPoints X.r (fun j => pointDist lib (ms.expand c.length) c c d i j = 0) : ℤ) < k) :
    let T := trainedOn X.r (wmFit L rng p st s X y (some c) none).state.weightMatrix i
    (name ∈ ["linear", "bisquare", "tricube"] → (T : ℤ) ≤ k - 2) ∧
    (c.length = 1 → name = "boxcar" → k - 1 ≤ (T : ℤ)) ∧
    (c.length = 1 → (∀ j < X.r, ∀ j' < X.r, pointDist lib (ms.expand c.length) c c d i j =
        pointDist lib (ms.expand c.length) c c d i j' → j = j') →
      (name ∈ ["linear", "bisquare", "tricube"] → (T : ℤ) = k - 2) ∧
      (name = "boxcar" → (T : ℤ) = k - 1)) := by
  obtain ⟨D, bw, hbw, hDc, hDg, hb0, hlt, hle, hge⟩ :=
    trained_adaptive (env := env) hl he hp hll hm hcr hb hok hd hk hname hi
  obtain ⟨-, -, ⟨j0, hj0, hj0e⟩, c1, c2⟩ := C08_kth_nearest D k bw hbw i
  have e0 : countRow D i (fun x => x ≤ bw i) = countPoints X.r (fun j => D.get i j ≤ bw i) := by
    simp only [countRow, countPoints, hDc]
  have e0' : countRow D i (fun x => x < bw i) = countPoints X.r (fun j => D.get i j < bw i) := by
    simp only [countRow, countPoints, hDc]
  rw [e0] at c1
  rw [e0'] at c2
  rw [hDc] at hj0
  simp only [← hDg] at hself hfew ⊢
  have hδ0 : ∀ j, 0 ≤ D.get i j := fun j => by rw [hDg]; exact hl.metricFun _ _ _
  have hbp : 0 < bw i := by
    rcases hb0.lt_or_eq with h | h
    · exact h
    · exfalso
      have : countPoints X.r (fun j => D.get i j ≤ bw i) ≤ countPoints X.r (fun j => D.get i j = 0) :=
        countPoints_mono fun j _ hj => le_antisymm (h ▸ hj) (hδ0 j)
      omega
  have e1 := countPoints_erase hi (q := fun j => D.get i j < bw i) (by simpa [hself] using hbp)
  have e2 := countPoints_erase hi (q := fun j => D.get i j ≤ bw i) (by simpa [hself] using hb0)
  refine ⟨fun hn => ?_, fun h1 hn => ?_, fun h1 hinj => ?_⟩
  · have := (hlt hn hbp).1
    omega
  · have := hge hn h1
    omega
  · have e3 := countPoints_distinct hinj hj0 hj0e
    refine ⟨fun hn => ?_, fun hn => ?_⟩
    · have a1 := (hlt hn hbp).1
      have a2 := (hlt hn hbp).2 h1
      omega
    · have a1 := hle (by rw [hn]; decide)
      have a2 := hge hn h1
      omega

/-- A location whose observations all get the weight zero, itself left out, makes the fit raise with a
regressor that refuses an empty training set. -/
theorem empty_set_raises {L : Learner K F} (hL : ∀ e f, L.fit e [] [] [] ≠ .ok f) {rng : Rng S}
    {lib : Lib K} {env : Env K} {fs : Disk K} {ms : Param (Option String)} {wp : WParams K}
    {p : WMParams K (List (Mat K))} (hp : p.weights = pointSource lib env fs ms wp)
    (hll : p.leaveLocalOut = true) (hsr : p.sampleRate = none)
    {st : WMState K F (List (Mat K))} {s : S} {X : Mat K} {y : List K} {c : List (Mat K)} {i : Nat}
    (hi : i < X.r)
    (hz : ∀ M, pointSource lib env fs ms wp c c = .ok M → ∀ j < X.r, j ≠ i → M.get i j = 0) :
    (wmFit L rng p st s X y (some c) none).result ≠ .ok () := by
  intro hok
  obtain ⟨W0, idx, s', res, score, -, hW0, hs, hf, hlen, -, -, -⟩ := wmFit_ok hok
  simp only [chosenWeights, hp] at hW0
  cases hM : pointSource lib env fs ms wp c c with
  | error e => rw [hM] at hW0; cases hW0
  | ok M =>
  rw [hM] at hW0
  cases hW0
  have hzero := hz M hM
  simp only [sampleLocations, hsr] at hs
  cases hs
  have hmE := fitAll_ok hf (.inr (.inr ⟨_, rfl⟩)) hlen
  have := mapE_get hmE (i := i) (by simpa using hi)
  rw [List.getElem_range] at this
  obtain ⟨f, hfit⟩ := (denseTask_ok_iff.1 ⟨_, this⟩).2
  have hT : trainingSet p X.r M i = [] := by
    refine List.filter_eq_nil_iff.2 fun j hj => ?_
    simp only [decide_eq_true_eq, hll, true_and]
    rintro ⟨h1, h2⟩
    exact h1 (hzero j (List.mem_range.1 hj) h2)
  rw [hT] at hfit
  exact hL i f hfit

/-- C140: a fit on coordinates fails if in some dimension with an integer `neighbour_count` `k` and a
`linear`, `bisquare` or `tricube` kernel some location has its nearest `k - 1` other observations all
at the same positive distance: none of them gets a weight, and a regressor that refuses an empty
training set raises. With `k = 2` this is every location that shares its place with no other. -/
theorem C140_tied_neighbours (L : Learner K F) (hL : ∀ e f, L.fit e [] [] [] ≠ .ok f) (rng : Rng S)
    (lib : Lib K) (hl : lib.Nonneg)
    (env : Env K) (he : env.Ok) (fs : Disk K) (ms : Param (Option String)) (wp : WParams K)
    (p : WMParams K (List (Mat K))) (hp : p.weights = pointSource lib env fs ms wp)
    (hll : p.leaveLocalOut = true) (hsr : p.sampleRate = none)
    (st : WMState K F (List (Mat K))) (s : S) (X : Mat K) (y : List K)
    (c : List (Mat K)) (hm : c.length ≤ (ms.expand c.length).length) (hcr : ∀ t ∈ c, t.r = X.r)
    (hb : ∀ b, some b ∈ wp.bandwidth.expand c.length → 0 ≤ b) (d : Nat) (hd : d < c.length)
    (k : ℤ) (hk : (wp.count.expand c.length)[d]? = some (some (.int k)))
    (hname : ∃ name ∈ ["linear", "bisquare", "tricube"], (wp.kernel.expand c.length)[d]? = some name)
    (i : Nat) (hi : i < X.r) (hself : pointDist lib (ms.expand c.length) c c d i i = 0) (δ : K)
    (hδ : 0 < δ) (hnear : ∀ j < X.r, j ≠ i → δ ≤ pointDist lib (ms.expand c.length) c c d i j)
    (htied : k - 1 ≤ countPoints X.r
      (fun j => pointDist lib (ms.expand c.length) c c d i j = δ)) :
    (wmFit L rng p st s X y (some c) none).result ≠ .ok () := by
  obtain ⟨name, hn, hname⟩ := hname
  refine empty_set_raises hL hp hll hsr hi fun M hM => ?_
  have hpos : ∀ t ∈ c, 0 < t.r := fun t ht => by rw [hcr t ht]; omega
  have hMr := pointSource_r lib env fs ms wp c c hm hpos M hM hcr
  have hMc := pointSource_c lib env fs ms wp c c hm hpos M hM hcr
  obtain ⟨name', D, bw, hname', hbw, -, hDc, hDg, hb0, hw⟩ :=
    pointSource_adaptive lib hl env he fs ms wp c c hm hpos hb M hM d hd (.int k) hk i (hMr ▸ hi)
  rw [hname] at hname'
  cases hname'
  rw [hMc] at hw hDc
  obtain ⟨-, -, -, -, c2⟩ := C08_kth_nearest D k bw hbw i
  have e0' : countRow D i (fun x => x < bw i) = countPoints X.r (fun j => D.get i j < bw i) := by
    simp only [countRow, countPoints, hDc]
  rw [e0'] at c2
  simp only [← hDg] at hself hnear htied hw
  generalize hδe : D.get i = g at *
  generalize bw i = b at *
  have hbδ : b ≤ δ := by
    by_contra hc
    rw [not_le] at hc
    have e1 := countPoints_erase hi (q := fun j => g j < b)
      (by simpa [hself] using hδ.trans hc)
    have e2 : countPoints X.r (fun j => g j = δ) ≤ countPoints X.r (fun j => j ≠ i ∧ g j < b) :=
      countPoints_mono fun j _ hj => ⟨by rintro rfl; rw [hself] at hj; exact hδ.ne hj, by rw [hj]; exact hc⟩
    omega
  intro j hj hji
  by_contra h0
  have h1 := (hw j hj).1 h0
  have h2 := hnear j hj hji
  rcases hb0.lt_or_eq with h | h
  · have := (kval_strict hn (hδ.le.trans h2) h).1 h1
    exact absurd (this.trans_le hbδ) (not_lt.2 h2)
  · refine h1 (kval_far ?_ ?_)
    · simp only [List.mem_cons, List.not_mem_nil, or_false] at hn ⊢
      tauto
    · rw [← h]
      exact hδ.trans_le h2

/-- C140: with `neighbour_count=2` and a `linear`, `bisquare` or `tricube` kernel in some dimension the
fit raises as soon as one of at least two observations shares its place with no other. -/
theorem C140_two_neighbours (L : Learner K F) (hL : ∀ e f, L.fit e [] [] [] ≠ .ok f) (rng : Rng S)
    (lib : Lib K) (hl : lib.Nonneg)
    (env : Env K) (he : env.Ok) (fs : Disk K) (ms : Param (Option String)) (wp : WParams K)
    (p : WMParams K (List (Mat K))) (hp : p.weights = pointSource lib env fs ms wp)
    (hll : p.leaveLocalOut = true) (hsr : p.sampleRate = none)
    (st : WMState K F (List (Mat K))) (s : S) (X : Mat K) (y : List K)
    (c : List (Mat K)) (hm : c.length ≤ (ms.expand c.length).length) (hcr : ∀ t ∈ c, t.r = X.r)
    (hb : ∀ b, some b ∈ wp.bandwidth.expand c.length → 0 ≤ b) (d : Nat) (hd : d < c.length)
    (hk : (wp.count.expand c.length)[d]? = some (some (.int 2)))
    (hname : ∃ name ∈ ["linear", "bisquare", "tricube"], (wp.kernel.expand c.length)[d]? = some name)
    (h2 : 2 ≤ X.r) (i : Nat) (hi : i < X.r)
    (hself : pointDist lib (ms.expand c.length) c c d i i = 0)
    (halone : ∀ j < X.r, j ≠ i → pointDist lib (ms.expand c.length) c c d i j ≠ 0) :
    (wmFit L rng p st s X y (some c) none).result ≠ .ok () := by
  have hne : ((Finset.range X.r).erase i).Nonempty := by
    refine ⟨if i = 0 then 1 else 0, ?_⟩
    rw [Finset.mem_erase, Finset.mem_range]
    split <;> omega
  obtain ⟨j0, hj0, hmin⟩ := Finset.exists_min_image _
    (fun j => pointDist lib (ms.expand c.length) c c d i j) hne
  rw [Finset.mem_erase, Finset.mem_range] at hj0
  have h0 : 0 ≤ pointDist lib (ms.expand c.length) c c d i j0 := hl.metricFun _ _ _
  refine C140_tied_neighbours L hL rng lib hl env he fs ms wp p hp hll hsr st s X y c hm hcr hb d hd 2
    hk hname i hi hself _ (lt_of_le_of_ne h0 (halone j0 hj0.2 hj0.1).symm)
    (fun j hj hji => hmin j (Finset.mem_erase.2 ⟨hji, Finset.mem_range.2 hj⟩)) ?_
  have : 0 < countPoints X.r (fun j => pointDist lib (ms.expand c.length) c c d i j =
      pointDist lib (ms.expand c.length) c c d i j0) := by
    unfold countPoints
    exact List.length_pos_of_mem (List.mem_filter.2 ⟨List.mem_range.2 hj0.2, by simp⟩)
  omega

/-- The counts of a row, as counts of points. -/
theorem countP_row {D : Mat K} {n : Nat} (hc : D.c = n) (i : Nat) (P : K → Prop) [DecidablePred P] :
    (D.row i).countP (fun x => decide (P x)) = countPoints n (fun j => P (D.get i j)) := by
  subst hc
  rw [← countRow_eq]
  rfl

/-- With different distances and a fraction that falls between two of them, as many points are below
the bandwidth as within it. -/
theorem fraction_between {D : Mat K} {q : K} {bw : Nat → K}
    (hbw : adaptiveBandwidth false D (.float q) none = .ok bw) {N : Nat} (hDc : D.c = N) (i : Nat)
    (hinj : ∀ j < N, ∀ j' < N, D.get i j = D.get i j' → j = j') {m : Nat} (hm0 : 0 < m) (hmn : m < N)
    (hml : (m : K) < N * q + (1 + q) / 3) (hhi : N * q + (1 + q) / 3 < m + 1) :
    countPoints N (fun j => D.get i j < bw i) = m ∧ countPoints N (fun j => D.get i j ≤ bw i) = m := by
  obtain ⟨m, rfl⟩ : ∃ m', m = m' + 1 := ⟨m - 1, by omega⟩
  have hs : m < (sortL (D.row i)).length := by simp; omega
  have hs' : m + 1 < (sortL (D.row i)).length := by simp; omega
  have ha := isKthSmallest_sortL hs
  have hb' := isKthSmallest_sortL hs'
  have hv := C09_median_unbiased_value D q bw hbw i (m + 1) _ _ (by omega) (by omega)
    (by rw [hDc]; exact hml.le) (by rw [hDc]; exact hhi) ha hb'
  generalize (sortL (D.row i))[m] = a at *
  generalize (sortL (D.row i))[m + 1] = a' at *
  obtain ⟨ham, ha1, ha2⟩ := ha
  obtain ⟨-, hb1, hb2⟩ := hb'
  rw [countP_row hDc i (fun x => x < a)] at ha1
  rw [countP_row hDc i (fun x => x ≤ a)] at ha2
  rw [countP_row hDc i (fun x => x < a')] at hb1
  rw [countP_row hDc i (fun x => x ≤ a')] at hb2
  obtain ⟨j0, hj0, hj0e⟩ := Mat.mem_row.1 ham
  have e3 := countPoints_distinct hinj (hDc ▸ hj0) hj0e
  have haa : a < a' := by
    by_contra hc
    rw [not_lt] at hc
    have : countPoints N (fun j => D.get i j ≤ a') ≤ countPoints N (fun j => D.get i j ≤ a) :=
      countPoints_mono fun j _ hj => hj.trans hc
    omega
  rw [hDc] at hv
  have hpos : 0 < (N * q + (1 + q) / 3 - ((m + 1 : ℕ) : K)) := by linarith
  have hlt1 : (N * q + (1 + q) / 3 - ((m + 1 : ℕ) : K)) < 1 := by linarith
  have hab : a < bw i := by
    have := mul_pos hpos (sub_pos.2 haa)
    rw [hv]
    linarith
  have hba : bw i < a' := by
    have := mul_lt_mul_of_pos_right hlt1 (sub_pos.2 haa)
    rw [hv]
    linarith
  have n1 : countPoints N (fun j => D.get i j ≤ a) ≤ countPoints N (fun j => D.get i j < bw i) :=
    countPoints_mono fun j _ hj => hj.trans_lt hab
  have n2 : countPoints N (fun j => D.get i j ≤ bw i) ≤ countPoints N (fun j => D.get i j < a') :=
    countPoints_mono fun j _ hj => hj.trans_lt hba
  have n3 : countPoints N (fun j => D.get i j < bw i) ≤ countPoints N (fun j => D.get i j ≤ bw i) :=
    countPoints_mono fun j _ hj => hj.le
  omega

/-- C140: the same with a fractional `neighbour_count` `q` (the documented use) and `n` observations;
let `m` be the integer part of `n * q + (1 + q) / 3`, and fewer than `m` and than `n` observations be
in the place of location `i`. With `linear`, `bisquare` and `tricube` the local model is trained on at
most `m - 1` observations; in a single dimension with `boxcar` on at least `m - 1` (or all the others);
and in a single dimension, if no two observations are equally far from `i` and `m < n * q + (1 + q) / 3`,
on exactly `m - 1` with any of the four kernels. -/
theorem C140_fraction_size (L : Learner K F) (rng : Rng S) (lib : Lib K) (hl : lib.Nonneg)
    (env : Env K) (he : env.Ok) (fs : Disk K) (ms : Param (Option String)) (wp : WParams K)
    (p : WMParams K (List (Mat K))) (hp : p.weights = pointSource lib env fs ms wp)
    (hll : p.leaveLocalOut = true) (st : WMState K F (List (Mat K))) (s : S) (X : Mat K) (y : List K)
    (c : List (Mat K)) (hm : c.length ≤ (ms.expand c.length).length) (hcr : ∀ t ∈ c, t.r = X.r)
    (hb : ∀ b, some b ∈ wp.bandwidth.expand c.length → 0 ≤ b)
    (hok : (wmFit L rng p st s X y (some c) none).result = .ok ()) (d : Nat) (hd : d < c.length)
    (q : K) (hk : (wp.count.expand c.length)[d]? = some (some (.float q))) (name : String)
    (hname : (wp.kernel.expand c.length)[d]? = some name) (i : Nat) (hi : i < X.r) (m : Nat)
    (hlo : (m : K) ≤ X.r * q + (1 + q) / 3) (hhi : X.r * q + (1 + q) / 3 < m + 1)
    (hself : pointDist lib (ms.expand c.length) c c d i i = 0)
    (hfew : countPoints X.r (fun j => pointDist lib (ms.expand c.length) c c d i j = 0) < m)
    (hfew' : countPoints X.r (fun j => pointDist lib (ms.expand c.length) c c d i j = 0) < X.r) :
    let T := trainedOn X.r (wmFit L rng p st s X y (some c) none).state.weightMatrix i
    (name ∈ ["linear", "bisquare", "tricube"] → T ≤ m - 1) ∧
    (c.length = 1 → name = "boxcar" → min m X.r - 1 ≤ T) ∧
    (c.length = 1 → (∀ j < X.r, ∀ j' < X.r, pointDist lib (ms.expand c.length) c c d i j =
        pointDist lib (ms.expand c.length) c c d i j' → j = j') →
      m < X.r → (m : K) < X.r * q + (1 + q) / 3 →
      name ∈ ["linear", "bisquare", "tricube", "boxcar"] → T = m - 1) := by
  obtain ⟨D, bw, hbw, hDc, hDg, hb0, hlt, hle, hge⟩ :=
    trained_adaptive (env := env) hl he hp hll hm hcr hb hok hd hk hname hi
  obtain ⟨c2, c1⟩ := C09_selected_count D q bw hbw i
  have hfl : ⌊(D.c : K) * q + (1 + q) / 3⌋₊ = m := by
    rw [hDc]
    exact (Nat.floor_eq_iff ((Nat.cast_nonneg m).trans hlo)).2 ⟨hlo, hhi⟩
  have e0 : countRow D i (fun x => x ≤ bw i) = countPoints X.r (fun j => D.get i j ≤ bw i) := by
    simp only [countRow, countPoints, hDc]
  have e0' : countRow D i (fun x => x < bw i) = countPoints X.r (fun j => D.get i j < bw i) := by
    simp only [countRow, countPoints, hDc]
  rw [hfl, e0, hDc] at c1
  rw [hfl, e0'] at c2
  simp only [← hDg] at hself hfew hfew' ⊢
  have hδ0 : ∀ j, 0 ≤ D.get i j := fun j => by rw [hDg]; exact hl.metricFun _ _ _
  have hbp : 0 < bw i := by
    rcases hb0.lt_or_eq with h | h
    · exact h
    · exfalso
      have : countPoints X.r (fun j => D.get i j ≤ bw i) ≤ countPoints X.r (fun j => D.get i j = 0) :=
        countPoints_mono fun j _ hj => le_antisymm (h ▸ hj) (hδ0 j)
      omega
  have e1 := countPoints_erase hi (q := fun j => D.get i j < bw i) (by simpa [hself] using hbp)
  have e2 := countPoints_erase hi (q := fun j => D.get i j ≤ bw i) (by simpa [hself] using hb0)
  refine ⟨fun hn => ?_, fun h1 hn => ?_, fun h1 hinj hmn hml hn => ?_⟩
  · have := (hlt hn hbp).1
    omega
  · have := hge hn h1
    omega
  · obtain ⟨n1, n2⟩ := fraction_between hbw hDc i hinj (by omega) hmn hml hhi
    have a1 := hle hn
    simp only [List.mem_cons, List.not_mem_nil, or_false] at hn
    by_cases hbx : name = "boxcar"
    · have a2 := hge hbx h1
      omega
    · have a2 := (hlt (by simp only [List.mem_cons, List.not_mem_nil, or_false]; tauto) hbp).2 h1
      omega

/-- C140: with a fractional `neighbour_count` `q` of `n` observations, `n * q + (1 + q) / 3 < 2`, and a
`linear`, `bisquare`, `tricube` or `boxcar` kernel in some dimension, the fit raises as soon as one
observation shares its place with no other. -/
theorem C140_small_fraction (L : Learner K F) (hL : ∀ e f, L.fit e [] [] [] ≠ .ok f) (rng : Rng S)
    (lib : Lib K) (hl : lib.Nonneg)
    (env : Env K) (he : env.Ok) (fs : Disk K) (ms : Param (Option String)) (wp : WParams K)
    (p : WMParams K (List (Mat K))) (hp : p.weights = pointSource lib env fs ms wp)
    (hll : p.leaveLocalOut = true) (hsr : p.sampleRate = none)
    (st : WMState K F (List (Mat K))) (s : S) (X : Mat K) (y : List K)
    (c : List (Mat K)) (hm : c.length ≤ (ms.expand c.length).length) (hcr : ∀ t ∈ c, t.r = X.r)
    (hb : ∀ b, some b ∈ wp.bandwidth.expand c.length → 0 ≤ b) (d : Nat) (hd : d < c.length)
    (q : K) (hk : (wp.count.expand c.length)[d]? = some (some (.float q)))
    (hq : X.r * q + (1 + q) / 3 < 2)
    (hname : ∃ name ∈ ["linear", "bisquare", "tricube", "boxcar"],
      (wp.kernel.expand c.length)[d]? = some name)
    (i : Nat) (hi : i < X.r) (hself : pointDist lib (ms.expand c.length) c c d i i = 0)
    (halone : ∀ j < X.r, j ≠ i → pointDist lib (ms.expand c.length) c c d i j ≠ 0) :
    (wmFit L rng p st s X y (some c) none).result ≠ .ok () := by
  obtain ⟨name, hn, hname⟩ := hname
  refine empty_set_raises hL hp hll hsr hi fun M hM => ?_
  have hpos : ∀ t ∈ c, 0 < t.r := fun t ht => by rw [hcr t ht]; omega
  have hMr := pointSource_r lib env fs ms wp c c hm hpos M hM hcr
  have hMc := pointSource_c lib env fs ms wp c c hm hpos M hM hcr
  obtain ⟨name', D, bw, hname', hbw, -, hDc, hDg, hb0, hw⟩ :=
    pointSource_adaptive lib hl env he fs ms wp c c hm hpos hb M hM d hd (.float q) hk i (hMr ▸ hi)
  rw [hname] at hname'
  cases hname'
  rw [hMc] at hw hDc
  simp only [← hDg] at hself halone hw
  have hδ0 : ∀ j, 0 ≤ D.get i j := fun j => by rw [hDg]; exact hl.metricFun _ _ _
  intro j hj hji
  by_contra h0
  refine (hw j hj).1 h0 (kval_far hn ?_)
  have hjp : 0 < D.get i j := lt_of_le_of_ne (hδ0 j) (halone j hj hji).symm
  by_cases h1 : (1 : K) ≤ X.r * q + (1 + q) / 3
  · have hs : 0 < (sortL (D.row i)).length := by simp; omega
    have hs' : 0 + 1 < (sortL (D.row i)).length := by simp; omega
    have ha := isKthSmallest_sortL hs
    have hb' := isKthSmallest_sortL hs'
    have hv := C09_median_unbiased_value D q bw hbw i 1 _ _ le_rfl (by omega)
      (by rw [hDc]; simpa using h1) (by rw [hDc]; push_cast; linarith) ha hb'
    generalize (sortL (D.row i))[0] = a at *
    generalize (sortL (D.row i))[0 + 1] = a' at *
    obtain ⟨ham, ha1, -⟩ := ha
    obtain ⟨-, hb1, hb2⟩ := hb'
    rw [countP_row hDc i (fun x => x < a)] at ha1
    rw [countP_row hDc i (fun x => x < a')] at hb1
    rw [countP_row hDc i (fun x => x ≤ a')] at hb2
    obtain ⟨j0, -, hj0e⟩ := Mat.mem_row.1 ham
    have ha0 : a = 0 := by
      refine le_antisymm ?_ (hj0e ▸ hδ0 j0)
      by_contra hc
      rw [not_le] at hc
      have := countPoints_erase hi (q := fun j => D.get i j < a) (by simpa [hself] using hc)
      omega
    have ha'0 : 0 < a' := by
      by_contra hc
      rw [not_lt] at hc
      have h2 : 0 + 1 + 1 ≤ countPoints X.r (fun j => D.get i j ≤ 0) :=
        hb2.trans (countPoints_mono fun j _ hj => hj.trans hc)
      have h3 := countPoints_erase hi (q := fun j => D.get i j ≤ 0) (by simp [hself])
      have h4 : countPoints X.r (fun j => j ≠ i ∧ D.get i j ≤ 0) = 0 := by
        unfold countPoints
        rw [List.length_eq_zero_iff, List.filter_eq_nil_iff]
        intro j hj
        simp only [decide_eq_true_eq, not_and]
        exact fun h5 h6 => halone j (List.mem_range.1 hj) h5 (le_antisymm h6 (hδ0 j))
      omega
    have hlast : a' ≤ D.get i j := by
      by_contra hc
      rw [not_le] at hc
      have h3 := countPoints_erase hi (q := fun j => D.get i j < a') (by simpa [hself] using ha'0)
      have h4 : 0 < countPoints X.r (fun j => j ≠ i ∧ D.get i j < a') := by
        unfold countPoints
        exact List.length_pos_of_mem (List.mem_filter.2 ⟨List.mem_range.2 hj, by simp [hji, hc]⟩)
      omega
    have : bw i < a' := by
      rw [hv, ha0, hDc]
      have : (X.r * q + (1 + q) / 3 - ((1 : ℕ) : K)) * (a' - 0) < 1 * (a' - 0) :=
        mul_lt_mul_of_pos_right (by push_cast; linarith) (by linarith)
      linarith
    exact this.trans_le hlast
  · obtain ⟨c2, -⟩ := C09_selected_count D q bw hbw i
    have hfl : ⌊(D.c : K) * q + (1 + q) / 3⌋₊ = 0 := by
      rw [hDc]
      exact Nat.floor_eq_zero.2 (not_le.1 h1)
    rw [hfl, countRow_eq, countP_row hDc i (fun x => x < bw i)] at c2
    by_contra hc
    rw [not_lt] at hc
    have := countPoints_erase hi (q := fun j => D.get i j < bw i) (by simpa [hself] using hjp.trans_le hc)
    omega

/-- Five stations on a line, at 0, 1, 4, 9, 16. -/
def tsPlaces : List (Mat ℚ) := [⟨5, 1, fun i _ => (i * i : ℕ)⟩]
/-- Weights from the `k` nearest stations. -/
def tsWp (k : ℤ) (name : String) : WParams ℚ := { kernel := .scalar name, count := .scalar (some (.int k)) }
def tsP (k : ℤ) (name : String) : WMParams ℚ (List (Mat ℚ)) :=
  { weights := pointSource exLib ratEnv (fun _ => none) (.scalar (some "sqeuclidean")) (tsWp k name) }

/-- `neighbour_count=4`: two observations with `bisquare`, three with `boxcar`; and the hypotheses of
`C140_training_size` hold at every location. -/
example :
    (wmFit meanLearner countRng (tsP 4 "bisquare") {} 0 exX5 exY5 (some tsPlaces) none).result = .ok () ∧
    (wmFit meanLearner countRng (tsP 4 "boxcar") {} 0 exX5 exY5 (some tsPlaces) none).result = .ok () ∧
    (∀ i < 5, trainedOn 5 (wmFit meanLearner countRng (tsP 4 "bisquare") {} 0 exX5 exY5
      (some tsPlaces) none).state.weightMatrix i = 2 ∧
    trainedOn 5 (wmFit meanLearner countRng (tsP 4 "boxcar") {} 0 exX5 exY5
      (some tsPlaces) none).state.weightMatrix i = 3 ∧
    pointDist exLib [some "sqeuclidean"] tsPlaces tsPlaces 0 i i = 0 ∧
    countPoints 5 (fun j => pointDist exLib [some "sqeuclidean"] tsPlaces tsPlaces 0 i j = 0) = 1 ∧
    ∀ j < 5, ∀ j' < 5, pointDist exLib [some "sqeuclidean"] tsPlaces tsPlaces 0 i j =
      pointDist exLib [some "sqeuclidean"] tsPlaces tsPlaces 0 i j' → j = j') := by
  refine ⟨?_, ?_, ?_⟩ <;> decide +kernel

/-- `neighbour_count=2` leaves every training set empty; on equally spaced stations 3 does, too. -/
example :
    (wmFit meanLearner countRng (tsP 2 "bisquare") {} 0 exX5 exY5 (some tsPlaces) none).result =
      .error .valueError ∧
    (wmFit meanLearner countRng (tsP 3 "bisquare") {} 0 exX5 exY5 (some exTrain) none).result =
      .error .valueError ∧
    (wmFit meanLearner countRng (tsP 2 "boxcar") {} 0 exX5 exY5 (some tsPlaces) none).result = .ok () ∧
    (∀ j < 5, j ≠ 2 → 1 ≤ pointDist exLib [some "sqeuclidean"] exTrain exTrain 0 2 j) ∧
    countPoints 5 (fun j => pointDist exLib [some "sqeuclidean"] exTrain exTrain 0 2 j = 1) = 2 := by
  refine ⟨?_, ?_, ?_, ?_, ?_⟩ <;> decide +kernel

example : (tsP 4 "bisquare").JobsFine ∧ ∀ e f, meanLearner.fit e [] [] [] ≠ .ok f := by
  refine ⟨⟨fun j h => (by cases h), fun _ n h => ?_⟩, fun e f h => (by cases h)⟩
  cases h
  decide

/-- A fraction of the stations. -/
def tsQ (q : ℚ) (name : String) : WMParams ℚ (List (Mat ℚ)) :=
  { weights := pointSource exLib ratEnv (fun _ => none) (.scalar (some "sqeuclidean"))
      { kernel := .scalar name, count := .scalar (some (.float q)) } }

/-- `neighbour_count=0.5` of five stations: `5 * 0.5 + 1.5 / 3 = 3`, at most two observations with
`bisquare` (here one, the third nearest being at the bandwidth itself), two with `boxcar`. With `0.6`,
`5 * 0.6 + 1.6 / 3 = 3.53…`, exactly two with either. With `0.3`, `1.93… < 2`: every fit fails. -/
example :
    (wmFit meanLearner countRng (tsQ (1/2) "bisquare") {} 0 exX5 exY5 (some tsPlaces) none).result = .ok () ∧
    (wmFit meanLearner countRng (tsQ (3/5) "bisquare") {} 0 exX5 exY5 (some tsPlaces) none).result = .ok () ∧
    (wmFit meanLearner countRng (tsQ (3/10) "bisquare") {} 0 exX5 exY5 (some tsPlaces) none).result =
      .error .valueError ∧
    (wmFit meanLearner countRng (tsQ (3/10) "boxcar") {} 0 exX5 exY5 (some tsPlaces) none).result =
      .error .valueError ∧
    (∀ i < 5, trainedOn 5 (wmFit meanLearner countRng (tsQ (1/2) "bisquare") {} 0 exX5 exY5
      (some tsPlaces) none).state.weightMatrix i = 1 ∧
    trainedOn 5 (wmFit meanLearner countRng (tsQ (1/2) "boxcar") {} 0 exX5 exY5
      (some tsPlaces) none).state.weightMatrix i = 2 ∧
    trainedOn 5 (wmFit meanLearner countRng (tsQ (3/5) "bisquare") {} 0 exX5 exY5
      (some tsPlaces) none).state.weightMatrix i = 2 ∧
    trainedOn 5 (wmFit meanLearner countRng (tsQ (3/5) "boxcar") {} 0 exX5 exY5
      (some tsPlaces) none).state.weightMatrix i = 2) := by
  refine ⟨?_, ?_, ?_, ?_, ?_⟩ <;> decide +kernel

end Geo
