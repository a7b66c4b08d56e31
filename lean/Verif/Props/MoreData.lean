import Verif.Props.NearbyLocations
import Verif.Props.Regions
/-!
C153: what further observations change at a location. `Ds'` are distances to the old targets followed
by new ones.
-/
set_option linter.unusedSectionVars false
namespace Geo
variable {K : Type} [Field K] [LinearOrder K] [IsStrictOrderedRing K] [FloorRing K]
variable {F C S : Type}

theorem countRow_prefix {D D' : Mat K} {i : Nat} (hc : D.c ≤ D'.c)
    (hsame : ∀ j < D.c, D'.get i j = D.get i j) (p : K → Bool) : countRow D i p ≤ countRow D' i p := by
  unfold countRow
  obtain ⟨m, hm⟩ := Nat.exists_eq_add_of_le hc
  rw [hm, List.range_add, List.filter_append, List.length_append]
  refine le_trans (le_of_eq ?_) (Nat.le_add_right _ _)
  congr 1
  refine List.filter_congr fun j hj => ?_
  rw [hsame j (List.mem_range.1 hj)]

theorem countRow_imp {D : Mat K} {i : Nat} {p q : K → Bool} (h : ∀ x, p x = true → q x = true) :
    countRow D i p ≤ countRow D i q := by
  unfold countRow
  rw [← List.countP_eq_length_filter, ← List.countP_eq_length_filter]
  exact List.countP_mono_left fun j _ => h _

/-- C153: with an integer `neighbour_count` further targets never enlarge a bandwidth, and they leave it
as it is exactly when fewer than that many targets, old and new, are nearer than it. -/
theorem C153_bandwidth (D D' : Mat K) (k : ℤ) (bw : Nat → K)
    (h : adaptiveBandwidth false D (.int k) none = .ok bw) (hc : D.c ≤ D'.c) :
    ∃ bw', adaptiveBandwidth false D' (.int k) none = .ok bw' ∧
      ∀ i, (∀ j < D.c, D'.get i j = D.get i j) → bw' i ≤ bw i ∧
        (bw' i = bw i ↔ countRow D' i (fun x => x < bw i) < k) := by
  obtain ⟨hk1, hk2, -⟩ := C08_kth_nearest D k bw h 0
  obtain ⟨bw', h'⟩ := (C08_count_validated D' k).2 ⟨hk1, by omega⟩
  refine ⟨bw', h', fun i hsame => ?_⟩
  obtain ⟨-, -, -, h1, h2⟩ := C08_kth_nearest D k bw h i
  obtain ⟨-, -, -, h3, h4⟩ := C08_kth_nearest D' k bw' h' i
  have hle : bw' i ≤ bw i := by
    by_contra hlt
    have hlt := not_le.1 hlt
    have a := countRow_prefix hc hsame (fun x => decide (x ≤ bw i))
    have b : countRow D' i (fun x => decide (x ≤ bw i)) ≤ countRow D' i (fun x => decide (x < bw' i)) :=
      countRow_imp fun x hx => by simpa using lt_of_le_of_lt (of_decide_eq_true hx) hlt
    omega
  refine ⟨hle, fun e => e ▸ h4, fun hcount => ?_⟩
  by_contra hne
  have hlt : bw' i < bw i := lt_of_le_of_ne hle hne
  have b : countRow D' i (fun x => decide (x ≤ bw' i)) ≤ countRow D' i (fun x => decide (x < bw i)) :=
    countRow_imp fun x hx => by simpa using lt_of_le_of_lt (of_decide_eq_true hx) hlt
  omega

theorem countRow_beyond {D D' : Mat K} {i : Nat} (hc : D.c ≤ D'.c)
    (hsame : ∀ j < D.c, D'.get i j = D.get i j) {x : K} (hx : ∀ t, D.c ≤ t → t < D'.c → x ≤ D'.get i t) :
    countRow D' i (fun y => y < x) = countRow D i (fun y => y < x) := by
  unfold countRow
  obtain ⟨m, hm⟩ := Nat.exists_eq_add_of_le hc
  rw [hm, List.range_add, List.filter_append, List.length_append]
  have e : ((List.range m).map (D.c + ·)).filter (fun j => decide (D'.get i j < x)) = [] := by
    rw [List.filter_eq_nil_iff]
    intro t ht
    obtain ⟨u, hu, rfl⟩ := List.mem_map.1 ht
    have := List.mem_range.1 hu
    simpa using hx (D.c + u) (by omega) (by omega)
  rw [e, List.length_nil, Nat.add_zero]
  congr 1
  refine List.filter_congr fun j hj => ?_
  rw [hsame j (List.mem_range.1 hj)]

/-- New targets that are out of reach of location `i`: none is nearer than the bandwidth in a dimension
with a neighbour count (which must be an integer), and each is beyond the bandwidth in some dimension
whose kernel has bounded support. -/
structure NewFarOff (p : WParams K) (Ds Ds' : List (Mat K)) (i : Nat) (c c' : Nat) : Prop where
  near : ∀ (d : Nat) (n : Count K), (p.count.expand Ds.length)[d]? = some (some n) → ∃ k : ℤ, n = .int k ∧
    ∀ (D D' : Mat K) (x : K), Ds[d]? = some D → Ds'[d]? = some D' → BandwidthAt Ds p d i x →
      ∀ t, c ≤ t → t < c' → x ≤ D'.get i t
  out : ∀ t, c ≤ t → t < c' → ∃ (d : Nat) (D' : Mat K) (name : String), Ds'[d]? = some D' ∧
    (p.kernel.expand Ds.length)[d]? = some name ∧ name ∈ ["linear", "bisquare", "tricube", "boxcar"] ∧
    ∀ x, BandwidthAt Ds p d i x → x < D'.get i t

theorem bandwidthAt_nonneg {Ds : List (Mat K)} {p : WParams K} (hin : NonnegInput Ds p) {r c : Nat}
    (hsh : AllShape Ds r c) {d i : Nat} (hi : i < r) {x : K} (hx : BandwidthAt Ds p d i x) : 0 ≤ x := by
  rcases hx with hx | ⟨D, n, bw, hD, hn, hb, rfl⟩
  · exact hin.bandwidth x (List.mem_of_getElem? hx)
  · have hDm := List.mem_of_getElem? hD
    exact adaptiveBandwidth_nonneg hb (fun j hj => hin.dist D hDm i ((hsh D hDm).1 ▸ hi) j hj)
      fun S' hS' => by cases hS'

/-- C153: further targets out of reach of a location leave its weights as they are and get none. -/
theorem C153_weights (env : Env K) (he : env.Ok) (Ds Ds' : List (Mat K)) (p : WParams K)
    (W W' : Mat (Num K)) (h : weightMatrixFromDistance env false Ds p = .ok W)
    (h' : weightMatrixFromDistance env false Ds' p = .ok W') (hlen : Ds'.length = Ds.length)
    (hin : NonnegInput Ds p) (hin' : NonnegInput Ds' p) (i : Nat) (hi : i < W.r) (hi' : i < W'.r)
    (hc : W.c ≤ W'.c)
    (hsame : ∀ (d : Nat) (D D' : Mat K), Ds[d]? = some D → Ds'[d]? = some D' → ∀ j < W.c, D'.get i j = D.get i j)
    (hout : NewFarOff p Ds Ds' i W.c W'.c) :
    (∀ j < W.c, W'.get i j = W.get i j) ∧ ∀ t, W.c ≤ t → t < W'.c → W'.get i t = .fin 0 := by
  obtain ⟨Ws, hWs, hsh, hu, hW⟩ := weightMatrix_master env he h hin
  obtain ⟨Ws', hWs', hsh', hu', hW'⟩ := weightMatrix_master env he h' hin'
  have hl := dimWeights_length hWs
  have hl' := dimWeights_length hWs'
  have hdim : ∀ d (hd : d < Ds.length), ∃ (name : String) (x : K), 0 ≤ x ∧ BandwidthAt Ds p d i x ∧
      (p.kernel.expand Ds.length)[d]? = some name ∧
      (∀ j < W.c, ((Ws[d]'(by omega)).get i j).toK = kval env name (Ds[d].get i j) x) ∧
      ∀ j < W'.c, ((Ws'[d]'(by omega)).get i j).toK = kval env name ((Ds'[d]'(by omega)).get i j) x := by
    intro d hd
    have hd' : d < Ds'.length := by omega
    obtain ⟨name, bw, hname, hnm, hrule, hat, hv⟩ := dim_rule hWs hd
    obtain ⟨name', bw', hname', -, hrule', hat', hv'⟩ := dim_rule hWs' hd'
    rw [hlen, hname] at hname'
    cases hname'
    obtain ⟨hr1, hc1⟩ := hsh _ (List.getElem_mem hd)
    obtain ⟨hr2, hc2⟩ := hsh' _ (List.getElem_mem hd')
    have hs := hsame d _ _ (List.getElem?_eq_getElem hd) (List.getElem?_eq_getElem hd')
    have hb0 : 0 ≤ bw i := bandwidthAt_nonneg hin hsh hi (hat i)
    have hbe : bw' i = bw i := by
      rcases hrule with ⟨x, hx, -, rfl⟩ | ⟨n, hx, hn, hok⟩
      · rcases hrule' with ⟨y, hy, -, rfl⟩ | ⟨n, hy, hn, hok⟩
        · rw [hlen, hx] at hy
          cases hy
          rfl
        · rw [hlen, hx] at hy
          cases hy
      · rcases hrule' with ⟨y, hy, -, rfl⟩ | ⟨n', hy, hn', hok'⟩
        · rw [hlen, hx] at hy
          cases hy
        · rw [hlen, hn] at hn'
          cases hn'
          obtain ⟨k, rfl, hfar⟩ := hout.near d n hn
          have hfar := hfar _ _ _ (List.getElem?_eq_getElem hd) (List.getElem?_eq_getElem hd') (hat i)
          obtain ⟨bw'', hb'', hall⟩ := C153_bandwidth Ds[d] Ds'[d] k bw hok (by omega)
          rw [hok'] at hb''
          cases hb''
          refine ((hall i (by rw [hc1]; exact hs)).2).2 ?_
          rw [countRow_beyond (D := Ds[d]) (by omega) (by rw [hc1]; exact hs) (by rw [hc1, hc2]; exact hfar)]
          exact (C08_kth_nearest _ k bw hok i).2.2.2.2
    refine ⟨name, bw i, hb0, hat i, hname, fun j hj => ?_, fun j hj => ?_⟩
    · exact hv i j (hin.dist _ (List.getElem_mem hd) i (by omega) j (by omega)) hb0
    · rw [hv' i j (hin'.dist _ (List.getElem_mem hd') i (by omega) j (by omega)) (by rw [hbe]; exact hb0), hbe]
  have hold : ∀ j < W.c, prodK Ws' i j = prodK Ws i j := by
    intro j hj
    unfold prodK
    congr 1
    apply List.ext_getElem
    · simp [hl, hl', hlen]
    · intro d h1 h2
      simp only [List.length_map] at h1 h2
      have hd : d < Ds.length := by omega
      obtain ⟨name, x, -, -, -, e1, e2⟩ := hdim d hd
      rw [List.getElem_map, List.getElem_map, e1 j hj, e2 j (by omega),
        hsame d _ _ (List.getElem?_eq_getElem hd) (List.getElem?_eq_getElem (by omega)) j hj]
  have hnew : ∀ t, W.c ≤ t → t < W'.c → prodK Ws' i t = 0 := by
    intro t h1 h2
    obtain ⟨d, D', name, hD', hname, hb, hx⟩ := hout.out t h1 h2
    obtain ⟨hd', rfl⟩ := List.getElem?_eq_some_iff.1 hD'
    have hd : d < Ds.length := by omega
    obtain ⟨name', x, -, hat, hname', -, e2⟩ := hdim d hd
    cases hname.symm.trans hname'
    unfold prodK
    refine List.prod_eq_zero (List.mem_map.2 ⟨_, List.getElem_mem (by omega : d < Ws'.length), ?_⟩)
    rw [e2 t h2]
    have hlt := hx x hat
    simp only [List.mem_cons, List.not_mem_nil, or_false] at hb
    rcases hb with rfl | rfl | rfl | rfl <;> simp [kval, hlt]
  have hnorm : normK Ws' W'.c i = normK Ws W.c i := by
    have hsum : ∑ j ∈ Finset.range W'.c, prodK Ws' i j = ∑ j ∈ Finset.range W.c, prodK Ws i j := by
      rw [← Finset.sum_subset (Finset.range_subset_range.2 hc)
        (fun t ht hn => hnew t (by simpa using hn) (Finset.mem_range.1 ht))]
      exact Finset.sum_congr rfl fun j hj => hold j (Finset.mem_range.1 hj)
    unfold normK
    rw [hsum]
  refine ⟨fun j hj => ?_, fun t h1 h2 => ?_⟩
  · rw [hW' i hi' j (by omega), hW i hi j hj, hold j hj, hnorm]
  · rw [hW' i hi' t h2, hnew t h1 h2, zero_div]

/-- C153: and its local model. `X'`, `y'` are the observations followed by new ones, `D` and `D'` the
weights used; if the row of location `i` is the same, followed by zeros, its local estimator and
prediction are the same. -/
theorem C153_model (L : Learner K F) (rng : Rng S) (p : WMParams K C) (hsr : p.sampleRate = none)
    (st st' : WMState K F C) (s s' : S) (X X' : Mat K) (y y' : List K) (coords coords' : Option C)
    (W W' : Option (WMat K)) (D D' : Mat K) (hD : chosenWeights p coords W = .ok (.dense D))
    (hD' : chosenWeights p coords' W' = .ok (.dense D'))
    (hok : (wmFit L rng p st s X y coords W).result = .ok ())
    (hok' : (wmFit L rng p st' s' X' y' coords' W').result = .ok ())
    (hn : X.r ≤ X'.r) (hX : ∀ k < X.r, X'.row k = X.row k)
    (hy : ∀ k < X.r, y'.getD k 0 = y.getD k 0)
    (i : Nat) (hi : i < X.r) (hrow : ∀ j < X.r, D'.get i j = D.get i j)
    (hnew : ∀ t, X.r ≤ t → t < X'.r → D'.get i t = 0) :
    let o := wmFit L rng p st s X y coords W
    let o' := wmFit L rng p st' s' X' y' coords' W'
    (∃ v, o.state.localPredict.bind (·[i]?) = some v ∧ o'.state.localPredict.bind (·[i]?) = some v) ∧
      ∃ e, o.state.estimators.bind (·[i]?) = some e ∧ o'.state.estimators.bind (·[i]?) = some e := by
  intro o o'
  have hT : trainingSet p X'.r D' i = trainingSet p X.r D i := by
    unfold trainingSet
    obtain ⟨m, hm⟩ := Nat.exists_eq_add_of_le hn
    rw [hm, List.range_add, List.filter_append]
    have e : ((List.range m).map (X.r + ·)).filter
        (fun k => decide (D'.get i k ≠ 0 ∧ ¬ (p.leaveLocalOut = true ∧ k = i))) = [] := by
      rw [List.filter_eq_nil_iff]
      intro t ht
      obtain ⟨u, hu, rfl⟩ := List.mem_map.1 ht
      have := List.mem_range.1 hu
      simp [hnew (X.r + u) (by omega) (by omega)]
    rw [e, List.append_nil]
    refine List.filter_congr fun k hk => ?_
    rw [hrow k (List.mem_range.1 hk)]
  have hlt : ∀ k ∈ trainingSet p X.r D i, k < X.r := fun k hk => List.mem_range.1 (List.mem_filter.1 hk).1
  obtain ⟨idx, s1, fs, hs, -, hl, -, hes, ⟨ps, hps, hpl, -, hpv⟩, hfit⟩ := fit_values (.inr hsr) hD hok
  obtain ⟨idx', s1', fs', hs', -, hl', -, hes', ⟨ps', hps', hpl', -, hpv'⟩, hfit'⟩ :=
    fit_values (.inr hsr) hD' hok'
  simp only [sampleLocations, hsr] at hs hs'
  cases hs
  cases hs'
  have hfl : i < fs.length := by rw [hl]; simpa using hi
  have hfl' : i < fs'.length := by rw [hl']; simp; omega
  have h1 := hfit i i fs[i] (List.getElem?_range hi) (List.getElem?_eq_getElem hfl)
  have h2 := hfit' i i fs'[i] (List.getElem?_range (by omega)) (List.getElem?_eq_getElem hfl')
  rw [hT, List.map_congr_left (g := X.row) fun k hk => hX k (hlt k hk),
    List.map_congr_left (g := fun k => y.getD k 0) fun k hk => hy k (hlt k hk),
    List.map_congr_left (g := D.get i) fun k hk => hrow k (hlt k hk), h1] at h2
  injection h2 with h2
  refine ⟨⟨L.predict fs[i] (X.row i), ?_, ?_⟩, if p.cacheEstimator then some fs[i] else none, ?_, ?_⟩
  · change (wmFit L rng p st s X y coords W).state.localPredict.bind _ = _
    rw [hps]
    exact hpv i i _ (List.getElem?_range hi) (List.getElem?_eq_getElem hfl)
  · change (wmFit L rng p st' s' X' y' coords' W').state.localPredict.bind _ = _
    rw [hps', h2, ← hX i hi]
    exact hpv' i i _ (List.getElem?_range (by omega)) (List.getElem?_eq_getElem hfl')
  · change (wmFit L rng p st s X y coords W).state.estimators.bind _ = _
    rw [hes]
    simp [hfl]
  · change (wmFit L rng p st' s' X' y' coords' W').state.estimators.bind _ = _
    rw [hes', h2]
    simp [hfl']

/-- C153: a fit on coordinates. Observations are added whose coordinates are out of reach of location
`i`; its local estimator and prediction stay the same. -/
theorem C153_fit (L : Learner K F) (rng : Rng S) (lib : Lib K) (hl : lib.Nonneg) (env : Env K)
    (he : env.Ok) (fs : Disk K) (ms : Param (Option String)) (wp : WParams K)
    (p : WMParams K (List (Mat K))) (hp : p.weights = pointSource lib env fs ms wp)
    (hsr : p.sampleRate = none) (st st' : WMState K F (List (Mat K))) (s s' : S) (X X' : Mat K)
    (y y' : List K) (c c' : List (Mat K)) (hcc : c'.length = c.length)
    (hm : c.length ≤ (ms.expand c.length).length)
    (hcr : ∀ t ∈ c, t.r = X.r) (hcr' : ∀ t ∈ c', t.r = X'.r)
    (hb : ∀ b, some b ∈ wp.bandwidth.expand c.length → 0 ≤ b)
    (hok : (wmFit L rng p st s X y (some c) none).result = .ok ())
    (hok' : (wmFit L rng p st' s' X' y' (some c') none).result = .ok ())
    (hn : X.r ≤ X'.r) (hX : ∀ k < X.r, X'.row k = X.row k)
    (hy : ∀ k < X.r, y'.getD k 0 = y.getD k 0)
    (hcoord : ∀ (d : Nat) (h : d < c.length), ∀ k < X.r, (c'[d]'(by omega)).row k = c[d].row k)
    (i : Nat) (hi : i < X.r)
    (hout : NewFarOff wp (eagerDists lib c c (ms.expand c.length))
      (eagerDists lib c' c' (ms.expand c.length)) i X.r X'.r) :
    let o := wmFit L rng p st s X y (some c) none
    let o' := wmFit L rng p st' s' X' y' (some c') none
    (∃ v, o.state.localPredict.bind (·[i]?) = some v ∧ o'.state.localPredict.bind (·[i]?) = some v) ∧
      ∃ e, o.state.estimators.bind (·[i]?) = some e ∧ o'.state.estimators.bind (·[i]?) = some e := by
  have hw : ∀ (st : WMState K F (List (Mat K))) (s : S) (X : Mat K) (y : List K) (c : List (Mat K)),
      (wmFit L rng p st s X y (some c) none).result = .ok () → 0 < X.r ∧
      ∃ M, pointSource lib env fs ms wp c c = .ok M ∧ chosenWeights p (some c) none = .ok (.dense M) := by
    intro st s X y c hok
    obtain ⟨W0, -, -, -, -, hck, hW0, -⟩ := wmFit_ok hok
    have hch := hW0
    simp only [chosenWeights, hp] at hW0
    have hX := of_decide_eq_true hck
    refine ⟨by omega, ?_⟩
    cases hM : pointSource lib env fs ms wp c c with
    | error e => rw [hM] at hW0; cases hW0
    | ok M =>
      rw [hM] at hW0
      cases hW0
      exact ⟨M, rfl, hch⟩
  obtain ⟨hX0, M, hM, hch⟩ := hw _ _ _ _ _ hok
  obtain ⟨hX0', M', hM', hch'⟩ := hw _ _ _ _ _ hok'
  have hm' : c'.length ≤ (ms.expand c'.length).length := by rw [hcc]; exact hm
  have hpos : ∀ t ∈ c, 0 < t.r := fun t ht => by rw [hcr t ht]; exact hX0
  have hpos' : ∀ t ∈ c', 0 < t.r := fun t ht => by rw [hcr' t ht]; exact hX0'
  have hMr := pointSource_r lib env fs ms wp c c hm hpos M hM hcr
  have hMc := pointSource_c lib env fs ms wp c c hm hpos M hM hcr
  have hMr' := pointSource_r lib env fs ms wp c' c' hm' hpos' M' hM' hcr'
  have hMc' := pointSource_c lib env fs ms wp c' c' hm' hpos' M' hM' hcr'
  obtain ⟨⟨hlen, hgood⟩, V, hV, hfin, rfl⟩ := (pointSource_iff lib env fs ms wp c c hm hpos M).1 hM
  obtain ⟨⟨hlen', hgood'⟩, V', hV', hfin', rfl⟩ :=
    (pointSource_iff lib env fs ms wp c' c' hm' hpos' M').1 hM'
  have hVr : V.r = X.r := hMr
  have hVc : V.c = X.r := hMc
  have hVr' : V'.r = X'.r := hMr'
  have hVc' : V'.c = X'.r := hMc'
  rw [hcc] at hV' hm'
  have hdl := dims_length c c _ hlen hm
  have hdl' := dims_length c' c' (ms.expand c.length) hlen' (by omega)
  have hin := eagerDists_nonneg hl c c _ wp hdl hb
  have hin' := eagerDists_nonneg hl c' c' _ wp hdl' (by rw [hcc]; exact hb)
  obtain ⟨h1, h2⟩ := C153_weights env he _ _ _ V V' hV hV' (by simp [eagerDists, hdl, hdl', hcc]) hin hin' i
    (by omega) (by omega) (by omega) (by
      intro d D D' hD hD' j hj
      have hd : d < c.length := by
        have := (List.getElem?_eq_some_iff.1 hD).1
        simpa [eagerDists, hdl] using this
      simp only [eagerDists, List.getElem?_map] at hD hD'
      rw [dims_get hd hlen hm] at hD
      rw [dims_get (by omega) hlen' (by omega)] at hD'
      simp only [Option.map_some, Option.some.injEq] at hD hD'
      subst hD hD'
      have e1 : c.getD d ⟨0, 0, fun _ _ => 0⟩ = c[d] := by simp [hd]
      have e2 : c'.getD d ⟨0, 0, fun _ _ => 0⟩ = c'[d]'(by omega) := by simp [hcc, hd]
      rw [e1, e2]
      simp only [cdistMat]
      rw [hcoord d hd i hi, hcoord d hd j (by omega)])
    (by rw [hVc, hVc']; exact ⟨hout.near, hout.out⟩)
  refine C153_model L rng p hsr st st' s s' X X' y y' (some c) (some c') none none _ _ hch hch' hok hok' hn
    hX hy i hi (fun j hj => ?_) fun t ht1 ht2 => ?_
  · change (V'.get i j).toK = (V.get i j).toK
    rw [h1 j (by omega)]
  · change (V'.get i t).toK = 0
    rw [h2 t (by omega) (by omega)]
    rfl

/-! ### Concrete cases -/

/-- Five stations on a line and a sixth far away. -/
def sixTrain : List (Mat ℚ) := [⟨6, 1, fun i _ => if i = 5 then 30 else i⟩]
def sixX : Mat ℚ := ⟨6, 1, fun i _ => i * i⟩
def sixY : List ℚ := exY5 ++ [100]

/-- Neighbours by count: the fourth nearest. -/
def cntWp : WParams ℚ := { kernel := .scalar "bisquare", count := .scalar (some (.int 4)) }
def cntP : WMParams ℚ (List (Mat ℚ)) :=
  { cacheData := true, cacheEstimator := true, cpu := 2,
    weights := pointSource exLib ratEnv (fun _ => none) (.scalar (some "sqeuclidean")) cntWp }

/-- The hypotheses of `C153_fit` are met by the first station when the sixth is added, with the fourth
nearest as bandwidth. -/
example :
    (wmFit meanLearner countRng cntP {} 0 exX5 exY5 (some exTrain) none).result = .ok () ∧
    (wmFit meanLearner countRng cntP {} 0 sixX sixY (some sixTrain) none).result = .ok () ∧
    NewFarOff cntWp (eagerDists exLib exTrain exTrain [some "sqeuclidean"])
      (eagerDists exLib sixTrain sixTrain [some "sqeuclidean"]) 0 5 6 := by
  have hbw : ∀ x, BandwidthAt (eagerDists exLib exTrain exTrain [some "sqeuclidean"]) cntWp 0 0 x →
      x = 9 := by
    intro x hx
    rcases hx with hx | ⟨D, n, bw, hD, hn, hb, rfl⟩
    · cases hx
    · cases hD
      cases hn
      cases hb
      decide +kernel
  refine ⟨by decide +kernel, by decide +kernel, ?_, ?_⟩
  · intro d n hd
    cases d with
    | succ d => cases hd
    | zero =>
      cases hd
      refine ⟨4, rfl, fun D D' x hD hD' hx t h1 h2 => ?_⟩
      cases hD'
      rw [hbw x hx]
      have : t = 5 := by omega
      subst this
      decide +kernel
  · intro t h1 h2
    have : t = 5 := by omega
    subst this
    refine ⟨0, _, _, rfl, rfl, by decide, fun x hx => ?_⟩
    rw [hbw x hx]
    decide +kernel

/-- The two fits: the same predictions at the five stations. -/
example :
    (wmFit meanLearner countRng cntP {} 0 exX5 exY5 (some exTrain) none).state.localPredict ≠ none ∧
    (wmFit meanLearner countRng cntP {} 0 exX5 exY5 (some exTrain) none).state.localPredict =
    (wmFit meanLearner countRng cntP {} 0 sixX sixY (some sixTrain) none).state.localPredict.map (·.take 5) := by
  decide +kernel

/-- C153: with a fraction it is otherwise: a single far observation enlarges the bandwidth of every
location, and a near one can shrink it. -/
theorem C153_fraction :
    okAnd (adaptiveBandwidth false (⟨1, 3, fun _ j => (j : ℚ)⟩ : Mat ℚ) (.float (1 / 2)) none)
      (fun bw => decide (bw 0 = 1)) = true ∧
    okAnd (adaptiveBandwidth false (⟨1, 4, fun _ j => if j = 3 then 100 else (j : ℚ)⟩ : Mat ℚ) (.float (1 / 2)) none)
      (fun bw => decide (1 < bw 0)) = true ∧
    okAnd (adaptiveBandwidth false (⟨1, 4, fun _ j => if j = 3 then 0 else (j : ℚ)⟩ : Mat ℚ) (.float (1 / 2)) none)
      (fun bw => decide (bw 0 < 1)) = true := by
  refine ⟨by decide +kernel, by decide +kernel, by decide +kernel⟩

end Geo
