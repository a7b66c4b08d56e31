import Verif.Props.Superposition
import Verif.Props.Neighbourhoods
/-
C144: regions out of reach of each other are fitted independently.
-/
set_option linter.unusedSectionVars false
namespace Geo
variable {K : Type} [Field K] [LinearOrder K] [IsStrictOrderedRing K] [FloorRing K]
  {F C S : Type}

/-- The observations of a region, in their order. -/
def region (n : Nat) (g : Nat → Bool) : List Nat := (List.range n).filter g

/-- The number of the `a`-th observation of a region. -/
def region.at (n : Nat) (g : Nat → Bool) (a : Nat) : Nat := (region n g).getD a 0

theorem region_mem {n : Nat} {g : Nat → Bool} {k : Nat} : k ∈ region n g ↔ k < n ∧ g k = true := by
  simp [region]

theorem region_at_mem {n : Nat} {g : Nat → Bool} {a : Nat} (h : a < (region n g).length) :
    region.at n g a ∈ region n g := by
  unfold region.at
  rw [List.getD_eq_getElem _ _ h]
  exact List.getElem_mem h

theorem region_at_lt {n : Nat} {g : Nat → Bool} {a : Nat} (h : a < (region n g).length) :
    region.at n g a < n := (region_mem.1 (region_at_mem h)).1

theorem region_at_inj {n : Nat} {g : Nat → Bool} {a b : Nat} (ha : a < (region n g).length)
    (hb : b < (region n g).length) (h : region.at n g a = region.at n g b) : a = b := by
  unfold region.at at h
  rw [List.getD_eq_getElem _ _ ha, List.getD_eq_getElem _ _ hb] at h
  exact (List.Nodup.getElem_inj_iff (List.nodup_range.filter _)).1 h

/-- Positions of a list that satisfy a condition, read off, are the filtered list. -/
theorem positions_filter (l : List Nat) (q : Nat → Bool) :
    ((List.range l.length).filter fun b => q (l.getD b 0)).map (fun b => l.getD b 0) = l.filter q := by
  have h : l = (List.range l.length).map fun b => l.getD b 0 := by
    apply List.ext_getElem
    · simp
    · intro k h1 h2
      simp [h1]
  conv_rhs => rw [h, List.filter_map]
  rfl

theorem filter_region {n : Nat} {g q : Nat → Bool} (h : ∀ k < n, q k = true → g k = true) :
    (region n g).filter q = (List.range n).filter q := by
  unfold region
  rw [List.filter_filter]
  refine List.filter_congr fun k hk => ?_
  have := h k (List.mem_range.1 hk)
  cases hq : q k
  · simp
  · simp [this hq]

/-- Numbers of the region that satisfy a condition only members do. -/
theorem region_filter_at {n : Nat} {g q : Nat → Bool} (h : ∀ k < n, q k = true → g k = true) :
    ((List.range (region n g).length).filter fun b => q (region.at n g b)).map (region.at n g) =
      (List.range n).filter q := by
  rw [← filter_region h]
  exact positions_filter _ _

theorem sum_positions (l : List Nat) (f : Nat → K) :
    ∑ b ∈ Finset.range l.length, f (l.getD b 0) = (l.map f).sum := by
  induction l with
  | nil => simp
  | cons x l ih => rw [List.length_cons, Finset.sum_range_succ', List.map_cons, List.sum_cons, ← ih, add_comm]; rfl

theorem sum_region {n : Nat} {g : Nat → Bool} {f : Nat → K} (h : ∀ k < n, g k = false → f k = 0) :
    ∑ b ∈ Finset.range (region n g).length, f (region.at n g b) = ∑ k ∈ Finset.range n, f k := by
  unfold region.at
  rw [sum_positions]
  have e : ∀ l : List Nat, (∀ k ∈ l, g k = false → f k = 0) → ((l.filter g).map f).sum = (l.map f).sum := by
    intro l hl
    induction l with
    | nil => rfl
    | cons x l ih =>
      have ih := ih fun k hk => hl k (List.mem_cons_of_mem _ hk)
      cases hx : g x
      · rw [List.filter_cons_of_neg (by simp [hx]), List.map_cons, List.sum_cons, ih,
          hl x (List.mem_cons_self ..) hx, zero_add]
      · rw [List.filter_cons_of_pos hx, List.map_cons, List.sum_cons, ih, List.map_cons, List.sum_cons]
  unfold region
  rw [e _ fun k hk => h k (List.mem_range.1 hk)]
  have := sum_positions (List.range n) f
  rw [← this, List.length_range]
  refine Finset.sum_congr rfl fun k hk => ?_
  have := Finset.mem_range.1 hk
  simp [this]

/-- The rows and columns of a region. -/
def restrictTo (n : Nat) (g : Nat → Bool) (D : Mat K) : Mat K :=
  ⟨(region n g).length, (region n g).length, fun a b => D.get (region.at n g a) (region.at n g b)⟩

/-- The rows of a region. -/
def regionRows (n : Nat) (g : Nat → Bool) (A : Mat K) : Mat K :=
  selRows (region.at n g) (region n g).length A

/-- The training sets of a region that has all its neighbours, renumbered. -/
theorem trainingSet_region (p : WMParams K C) {n : Nat} {g : Nat → Bool} {D D' : Mat K}
    (hD' : ∀ a < (region n g).length, ∀ b < (region n g).length,
      D'.get a b = D.get (region.at n g a) (region.at n g b))
    {a : Nat} (ha : a < (region n g).length)
    (hcl : ∀ k < n, g k = false → D.get (region.at n g a) k = 0) :
    (trainingSet p (region n g).length D' a).map (region.at n g) =
      trainingSet p n D (region.at n g a) := by
  unfold trainingSet
  rw [← region_filter_at (g := g) (n := n)
    (q := fun k => decide (D.get (region.at n g a) k ≠ 0 ∧ ¬ (p.leaveLocalOut = true ∧ k = region.at n g a)))]
  · congr 1
    refine List.filter_congr fun b hb => ?_
    have hb := List.mem_range.1 hb
    rw [hD' a ha b hb]
    refine decide_eq_decide.2 (and_congr Iff.rfl (not_congr (and_congr Iff.rfl ?_)))
    exact ⟨fun h => by rw [h], fun h => region_at_inj hb ha h⟩
  · intro k hk hq
    by_contra hg
    have := (of_decide_eq_true hq).1
    exact this (hcl k hk (by simpa using hg))

/-- C144: a region that has all its neighbours (no weight leads out of it) can be fitted alone. `D` are
the weights of all observations, `D'` those of the region, which are the corresponding entries; if the
fit on all observations succeeds, so does the fit on the region (of at least two observations), and the
local estimators and predictions are those of the fit on all observations. -/
theorem C144_alone (L : Learner K F) (hclone : ∀ e e', L.fit e = L.fit e') (rng : Rng S)
    (p : WMParams K C) (hj : p.JobsFine) (hsr : p.sampleRate = none) (st st' : WMState K F C) (s s' : S)
    (X : Mat K) (y : List K) (coords coords' : Option C) (W W' : Option (WMat K)) (D D' : Mat K)
    (hD : chosenWeights p coords W = .ok (.dense D)) (hD' : chosenWeights p coords' W' = .ok (.dense D'))
    (g : Nat → Bool) (h2 : 2 ≤ (region X.r g).length) (hr : D'.r = (region X.r g).length)
    (hc : D'.c = (region X.r g).length)
    (hsame : ∀ a < (region X.r g).length, ∀ b < (region X.r g).length,
      D'.get a b = D.get (region.at X.r g a) (region.at X.r g b))
    (hcl : ∀ i < X.r, ∀ k < X.r, g i = true → g k = false → D.get i k = 0)
    (hok : (wmFit L rng p st s X y coords W).result = .ok ()) :
    let o := wmFit L rng p st s X y coords W
    let o' := wmFit L rng p st' s' (regionRows X.r g X) ((region X.r g).map fun k => y.getD k 0) coords' W'
    o'.result = .ok () ∧ ∀ a < (region X.r g).length,
      (∃ v, o'.state.localPredict.bind (·[a]?) = some v ∧
        o.state.localPredict.bind (·[region.at X.r g a]?) = some v) ∧
      ∃ e, o'.state.estimators.bind (·[a]?) = some e ∧
        o.state.estimators.bind (·[region.at X.r g a]?) = some e := by
  have hT : ∀ a < (region X.r g).length,
      (trainingSet p (region X.r g).length D' a).map (region.at X.r g) =
        trainingSet p X.r D (region.at X.r g a) := by
    intro a ha
    have hm := region_mem.1 (region_at_mem ha)
    exact trainingSet_region p hsame ha fun k hk hg => hcl _ hm.1 k hk hm.2 hg
  have hTl : ∀ a, ∀ b ∈ trainingSet p (region X.r g).length D' a, b < (region X.r g).length :=
    fun a b hb => List.mem_range.1 (List.mem_filter.1 hb).1
  have hrows : ∀ a < (region X.r g).length,
      (trainingSet p (region X.r g).length D' a).map (regionRows X.r g X).row =
        (trainingSet p X.r D (region.at X.r g a)).map X.row := by
    intro a ha
    rw [← hT a ha, List.map_map]
    rfl
  have hys : ∀ a < (region X.r g).length,
      ((trainingSet p (region X.r g).length D' a).map fun k =>
        ((region X.r g).map fun k => y.getD k 0).getD k 0) =
        (trainingSet p X.r D (region.at X.r g a)).map fun k => y.getD k 0 := by
    intro a ha
    rw [← hT a ha, List.map_map]
    refine List.map_congr_left fun b hb => ?_
    have hb := hTl a b hb
    simp [region.at, List.getD_eq_getElem?_getD, hb]
  have hws : ∀ a < (region X.r g).length,
      (trainingSet p (region X.r g).length D' a).map (D'.get a) =
        (trainingSet p X.r D (region.at X.r g a)).map (D.get (region.at X.r g a)) := by
    intro a ha
    rw [← hT a ha, List.map_map]
    refine List.map_congr_left fun b hb => hsame a ha b (hTl a b hb)
  intro o o'
  have hit : ∀ i < X.r, ∃ f, L.fit i ((trainingSet p X.r D i).map X.row)
      ((trainingSet p X.r D i).map fun k => y.getD k 0) ((trainingSet p X.r D i).map (D.get i)) = .ok f :=
    ((C139_fit L rng p hj hsr st s X y coords W D hD).1 hok).2
  have hXc : 0 < X.c := ((C139_fit L rng p hj hsr st s X y coords W D hD).1 hok).1.2.2.1
  have hok' : o'.result = .ok () := by
    refine (C139_fit L rng p hj hsr st' s' (regionRows X.r g X) _ coords' W' D' hD').2
      ⟨⟨by simp [regionRows, selRows], h2, hXc, hr.ge, hc⟩, fun a ha => ?_⟩
    have ha : a < (region X.r g).length := ha
    obtain ⟨f, hf⟩ := hit _ (region_at_lt ha)
    refine ⟨f, ?_⟩
    rw [hclone a (region.at X.r g a)]
    have e1 := hrows a ha
    have e2 := hys a ha
    have e3 := hws a ha
    unfold trainingSet at e1 e2 e3 hf
    change L.fit _ (((List.range (region X.r g).length).filter _).map _)
      (((List.range (region X.r g).length).filter _).map _)
      (((List.range (region X.r g).length).filter _).map _) = _
    rw [e1, e2, e3]
    exact hf
  refine ⟨hok', fun a ha => ?_⟩
  obtain ⟨idx, s1, fs, hs, -, hl, -, hes, ⟨ps, hps, hpl, -, hpv⟩, hfit⟩ := fit_values (.inr hsr) hD hok
  obtain ⟨idx', s1', fs', hs', -, hl', -, hes', ⟨ps', hps', hpl', -, hpv'⟩, hfit'⟩ :=
    fit_values (.inr hsr) hD' hok'
  simp only [sampleLocations, hsr] at hs hs'
  cases hs
  cases hs'
  have hlen : (List.range (regionRows X.r g X).r).length = (region X.r g).length := by
    simp [regionRows, selRows]
  rw [List.length_range] at hl hpl
  rw [hlen] at hl' hpl'
  have hat := region_at_lt ha
  have hat' : a < (regionRows X.r g X).r := ha
  have e0 : (List.range X.r)[region.at X.r g a]? = some (region.at X.r g a) := by simp [hat]
  have e0' : (List.range (regionRows X.r g X).r)[a]? = some a := by simp [hat']
  have e1 := List.getElem?_eq_getElem (by omega : region.at X.r g a < fs.length)
  have e1' := List.getElem?_eq_getElem (by omega : a < fs'.length)
  have g1 := hfit _ _ _ e0 e1
  have g1' := hfit' _ _ _ e0' e1'
  have hn : (regionRows X.r g X).r = (region X.r g).length := rfl
  rw [hn, hrows a ha, hws a ha] at g1'
  have e2 := hys a ha
  rw [e2, hclone a (region.at X.r g a), g1] at g1'
  have hff := Except.ok.inj g1'
  refine ⟨⟨L.predict (fs[region.at X.r g a]'(by omega)) (X.row (region.at X.r g a)), ?_, ?_⟩,
    ⟨if p.cacheEstimator then some (fs[region.at X.r g a]'(by omega)) else none, ?_, ?_⟩⟩
  · change (wmFit L rng p st' s' _ _ coords' W').state.localPredict.bind _ = _
    rw [hps', Option.bind_some, hpv' _ _ _ e0' e1', hff]
    rfl
  · change (wmFit L rng p st s X y coords W).state.localPredict.bind _ = _
    rw [hps, Option.bind_some, hpv _ _ _ e0 e1]
  · change (wmFit L rng p st' s' _ _ coords' W').state.estimators.bind _ = _
    rw [hes', Option.bind_some, List.getElem?_map, e1', Option.map_some, hff]
  · change (wmFit L rng p st s X y coords W).state.estimators.bind _ = _
    rw [hes, Option.bind_some, List.getElem?_map, e1, Option.map_some]

/-- The bandwidth of a member of a region does not change when the rest is removed, if at least `k`
members of the region are nearer than anything outside. -/
theorem adaptiveBandwidth_region {n : Nat} {g : Nat → Bool} {D : Mat K} (hc : D.c = n) {k : ℤ}
    {bw bw' : Nat → K} (h : adaptiveBandwidth false D (.int k) none = .ok bw)
    (h' : adaptiveBandwidth false (restrictTo n g D) (.int k) none = .ok bw') {a : Nat}
    (hnear : ∀ j < n, g j = false → k ≤ ((region n g).filter fun m =>
      decide (D.get (region.at n g a) m < D.get (region.at n g a) j)).length) :
    bw' a = bw (region.at n g a) ∧ ∀ j < n, g j = false → bw' a < D.get (region.at n g a) j := by
  obtain ⟨hk1, -, ⟨j1, hj1, e1⟩, c1, c2⟩ := C08_kth_nearest D k bw h (region.at n g a)
  obtain ⟨-, -, ⟨b1, hb1, e1'⟩, c1', c2'⟩ := C08_kth_nearest _ k bw' h' a
  have hb1 : b1 < (region n g).length := hb1
  have hcount : ∀ q : K → Bool, countRow (restrictTo n g D) a q =
      ((region n g).filter fun m => q (D.get (region.at n g a) m)).length := by
    intro q
    unfold countRow
    rw [← positions_filter (region n g), List.length_map]
    rfl
  rw [hcount] at c1' c2'
  have hfar : ∀ j < n, g j = false → bw' a < D.get (region.at n g a) j := by
    intro j hj hg
    by_contra hle
    push Not at hle
    have := hnear j hj hg
    have hm : ((region n g).filter fun m =>
        decide (D.get (region.at n g a) m < D.get (region.at n g a) j)).length ≤
        ((region n g).filter fun m => decide (D.get (region.at n g a) m < bw' a)).length := by
      rw [← List.countP_eq_length_filter, ← List.countP_eq_length_filter]
      refine List.countP_mono_left fun m _ hm => ?_
      simp only [decide_eq_true_eq] at hm ⊢
      exact hm.trans_le hle
    omega
  refine ⟨?_, hfar⟩
  have hall : ∀ q : K → Bool, (∀ x, q x = true → x ≤ bw' a) → countRow D (region.at n g a) q =
      ((region n g).filter fun m => q (D.get (region.at n g a) m)).length := by
    intro q hq
    unfold countRow
    rw [hc, filter_region]
    intro j hj hqj
    by_contra hg
    have := hfar j hj (by simpa using hg)
    exact absurd (hq _ hqj) (not_le.2 this)
  have u1 : IsKthSmallest (D.row (region.at n g a)) k.toNat (bw' a) := by
    refine ⟨?_, ?_, ?_⟩
    · rw [← e1']
      exact List.mem_map.2 ⟨region.at n g b1, by rw [hc]; exact List.mem_range.2 (region_at_lt hb1), rfl⟩
    · rw [← countRow_eq, hall _ fun x hx => (of_decide_eq_true hx).le]
      omega
    · rw [← countRow_eq, hall _ fun x hx => of_decide_eq_true hx]
      omega
  have u2 : IsKthSmallest (D.row (region.at n g a)) k.toNat (bw (region.at n g a)) := by
    refine ⟨?_, ?_, ?_⟩
    · rw [← e1]
      exact List.mem_map.2 ⟨j1, List.mem_range.2 hj1, rfl⟩
    · rw [← countRow_eq]
      omega
    · rw [← countRow_eq]
      omega
  exact u1.unique u2

/-- A region closed under the parameters: counts are integers, and with a count at least that many
members are nearer to every member than anything outside; and everything outside is out of reach of every
member in some dimension with a kernel of bounded support. -/
structure RegionClosed (p : WParams K) (Ds : List (Mat K)) (n : Nat) (g : Nat → Bool) : Prop where
  near : ∀ (d : Nat) (D : Mat K) (c : Count K), Ds[d]? = some D → (p.count.expand Ds.length)[d]? = some (some c) →
    ∃ k : ℤ, c = .int k ∧ ∀ i < n, g i = true → ∀ j < n, g j = false →
      k ≤ ((region n g).filter fun m => decide (D.get i m < D.get i j)).length
  out : ∀ i < n, g i = true → ∀ j < n, g j = false → ∃ (d : Nat) (D : Mat K) (name : String),
    Ds[d]? = some D ∧ (p.kernel.expand Ds.length)[d]? = some name ∧
    name ∈ ["linear", "bisquare", "tricube", "boxcar"] ∧
    ∀ b, (p.bandwidth.expand Ds.length)[d]? = some (some b) → b < D.get i j

/-- C144: the weights of a closed region are the same without the rest, and no weight leads out. -/
theorem C144_weights (env : Env K) (he : env.Ok) (Ds : List (Mat K)) (p : WParams K) (W W' : Mat (Num K))
    (g : Nat → Bool) (h : weightMatrixFromDistance env false Ds p = .ok W)
    (h' : weightMatrixFromDistance env false (Ds.map (restrictTo W.r g)) p = .ok W')
    (hin : NonnegInput Ds p) (hsq : W.c = W.r) (hcl : RegionClosed p Ds W.r g) :
    W'.r = (region W.r g).length ∧ W'.c = (region W.r g).length ∧
    (∀ a < (region W.r g).length, ∀ b < (region W.r g).length,
      W'.get a b = W.get (region.at W.r g a) (region.at W.r g b)) ∧
    ∀ i < W.r, g i = true → ∀ j < W.r, g j = false → W.get i j = .fin 0 := by
  have hl1 : (Ds.map (restrictTo W.r g)).length = Ds.length := by simp
  obtain ⟨Ws, hWs, hsh, hu, hW⟩ := weightMatrix_master env he h hin
  have hlen : (region W.r g).length ≤ W.r := by
    unfold region
    exact (List.length_filter_le _ _).trans (by simp)
  have hin' : NonnegInput (Ds.map (restrictTo W.r g)) p := by
    refine ⟨fun D' hD' a ha b hb => ?_, fun b hb => hin.bandwidth b (by rwa [hl1] at hb),
      fun S hS D' hD' i hi j hj => ?_⟩
    · obtain ⟨D, hD, rfl⟩ := List.mem_map.1 hD'
      obtain ⟨h1, h2⟩ := hsh D hD
      exact hin.dist D hD _ (by rw [h1]; exact region_at_lt ha) _ (by rw [h2, hsq]; exact region_at_lt hb)
    · obtain ⟨D, hD, rfl⟩ := List.mem_map.1 hD'
      rw [hl1] at hS
      have hi : i < (region W.r g).length := hi
      exact hin.sorted S hS D hD i (by rw [(hsh D hD).1]; omega) j hj
  obtain ⟨Ws', hWs', hsh', hu', hW'⟩ := weightMatrix_master env he h' hin'
  have hne : Ds ≠ [] := (weightMatrix_unfold h).2.2.choose_spec.2.1
  obtain ⟨D0, hD0⟩ := List.exists_mem_of_ne_nil _ hne
  obtain ⟨hr', hc'⟩ := hsh' _ (List.mem_map_of_mem hD0)
  have hr' : W'.r = (region W.r g).length := hr'.symm
  have hc' : W'.c = (region W.r g).length := hc'.symm
  have hl := dimWeights_length hWs
  have hl' := (dimWeights_length hWs').trans hl1
  -- one dimension: the bandwidths agree and what is outside is beyond them
  have hdim : ∀ d (hd : d < Ds.length), ∃ (D : Mat K) (name : String) (bw : Nat → K), Ds[d]? = some D ∧
      (p.kernel.expand Ds.length)[d]? = some name ∧
      ((∃ b, (p.bandwidth.expand Ds.length)[d]? = some (some b) ∧ bw = fun _ => b) ∨
        ∀ i < W.r, g i = true → ∀ j < W.r, g j = false → bw i < D.get i j) ∧
      (∀ i < W.r, ∀ j < W.r, g i = true →
        ((Ws[d]'(hl ▸ hd)).get i j).toK = kval env name (D.get i j) (bw i)) ∧
      ∀ a < (region W.r g).length, ∀ b < (region W.r g).length, ((Ws'[d]'(hl'.symm ▸ hd)).get a b).toK =
        kval env name (D.get (region.at W.r g a) (region.at W.r g b)) (bw (region.at W.r g a)) := by
    intro d hd
    obtain ⟨D, name, b, c, S, hD, hname, hb, hc, hS, hw⟩ := dimWeight_unfold (dimWeights_get hWs hd)
    obtain ⟨D', name', b', c', S', hD', hname', hb2, hc2, hS', hw'⟩ :=
      dimWeight_unfold (dimWeights_get hWs' (by omega : d < _))
    rw [hl1] at hname' hb2 hc2
    rw [List.getElem?_map, hD] at hD'
    cases hD'
    cases hname.symm.trans hname'
    cases hb.symm.trans hb2
    cases hc.symm.trans hc2
    have hS0 : S = none := by
      rcases hS with ⟨h0, -⟩ | ⟨-, h0⟩
      · cases h0
      · exact h0
    have hS0' : S' = none := by
      rcases hS' with ⟨h0, -⟩ | ⟨-, h0⟩
      · cases h0
      · exact h0
    subst hS0 hS0'
    have hDm := List.mem_of_getElem? hD
    obtain ⟨h1, h2⟩ := hsh D hDm
    have hd0 : ∀ i < W.r, ∀ j < W.r, 0 ≤ D.get i j := fun i hi j hj =>
      hin.dist D hDm i (by omega) j (by omega)
    obtain ⟨hnm, bw, hbw, hv⟩ := weightByDistance_rule hw
    obtain ⟨-, bw', hbw', hv'⟩ := weightByDistance_rule hw'
    rcases hbw with ⟨x, hx, hx0, rfl⟩ | ⟨m, hm0, hm, hbwm⟩
    · rcases hbw' with ⟨x', hx', -, rfl⟩ | ⟨m', hm', -⟩
      · rw [hx] at hx'
        cases hx'
        subst hx
        have hx0 := hin.bandwidth x (List.mem_of_getElem? hb)
        refine ⟨D, name, fun _ => x, hD, hname, .inl ⟨x, hb, rfl⟩, fun i hi j hj _ => ?_,
          fun a ha b hb => ?_⟩
        · rw [hv i j (hd0 i hi j hj) hx0]
          rfl
        · have := hd0 _ (region_at_lt ha) _ (region_at_lt hb)
          rw [hv' a b this hx0]
          rfl
      · rw [hx] at hm'
        cases hm'
    · rcases hbw' with ⟨x', hx', -, -⟩ | ⟨m', hm0', hm', hbwm'⟩
      · rw [hm0] at hx'
        cases hx'
      rw [hm] at hm'
      cases hm'
      subst hm
      obtain ⟨k, rfl, hnear⟩ := hcl.near d D m hD hc
      have hreg : ∀ a < (region W.r g).length, bw' a = bw (region.at W.r g a) ∧
          ∀ j < W.r, g j = false → bw' a < D.get (region.at W.r g a) j := by
        intro a ha
        have hm := region_mem.1 (region_at_mem ha)
        exact adaptiveBandwidth_region (by omega) hbwm hbwm' fun j hj hg => hnear _ hm.1 hm.2 j hj hg
      have hpos : ∀ i < W.r, 0 ≤ bw i := fun i hi =>
        adaptiveBandwidth_nonneg hbwm (fun j hj => hd0 i hi j (by omega)) fun S' hS' => by cases hS'
      have hat : ∀ i < W.r, g i = true → ∃ a < (region W.r g).length, region.at W.r g a = i := by
        intro i hi hg
        obtain ⟨a, ha, e⟩ := List.getElem_of_mem (region_mem.2 ⟨hi, hg⟩)
        exact ⟨a, ha, by rw [region.at, List.getD_eq_getElem _ _ ha, e]⟩
      refine ⟨D, name, bw, hD, hname, .inr fun i hi hg j hj hgj => ?_, fun i hi j hj _ => ?_,
        fun a ha b hb => ?_⟩
      · obtain ⟨a, ha, rfl⟩ := hat i hi hg
        rw [← (hreg a ha).1]
        exact (hreg a ha).2 j hj hgj
      · rw [hv i j (hd0 i hi j hj) (hpos i hi)]
        rfl
      · have := hd0 _ (region_at_lt ha) _ (region_at_lt hb)
        rw [hv' a b this (by rw [(hreg a ha).1]; exact hpos _ (region_at_lt ha)), (hreg a ha).1]
        rfl
  have hzero : ∀ i < W.r, g i = true → ∀ j < W.r, g j = false → prodK Ws i j = 0 := by
    intro i hi hg j hj hgj
    obtain ⟨d, D, name, hD, hname, hcomp, hfar⟩ := hcl.out i hi hg j hj hgj
    have hd : d < Ds.length := (List.getElem?_eq_some_iff.1 hD).1
    obtain ⟨D1, name1, bw, hD1, hname1, hbw, hv, -⟩ := hdim d hd
    cases hD.symm.trans hD1
    cases hname.symm.trans hname1
    refine List.prod_eq_zero (List.mem_map.2 ⟨Ws[d]'(hl ▸ hd), List.getElem_mem _, ?_⟩)
    rw [hv i hi j hj hg]
    refine kval_far hcomp ?_
    rcases hbw with ⟨b, hb, rfl⟩ | hb
    · exact hfar b hb
    · exact hb i hi hg j hj hgj
  have hprod : ∀ a < (region W.r g).length, ∀ b < (region W.r g).length,
      prodK Ws' a b = prodK Ws (region.at W.r g a) (region.at W.r g b) := by
    intro a ha b hb
    refine prodK_congr (by omega) fun d hd => ?_
    obtain ⟨D1, name1, bw, hD1, hname1, hbw, hv, hv'⟩ := hdim d (by omega)
    rw [hv' a ha b hb, hv _ (region_at_lt ha) _ (region_at_lt hb) (region_mem.1 (region_at_mem ha)).2]
  have hnorm : ∀ a < (region W.r g).length, normK Ws' W'.c a = normK Ws W.c (region.at W.r g a) := by
    intro a ha
    have hm := region_mem.1 (region_at_mem ha)
    have : ∑ b ∈ Finset.range W'.c, prodK Ws' a b = ∑ j ∈ Finset.range W.c, prodK Ws (region.at W.r g a) j := by
      rw [hc', hsq, ← sum_region (g := g) fun j hj hg => hzero _ hm.1 hm.2 j hj hg]
      exact Finset.sum_congr rfl fun b hb => hprod a ha b (Finset.mem_range.1 hb)
    unfold normK
    rw [this]
  refine ⟨hr', hc', fun a ha b hb => ?_, fun i hi hg j hj hgj => ?_⟩
  · rw [hW' a (by omega) b (by omega), hW _ (region_at_lt ha) _ (by rw [hsq]; exact region_at_lt hb),
      hprod a ha b hb, hnorm a ha]
  · rw [hW i hi j (by omega), hzero i hi hg j hj hgj, zero_div]

/-- The weights of a closed region can be computed whenever those of all observations can. -/
theorem region_weights_exist (env : Env K) (Ds : List (Mat K)) (p : WParams K) (W : Mat (Num K))
    (g : Nat → Bool) (h : weightMatrixFromDistance env false Ds p = .ok W) (hsq : W.c = W.r)
    (hcl : RegionClosed p Ds W.r g) (h0 : 0 < (region W.r g).length) :
    ∃ W', weightMatrixFromDistance env false (Ds.map (restrictTo W.r g)) p = .ok W' := by
  have hsh := (weightMatrix_unfold h).2.2.choose_spec.2.2.1
  obtain ⟨hne, hr, r, c, hr0, hc0, hsh', hv⟩ := (C15_accepted_iff env Ds p).1 ⟨W, h⟩
  obtain ⟨D0, hD0⟩ := List.exists_mem_of_ne_nil _ hne
  have hc : c = W.r := by rw [← (hsh' D0 hD0).2, (hsh D0 hD0).2, hsq]
  refine (C15_accepted_iff env _ p).2 ⟨by simpa using hne, hr, (region W.r g).length, (region W.r g).length,
    h0, h0, fun D' hD' => ?_, fun d hd => ?_⟩
  · obtain ⟨D, -, rfl⟩ := List.mem_map.1 hD'
    exact ⟨rfl, rfl⟩
  · rw [List.length_map] at hd ⊢
    obtain ⟨hk, hb⟩ := hv d hd
    refine ⟨hk, hb.imp id fun ⟨hb, m, hm, hok⟩ => ⟨hb, m, hm, ?_⟩⟩
    obtain ⟨k, rfl, hnear⟩ := hcl.near d Ds[d] m (List.getElem?_eq_getElem hd) hm
    obtain ⟨h1, h2⟩ := hok
    refine ⟨h1, ?_⟩
    have hm := region_mem.1 (region_at_mem h0)
    by_cases hall : ∃ j < W.r, g j = false
    · obtain ⟨j, hj, hg⟩ := hall
      have := hnear _ hm.1 hm.2 j hj hg
      have := List.length_filter_le (fun m => decide (Ds[d].get (region.at W.r g 0) m <
        Ds[d].get (region.at W.r g 0) j)) (region W.r g)
      omega
    · have : region W.r g = List.range W.r := by
        refine List.filter_eq_self.2 fun k hk => ?_
        by_contra hg
        exact hall ⟨k, List.mem_range.1 hk, by simpa using hg⟩
      rw [this, List.length_range, ← hc]
      exact h2

theorem eagerDists_region (lib : Lib K) (n : Nat) (g : Nat → Bool) (c : List (Mat K))
    (ms : List (Option String)) :
    eagerDists lib (c.map (regionRows n g)) (c.map (regionRows n g)) ms =
      (eagerDists lib c c ms).map (restrictTo n g) := by
  have e : ∀ (src tgt : List (Mat K)) (ms : List (Option String)),
      dims (src.map (regionRows n g)) (tgt.map (regionRows n g)) ms =
        (dims src tgt ms).map fun d => (regionRows n g d.1, regionRows n g d.2.1, d.2.2) := by
    intro src
    induction src with
    | nil => intro tgt ms; rfl
    | cons s src ih =>
      intro tgt ms
      cases tgt with
      | nil => rfl
      | cons t tgt =>
        cases ms with
        | nil => rfl
        | cons a ms => simp [dims, ih]
  unfold eagerDists
  rw [e, List.map_map, List.map_map]
  rfl

/-- C144: a fit on coordinates. If a region of at least two observations is out of reach of all others
(`RegionClosed`: in some dimension with a kernel of bounded support every other observation is beyond the
fixed bandwidth, or the integer count of neighbours is met by members nearer than it), then fitting the
region alone, on its rows of `X`, `y` and the coordinates, succeeds whenever the fit on everything does,
and gives every member the same local estimator and the same prediction. -/
theorem C144_fit (L : Learner K F) (hclone : ∀ e e', L.fit e = L.fit e') (rng : Rng S) (lib : Lib K)
    (hl : lib.Nonneg) (env : Env K) (he : env.Ok) (fs : Disk K) (ms : Param (Option String)) (wp : WParams K)
    (p : WMParams K (List (Mat K))) (hp : p.weights = pointSource lib env fs ms wp) (hj : p.JobsFine)
    (hsr : p.sampleRate = none) (st st' : WMState K F (List (Mat K))) (s s' : S) (X : Mat K) (y : List K)
    (c : List (Mat K)) (hm : c.length ≤ (ms.expand c.length).length) (hcr : ∀ t ∈ c, t.r = X.r)
    (hb : ∀ b, some b ∈ wp.bandwidth.expand c.length → 0 ≤ b)
    (g : Nat → Bool) (h2 : 2 ≤ (region X.r g).length)
    (hcl : RegionClosed wp (eagerDists lib c c (ms.expand c.length)) X.r g)
    (hok : (wmFit L rng p st s X y (some c) none).result = .ok ()) :
    let o := wmFit L rng p st s X y (some c) none
    let o' := wmFit L rng p st' s' (regionRows X.r g X) ((region X.r g).map fun k => y.getD k 0)
      (some (c.map (regionRows X.r g))) none
    o'.result = .ok () ∧ ∀ a < (region X.r g).length,
      (∃ v, o'.state.localPredict.bind (·[a]?) = some v ∧
        o.state.localPredict.bind (·[region.at X.r g a]?) = some v) ∧
      ∃ e, o'.state.estimators.bind (·[a]?) = some e ∧
        o.state.estimators.bind (·[region.at X.r g a]?) = some e := by
  obtain ⟨W0, -, -, -, -, hck, hW0, -⟩ := wmFit_ok hok
  have hch := hW0
  simp only [chosenWeights, hp] at hW0
  cases hM : pointSource lib env fs ms wp c c with
  | error e => rw [hM] at hW0; cases hW0
  | ok M =>
  rw [hM] at hW0
  cases hW0
  have hX : 0 < X.r := by
    have := of_decide_eq_true hck
    omega
  have hpos : ∀ t ∈ c, 0 < t.r := fun t ht => by rw [hcr t ht]; exact hX
  have hMr := pointSource_r lib env fs ms wp c c hm hpos M hM hcr
  have hMc := pointSource_c lib env fs ms wp c c hm hpos M hM hcr
  obtain ⟨⟨hlen, hgood⟩, W, hW, hfin, rfl⟩ := (pointSource_iff lib env fs ms wp c c hm hpos M).1 hM
  have hWr : W.r = X.r := hMr
  have hWc : W.c = X.r := hMc
  have hdl := dims_length _ _ _ hlen hm
  have hin := eagerDists_nonneg hl c c _ wp hdl hb
  have hcl' : RegionClosed { wp with sorted := .scalar none } (eagerDists lib c c (ms.expand c.length)) W.r g := by
    rw [hWr]
    exact ⟨hcl.near, hcl.out⟩
  obtain ⟨W', hW'⟩ := region_weights_exist env _ _ W g hW (by omega) hcl' (by rw [hWr]; omega)
  obtain ⟨hr', hc', hsame, hzero⟩ := C144_weights env he _ _ W W' g hW hW' hin (by omega) hcl'
  rw [hWr] at hr' hc' hsame hzero hW'
  have hM' : pointSource lib env fs ms wp (c.map (regionRows X.r g)) (c.map (regionRows X.r g)) =
      .ok (W'.map Num.toK) := by
    rw [pointSource_iff lib env fs ms wp _ _ (by simpa using hm)]
    · simp only [List.length_map]
      refine ⟨⟨trivial, ?_⟩, W', ?_, ?_, rfl⟩
      · intro d hd
        obtain ⟨k, hk, rfl⟩ := List.getElem_of_mem hd
        have e1 : (dims (c.map (regionRows X.r g)) (c.map (regionRows X.r g)) (ms.expand c.length))[k]? = _ :=
          List.getElem?_eq_getElem hk
        have hk' : k < c.length := by
          rw [dims_length _ _ _ rfl (by simpa using hm), List.length_map] at hk
          exact hk
        rw [dims_get (by simpa using hk') rfl (by simpa using hm)] at e1
        have e2 := dims_get hk' hlen hm
        have := hgood _ (List.mem_of_getElem? e2)
        rw [← Option.some.inj e1]
        simpa [GoodPair, hk', regionRows, selRows] using this
      · rw [eagerDists_region]
        exact hW'
      · intro a ha b hb
        rw [hr'] at ha
        rw [hc'] at hb
        rw [hsame a ha b hb]
        exact hfin _ (by rw [hWr]; exact region_at_lt ha) _ (by rw [hWc]; exact region_at_lt hb)
    · intro t ht
      obtain ⟨t, -, rfl⟩ := List.mem_map.1 ht
      change 0 < (region X.r g).length
      omega
  refine C144_alone L hclone rng p hj hsr st st' s s' X y (some c) _ none none (W.map Num.toK) (W'.map Num.toK)
    hch ?_ g h2 hr' hc' (fun a ha b hb => ?_) (fun i hi k hk hgi hgk => ?_) hok
  · simp only [chosenWeights, hp, hM']
    rfl
  · change (W'.get a b).toK = (W.get _ _).toK
    rw [hsame a ha b hb]
  · change (W.get i k).toK = 0
    rw [hzero i hi hgi k hk hgk]
    rfl

/-! ### Concrete cases -/

/-- Two groups of stations far apart. -/
def rgPlaces : List (Mat ℚ) := [⟨5, 1, fun i _ => [0, 1, 2, 100, 101].getD i 0⟩]

/-- The first group. -/
def rgFirst (k : Nat) : Bool := decide (k < 3)

/-- The first group is closed with a fixed bandwidth … -/
example : RegionClosed (nbW 50 "bisquare") (eagerDists exLib rgPlaces rgPlaces [some "sqeuclidean"]) 5 rgFirst where
  near d D c hD hc := by
    rcases d with _ | d
    · cases hc
    · cases hD
  out := by
    have : ∀ i < 5, rgFirst i = true → ∀ j < 5, rgFirst j = false →
        50 < (cdistMat (metricFun exLib (some "sqeuclidean")) rgPlaces[0] rgPlaces[0]).get i j := by
      decide +kernel
    intro i hi hg j hj hgj
    refine ⟨0, _, "bisquare", rfl, rfl, by simp, fun b hb => ?_⟩
    cases hb
    exact this i hi hg j hj hgj

/-- … and with three neighbours, although the stations of the second group then reach into it. -/
example : RegionClosed { kernel := .scalar "boxcar", count := .scalar (some (.int 3)) }
    (eagerDists exLib rgPlaces rgPlaces [some "sqeuclidean"]) 5 rgFirst where
  near d D c hD hc := by
    rcases d with _ | d
    · cases hc
      cases hD
      exact ⟨3, rfl, by decide +kernel⟩
    · cases hD
  out i hi hg j hj hgj := ⟨0, _, "boxcar", rfl, rfl, by simp, fun b hb => by cases hb⟩

/-- The rest of the hypotheses of `C144_fit` with both settings: the fits go through. -/
example : (wmFit meanLearner countRng (nbP 50 "bisquare") {} 0 exX5 exY5 (some rgPlaces) none).result = .ok () ∧
    (wmFit meanLearner countRng (tsP 3 "boxcar") {} 0 exX5 exY5 (some rgPlaces) none).result = .ok () ∧
    2 ≤ (region 5 rgFirst).length := by
  refine ⟨?_, ?_, ?_⟩ <;> decide +kernel

/-- The second group is not closed with three neighbours: fitted alone, three neighbours are more than
there are observations, and the fit is refused. -/
example : (wmFit meanLearner countRng (tsP 3 "boxcar") {} 0
      (regionRows 5 (fun k => !rgFirst k) exX5) ((region 5 fun k => !rgFirst k).map fun k => exY5.getD k 0)
      (some (rgPlaces.map (regionRows 5 fun k => !rgFirst k))) none).result ≠ .ok () := by
  decide +kernel

end Geo
