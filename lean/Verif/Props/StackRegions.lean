import Verif.Props.StackReach
import Verif.Props.FitSucceeds
import Verif.Props.Regions
/-
C171: stacking and observations out of reach. Observations written after a group do not matter to it,
observations written before it do.
-/
set_option linter.unusedSectionVars false
namespace Geo
variable {K : Type} [Field K] [LinearOrder K] [IsStrictOrderedRing K] [FloorRing K]
  {F G C S : Type}

/-- `D'` are the weights among the first `m` of `n` observations, and no weight leads out of them. -/
structure FirstBlock (n m : Nat) (D D' : Mat K) : Prop where
  le : m ≤ n
  r : D.r = n
  c : D.c = n
  r' : D'.r = m
  c' : D'.c = m
  same : ∀ i < m, ∀ k < m, D'.get i k = D.get i k
  out : ∀ i < m, ∀ k < n, m ≤ k → D.get i k = 0

theorem filter_first {n m : Nat} (hm : m ≤ n) {q q' : Nat → Bool} (h : ∀ k < n, m ≤ k → q k = false)
    (he : ∀ k < m, q' k = q k) : (List.range n).filter q = (List.range m).filter q' := by
  apply sorted_ext (List.Pairwise.filter _ List.pairwise_lt_range) (List.Pairwise.filter _ List.pairwise_lt_range)
  intro k
  simp only [List.mem_filter, List.mem_range]
  constructor
  · rintro ⟨h1, h2⟩
    have hk : k < m := by
      by_contra hc
      rw [h k h1 (by omega)] at h2
      cases h2
    exact ⟨hk, by rw [he k hk]; exact h2⟩
  · rintro ⟨h1, h2⟩
    exact ⟨by omega, by rw [← he k h1]; exact h2⟩

/-- Shrinking keeps the block. -/
theorem FirstBlock.shrink {n m : Nat} {D D' W : Mat K} (h : FirstBlock n m D D') {q : Option K}
    (hW : shrinkMetaDense q D = .ok W) : ∃ W', shrinkMetaDense q D' = .ok W' ∧ FirstBlock n m W W' := by
  cases q with
  | none => cases hW; exact ⟨D', rfl, h⟩
  | some q =>
    simp only [shrinkMetaDense, shrinkDense] at hW ⊢
    by_cases hb : badRate q D.r = true
    · rw [if_pos hb] at hW; cases hW
    rw [if_neg hb] at hW
    cases hW
    have hb' : ¬ badRate q D'.r = true := by
      have h1 := h.le
      have h2 := h.r
      have h3 := h.r'
      simp only [badRate, Bool.and_eq_true, decide_eq_true_eq, Bool.or_eq_true] at hb ⊢
      rintro ⟨a, b⟩
      exact hb ⟨by omega, b⟩
    rw [if_neg hb']
    refine ⟨_, rfl, h.le, h.r, h.c, h.r', h.c', fun i hi k hk => ?_, fun i hi k hk hmk => ?_⟩
    · have hk1 : k < D.c := by have := h.le; have := h.c; omega
      have hk2 : k < D'.c := by rw [h.c']; exact hk
      have e : (nonzeroIdx D.c (D.get i)) = nonzeroIdx D'.c (D'.get i) := by
        unfold nonzeroIdx
        rw [h.c, h.c']
        refine filter_first h.le (fun k hk hmk => by simp [h.out i hi k hk hmk]) fun k hk => ?_
        rw [h.same i hi k hk]
      have e2 : (nonzeroIdx D'.c (D'.get i)).map (D'.get i) = (nonzeroIdx D'.c (D'.get i)).map (D.get i) := by
        refine List.map_congr_left fun k hk => ?_
        have := (List.mem_filter.1 hk).1
        rw [h.c'] at this
        exact h.same i hi k (List.mem_range.1 this)
      have e3 : nonzeroVals D'.c (D'.get i) = nonzeroVals D.c (D.get i) := by
        unfold nonzeroVals
        rw [e, e2]
      simp only [shrinkRow_get q D.c (D.get i) hk1, shrinkRow_get q D'.c (D'.get i) hk2, h.same i hi k hk, e3]
    · have hk1 : k < D.c := by rw [h.c]; exact hk
      simp only [shrinkRow_get q D.c (D.get i) hk1, h.out i hi k hk hmk]
      simp

/-- The draws for the first rows do not depend on the rows after them. -/
theorem sampleLoop_first (rng : Rng S) (rate : K) : ∀ (a b : List (List Nat)) (s s' : S) (ch : List (List Nat)),
    sampleLoop rng rate s (a ++ b) = (.ok ch, s') →
    ∃ s1, sampleLoop rng rate s a = (.ok (ch.take a.length), s1) := by
  intro a
  induction a with
  | nil => intro b s s' ch _; exact ⟨s, by simp [sampleLoop]⟩
  | cons x a ih =>
    intro b s s' ch h
    simp only [List.cons_append, sampleLoop] at h ⊢
    rcases hc : rng.choice s x (sampleCount rate x.length) with ⟨e | c, s2⟩
    · simp [hc] at h
    · simp only [hc] at h ⊢
      rcases hl : sampleLoop rng rate s2 (a ++ b) with ⟨e | r, s3⟩
      · simp [hl] at h
      · simp only [hl, Prod.mk.injEq, Except.ok.injEq] at h
        obtain ⟨s4, h4⟩ := ih b s2 s3 r hl
        rw [← h.1]
        exact ⟨s4, by simp [h4]⟩

/-- The selection for the first rows is the one made without the rest. -/
theorem FirstBlock.sample {n m : Nat} {D D' : Mat K} (h : FirstBlock n m D D') (rng : Rng S) (s s' : S)
    {rate : K} {shrink : Option K} {Sm : Mat Bool}
    (hS : (sampleNeighbourDense rng s D rate shrink).result = .ok Sm) :
    ∃ Sm', (sampleNeighbourDense rng s' D' rate shrink).result = .ok Sm' ∧
      ∀ i < m, ∀ j, Sm'.get i j = Sm.get i j := by
  have hu : ∃ V, shrinkMetaDense shrink D = .ok V := by
    cases shrink with
    | none => exact ⟨D, rfl⟩
    | some q =>
      cases hs : shrinkDense D q with
      | ok V => exact ⟨V, hs⟩
      | error e =>
        simp [sampleNeighbourDense, sampleMaskDense, neighbourShrinkDense, hs, maskOfDense] at hS
  obtain ⟨V, hV⟩ := hu
  obtain ⟨V', hV', hb⟩ := h.shrink hV
  have u : IsUsed D shrink V := by
    cases shrink with
    | none => cases hV; rfl
    | some q => exact hV
  have u' : IsUsed D' shrink V' := by
    cases shrink with
    | none => cases hV'; rfl
    | some q => exact hV'
  unfold sampleNeighbourDense at hS ⊢
  rw [sampleMask_used u] at hS
  rw [sampleMask_used u']
  dsimp only at hS ⊢
  have er : (gt0 V).r = n := hb.r
  have er' : (gt0 V').r = m := hb.r'
  have ec : (gt0 V).c = n := hb.c
  have ec' : (gt0 V').c = m := hb.c'
  have esplit : (List.range (gt0 V).r).map (candidatesDense (gt0 V)) =
      (List.range (gt0 V').r).map (candidatesDense (gt0 V')) ++
        ((List.range (n - m)).map (m + ·)).map (candidatesDense (gt0 V)) := by
    rw [er, er']
    have : List.range n = List.range m ++ (List.range (n - m)).map (m + ·) := by
      rw [← List.range_add, Nat.add_sub_cancel' hb.le]
    rw [this, List.map_append]
    congr 1
    refine List.map_congr_left fun i hi => ?_
    have hi := List.mem_range.1 hi
    unfold candidatesDense
    rw [ec, ec']
    refine filter_first hb.le (fun k hk hmk => ?_) fun k hk => ?_
    · simp [gt0, Mat.map, hb.out i hi k hk hmk]
    · simp [gt0, Mat.map, hb.same i hi k hk]
  rcases hl : sampleLoop rng rate rng.seed0 ((List.range (gt0 V).r).map (candidatesDense (gt0 V))) with ⟨e | ch, s1⟩
  · simp [hl] at hS
  simp only [hl, Except.ok.injEq] at hS
  rw [esplit] at hl
  obtain ⟨s2, h2⟩ := sampleLoop_first rng rate _ _ _ _ _ hl
  rw [h2]
  refine ⟨_, rfl, fun i hi j => ?_⟩
  rw [← hS]
  simp [List.getD_eq_getElem?_getD, er', hi]

/-- The stacked models of the first observations, with and without the rest. -/
theorem StackSpec.first {L : Learner K F} {M : Learner K G} {lo : Bool} {X X' : Mat K}
    {y y' : Nat → K} {W W' W1 W1' : Mat K} {sel sel' : Nat → List Nat} {bases bases' : List F}
    {ps ps' : List K} {es es' : List (StackedEst F G)} (h : StackSpec L M lo X y W W1 sel bases ps es)
    (h' : StackSpec L M lo X' y' W' W1' sel' bases' ps' es') (hW : FirstBlock X.r X'.r W W')
    (hW1 : FirstBlock X.r X'.r W1 W1') (hsel : ∀ i < X'.r, sel' i = sel i)
    (hx : ∀ k < X'.r, X'.row k = X.row k) (hy : ∀ k < X'.r, y' k = y k) :
    ∀ i < X'.r, bases'[i]? = bases[i]? ∧ es'[i]? = es[i]? ∧ (0 < W1.get i i → ps'[i]? = ps[i]?) := by
  have hle := hW.le
  have hb : ∀ j < X'.r, bases'[j]? = bases[j]? := by
    intro j hj
    obtain ⟨b, hb1, hb2⟩ := h.base j (by omega)
    obtain ⟨b', hb1', hb2'⟩ := h'.base j hj
    have hT : (List.range X.r).filter (fun k => decide (W.get j k ≠ 0 ∧ j ∉ sel k ∧ ¬ (lo = true ∧ k = j))) =
        (List.range X'.r).filter (fun k => decide (W'.get j k ≠ 0 ∧ j ∉ sel' k ∧ ¬ (lo = true ∧ k = j))) := by
      refine filter_first hle (fun k hk hmk => by simp [hW.out j hj k hk hmk]) fun k hk => ?_
      rw [hW.same j hj k hk, hsel k hk]
    rw [hT] at hb2
    dsimp only at hb2 hb2'
    have hmem : ∀ k ∈ (List.range X'.r).filter (fun k => decide (W'.get j k ≠ 0 ∧ j ∉ sel' k ∧ ¬ (lo = true ∧ k = j))),
        k < X'.r := fun k hk => List.mem_range.1 (List.mem_filter.1 hk).1
    rw [← List.map_congr_left fun k hk => hx k (hmem k hk), ← List.map_congr_left fun k hk => hy k (hmem k hk),
      ← List.map_congr_left fun k hk => hW.same j hj k (hmem k hk), hb2'] at hb2
    injection hb2 with e
    rw [hb1, hb1', e]
  intro i hi
  refine ⟨hb i hi, ?_⟩
  have hlt : ∀ j ∈ sel i, j < X'.r := fun j hj => h'.lt i hi j (by rw [hsel i hi]; exact hj)
  have hpred : ∀ k < X'.r, (sel i).map (fun j => basePred L X' bases' j k) =
      (sel i).map fun j => basePred L X bases j k := by
    intro k hk
    refine List.map_congr_left fun j hj => ?_
    simp only [basePred, hb j (hlt j hj), hx k hk]
  obtain ⟨g, ⟨_, hg⟩, ⟨fs, hf1, hf2⟩, hp⟩ := h.fitted i (by omega)
  obtain ⟨g', ⟨_, hg'⟩, ⟨fs', hf1', hf2'⟩, hp'⟩ := h'.fitted i hi
  have hN : (List.range X.r).filter (fun k => decide (0 < W1.get i k ∧ k ≠ i)) =
      (List.range X'.r).filter (fun k => decide (0 < W1'.get i k ∧ k ≠ i)) := by
    refine filter_first hle (fun k hk hmk => by simp [hW1.out i hi k hk hmk]) fun k hk => ?_
    rw [hW1.same i hi k hk]
  have hmem : ∀ k ∈ (List.range X'.r).filter (fun k => decide (0 < W1'.get i k ∧ k ≠ i)),
      k < X'.r := fun k hk => List.mem_range.1 (List.mem_filter.1 hk).1
  rw [hN, ← List.map_congr_left fun k hk => hpred k (hmem k hk), ← List.map_congr_left fun k hk => hy k (hmem k hk),
    ← List.map_congr_left fun k hk => hW1.same i hi k (hmem k hk)] at hg
  rw [hsel i hi, hg] at hg'
  injection hg' with e
  subst e
  rw [hsel i hi] at hf2' hp'
  have hfs : fs' = fs := by
    have h1 : (sel i).map (fun j => bases'[j]?) = (sel i).map fun j => bases[j]? :=
      List.map_congr_left fun j hj => hb j (hlt j hj)
    exact List.map_injective_iff.2 (Option.some_injective _) (hf2'.trans (h1.trans hf2.symm))
  refine ⟨by rw [hf1, hf1', hfs], fun hii => ?_⟩
  rw [hp hii, hp' (by rw [hW1.same i hi i hi]; exact hii), hpred i hi]

/-- C171: observations written after a group, and out of its reach, do not matter to a stacking fit. Let no
weight lead from the first observations to the others (`FirstBlock`; `D` are the weights of all, `D'` those
of the first ones). If the fit on all observations succeeds, so does the fit on the first ones alone, and
base estimators, stacked estimators and (with a positive own weight after shrinking) stacked predictions are
those of the fit on all. Earlier states of object and generator do not matter. -/
theorem C171_first_alone (L : Learner K F) (M Mn : Learner K G) (hM : TakesTables M) (rng : Rng S)
    (hv : rng.Valid) (p : SParams K C) (hest : p.estimatorRate = none) (hsr : p.sampleRate = none)
    (hnb : p.useNumba = false) (n : ℤ) (hn : p.storedPatches = some n) (hn0 : 0 < n)
    (hrate : ∀ r ∈ p.leaveOutRate, 0 ≤ r)
    (st st' : SState K F G C) (s s' : S) (X X' : Mat K) (y y' : List K) (coords coords' : Option C)
    (W W' : Option (WMat K)) (D D' : Mat K)
    (hD : chosenWeights p.toWMParams coords W = .ok (.dense D))
    (hD' : chosenWeights p.toWMParams coords' W' = .ok (.dense D'))
    (hB : FirstBlock X.r X'.r D D') (h0 : 0 < X'.r) (hc : X'.c = X.c)
    (hx : ∀ k < X'.r, X'.row k = X.row k) (hyl : y'.length = X'.r)
    (hy : ∀ k < X'.r, y'.getD k 0 = y.getD k 0)
    (hok : (stackFit L M Mn rng p st s X y coords W).result = .ok ()) :
    let o := stackFit L M Mn rng p st s X y coords W
    let o' := stackFit L M Mn rng p st' s' X' y' coords' W'
    o'.result = .ok () ∧
    ∃ (bs bs' : List F) (es es' : List (StackedEst F G)) (ps ps' : List K) (W1 : Mat K),
      o.state.base = some bs ∧ o'.state.base = some bs' ∧
      o.state.wm.estimators = some (es.map some) ∧ o'.state.wm.estimators = some (es'.map some) ∧
      o.state.stackPredictions = some ps ∧ o'.state.stackPredictions = some ps' ∧
      bs'.length = X'.r ∧ es'.length = X'.r ∧ ps'.length = X'.r ∧ shrinkMetaDense p.metaShrink D = .ok W1 ∧
      ∀ i < X'.r, bs'[i]? = bs[i]? ∧ es'[i]? = es[i]? ∧ (0 < W1.get i i → ps'[i]? = ps[i]?) := by
  intro o o'
  have hF : ∀ (c : Option C) (V : Option (WMat K)) (E : Mat K),
      chosenWeights p.toWMParams c V = .ok (.dense E) → SparseFine rng p V := by
    intro c V E hE A hA
    subst hA
    cases c <;> simp [chosenWeights] at hE
  obtain ⟨V, rate, Sm, W1, bs, ps, es, e1, e2, e3, e4, e5, e6, e7, e8⟩ :=
    C50_genuine_predictions L M Mn rng p st s X y coords W (.inl hest) (hF _ _ _ hD) hok
  rw [hD] at e1
  cases e1
  change (sampleNeighbourDense rng s D rate p.leaveOutShrink).result = .ok Sm at e3
  change shrinkMetaDense p.metaShrink D = .ok W1 at e4
  have hr0 := hrate rate (by rw [e2]; rfl)
  obtain ⟨Sm', hSm', hsm⟩ := hB.sample rng s s' e3
  obtain ⟨W1', hW1', hB1⟩ := hB.shrink e4
  have hsel : ∀ i < X'.r, (List.range X'.r).filter (fun j => Sm'.get i j) =
      (List.range X.r).filter fun j => Sm.get i j := by
    intro i hi
    refine (filter_first hB.le (fun k hk hmk => ?_) fun k hk => hsm i hi k).symm
    by_contra hne
    rcases selected_neighbour hv hr0 e3 (i := i) (j := k) (by have := hB.le; have := hB.r; omega)
      (by simpa using hne) with h | h
    · omega
    · exact h (hB.out i hi k hk hmk)
  obtain ⟨⟨a1, a2, a3, a4, a5⟩, hbase, hpos⟩ := (C138_dense_fit L M Mn hM rng p st s X y coords W hest hsr hnb n hn hn0
    D hD rate e2 Sm e3 W1 e4).1 hok
  have hok' : o'.result = .ok () := by
    refine (C138_dense_fit L M Mn hM rng p st' s' X' y' coords' W' hest hsr hnb n hn hn0
      D' hD' rate e2 Sm' hSm' W1' hW1').2 ⟨⟨hyl.symm, h0, by omega, hB.r', hB.c'⟩, fun j hj => ?_, fun i hi => ?_⟩
    · obtain ⟨f, hf⟩ := hbase j (by have := hB.le; omega)
      refine ⟨f, ?_⟩
      have hT : (List.range X.r).filter (fun k =>
            decide (D.get j k ≠ 0 ∧ Sm.get k j = false ∧ ¬ (p.leaveLocalOut = true ∧ k = j))) =
          (List.range X'.r).filter (fun k =>
            decide (D'.get j k ≠ 0 ∧ Sm'.get k j = false ∧ ¬ (p.leaveLocalOut = true ∧ k = j))) := by
        refine filter_first hB.le (fun k hk hmk => by simp [hB.out j hj k hk hmk]) fun k hk => ?_
        rw [hB.same j hj k hk, hsm k hk j]
      dsimp only at hf ⊢
      rw [hT] at hf
      have hmem : ∀ k ∈ (List.range X'.r).filter (fun k =>
            decide (D'.get j k ≠ 0 ∧ Sm'.get k j = false ∧ ¬ (p.leaveLocalOut = true ∧ k = j))),
          k < X'.r := fun k hk => List.mem_range.1 (List.mem_filter.1 hk).1
      rw [List.map_congr_left fun k hk => hx k (hmem k hk), List.map_congr_left fun k hk => hy k (hmem k hk),
        List.map_congr_left fun k hk => hB.same j hj k (hmem k hk)]
      exact hf
    · obtain ⟨k, hk, hki, hkp⟩ := hpos i (by have := hB.le; omega)
      have hkm : k < X'.r := by
        by_contra hc
        rw [hB1.out i hi k hk (by omega)] at hkp
        exact lt_irrefl _ hkp
      exact ⟨k, hkm, hki, by rw [hB1.same i hi k hkm]; exact hkp⟩
  refine ⟨hok', ?_⟩
  obtain ⟨V, rate', Sm'', W1'', bs', ps', es', f1, f2, f3, f4, f5, f6, f7, f8⟩ :=
    C50_genuine_predictions L M Mn rng p st' s' X' y' coords' W' (.inl hest) (hF _ _ _ hD') hok'
  rw [hD'] at f1
  cases f1
  rw [e2] at f2
  cases f2
  change (sampleNeighbourDense rng s' D' rate p.leaveOutShrink).result = .ok Sm'' at f3
  rw [hSm'] at f3
  cases f3
  change shrinkMetaDense p.metaShrink D' = .ok W1'' at f4
  rw [hW1'] at f4
  cases f4
  exact ⟨bs, bs', es, es', ps, ps', W1, e5, f5, e7, f7, e6, f6, f8.lenBases, f8.lenEs, f8.lenPs, e4,
    e8.first f8 hB hB1 hsel hx hy⟩

/-- The weights of a closed region of at least two places, computed from its coordinates alone: they exist
and are the corresponding weights, and no weight leads out. -/
theorem region_source (lib : Lib K) (hl : lib.Nonneg) (env : Env K) (he : env.Ok) (fs : Disk K)
    (ms : Param (Option String)) (wp : WParams K) (c : List (Mat K)) (n : Nat) (hX : 0 < n)
    (hm : c.length ≤ (ms.expand c.length).length) (hcr : ∀ t ∈ c, t.r = n)
    (hb : ∀ b, some b ∈ wp.bandwidth.expand c.length → 0 ≤ b) (g : Nat → Bool) (h2 : 2 ≤ (region n g).length)
    (hcl : RegionClosed wp (eagerDists lib c c (ms.expand c.length)) n g) (M : Mat K)
    (hM : pointSource lib env fs ms wp c c = .ok M) :
    M.r = n ∧ M.c = n ∧ ∃ M' : Mat K,
      pointSource lib env fs ms wp (c.map (regionRows n g)) (c.map (regionRows n g)) = .ok M' ∧
      M'.r = (region n g).length ∧ M'.c = (region n g).length ∧
      (∀ a < (region n g).length, ∀ b < (region n g).length,
        M'.get a b = M.get (region.at n g a) (region.at n g b)) ∧
      ∀ i < n, ∀ k < n, g i = true → g k = false → M.get i k = 0 := by
  have hpos : ∀ t ∈ c, 0 < t.r := fun t ht => by rw [hcr t ht]; exact hX
  have hMr := pointSource_r lib env fs ms wp c c hm hpos M hM hcr
  have hMc := pointSource_c lib env fs ms wp c c hm hpos M hM hcr
  obtain ⟨⟨hlen, hgood⟩, W, hW, hfin, rfl⟩ := (pointSource_iff lib env fs ms wp c c hm hpos M).1 hM
  have hWr : W.r = n := hMr
  have hWc : W.c = n := hMc
  have hdl := dims_length _ _ _ hlen hm
  have hin := eagerDists_nonneg hl c c _ wp hdl hb
  have hcl' : RegionClosed { wp with sorted := .scalar none } (eagerDists lib c c (ms.expand c.length)) W.r g := by
    rw [hWr]
    exact ⟨hcl.near, hcl.out⟩
  obtain ⟨W', hW'⟩ := region_weights_exist env _ _ W g hW (by omega) hcl' (by rw [hWr]; omega)
  obtain ⟨hr', hc', hsame, hzero⟩ := C144_weights env he _ _ W W' g hW hW' hin (by omega) hcl'
  rw [hWr] at hr' hc' hsame hzero hW'
  have hM' : pointSource lib env fs ms wp (c.map (regionRows n g)) (c.map (regionRows n g)) =
      .ok (W'.map Num.toK) := by
    rw [pointSource_iff lib env fs ms wp _ _ (by simpa using hm)]
    · simp only [List.length_map]
      refine ⟨⟨trivial, ?_⟩, W', ?_, ?_, rfl⟩
      · intro d hd
        obtain ⟨k, hk, rfl⟩ := List.getElem_of_mem hd
        have e1 : (dims (c.map (regionRows n g)) (c.map (regionRows n g)) (ms.expand c.length))[k]? = _ :=
          List.getElem?_eq_getElem hk
        have hk' : k < c.length := by
          rw [dims_length _ _ _ rfl (by simpa using hm), List.length_map] at hk
          exact hk
        rw [dims_get (by simpa using hk') rfl (by simpa using hm)] at e1
        have e2 := dims_get hk' hlen hm
        have := hgood _ (List.mem_of_getElem? e2)
        rw [← Option.some.inj e1]
        simpa [GoodPair, hk', regionRows, selRows] using this
      · rw [eagerDists_region]
        exact hW'
      · intro a ha b hb
        rw [hr'] at ha
        rw [hc'] at hb
        rw [hsame a ha b hb]
        exact hfin _ (by rw [hWr]; exact region_at_lt ha) _ (by rw [hWc]; exact region_at_lt hb)
    · intro t ht
      obtain ⟨t, -, rfl⟩ := List.mem_map.1 ht
      change 0 < (region n g).length
      omega
  refine ⟨hMr, hMc, W'.map Num.toK, hM', hr', hc', fun a ha b hb => ?_, fun i hi k hk hgi hgk => ?_⟩
  · change (W'.get a b).toK = (W.get _ _).toK
    rw [hsame a ha b hb]
  · change (W.get i k).toK = 0
    rw [hzero i hi hgi k hk hgk]
    rfl

theorem region_first {n m : Nat} (h : m ≤ n) : region n (fun k => decide (k < m)) = List.range m := by
  unfold region
  rw [filter_first h (q' := fun _ => true) (fun k _ hk => by simp; omega) (fun k hk => by simp [hk])]
  simp

theorem region_at_first {n m : Nat} (h : m ≤ n) {a : Nat} (ha : a < m) :
    region.at n (fun k => decide (k < m)) a = a := by
  unfold region.at
  rw [region_first h]
  simp [ha]

/-- C171: a stacking fit on coordinates. If the first observations are out of reach of all others
(`RegionClosed`, as in C144), the fit on the first observations alone succeeds whenever the fit on everything
does, and gives them the same base estimators, the same stacked estimators and the same stacked
predictions. -/
theorem C171_fit (L : Learner K F) (M Mn : Learner K G) (hM : TakesTables M) (rng : Rng S)
    (hv : rng.Valid) (lib : Lib K) (hl : lib.Nonneg) (env : Env K) (he : env.Ok) (fs : Disk K)
    (ms : Param (Option String)) (wp : WParams K)
    (p : SParams K (List (Mat K))) (hp : p.weights = pointSource lib env fs ms wp) (hest : p.estimatorRate = none)
    (hsr : p.sampleRate = none) (hnb : p.useNumba = false) (n : ℤ) (hn : p.storedPatches = some n) (hn0 : 0 < n)
    (hrate : ∀ r ∈ p.leaveOutRate, 0 ≤ r)
    (st st' : SState K F G (List (Mat K))) (s s' : S) (X : Mat K) (y : List K)
    (c : List (Mat K)) (hm : c.length ≤ (ms.expand c.length).length) (hcr : ∀ t ∈ c, t.r = X.r)
    (hb : ∀ b, some b ∈ wp.bandwidth.expand c.length → 0 ≤ b) (m : Nat) (h2 : 2 ≤ m) (hmn : m ≤ X.r)
    (hcl : RegionClosed wp (eagerDists lib c c (ms.expand c.length)) X.r fun k => decide (k < m))
    (hok : (stackFit L M Mn rng p st s X y (some c) none).result = .ok ()) :
    let first := regionRows X.r fun k => decide (k < m)
    let o := stackFit L M Mn rng p st s X y (some c) none
    let o' := stackFit L M Mn rng p st' s' (first X) (y.take m) (some (c.map first)) none
    o'.result = .ok () ∧
    ∃ (D W1 : Mat K) (bs bs' : List F) (es es' : List (StackedEst F G)) (ps ps' : List K),
      pointSource lib env fs ms wp c c = .ok D ∧ shrinkMetaDense p.metaShrink D = .ok W1 ∧
      o.state.base = some bs ∧ o'.state.base = some bs' ∧
      o.state.wm.estimators = some (es.map some) ∧ o'.state.wm.estimators = some (es'.map some) ∧
      o.state.stackPredictions = some ps ∧ o'.state.stackPredictions = some ps' ∧
      bs'.length = m ∧ es'.length = m ∧ ps'.length = m ∧
      ∀ i < m, bs'[i]? = bs[i]? ∧ es'[i]? = es[i]? ∧ (0 < W1.get i i → ps'[i]? = ps[i]?) := by
  intro first o o'
  obtain ⟨W0, rate, hck, hW0, -, -⟩ := stackFit_ok hok
  have hch := hW0
  simp only [chosenWeights, hp] at hW0
  cases hMM : pointSource lib env fs ms wp c c with
  | error e => rw [hMM] at hW0; cases hW0
  | ok D =>
  rw [hMM] at hW0
  cases hW0
  have hlen : (region X.r fun k => decide (k < m)).length = m := by rw [region_first hmn]; simp
  obtain ⟨hDr, hDc, D', hD', hr', hc', hsame, hzero⟩ := region_source lib hl env he fs ms wp c X.r (by omega) hm hcr hb
    (fun k => decide (k < m)) (by rw [hlen]; exact h2) hcl D hMM
  rw [hlen] at hr' hc' hsame
  have hX' : (first X).r = m := hlen
  have hy : X.r = y.length := (of_decide_eq_true hck).1
  have hB : FirstBlock X.r (first X).r D D' := by
    rw [hX']
    refine ⟨hmn, hDr, hDc, hr', hc', fun i hi k hk => ?_, fun i hi k hk hmk => ?_⟩
    · rw [hsame i hi k hk, region_at_first hmn hi, region_at_first hmn hk]
    · exact hzero i (by omega) k hk (by simpa using hi) (by simpa using hmk)
  obtain ⟨h1, bs, bs', es, es', ps, ps', W1, q1, q2, q3, q4, q5, q6, q7, q8, q9, q10, q11⟩ :=
    C171_first_alone L M Mn hM rng hv p hest hsr hnb n hn hn0 hrate st st' s s' X (first X) y (y.take m) (some c)
      (some (c.map first)) none none D D' hch
      (by simp only [chosenWeights, hp, first, hD']; rfl) hB (by rw [hX']; omega) rfl
      (fun k hk => by
        rw [hX'] at hk
        show (regionRows X.r _ X).row k = X.row k
        unfold regionRows selRows Mat.row
        dsimp only
        rw [region_at_first hmn hk])
      (by rw [hX', List.length_take]; omega)
      (fun k hk => by
        rw [hX'] at hk
        simp [List.getD_eq_getElem?_getD, hk]) hok
  rw [hX'] at q7 q8 q9 q11
  exact ⟨h1, D, W1, bs, bs', es, es', ps, ps', rfl, q10, q1, q2, q3, q4, q5, q6, q7, q8, q9, q11⟩

/-! ### Concrete cases -/

/-- Two groups of four observations without weights between them. -/
def sgW : Mat ℚ := ⟨8, 8, fun i j => if (i < 4 ↔ j < 4) then 1 else 0⟩
def sgX : Mat ℚ := ⟨8, 1, fun i _ => i⟩
def sgY : List ℚ := [1, 5, 2, 7, 3, 8, 4, 6]
def sgFit (X : Mat ℚ) (y : List ℚ) (W : Mat ℚ) : SOut Unit ℚ ℚ ℚ Unit Nat :=
  stackFit meanLearner sumLearner sumLearner rotRng seP {} 0 X y none (some (.dense W))

/-- The hypotheses of `C171_first_alone` are met: the first group, with and without the second. -/
example : TakesTables sumLearner ∧ rotRng.Valid ∧ seP.storedPatches = some 2 ∧
    FirstBlock 8 4 sgW ⟨4, 4, sgW.get⟩ ∧ (sgFit sgX sgY sgW).result = .ok () ∧
    (sgFit ⟨4, 1, sgX.get⟩ (sgY.take 4) ⟨4, 4, sgW.get⟩).state.stackPredictions =
      (sgFit sgX sgY sgW).state.stackPredictions.map (List.take 4) := by
  refine ⟨fun rows ys ws n _ _ _ _ _ _ => ⟨_, rfl⟩, rotRng_valid, rfl,
    ⟨by decide, rfl, rfl, rfl, rfl, fun _ _ _ _ => rfl, by decide +kernel⟩, by decide +kernel, by decide +kernel⟩

/-- C171: observations written before the group do matter, although they are out of reach: with the two
groups exchanged, every stacked prediction of the first group is another one. So the order of the
observations matters to stacking, which it does not to a weight model (C92). -/
theorem C171_before_matters :
    (sgFit (selRows (fun i => (i + 4) % 8) 8 sgX) (sgY.drop 4 ++ sgY.take 4) sgW).result = .ok () ∧
    (sgFit sgX sgY sgW).result = .ok () ∧
    ∃ ps qs : List ℚ, (sgFit sgX sgY sgW).state.stackPredictions = some ps ∧
      (sgFit (selRows (fun i => (i + 4) % 8) 8 sgX) (sgY.drop 4 ++ sgY.take 4) sgW).state.stackPredictions = some qs ∧
      (∀ i < 4, qs[i + 4]? ≠ ps[i]?) ∧ ∀ i < 4, ∀ k < 4,
        sgW.get ((i + 4) % 8) ((k + 4) % 8) = sgW.get i k := by
  refine ⟨by decide +kernel, by decide +kernel, [22, 41 / 2, 24, 41 / 2, 40, 30, 43, 36],
    [37, 65 / 2, 39, 81 / 2, 26, 15, 29, 17], by decide +kernel, by decide +kernel,
    by decide +kernel, by decide +kernel⟩

/-- A stacking model on coordinates. -/
def sgP : SParams ℚ (List (Mat ℚ)) :=
  { nPatches := some 2, cpu := 2, leaveOutRate := some (1 / 4), leaveLocalOut := true
    weights := pointSource exLib ratEnv (fun _ => none) (.scalar (some "sqeuclidean")) (nbW 50 "bisquare") }
def sgPlaces : List (Mat ℚ) := [⟨8, 1, fun i _ => if i < 4 then i else i + 100⟩]

/-- The hypotheses of `C171_fit` are met. -/
example : RegionClosed (nbW 50 "bisquare") (eagerDists exLib sgPlaces sgPlaces [some "sqeuclidean"]) 8
    (fun k => decide (k < 4)) where
  near d D c hD hc := by
    rcases d with _ | d
    · cases hc
    · cases hD
  out := by
    have : ∀ i < 8, decide (i < 4) = true → ∀ j < 8, decide (j < 4) = false →
        50 < (cdistMat (metricFun exLib (some "sqeuclidean")) sgPlaces[0] sgPlaces[0]).get i j := by
      decide +kernel
    intro i hi hg j hj hgj
    refine ⟨0, _, "bisquare", rfl, rfl, by simp, fun b hb => ?_⟩
    cases hb
    exact this i hi hg j hj hgj

example : (stackFit meanLearner sumLearner sumLearner rotRng sgP ({} : SState ℚ ℚ ℚ _) 0 sgX sgY
    (some sgPlaces) none).result = .ok () := by
  decide +kernel

end Geo
