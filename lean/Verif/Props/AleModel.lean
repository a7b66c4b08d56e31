import Verif.Props.AleCurve
/-
The ALE methods of the model: `global_ALE` (C60, C61, C62) and `local_ALE` (C77); examples.
-/
set_option linter.unusedSectionVars false
namespace Geo
variable {K : Type} [Field K] [LinearOrder K] [IsStrictOrderedRing K] [FloorRing K] {F C S : Type}

/-! ### `global_ALE` -/

/-- What a successful `global_ALE` returns: estimator `i` is asked about observation `i` only. -/
theorem globalAle_ok {L : Learner K F} {st : WMState K F C} {feature : Nat} {q ale : List K}
    (h : globalAle L st feature = .ok (q, ale)) :
    ∃ X es, st.X = some X ∧ st.estimators = some es ∧ es.length = X.r ∧ feature < X.c ∧
      (∃ n, adaptiveGrid (X.col feature) 1 = .ok (q, n)) ∧ BinsOk X feature q ∧
      ale.length = q.length ∧ ∃ fs : List F, es = fs.map some ∧
      (∀ k, k + 1 < q.length → ale.getD (k + 1) 0 - ale.getD k 0 =
        binSum X feature q k (fun i => match fs[i]? with
          | some f => L.predict f ((X.row i).set feature (q.getD (k + 1) 0)) -
              L.predict f ((X.row i).set feature (q.getD k 0))
          | none => 0) / ((binMembers X feature q k).length : K)) ∧
      ((List.range (q.length - 1)).map fun k => ((binMembers X feature q k).length : K) *
        ((ale.getD k 0 + ale.getD (k + 1) 0) / 2)).sum = 0 := by
  unfold globalAle at h
  cases hX : st.X with
  | none => rw [hX] at h; cases h
  | some X =>
  cases hes : st.estimators with
  | none => rw [hX, hes] at h; cases h
  | some es =>
  rw [hX, hes] at h
  simp only at h
  by_cases hf : X.c ≤ feature
  · rw [if_pos hf] at h; cases h
  rw [if_neg hf] at h
  cases hg : adaptiveGrid (X.col feature) 1 with
  | error e => rw [hg] at h; cases h
  | ok qn =>
  obtain ⟨q', n⟩ := qn
  rw [hg] at h
  simp only at h
  cases hlow : mapE (fun i => pyGet q' (i - 1)) (aleIdx q' (X.col feature)) with
  | error e => rw [hlow] at h; cases h
  | ok lows =>
  rw [hlow] at h
  simp only at h
  cases hhigh : mapE (fun i => pyGet q' i) (aleIdx q' (X.col feature)) with
  | error e => rw [hhigh] at h; cases h
  | ok highs =>
  rw [hhigh] at h
  simp only at h
  cases hps : mapE (fun i => globalPair L X feature lows highs i (es.getD i none))
      (List.range es.length) with
  | error e => rw [hps] at h; cases h
  | ok ps =>
  rw [hps] at h
  simp only at h
  have hidx : (aleIdx q' (X.col feature)).length = X.r := by simp [aleIdx, Mat.col]
  unfold globalFinish at h
  by_cases hl : ps.length ≠ (aleIdx q' (X.col feature)).length
  · rw [if_pos hl] at h; cases h
  rw [if_neg hl] at h
  have hpl := mapE_length hps
  simp only [List.length_range] at hpl
  have hr : 0 < X.r := by
    by_contra hc
    have hnil : X.col feature = [] := by simp [Mat.col]; omega
    rw [(adaptiveGrid_cases _ 1).1 (Or.inr hnil)] at hg
    cases hg
  have h2 : 2 ≤ q'.length := by
    have := (grid_lookup (g := id) hhigh hr).1
    have hpos := binOf_pos q' (X.get 0 feature)
    simp only [id] at this
    omega
  obtain ⟨hb, _⟩ := adaptiveGrid_bins (by norm_num) hg h2
  have hs := groupMeans_spec hb.idx fun i => (ps.getD i (0, 0)).2 - (ps.getD i (0, 0)).1
  obtain ⟨c, hc, hmid⟩ := centre_spec hb.idx hs.1
  rw [hc] at h
  injection h with h
  injection h with hq hale
  subst hq
  have hsome : ∀ i < es.length, ∃ f, es[i]? = some (some f) ∧ ps.getD i (0, 0) =
      (L.predict f (withFeature X feature lows i), L.predict f (withFeature X feature highs i)) := by
    intro i hi
    have hgi := mapE_get hps (i := i) (by simpa using hi)
    simp only [List.getElem_range] at hgi
    rw [List.getD_eq_getElem _ _ hi] at hgi
    unfold globalPair at hgi
    split at hgi
    · cases hgi
    · split at hgi
      · cases hgi
      · rename_i f hf'
        injection hgi with hgi
        refine ⟨f, by rw [List.getElem?_eq_getElem hi, hf'], ?_⟩
        rw [List.getD_eq_getElem _ _ (by omega), ← hgi]
  obtain ⟨fs, hfs⟩ : ∃ fs : List F, es = fs.map some := by
    have : ∀ l : List (Option F), (∀ i < l.length, ∃ f, l[i]? = some (some f)) →
        ∃ fs : List F, l = fs.map some := by
      intro l
      induction l with
      | nil => exact fun _ => ⟨[], rfl⟩
      | cons a l ih =>
        intro hl
        obtain ⟨fs, hfs⟩ := ih fun i hi => hl (i + 1) (by simpa using hi)
        obtain ⟨f, hf⟩ := hl 0 (by simp)
        simp only [List.getElem?_cons_zero, Option.some.injEq] at hf
        exact ⟨f :: fs, by rw [hfs, hf]; rfl⟩
    exact this es fun i hi => ⟨_, (hsome i hi).choose_spec.1⟩
  refine ⟨X, es, rfl, rfl, by omega, by omega, ⟨n, hg⟩, hb, by
      rw [← hale, List.length_map, hs.1]; omega, fs, hfs, fun k hk => ?_, ?_⟩
  · obtain ⟨e1, e2⟩ := hs.2 k (by omega)
    rw [hb.members] at e2
    have hl1 := hs.1
    rw [← hale, getD_map_add (by omega), getD_map_add (by omega), add_sub_add_right_eq_sub, e2,
      sum_map_replicate_one]
    unfold binSum
    congr 2
    apply List.map_congr_left
    intro i hi
    have hir := (mem_binMembers.1 hi).1
    obtain ⟨f, hf1, hf2⟩ := hsome i (by omega)
    simp only
    rw [hf2]
    have hf3 : fs[i]? = some f := by
      rw [hfs] at hf1
      simpa using hf1
    rw [hf3]
    simp only [one_mul]
    unfold withFeature
    rw [(grid_lookup (g := fun i => i - 1) hlow hir).2, (grid_lookup (g := id) hhigh hir).2,
      hb.binOf_of_mem hi]
    rfl
  · unfold midMean at hmid
    simp only [hb.members, hale] at hmid
    exact hmid

/-- C61: the global curve is centred in the same sense, and has one value per grid point. -/
theorem C61_global_centred (L : Learner K F) (st : WMState K F C) (feature : Nat) (q ale : List K)
    (h : globalAle L st feature = .ok (q, ale)) :
    ∃ X, st.X = some X ∧ ale.length = q.length ∧
      ((List.range (q.length - 1)).map fun k => ((binMembers X feature q k).length : K) *
        ((ale.getD k 0 + ale.getD (k + 1) 0) / 2)).sum = 0 := by
  obtain ⟨X, es, hX, _, _, _, _, _, hl, fs, _, _, hm⟩ := globalAle_ok h
  exact ⟨X, hX, hl, hm⟩

/-- C60: if every local estimator predicts the same function of the feature plus something of its
own that ignores the feature, the global curve has exactly the differences of that function. -/
theorem C60_global_additive (L : Learner K F) (st : WMState K F C) (feature : Nat) (q ale : List K)
    (f : K → K) (g : F → List K → K)
    (hL : ∀ e row, L.predict e row = f (row.getD feature 0) + g e row)
    (hg : ∀ e row v, g e (row.set feature v) = g e row)
    (h : globalAle L st feature = .ok (q, ale)) (k : Nat) (hk : k < q.length) :
    ale.getD k 0 - ale.getD 0 0 = f (q.getD k 0) - f (q.getD 0 0) := by
  obtain ⟨X, es, hX, hes, hel, hfc, _, hb, hl, fs, hfs, hs, _⟩ := globalAle_ok h
  refine steps_telescope (fun k hk => ?_) k hk
  rw [hs k hk]
  have hone : ((binMembers X feature q k).length : K) =
      binSum X feature q k (fun _ => 1) := by
    unfold binSum; rw [sum_map_replicate_one]
  rw [hone]
  have := binSum_const (X := X) (feature := feature) (q := q) (k := k) (w := fun _ => (1 : K))
    (f := fun i => match fs[i]? with
          | some f => L.predict f ((X.row i).set feature (q.getD (k + 1) 0)) -
              L.predict f ((X.row i).set feature (q.getD k 0))
          | none => 0) (c := f (q.getD (k + 1) 0) - f (q.getD k 0)) (by
      rw [← hone]
      have := List.length_pos_iff.2 (hb.full k hk)
      exact_mod_cast this.ne') (by
      intro i hi
      have hir := (mem_binMembers.1 hi).1
      have hfl : fs.length = X.r := by rw [← hel, hfs]; simp
      rw [List.getElem?_eq_getElem (by omega)]
      simp only
      rw [hL, hL, row_set_getD hfc, row_set_getD hfc, hg, hg]
      ring)
  simpa only [one_mul] using this

/-- C62: `global_ALE` needs cached data and one cached estimator per observation, and raises for
fewer than three observations or a constant feature; otherwise it succeeds. -/
theorem C62_global (L : Learner K F) (st : WMState K F C) (feature : Nat) :
    (∃ r, globalAle L st feature = .ok r) ↔
      ∃ X, ∃ fs : List F, st.X = some X ∧ st.estimators = some (fs.map some) ∧
        fs.length = X.r ∧ feature < X.c ∧ 3 ≤ X.r ∧
        ∃ i < X.r, ∃ j < X.r, X.get i feature ≠ X.get j feature := by
  constructor
  · rintro ⟨⟨q, ale⟩, h⟩
    obtain ⟨X, es, hX, hes, hel, hfc, ⟨n, hgr⟩, hb, hl, fs, hfs, hs, _⟩ := globalAle_ok h
    have h0 : 0 < X.r := by
      by_contra hc
      have hnil : X.col feature = [] := by simp [Mat.col]; omega
      rw [(adaptiveGrid_cases _ 1).1 (Or.inr hnil)] at hgr
      cases hgr
    have h1 : (1 : ℤ) < X.r := by
      by_contra hc
      rw [(adaptiveGrid_cases _ 1).1 (Or.inl (by simp [Mat.col]; omega))] at hgr
      cases hgr
    have hok := C62_degenerate X feature (fun _ => 0) (some (List.replicate X.r 1)) true 1 hfc h1 h0
    obtain ⟨lows, hlow⟩ := grid_lookup_ok hb (g := fun i => i - 1) (fun k => Nat.sub_le k 1)
    obtain ⟨highs, hhigh⟩ := grid_lookup_ok hb (g := fun i => i) (fun k => le_rfl)
    have hun : weightedAle X feature (fun _ => 0) none true 1 = .error .typeError := by
      unfold weightedAle
      rw [if_neg (by omega), hgr]
      simp only
      rw [hlow]
      simp only
      rw [hhigh]
      rfl
    have hnd : ¬ (X.r ≤ 2 ∨ ∀ i < X.r, ∀ j < X.r, X.get i feature = X.get j feature) := by
      intro hc
      rw [C62_degenerate X feature (fun _ => 0) none true 1 hfc h1 h0 hc] at hun
      cases hun
    push Not at hnd
    exact ⟨X, fs, hX, by rw [hes, hfs], by rw [← hel, hfs]; simp, hfc, by omega, hnd.2⟩
  · rintro ⟨X, fs, hX, hes, hfl, hfc, h3, hne⟩
    have hv : X.col feature ≠ [] := by simp [Mat.col]; omega
    have hlen : (X.col feature).length = X.r := by simp [Mat.col]
    obtain ⟨n, h1, h2, _, hgr⟩ := (adaptiveGrid_cases (X.col feature) 1).2 (by omega) hv
    have hgs := gridSpec hv (h2 (by omega))
    have hq2 : 2 ≤ (uniqueL ((List.range n).map (gridPoint (X.col feature) n))).length := by
      apply hgs.length
      obtain ⟨i, hi, j, hj, hij⟩ := hne
      exact ⟨_, List.mem_map.2 ⟨i, List.mem_range.2 hi, rfl⟩, _,
        List.mem_map.2 ⟨j, List.mem_range.2 hj, rfl⟩, hij⟩
    obtain ⟨hb, _⟩ := adaptiveGrid_bins (by norm_num) hgr hq2
    generalize hqq : uniqueL ((List.range n).map (gridPoint (X.col feature) n)) = q at *
    obtain ⟨lows, hlow⟩ := grid_lookup_ok hb (g := fun i => i - 1) (fun k => Nat.sub_le k 1)
    obtain ⟨highs, hhigh⟩ := grid_lookup_ok hb (g := fun i => i) (fun k => le_rfl)
    have hidx : (aleIdx q (X.col feature)).length = X.r := by simp [aleIdx, Mat.col]
    have hps : ∃ ps, mapE (fun i => globalPair L X feature lows highs i
        ((fs.map some).getD i none)) (List.range (fs.map some).length) = .ok ps := by
      refine ⟨_, mapE_of_forall (g := fun i => match fs[i]? with
        | some f => (L.predict f (withFeature X feature lows i),
            L.predict f (withFeature X feature highs i))
        | none => (0, 0)) ?_⟩
      intro i hi
      simp only [List.length_map, List.mem_range] at hi
      unfold globalPair
      rw [if_neg (by omega), List.getD_eq_getElem _ _ (by simpa using hi),
        List.getElem?_eq_getElem hi, List.getElem_map]
    obtain ⟨ps, hps⟩ := hps
    have hpl := mapE_length hps
    simp only [List.length_range, List.length_map] at hpl
    have hs := groupMeans_spec hb.idx fun i => (ps.getD i (0, 0)).2 - (ps.getD i (0, 0)).1
    obtain ⟨c, hc, hmid⟩ := centre_spec hb.idx hs.1
    refine ⟨(q, (accumulate (groupMeans (aleIdx q (X.col feature)) fun i =>
      (ps.getD i (0, 0)).2 - (ps.getD i (0, 0)).1)).map (· + c)), ?_⟩
    unfold globalAle
    rw [hX, hes]
    simp only
    rw [if_neg (by omega), hgr]
    simp only
    rw [hlow]
    simp only
    rw [hhigh]
    simp only
    rw [hps]
    simp only
    unfold globalFinish
    rw [if_neg (by omega), hc]
    rfl

/-! ### `local_ALE` -/

/-- C77: the curve of every location. It is computed from the neighbours of the location only:
the grid runs from the smallest to the largest feature value among them, and the step between two
grid points is the average over the neighbours in the interval, weighted by their local weights, of
the difference of the local estimator's predictions. The curve is not centred: it starts at the
weighted mean prediction of the neighbours in the first interval, moved to the first grid point. -/
theorem C77_local_curves (L : Learner K F) (st : WMState K F C) (feature : Nat)
    (curves : List (List K × List K)) (X W : Mat K) (B : Mat Bool) (es : List (Option F))
    (hX : st.X = some X) (hW : st.weightMatrix = some (.dense W))
    (hB : st.neighbourMatrix = some (.dense B)) (hes : st.estimators = some es)
    (h : localAle L st feature = .ok curves) :
    curves.length = es.length ∧ ∀ i < es.length, ∃ e q ale,
      es[i]? = some (some e) ∧ curves[i]? = some (q, ale) ∧ ale.length = q.length ∧
      q.Pairwise (· < ·) ∧
      let nb := (List.range X.r).filter fun j => B.get i j
      let bin := fun k => nb.filter fun j => decide (InBin q k (X.get j feature))
      6 ≤ nb.length ∧ (∃ a b, q.head? = some a ∧ q.getLast? = some b ∧
        (∀ j ∈ nb, a ≤ X.get j feature ∧ X.get j feature ≤ b) ∧
        (∃ j ∈ nb, X.get j feature = a) ∧ ∃ j ∈ nb, X.get j feature = b) ∧
      ale.getD 0 0 = ((bin 0).map fun j => W.get i j *
          L.predict e ((X.row j).set feature (q.getD 0 0))).sum / ((bin 0).map (W.get i)).sum ∧
      ∀ k, k + 1 < q.length → 6 ≤ (bin k).length ∧ ((bin k).map (W.get i)).sum ≠ 0 ∧
        ale.getD (k + 1) 0 - ale.getD k 0 =
          ((bin k).map fun j => W.get i j *
            (L.predict e ((X.row j).set feature (q.getD (k + 1) 0)) -
              L.predict e ((X.row j).set feature (q.getD k 0)))).sum /
          ((bin k).map (W.get i)).sum := by
  unfold localAle at h
  rw [hes, hX, hW, hB] at h
  simp only at h
  have hl := mapE_length h
  simp only [List.length_range] at hl
  refine ⟨hl, fun i hi => ?_⟩
  have hg := mapE_get h (i := i) (by simpa using hi)
  simp only [List.getElem_range] at hg
  rw [List.getD_eq_getElem _ _ hi] at hg
  unfold localAleOne at hg
  by_cases hd : B.r ≤ i ∨ W.r ≤ i ∨ B.c ≠ W.c ∨ B.c ≠ X.r
  · rw [if_pos hd] at hg; cases hg
  rw [if_neg hd] at hg
  push Not at hd
  split at hg
  · cases hg
  rename_i e he
  rcases hc : curves[i]'(by omega) with ⟨q, ale⟩
  rw [hc] at hg
  obtain ⟨hfc, ⟨n, hgr⟩, hb, w', accum, c, hw, hwl, rfl, hlen, h0, hs, hstart, _⟩ :=
    weightedAle_ok (by norm_num) hg
  injection hw with hw
  have hnb : trueIdx B i = (List.range X.r).filter fun j => B.get i j := by
    unfold trueIdx; rw [hd.2.2.2]
  -- sums over the bins of the selected rows are sums over the neighbours
  have hsel : ∀ (nb : List Nat) (k : Nat),
      (binMembers (maskRows X nb) feature q k).map (fun t => nb.getD t 0) =
        nb.filter fun j => decide (InBin q k (X.get j feature)) := by
    intro nb k
    unfold binMembers maskRows
    simp only
    have hnb : nb = (List.range nb.length).map fun t => nb.getD t 0 := by
      apply List.ext_getElem
      · simp
      · intro t h1 h2
        rw [List.getElem_map, List.getElem_range, List.getD_eq_getElem _ _ h1]
    conv_rhs => rw [hnb, List.filter_map]
    rfl
  have hsum : ∀ (k : Nat) (f : Nat → K), binSum (maskRows X (trueIdx B i)) feature q k
      (fun t => f ((trueIdx B i).getD t 0)) =
      (((trueIdx B i).filter fun j => decide (InBin q k (X.get j feature))).map f).sum := by
    intro k f
    rw [← hsel, List.map_map]
    rfl
  have hwt : ∀ t, t < (trueIdx B i).length → w'.getD t 0 = W.get i ((trueIdx B i).getD t 0) := by
    intro t ht
    rw [← hw, List.getD_eq_getElem _ _ (by simpa using ht), List.getD_eq_getElem _ _ ht,
      List.getElem_map]
  have hbs : ∀ (k : Nat) (f g : Nat → K), (∀ t < (trueIdx B i).length,
      f t = g ((trueIdx B i).getD t 0)) → binSum (maskRows X (trueIdx B i)) feature q k f =
      (((trueIdx B i).filter fun j => decide (InBin q k (X.get j feature))).map g).sum := by
    intro k f g hfg
    rw [← hsum]
    unfold binSum
    apply congrArg List.sum
    apply List.map_congr_left
    intro t ht
    exact hfg t (mem_binMembers.1 ht).1
  have hcount := (adaptiveGrid_bins (by norm_num) hgr hb.two).2
  have hblen : ∀ k, ((trueIdx B i).filter fun j => decide (InBin q k (X.get j feature))).length =
      (binMembers (maskRows X (trueIdx B i)) feature q k).length := by
    intro k
    rw [← hsel]; simp
  refine ⟨e, q, _, by rw [List.getElem?_eq_getElem hi, he],
    by rw [List.getElem?_eq_getElem (by omega), hc], by simp [hlen], hb.grid.strict, ?_⟩
  intro nb bin
  have hnb' : trueIdx B i = nb := hnb
  have hstart := hstart rfl
  rw [hnb'] at hbs hcount hblen hs hgr hwt hstart
  have htwo := hb.two
  refine ⟨?_, ?_, ?_, fun k hk => ⟨?_, ?_, ?_⟩⟩
  · have h6 := hcount 0 (by omega)
    rw [← hblen] at h6
    have := List.length_filter_le (fun j => decide (InBin q 0 (X.get j feature))) nb
    omega
  · obtain ⟨a, ha, ham, hale⟩ := hb.grid.first
    obtain ⟨b, hbl, hbm, hble⟩ := hb.grid.last
    have hmem : ∀ v, v ∈ (maskRows X (trueIdx B i)).col feature ↔ ∃ j ∈ nb, X.get j feature = v := by
      intro v
      rw [hnb']
      constructor
      · intro hv
        obtain ⟨t, ht, rfl⟩ := List.mem_map.1 hv
        have ht : t < nb.length := List.mem_range.1 ht
        refine ⟨nb[t], List.getElem_mem ht, ?_⟩
        simp only [maskRows]
        rw [List.getD_eq_getElem _ _ ht]
      · rintro ⟨j, hj, rfl⟩
        obtain ⟨t, ht, rfl⟩ := List.getElem_of_mem hj
        refine List.mem_map.2 ⟨t, List.mem_range.2 ht, ?_⟩
        simp only [maskRows]
        rw [List.getD_eq_getElem _ _ ht]
    exact ⟨a, b, ha, hbl, fun j hj => ⟨hale _ ((hmem _).2 ⟨j, hj, rfl⟩),
      hble _ ((hmem _).2 ⟨j, hj, rfl⟩)⟩, (hmem _).1 ham, (hmem _).1 hbm⟩
  · rw [getD_map_add (by omega), h0, zero_add, hstart, hbs 0 _ (W.get i) hwt]
    rw [hbs 0 _ (fun j => W.get i j * L.predict e ((X.row j).set feature (q.getD 0 0)))]
    intro t ht
    rw [hwt t ht]
    rfl
  · have h6 := hcount k hk
    rw [← hblen] at h6
    show 6 ≤ (nb.filter _).length
    omega
  · have := (hs k hk).1
    rw [hbs k _ (W.get i) hwt] at this
    exact this
  · rw [getD_map_add (by omega), getD_map_add (by omega), add_sub_add_right_eq_sub, (hs k hk).2,
      hbs k _ (W.get i) hwt]
    rw [hbs k _ (fun j => W.get i j *
            (L.predict e ((X.row j).set feature (q.getD (k + 1) 0)) -
              L.predict e ((X.row j).set feature (q.getD k 0))))]
    intro t ht
    rw [hwt t ht]
    rfl

/-- C77: if some location has fewer than six neighbours the method raises, whatever the other
locations are like. -/
theorem C77_few_neighbours (L : Learner K F) (st : WMState K F C) (feature : Nat)
    (X W : Mat K) (B : Mat Bool) (es : List (Option F))
    (hX : st.X = some X) (hW : st.weightMatrix = some (.dense W))
    (hB : st.neighbourMatrix = some (.dense B)) (hes : st.estimators = some es)
    (i : Nat) (hi : i < es.length)
    (hn : ((List.range X.r).filter fun j => B.get i j).length ≤ 5) :
    ∃ e, localAle L st feature = .error e := by
  cases h : localAle L st feature with
  | error e => exact ⟨e, rfl⟩
  | ok curves =>
    exfalso
    obtain ⟨_, hc⟩ := C77_local_curves L st feature curves X W B es hX hW hB hes h
    obtain ⟨e, q, ale, _, _, _, _, h6, _⟩ := hc i hi
    omega

/-! ### Examples -/

/-- Twelve observations with two features. -/
def alX : Mat ℚ := ⟨12, 2, fun i j => if j = 0 then (i : ℚ) else ((7 * i % 5 : Nat) : ℚ)⟩
def alW : List ℚ := (List.range 12).map fun (i : Nat) => 1 / (i + 1 : ℚ)
/-- `2 x₀² - 3 x₁`. -/
def alPred (r : List ℚ) : ℚ := 2 * r.getD 0 0 * r.getD 0 0 - 3 * r.getD 1 0

/-- The hypotheses of C59–C62 hold, the curve is `2 x²` up to a constant, and the exceptions occur. -/
example :
    okAnd (weightedAle alX 0 alPred (some alW) false 2) (fun r => r.1.length == 5 && r.2.length == 5 &&
      r.2.getD 4 0 - r.2.getD 0 0 == 242) = true ∧
    okAnd (weightedAle alX 0 alPred (some alW) true 2) (fun r => r.1.length == 5) = true ∧
    weightedAle alX 0 alPred none false 2 = .error .typeError ∧
    weightedAle alX 0 alPred (some []) false 2 = .error .indexError ∧
    weightedAle alX 0 alPred (some alW) false 12 = .error .valueError ∧
    weightedAle ⟨12, 2, fun _ _ => 3⟩ 0 alPred (some alW) false 2 = .error .indexError ∧
    weightedAle alX 0 alPred (some (List.replicate 12 0)) false 2 = .error .zeroDivisionError := by
  decide +kernel

/-- A fitted state with twelve estimators; location `i` has the neighbours with a positive weight. -/
def alState (near : ℚ) : WMState ℚ ℚ Unit :=
  { X := some alX, estimators := some ((List.range 12).map fun (i : Nat) => some (i : ℚ)),
    weightMatrix := some (.dense ⟨12, 12, fun i j => if |(i - j : ℚ)| ≤ near then 1 else 0⟩),
    neighbourMatrix := some (.dense ⟨12, 12, fun i j => decide (|(i - j : ℚ)| ≤ near)⟩) }

/-- Estimator `e` predicts `x₀² + e x₁`. -/
def alLearner : Learner ℚ ℚ :=
  { fit := fun _ _ _ _ => .ok 0, predict := fun e r => r.getD 0 0 * r.getD 0 0 + e * r.getD 1 0 }

/-- The hypotheses of the theorems on `global_ALE` and of C77 hold. With a smaller neighbourhood
the first location has only five neighbours, and `local_ALE` raises. -/
example :
    okAnd (globalAle alLearner (alState 5) 0) (fun r => r.1.length == 7 && r.2.length == 7) = true ∧
    okAnd (localAle alLearner (alState 5) 0) (fun r => r.length == 12) = true ∧
    localAle alLearner (alState 4) 0 = .error .valueError := by
  decide +kernel

end Geo
