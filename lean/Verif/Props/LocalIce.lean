import Verif.Model.LocalIce
import Verif.Model.CurveGrids
import Verif.Props.LocalPd
/-
Individual curves of the local estimators, `local_ICE`: C130.
-/
set_option linter.unusedSectionVars false
namespace Geo
variable {K : Type} [Field K] [LinearOrder K] [IsStrictOrderedRing K] [FloorRing K] {F C : Type}
open Finset

/-- C130: with the scikit-learn that `requirements.txt` asks for, the method never returns: for
every object with a location and a feature it raises and leaves both attributes alone; on a fitted
object that kept data and estimators the exception is the `TypeError` of the missing argument. -/
theorem C130_raises (wide : List K → Except Err (List K)) (L : Learner K F) (store : K → K)
    (st : WMState K F C) (old : IceOut K) (h0 : st.N ≠ some 0) (h1 : st.nFeatures ≠ some 0) :
    (∃ e, (localICE true wide L store st old).result = .error e) ∧
    (localICE true wide L store st old).localIce = old.localIce ∧
    (localICE true wide L store st old).featureIce = old.featureIce ∧
    ∀ N nf es X B, st.N = some N → st.nFeatures = some nf → st.estimators = some es →
      st.X = some X → st.neighbourMatrix = some (.dense B) → N ≤ B.r → N ≤ X.r → B.c = X.r →
      N ≤ es.length → nf ≤ X.c →
      (localICE true wide L store st old).result = .error .typeError := by
  have key : ∀ N nf es X B, N ≠ 0 → nf ≠ 0 →
      ∃ e, mapE (iceLocation true wide L store X B es nf) (List.range N) = .error e ∧
        (N ≤ B.r → N ≤ X.r → B.c = X.r → N ≤ es.length → nf ≤ X.c → e = .typeError) := by
    intro N nf es X B hN hf
    obtain ⟨n, rfl⟩ := Nat.exists_eq_succ_of_ne_zero hN
    obtain ⟨m, rfl⟩ := Nat.exists_eq_succ_of_ne_zero hf
    have first : ∃ e, iceLocation true wide L store X B es (m + 1) 0 = .error e ∧
        (n + 1 ≤ B.r → n + 1 ≤ X.r → B.c = X.r → n + 1 ≤ es.length → m + 1 ≤ X.c →
          e = .typeError) := by
      unfold iceLocation
      split
      · rename_i h
        exact ⟨_, rfl, by omega⟩
      · by_cases hc : X.c ≤ 0
        · refine ⟨.indexError, ?_, by omega⟩
          rw [List.range_succ_eq_map]
          simp [mapE, iceFeature, iceGrid, maskRows, hc]
        · refine ⟨.typeError, ?_, fun _ _ _ _ _ => rfl⟩
          rw [List.range_succ_eq_map]
          simp only [mapE, iceFeature, iceGrid, maskRows, hc]
          simp
    obtain ⟨e, he, ht⟩ := first
    refine ⟨e, ?_, ht⟩
    rw [List.range_succ_eq_map]
    simp [mapE, he]
  unfold localICE
  split
  · rename_i N nf es X B e1 e2 e3 e4 e5
    obtain ⟨e, he, ht⟩ := key N nf es X B (fun h => h0 (h ▸ e1)) (fun h => h1 (h ▸ e2))
    rw [he]
    refine ⟨⟨e, rfl⟩, rfl, rfl, ?_⟩
    intro N' nf' es' X' B' f1 f2 f3 f4 f5 a b c d g
    rw [e1] at f1; rw [e2] at f2; rw [e3] at f3; rw [e4] at f4; rw [e5] at f5
    injection f1 with f1; injection f2 with f2; injection f3 with f3; injection f4 with f4
    injection f5 with f5; injection f5 with f5
    subst f1 f2 f3 f4 f5
    rw [ht a b c d g]
  · rename_i N nf _ _ _ e1 _ _ _ e5
    rw [if_neg fun h : N = 0 => h0 (h ▸ e1)]
    refine ⟨⟨_, rfl⟩, rfl, rfl, ?_⟩
    intro _ _ _ _ _ _ _ _ _ f5
    rw [e5] at f5
    cases f5
  · exact ⟨⟨_, rfl⟩, rfl, rfl, fun _ _ _ _ _ _ _ _ _ _ _ _ _ _ _ => rfl⟩

theorem iceFeature_ok {wide : List K → Except Err (List K)} {L : Learner K F} {store : K → K}
    {Xl : Mat K} {row : List K} {e : Option F} {f : Nat} {c : List K × List K}
    (h : iceFeature false wide L store Xl row e f = .ok c) :
    f < Xl.c ∧ pdGrid wide (Xl.col f) = .ok c.1 ∧ c.1 ≠ [] ∧
    ∃ m, e = some m ∧ c.2 = c.1.map fun v => L.predict m (row.set f (store v)) := by
  unfold iceFeature iceGrid at h
  by_cases hc : Xl.c ≤ f
  · simp [hc] at h
  simp only [hc, if_false, Bool.false_eq_true] at h
  cases hg : pdGrid wide (Xl.col f) with
  | error er => simp [hg] at h
  | ok grid =>
    simp only [hg] at h
    unfold iceValues at h
    split at h
    · cases h
    · rename_i m
      split at h
      · cases h
      · rename_i hn
        simp only [Except.map, Except.ok.injEq] at h
        subst h
        refine ⟨by omega, rfl, fun h' => hn (by simpa using congrArg List.length h'), m, rfl, rfl⟩

theorem iceLocation_ok {wide : List K → Except Err (List K)} {L : Learner K F} {store : K → K}
    {X : Mat K} {B : Mat Bool} {es : List (Option F)} {nf i : Nat} {l : List (List K × List K)}
    (h : iceLocation false wide L store X B es nf i = .ok l) :
    i < es.length ∧ B.c = X.r ∧ l.length = nf ∧ ∀ f < nf,
      iceFeature false wide L store (maskRows X (trueIdx B i)) (X.row i) (es.getD i none) f =
        .ok (l.getD f ([], [])) := by
  unfold iceLocation at h
  split at h
  · cases h
  rename_i hn
  have hl := mapE_length h
  refine ⟨by omega, by omega, by simpa using hl, fun f hf => ?_⟩
  have hf' : f < l.length := by rw [hl]; simpa using hf
  have := mapE_get h (i := f) (by simpa using hf)
  simp only [List.getElem_range] at this
  rw [this]
  simp [List.getElem?_eq_getElem hf']

/-- C130: with an earlier scikit-learn. A result has one row per location with one curve per
feature. The abscissae come from the feature's values among the location's neighbours, all of them
in increasing order if there are fewer than 100. The ordinate at `v` is what the location's own
estimator predicts for the location's own row with the feature set to `v`. `local_ice_` is the
result and `feature_ice_` holds the same curves by feature. -/
theorem C130_result (wide : List K → Except Err (List K)) (L : Learner K F) (store : K → K)
    (st : WMState K F C) (old : IceOut K) (l : List (List (List K × List K)))
    (h : (localICE false wide L store st old).result = .ok l) :
    ∃ N nf es X B, st.N = some N ∧ st.nFeatures = some nf ∧ st.estimators = some es ∧
      st.X = some X ∧ st.neighbourMatrix = some (.dense B) ∧ l.length = N ∧
      (localICE false wide L store st old).localIce = some l ∧
      (∃ a ∈ l.flatten, ∃ b ∈ l.flatten, a.1.length ≠ b.1.length) ∧
      (∀ i < N, (l.getD i []).length = nf ∧ (1 ≤ nf → ∃ m, es.getD i none = some m ∧
        ∀ f < nf, ∃ grid y, (l.getD i [])[f]? = some (grid, y) ∧ grid ≠ [] ∧
          pdGrid wide ((trueIdx B i).map fun j => X.get j f) = .ok grid ∧
          (((trueIdx B i).map fun j => X.get j f).dedup.length < 100 →
            grid.Pairwise (· < ·) ∧ ∀ v, v ∈ grid ↔ ∃ j < X.r, B.get i j = true ∧ X.get j f = v) ∧
          y = grid.map fun v => L.predict m ((X.row i).set f (store v)))) ∧
      ∃ fp, (localICE false wide L store st old).featureIce = some fp ∧ fp.length = nf ∧
        ∀ f < nf, ∀ i < N, (fp.getD f []).getD i ([], []) = (l.getD i []).getD f ([], []) := by
  unfold localICE at h ⊢
  split at h
  case h_2 =>
    split at h
    · simp [iceFinish, allSameLength] at h
    · cases h
  case h_3 => cases h
  rename_i N nf es X B e1 e2 e3 e4 e5
  cases hm : mapE (iceLocation false wide L store X B es nf) (List.range N) with
  | error e => rw [hm] at h; cases h
  | ok l' =>
    rw [hm] at h
    simp only [iceFinish] at h
    by_cases hs : allSameLength l' = true
    · rw [if_pos hs] at h; cases h
    rw [if_neg hs] at h
    injection h with h
    subst h
    have hlen := mapE_length hm
    rw [List.length_range] at hlen
    refine ⟨N, nf, es, X, B, e1, e2, e3, e4, e5, hlen, ?_, ?_, ?_, ?_⟩
    · simp [iceFinish, hs]
    · unfold allSameLength at hs
      split at hs
      · exact absurd rfl hs
      · rename_i c cs heq
        simp only [List.all_eq_true, beq_iff_eq, not_forall] at hs
        obtain ⟨d, hd, hne⟩ := hs
        exact ⟨d, by rw [heq]; simp [hd], c, by rw [heq]; simp, hne⟩
    · intro i hi
      have := mapE_get hm (i := i) (by simpa using hi)
      simp only [List.getElem_range] at this
      have hi' : i < l'.length := by omega
      have hli : l'.getD i [] = l'[i] := by simp [List.getElem?_eq_getElem hi']
      obtain ⟨-, hBX, hl1, hl2⟩ := iceLocation_ok this
      rw [hli]
      refine ⟨hl1, fun hnf => ?_⟩
      obtain ⟨-, -, -, m, hm0, -⟩ := iceFeature_ok (hl2 0 (by omega))
      refine ⟨m, hm0, fun f hf => ?_⟩
      obtain ⟨-, hg, hne, m', hm1, hy⟩ := iceFeature_ok (hl2 f hf)
      rw [hm0] at hm1
      injection hm1 with hm1
      subst hm1
      have hfl : f < l'[i].length := by omega
      have hlf : l'[i].getD f ([], []) = l'[i][f] := by simp [List.getElem?_eq_getElem hfl]
      rw [hlf] at hg hne hy
      have hcol : (maskRows X (trueIdx B i)).col f = (trueIdx B i).map fun j => X.get j f := by
        apply List.ext_getElem (by simp [Mat.col, maskRows])
        intro k hk1 hk2
        simp at hk2
        simp [Mat.col, maskRows, List.getElem?_eq_getElem hk2]
      rw [hcol] at hg
      refine ⟨l'[i][f].1, l'[i][f].2, by simp [List.getElem?_eq_getElem hfl], hne, hg, ?_, hy⟩
      intro hd
      have hp : (uniqueL ((trueIdx B i).map fun j => X.get j f)).Perm
          ((trueIdx B i).map fun j => X.get j f).dedup := (sortL_perm _).dedup
      unfold pdGrid at hg
      rw [if_pos (by rw [hp.length_eq]; exact hd)] at hg
      injection hg with hg
      rw [← hg]
      refine ⟨uniqueL_pairwise _, fun v => ?_⟩
      rw [mem_uniqueL, List.mem_map]
      constructor
      · rintro ⟨j, hj, rfl⟩
        simp only [trueIdx, List.mem_filter, List.mem_range] at hj
        exact ⟨j, by omega, hj.2, rfl⟩
      · rintro ⟨j, hj, hb, rfl⟩
        exact ⟨j, by simp only [trueIdx, List.mem_filter, List.mem_range]; exact ⟨by omega, hb⟩, rfl⟩
    · refine ⟨(List.range nf).map fun f => l'.map fun r => r.getD f ([], []), ?_, by simp, ?_⟩
      · simp [iceFinish, hs]
      · intro f hf i hi
        have hi' : i < l'.length := by omega
        simp [List.getElem?_range hf, List.getElem?_eq_getElem hi']

/-- C130: a location that is its own neighbour finds itself on each of its curves: with fewer than
100 distinct values in the neighbourhood, the curve of every feature has a point at the location's
own value, and there the ordinate is the estimator's prediction for the location itself. -/
theorem C130_own_point (wide : List K → Except Err (List K)) (L : Learner K F) (store : K → K)
    (st : WMState K F C) (old : IceOut K) (l : List (List (List K × List K)))
    (h : (localICE false wide L store st old).result = .ok l) (N nf : Nat) (X : Mat K)
    (B : Mat Bool) (es : List (Option F)) (h1 : st.N = some N) (h2 : st.nFeatures = some nf)
    (h3 : st.estimators = some es) (h4 : st.X = some X) (h5 : st.neighbourMatrix = some (.dense B))
    (i f : Nat) (hi : i < N) (hf : f < nf) (hX : i < X.r) (hself : B.get i i = true)
    (hst : store (X.get i f) = X.get i f)
    (hd : ((trueIdx B i).map fun j => X.get j f).dedup.length < 100) :
    ∃ m grid y, es.getD i none = some m ∧ (l.getD i [])[f]? = some (grid, y) ∧
      y.length = grid.length ∧ ∃ k < grid.length,
        grid[k]? = some (X.get i f) ∧ y[k]? = some (L.predict m (X.row i)) := by
  obtain ⟨N', nf', es', X', B', e1, e2, e3, e4, e5, -, -, -, hr, -⟩ :=
    C130_result wide L store st old l h
  rw [h1] at e1; rw [h2] at e2; rw [h3] at e3; rw [h4] at e4; rw [h5] at e5
  injection e1 with e1; injection e2 with e2; injection e3 with e3; injection e4 with e4
  injection e5 with e5; injection e5 with e5
  subst e1 e2 e3 e4 e5
  obtain ⟨m, hm, hrf⟩ := (hr i hi).2 (by omega)
  obtain ⟨grid, y, hl, hne, -, hg, hy⟩ := hrf f hf
  have hmem : X.get i f ∈ grid := ((hg hd).2 _).2 ⟨i, hX, hself, rfl⟩
  obtain ⟨k, hk, hk'⟩ := List.getElem_of_mem hmem
  refine ⟨m, grid, y, hm, hl, by rw [hy]; simp, k, hk, by rw [List.getElem?_eq_getElem hk, hk'], ?_⟩
  rw [hy, List.getElem?_map, List.getElem?_eq_getElem hk, hk', Option.map_some, hst]
  congr 2
  apply List.ext_getElem (by simp)
  intro j hj1 hj2
  rw [List.getElem_set]
  split
  · rename_i hjf
    subst hjf
    simp [Mat.row]
  · rfl

/-- C130: the failures with an earlier scikit-learn. When every location's curves can be computed
and all are equally long, the call raises `ValueError` after it has replaced `local_ice_`, and
`feature_ice_` is the one of an earlier call. When some location's cannot, it raises and both
attributes stay. -/
theorem C130_failures (wide : List K → Except Err (List K)) (L : Learner K F) (store : K → K)
    (st : WMState K F C) (old : IceOut K) (N nf : Nat) (es : List (Option F)) (X : Mat K)
    (B : Mat Bool) (h1 : st.N = some N) (h2 : st.nFeatures = some nf)
    (h3 : st.estimators = some es) (h4 : st.X = some X)
    (h5 : st.neighbourMatrix = some (.dense B)) :
    (∀ l g, l.length = N →
      (∀ i < N, iceLocation false wide L store X B es nf i = .ok (l.getD i [])) →
      (∀ r ∈ l, ∀ c ∈ r, c.1.length = g) →
      (localICE false wide L store st old).result = .error .valueError ∧
      (localICE false wide L store st old).localIce = some l ∧
      (localICE false wide L store st old).featureIce = old.featureIce) ∧
    (∀ i < N, (es.length ≤ i ∨ (1 ≤ nf ∧ es.getD i none = none) ∨ X.c < nf ∨
        (1 ≤ nf ∧ ∀ j < B.c, B.get i j = false)) →
      (∃ e, (localICE false wide L store st old).result = .error e) ∧
      (localICE false wide L store st old).localIce = old.localIce ∧
      (localICE false wide L store st old).featureIce = old.featureIce) := by
  constructor
  · intro l g hN hl hg
    have hm : mapE (iceLocation false wide L store X B es nf) (List.range N) = .ok l := by
      rw [mapE_of_forall (g := fun i => l.getD i []) fun i hi => hl i (List.mem_range.1 hi)]
      congr 1
      apply List.ext_getElem (by simp [hN])
      intro k hk1 hk2
      simp [List.getElem?_eq_getElem hk2]
    have hs : allSameLength l = true := by
      have hg' : ∀ c ∈ l.flatten, c.1.length = g := by
        intro c hc
        obtain ⟨r, hr, hc⟩ := List.mem_flatten.1 hc
        exact hg r hr c hc
      unfold allSameLength
      split
      · rfl
      · rename_i c cs heq
        simp only [List.all_eq_true, beq_iff_eq]
        intro d hd
        rw [hg' d (by rw [heq]; simp [hd]), hg' c (by rw [heq]; simp)]
    unfold localICE
    simp [h1, h2, h3, h4, h5, hm, iceFinish, hs]
  · intro i hi hbad
    have hno : ∀ c, iceLocation false wide L store X B es nf i ≠ .ok c := by
      intro c hc
      obtain ⟨a1, a2, a3, a4⟩ := iceLocation_ok hc
      rcases hbad with hb | ⟨hf, hb⟩ | hb | ⟨hf, hb⟩
      · omega
      · obtain ⟨-, -, -, m, hm, -⟩ := iceFeature_ok (a4 0 (by omega))
        rw [hb] at hm
        cases hm
      · obtain ⟨hx, -⟩ := iceFeature_ok (a4 X.c hb)
        simp [maskRows] at hx
      · obtain ⟨-, hg, hne, -⟩ := iceFeature_ok (a4 0 (by omega))
        have ht : trueIdx B i = [] := by
          unfold trueIdx
          rw [List.filter_eq_nil_iff]
          intro j hj
          simp [hb j (List.mem_range.1 hj)]
        rw [ht] at hg
        have : (maskRows X []).col 0 = [] := by simp [Mat.col, maskRows]
        rw [this] at hg
        have hu : uniqueL ([] : List K) = [] := by
          rw [List.eq_nil_iff_forall_not_mem]
          intro v hv
          rw [mem_uniqueL] at hv
          cases hv
        simp only [pdGrid, hu, List.length_nil, Nat.ofNat_pos, if_true] at hg
        injection hg with hg
        exact hne hg.symm
    obtain ⟨e, he⟩ : ∃ e, iceLocation false wide L store X B es nf i = .error e := by
      cases hc : iceLocation false wide L store X B es nf i with
      | ok c => exact absurd hc (hno c)
      | error e => exact ⟨e, rfl⟩
    obtain ⟨e', he'⟩ := mapE_error_of_mem (List.mem_range.2 hi) ⟨e, he⟩
    have : localICE false wide L store st old = ⟨.error e', old.localIce, old.featureIce⟩ := by
      unfold localICE
      simp only [h1, h2, h3, h4, h5, he']
    rw [this]
    exact ⟨⟨e', rfl⟩, rfl, rfl⟩

/-- C130: for an estimator that adds up what the feature and what the rest of the row contribute,
the curve of the location and its weighted partial dependence differ by the same amount
everywhere. -/
theorem C130_additive (wide : List K → Except Err (List K)) (L : Learner K F) (X W : Mat K)
    (B : Mat Bool) (es : List (Option F)) (nf i : Nat) (lp li : List (List K × List K))
    (hp : pdLocation wide L X W B es nf i = .ok lp)
    (hc : iceLocation false wide L id X B es nf i = .ok li) (f : Nat) (hf : f < nf)
    (g : K → K) (r : List K → K)
    (hadd : ∀ m, es.getD i none = some m → ∀ row v, f < row.length →
      L.predict m (row.set f v) = g v + r row) :
    ∃ d, (li.getD f ([], [])).1 = (lp.getD f ([], [])).1 ∧
      ∀ k < (li.getD f ([], [])).1.length,
        (li.getD f ([], [])).2.getD k 0 - (lp.getD f ([], [])).2.getD k 0 = d := by
  obtain ⟨-, -, -, hi⟩ := iceLocation_ok hc
  obtain ⟨hcol, hg, -, m, hm, hy⟩ := iceFeature_ok (hi f hf)
  unfold pdLocation at hp
  split at hp
  · cases hp
  rw [hm] at hp
  obtain ⟨hpl, hpf⟩ := localPd_ok hp
  obtain ⟨hcol', hg', hw, hs, hv⟩ := pdFeature_ok (hpf f hf)
  rw [hg] at hg'
  injection hg' with hg'
  have hcx : f < X.c := by simpa [maskRows] using hcol
  refine ⟨r (X.row i) - (∑ j ∈ range (maskRows X (trueIdx B i)).r,
      r ((maskRows X (trueIdx B i)).row j) * ((trueIdx B i).map (W.get i)).getD j 0) /
      ((trueIdx B i).map (W.get i)).sum, hg', ?_⟩
  intro k hk
  rw [hy, hv, ← hg']
  generalize (li.getD f ([], [])).1 = grid at hk
  simp only [List.getD_eq_getElem?_getD, List.getElem?_map, List.getElem?_eq_getElem hk,
    Option.map_some, Option.getD_some, id]
  have hrow : ∀ j, f < ((maskRows X (trueIdx B i)).row j).length := fun j => by
    simpa [Mat.row, maskRows] using hcx
  simp only [atValue, hadd m hm _ _ (hrow _), hadd m hm (X.row i) grid[k] (by simpa [Mat.row] using hcx)]
  simp only [add_mul, Finset.sum_add_distrib, ← Finset.mul_sum]
  have hsum : ∑ j ∈ range (maskRows X (trueIdx B i)).r,
      (Option.map (W.get i) (trueIdx B i)[j]?).getD 0 = ((trueIdx B i).map (W.get i)).sum := by
    rw [sum_eq_getD, hw]
    simp
  rw [hsum, add_div, mul_div_assoc, div_self hs]
  ring

/-! ### Examples -/

/-- The three locations of `pdState`, everyone a neighbour of everyone: the curves of location 1,
whose estimator predicts `x₀ + x₁`; the call that raises where four arguments are wanted, with the
attributes of an earlier call; the same grid on data stored as integers. -/
example :
    okAnd (localICE false pdWide pdLearner id (pdState 2) ⟨.ok [], none, none⟩).result
      (fun l => l.length == 3 && (l.getD 1 []) == [([0, 1, 2], [1, 2, 3]), ([1], [2])]) = true ∧
    (localICE false pdWide pdLearner id (pdState 1) ⟨.ok [], none, none⟩).result =
      .error .valueError ∧
    (localICE true pdWide pdLearner id (pdState 2) ⟨.ok [], some [[([7], [8])]], none⟩).result =
      .error .typeError ∧
    (localICE true pdWide pdLearner id (pdState 2) ⟨.ok [], some [[([7], [8])]], none⟩).localIce =
      some [[([7], [8])]] ∧
    iceFeature false (fun _ => .ok [1 / 2, 3 / 2]) pdLearner intStored
      ⟨100, 1, fun i _ => (i : ℚ)⟩ [4] (some 0) 0 = .ok ([1 / 2, 3 / 2], [0, 1]) := by
  refine ⟨?_, ?_, ?_, ?_, ?_⟩ <;> decide +kernel

/-- The hypotheses of `C130_additive` and of the failures hold: `x₀ + e x₁` adds up its features;
a location without estimator and one without neighbours raise. -/
example : (∀ m, [some (0 : ℚ), some 1, some 2].getD 1 none = some m → ∀ (row : List ℚ) (v : ℚ),
      0 < row.length → pdLearner.predict m (row.set 0 v) = v + m * row.getD 1 0) ∧
    (∃ lp li, pdLocation pdWide pdLearner pdX ⟨3, 3, fun _ _ => 1⟩ ⟨3, 3, fun _ _ => true⟩
        [some 0, some 1, some 2] 2 1 = .ok lp ∧
      iceLocation false pdWide pdLearner id pdX ⟨3, 3, fun _ _ => true⟩
        [some 0, some 1, some 2] 2 1 = .ok li ∧ li = lp) ∧
    iceLocation false pdWide pdLearner id pdX ⟨3, 3, fun _ _ => true⟩ [some 0, none, some 2] 2 1 =
      .error .attributeError ∧
    iceLocation false pdWide pdLearner id pdX ⟨3, 3, fun _ _ => false⟩ [some 0, some 1, some 2] 2 1 =
      .error .valueError := by
  refine ⟨fun m _ row v h => ?_, ⟨[([0, 1, 2], [1, 2, 3]), ([1], [2])], _, ?_, ?_, rfl⟩, ?_, ?_⟩
  · cases row with
    | nil => simp at h
    | cons a row => simp [pdLearner]
  all_goals decide +kernel

end Geo
