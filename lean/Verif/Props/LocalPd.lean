import Verif.Model.LocalPd
import Verif.Lemmas.AleCurve
import Verif.Lemmas.Moran
/-
Weighted partial dependence: C67 and C78.
-/
set_option linter.unusedSectionVars false
namespace Geo
variable {K : Type} [Field K] [LinearOrder K] [IsStrictOrderedRing K] [FloorRing K] {F C : Type}
open Finset

theorem zipWith_map_range (n : Nat) (f : Nat → K) (ws : List K) (h : ws.length = n) :
    (List.zipWith (· * ·) ((List.range n).map f) ws).sum =
      ∑ i ∈ range n, f i * ws.getD i 0 := by
  rw [← sum_map_range]
  congr 1
  apply List.ext_getElem (by simp [h])
  intro i h1 h2
  simp at h1
  simp [List.getElem?_eq_getElem h1.2]

theorem pdFeature_ok {wide : List K → Except Err (List K)} {pred : List K → K} {X : Mat K}
    {ws : List K} {f : Nat} {r : List K × List K} (h : pdFeature wide pred X ws f = .ok r) :
    f < X.c ∧ pdGrid wide (X.col f) = .ok r.1 ∧ ws.length = X.r ∧ ws.sum ≠ 0 ∧
    r.2 = r.1.map fun v => (∑ i ∈ range X.r, pred (atValue X f v i) * ws.getD i 0) / ws.sum := by
  unfold pdFeature at h
  split at h
  · cases h
  rename_i hc
  cases hg : pdGrid wide (X.col f) with
  | error e => simp [hg] at h
  | ok grid =>
    simp only [hg] at h
    unfold averageColumns at h
    split at h
    · cases h
    rename_i hl
    split at h
    · cases h
    rename_i hs
    simp only [Except.map, Except.ok.injEq] at h
    subst h
    refine ⟨by omega, rfl, by simpa using hl, hs, ?_⟩
    simp only [List.map_map]
    refine List.map_congr_left fun v _ => ?_
    simp only [Function.comp]
    rw [icePoint, zipWith_map_range _ _ _ (by simpa using hl)]

theorem localPd_ok {wide : List K → Except Err (List K)} {pred : List K → K} {X : Mat K}
    {ws : List K} {nf : Nat} {l : List (List K × List K)}
    (h : localPd wide pred X ws nf = .ok l) :
    l.length = nf ∧ ∀ f < nf, pdFeature wide pred X ws f = .ok (l.getD f ([], [])) := by
  have hl := mapE_length h
  refine ⟨by simpa using hl, fun f hf => ?_⟩
  have hf' : f < l.length := by rw [hl]; simpa using hf
  have := mapE_get h (i := f) (by simpa using hf)
  simp only [List.getElem_range] at this
  rw [this]
  simp [List.getElem?_eq_getElem hf']

/-- C67: what the local partial dependence of a feature is: one pair per feature; the abscissae
are scikit-learn's grid for the given observations, and the value at `v` is the weighted mean
over the observations of the prediction with the feature set to `v`. -/
theorem C67_value (wide : List K → Except Err (List K)) (pred : List K → K) (X : Mat K)
    (ws : List K) (nf : Nat) (l : List (List K × List K))
    (h : localPd wide pred X ws nf = .ok l) :
    l.length = nf ∧ ∀ f < nf, ∃ grid pd, l[f]? = some (grid, pd) ∧ f < X.c ∧ ws.length = X.r ∧
      ws.sum ≠ 0 ∧ pd.length = grid.length ∧
      ((X.col f).dedup.length < 100 → grid.Pairwise (· < ·) ∧ ∀ v, v ∈ grid ↔ v ∈ X.col f) ∧
      ∀ k < grid.length, pd.getD k 0 =
        (∑ i ∈ range X.r, pred ((X.row i).set f (grid.getD k 0)) * ws.getD i 0) / ws.sum := by
  obtain ⟨hl, hp⟩ := localPd_ok h
  refine ⟨hl, fun f hf => ?_⟩
  obtain ⟨hc, hg, hw, hs, hv⟩ := pdFeature_ok (hp f hf)
  have hfl : f < l.length := by omega
  have e : l.getD f ([], []) = l[f] := by simp [List.getElem?_eq_getElem hfl]
  rw [e] at hg hv
  refine ⟨l[f].1, l[f].2, by simp [List.getElem?_eq_getElem hfl], hc, hw, hs, ?_, ?_, ?_⟩
  · rw [hv]; simp
  · intro hd
    have hp : (uniqueL (X.col f)).Perm (X.col f).dedup := (sortL_perm _).dedup
    unfold pdGrid at hg
    rw [if_pos (by rw [hp.length_eq]; exact hd)] at hg
    injection hg with hg
    rw [← hg]
    exact ⟨uniqueL_pairwise _, fun v => mem_uniqueL⟩
  · intro k hk
    rw [hv]
    simp only [List.getD_eq_getElem?_getD, List.getElem?_map, List.getElem?_eq_getElem hk,
      Option.map_some, Option.getD_some]
    rfl

theorem sum_eq_getD (ws : List K) : ws.sum = ∑ i ∈ range ws.length, ws.getD i 0 := sum_eq_range ws

/-- C67: with non-negative weights every value lies between any bounds on the predictions of the
observations that have a weight; the others do not count. -/
theorem C67_bounds (wide : List K → Except Err (List K)) (pred : List K → K) (X : Mat K)
    (ws : List K) (nf : Nat) (l : List (List K × List K))
    (h : localPd wide pred X ws nf = .ok l) (hw : ∀ w ∈ ws, 0 ≤ w)
    (f : Nat) (hf : f < nf) (k : Nat) (hk : k < (l.getD f ([], [])).1.length) (lo hi : K)
    (hb : ∀ i < X.r, ws.getD i 0 ≠ 0 →
      lo ≤ pred ((X.row i).set f ((l.getD f ([], [])).1.getD k 0)) ∧
      pred ((X.row i).set f ((l.getD f ([], [])).1.getD k 0)) ≤ hi) :
    lo ≤ (l.getD f ([], [])).2.getD k 0 ∧ (l.getD f ([], [])).2.getD k 0 ≤ hi := by
  obtain ⟨hc, hg, hl, hs, hv⟩ := pdFeature_ok ((localPd_ok h).2 f hf)
  generalize l.getD f ([], []) = crv at *
  have hnn : ∀ i < ws.length, 0 ≤ ws.getD i 0 := fun i hi => by
    apply hw
    simp [List.getElem?_eq_getElem hi]
  have hpos : 0 < ws.sum := lt_of_le_of_ne (List.sum_nonneg hw) (Ne.symm hs)
  rw [hv]
  simp only [List.getD_eq_getElem?_getD, List.getElem?_map, List.getElem?_eq_getElem hk,
    Option.map_some, Option.getD_some] at hb ⊢
  simp only [← List.getD_eq_getElem?_getD] at hb ⊢
  have hsum := sum_eq_getD ws
  rw [hl] at hsum
  constructor
  · rw [le_div_iff₀ hpos, hsum, Finset.mul_sum]
    refine Finset.sum_le_sum fun i hi => ?_
    have hi' : i < X.r := by simpa using hi
    by_cases h0 : ws.getD i 0 = 0
    · rw [h0]; simp
    · exact mul_le_mul_of_nonneg_right (hb i hi' h0).1 (hnn i (by omega))
  · rw [div_le_iff₀ hpos, hsum, Finset.mul_sum]
    refine Finset.sum_le_sum fun i hi => ?_
    have hi' : i < X.r := by simpa using hi
    by_cases h0 : ws.getD i 0 = 0
    · rw [h0]; simp
    · exact mul_le_mul_of_nonneg_right (hb i hi' h0).2 (hnn i (by omega))

theorem pdFeature_congr {wide : List K → Except Err (List K)} {pred : List K → K} {A B : Mat K}
    (h : Mat.Same A B) (ws : List K) (f : Nat) :
    pdFeature wide pred A ws f = pdFeature wide pred B ws f := by
  obtain ⟨hr, hc, hg⟩ := h
  by_cases hf : A.c ≤ f
  · unfold pdFeature
    rw [if_pos hf, if_pos (by omega)]
  have hcol : A.col f = B.col f := by
    unfold Mat.col
    rw [← hr]
    exact List.map_congr_left fun i hi => hg i (by simpa using hi) f (by omega)
  have hp : icePoint A f pred = icePoint B f pred := by
    funext v
    unfold icePoint atValue
    rw [← hr]
    refine List.map_congr_left fun i hi => ?_
    rw [Mat.row_congr hc fun j hj => hg i (by simpa using hi) j hj]
  unfold pdFeature
  rw [if_neg hf, if_neg (by omega), hcol, hp, hr]

/-- C67: `local_pd.local_partial_dependence` ignores observations without weight altogether: they
change neither the grid nor the values. -/
theorem C67_zero_weights (wide : List K → Except Err (List K)) (pred : List K → K) (X X' : Mat K)
    (ws : List K) (hr : X'.r = X.r) (hc : X'.c = X.c)
    (h : ∀ i < X.r, ws.getD i 0 ≠ 0 → ∀ j < X.c, X'.get i j = X.get i j) :
    localPdModule wide pred X' ws = localPdModule wide pred X ws := by
  unfold localPdModule
  rw [hr]
  split
  · rfl
  · rename_i hl
    have hl : ws.length = X.r := by simpa using hl
    rw [hc]
    unfold localPd
    refine mapE_congr fun f _ => pdFeature_congr (A := maskRows X' (weightedIdx ws))
      (B := maskRows X (weightedIdx ws)) ⟨rfl, hc, fun i hi j hj => ?_⟩ _ _
    show X'.get _ j = X.get _ j
    have hi : i < (weightedIdx ws).length := hi
    have hm : (weightedIdx ws).getD i 0 ∈ weightedIdx ws := by
      simp [List.getElem?_eq_getElem hi]
    obtain ⟨h1, h2⟩ := List.mem_filter.1 hm
    exact h _ (by rw [← hl]; simpa using h1) (by simpa using h2) j (by rw [← hc]; exact hj)

/-- C67: the function of `local_pd.py` gives what the one of `weight_model.py` gives for the
observations that have a weight; with all weights non-zero it is the same function. -/
theorem C67_same_function (wide : List K → Except Err (List K)) (pred : List K → K) (X : Mat K)
    (ws : List K) (hl : ws.length = X.r) (hw : ∀ w ∈ ws, w ≠ 0) :
    localPdModule wide pred X ws = localPd wide pred X ws X.c := by
  have hidx : weightedIdx ws = List.range X.r := by
    unfold weightedIdx
    rw [hl, List.filter_eq_self]
    intro i hi
    have hi : i < ws.length := by rw [hl]; simpa using hi
    have : ws.getD i 0 ∈ ws := by simp [List.getElem?_eq_getElem hi]
    simpa using hw _ this
  unfold localPdModule
  rw [if_neg (by simp [hl]), hidx]
  have hws : ((List.range X.r).map fun i => ws.getD i 0) = ws := by
    apply List.ext_getElem (by simp [hl])
    intro i h1 h2
    simp [List.getElem?_eq_getElem h2]
  rw [hws]
  unfold localPd
  refine mapE_congr fun f _ => pdFeature_congr (A := maskRows X (List.range X.r)) (B := X)
    ⟨by simp [maskRows], rfl, fun i hi j _ => ?_⟩ _ _
  have hi : i < X.r := by simpa [maskRows] using hi
  simp [maskRows, List.getElem?_range hi]

/-- C67: if the prediction is a function of the feature plus a function of the other features, the
curve is the former up to a constant: differences along the curve are exact, whatever the
weights. -/
theorem C67_additive (wide : List K → Except Err (List K)) (pred : List K → K) (X : Mat K)
    (ws : List K) (nf : Nat) (l : List (List K × List K))
    (h : localPd wide pred X ws nf = .ok l) (f : Nat) (hf : f < nf) (g : K → K)
    (rest : List K → K)
    (ha : ∀ (r : List K) (v : K), r.length = X.c → pred (r.set f v) = g v + rest (r.set f 0)) :
    ∃ c, ∀ k < (l.getD f ([], [])).1.length,
      (l.getD f ([], [])).2.getD k 0 = g ((l.getD f ([], [])).1.getD k 0) + c := by
  obtain ⟨hc, hg, hl, hs, hv⟩ := pdFeature_ok ((localPd_ok h).2 f hf)
  generalize l.getD f ([], []) = crv at *
  refine ⟨(∑ i ∈ range X.r, rest ((X.row i).set f 0) * ws.getD i 0) / ws.sum, fun k hk => ?_⟩
  rw [hv]
  simp only [List.getD_eq_getElem?_getD, List.getElem?_map, List.getElem?_eq_getElem hk,
    Option.map_some, Option.getD_some]
  simp only [← List.getD_eq_getElem?_getD, atValue]
  have hsum := sum_eq_getD ws
  rw [hl] at hsum
  have e : ∀ v, ∑ i ∈ range X.r, pred ((X.row i).set f v) * ws.getD i 0 =
      g v * ws.sum + ∑ i ∈ range X.r, rest ((X.row i).set f 0) * ws.getD i 0 := by
    intro v
    rw [hsum, Finset.mul_sum, ← Finset.sum_add_distrib]
    exact Finset.sum_congr rfl fun i _ => by rw [ha _ _ (by simp)]; ring
  rw [e, add_div, mul_div_assoc, div_self hs, mul_one]

/-- C67: multiplying all weights by the same non-zero factor changes nothing. -/
theorem C67_scale_weights (wide : List K → Except Err (List K)) (pred : List K → K) (X : Mat K)
    (ws : List K) (nf : Nat) (c : K) (hc : c ≠ 0) :
    localPd wide pred X (ws.map fun w => c * w) nf = localPd wide pred X ws nf := by
  have hs : (ws.map fun w => c * w).sum = c * ws.sum := by
    induction ws with
    | nil => simp
    | cons a l ih => simp [ih]; ring
  have hz : ∀ col : List K, (List.zipWith (· * ·) col (ws.map fun w => c * w)).sum =
      c * (List.zipWith (· * ·) col ws).sum := by
    clear hs
    induction ws with
    | nil => intro col; simp
    | cons a l ih =>
      intro col
      cases col with
      | nil => simp
      | cons b t => simp [ih]; ring
  unfold localPd
  refine mapE_congr fun f _ => ?_
  unfold pdFeature averageColumns
  simp only [List.length_map, hs, mul_eq_zero, hc, false_or, hz]
  congr 1
  cases pdGrid wide (X.col f) with
  | error e => rfl
  | ok grid =>
    simp only
    split
    · rfl
    · split
      · rfl
      · simp only [Except.map]
        congr 2
        refine List.map_congr_left fun col _ => ?_
        rw [mul_div_mul_left _ _ hc]

/-- C67: weights that add up to zero are rejected with `ZeroDivisionError`, a wrong number of them
with `ValueError` (`IndexError` in `local_pd.py`). -/
theorem C67_rejects (wide : List K → Except Err (List K)) (pred : List K → K) (X : Mat K)
    (ws : List K) (nf : Nat) (hn : 0 < nf) (hX : 0 < X.c)
    (hg : (X.col 0).dedup.length < 100) :
    (ws.length = X.r → ws.sum = 0 → localPd wide pred X ws nf = .error .zeroDivisionError) ∧
    (ws.length ≠ X.r → localPd wide pred X ws nf = .error .valueError ∧
      localPdModule wide pred X ws = .error .indexError) := by
  have hp : (uniqueL (X.col 0)).Perm (X.col 0).dedup := (sortL_perm _).dedup
  obtain ⟨m, rfl⟩ : ∃ m, nf = m + 1 := ⟨nf - 1, by omega⟩
  have hgrid : pdGrid wide (X.col 0) = .ok (uniqueL (X.col 0)) := by
    unfold pdGrid
    rw [if_pos (by rw [hp.length_eq]; exact hg)]
  constructor
  · intro h1 h2
    have : pdFeature wide pred X ws 0 = .error .zeroDivisionError := by
      unfold pdFeature
      rw [if_neg (by omega), hgrid]
      simp [averageColumns, h1, h2, Except.map]
    unfold localPd
    rw [List.range_succ_eq_map]
    simp [mapE, this]
  · intro h1
    have : pdFeature wide pred X ws 0 = .error .valueError := by
      unfold pdFeature
      rw [if_neg (by omega), hgrid]
      simp [averageColumns, h1, Except.map]
    constructor
    · unfold localPd
      rw [List.range_succ_eq_map]
      simp [mapE, this]
    · simp [localPdModule, h1]

/-! ### the method -/

/-- C78: the only way `partial_dependence` returns: not all curves are equally long. Then the
result has one row per location with one curve per feature, computed from the location's
estimator, its neighbours and their weights; `local_partial_` is the result and `feature_partial_`
holds the same curves by feature. -/
theorem C78_result (wide : List K → Except Err (List K)) (L : Learner K F) (st : WMState K F C)
    (old : PdOut K) (l : List (List (List K × List K)))
    (h : (partialDependence wide L st old).result = .ok l) :
    ∃ N nf es X W B, st.N = some N ∧ st.nFeatures = some nf ∧ st.estimators = some es ∧
      st.X = some X ∧ st.weightMatrix = some (.dense W) ∧ st.neighbourMatrix = some (.dense B) ∧
      l.length = N ∧ (partialDependence wide L st old).localPartial = some l ∧
      (∃ a ∈ l.flatten, ∃ b ∈ l.flatten, a.1.length ≠ b.1.length) ∧
      (∀ i < N, ∃ e, es.getD i none = some e ∧
        localPd wide (L.predict e) (maskRows X (trueIdx B i)) ((trueIdx B i).map (W.get i)) nf =
          .ok (l.getD i [])) ∧
      ∃ fp, (partialDependence wide L st old).featurePartial = some fp ∧ fp.length = nf ∧
        ∀ f < nf, ∀ i < N, (fp.getD f []).getD i ([], []) = (l.getD i []).getD f ([], []) := by
  unfold partialDependence at h ⊢
  split at h
  case h_2 =>
    split at h
    · simp [pdFinish, allSameLength] at h
    · cases h
  case h_3 => cases h
  rename_i N nf es X W B e1 e2 e3 e4 e5 e6
  cases hm : mapE (pdLocation wide L X W B es nf) (List.range N) with
  | error e => rw [hm] at h; cases h
  | ok l' =>
    rw [hm] at h
    simp only [pdFinish] at h
    by_cases hs : allSameLength l' = true
    · rw [if_pos hs] at h; cases h
    rw [if_neg hs] at h
    injection h with h
    subst h
    have hlen := mapE_length hm
    rw [List.length_range] at hlen
    refine ⟨N, nf, es, X, W, B, e1, e2, e3, e4, e5, e6, hlen, ?_, ?_, ?_, ?_⟩
    · simp [pdFinish, hs]
    · unfold allSameLength at hs
      split at hs
      · exact absurd rfl hs
      · rename_i c cs heq
        simp only [List.all_eq_true, beq_iff_eq, not_forall] at hs
        obtain ⟨d, hd, hne⟩ := hs
        exact ⟨d, by rw [heq]; simp [hd], c, by rw [heq]; simp, hne⟩
    · intro i hi
      have := mapE_get hm (i := i) (by simpa using hi)
      simp only [List.getElem_range] at this
      unfold pdLocation at this
      split at this
      · cases this
      · split at this
        · cases this
        · rename_i e he
          refine ⟨e, he, ?_⟩
          rw [this]
          have hi' : i < l'.length := by omega
          simp [List.getElem?_eq_getElem hi']
    · refine ⟨(List.range nf).map fun f => l'.map fun r => r.getD f ([], []), ?_, by simp, ?_⟩
      · simp [pdFinish, hs]
      · intro f hf i hi
        have hi' : i < l'.length := by omega
        simp [List.getElem?_range hf, List.getElem?_eq_getElem hi']

/-- C78: when all curves come out equally long the call fails with `ValueError`: after it has
replaced `local_partial_`, and without touching `feature_partial_`. -/
theorem C78_equal_lengths_fail (wide : List K → Except Err (List K)) (L : Learner K F)
    (st : WMState K F C) (old : PdOut K) (N nf : Nat) (es : List (Option F)) (X W : Mat K)
    (B : Mat Bool) (h1 : st.N = some N) (h2 : st.nFeatures = some nf)
    (h3 : st.estimators = some es) (h4 : st.X = some X) (h5 : st.weightMatrix = some (.dense W))
    (h6 : st.neighbourMatrix = some (.dense B)) (l : List (List (List K × List K)))
    (hl : mapE (pdLocation wide L X W B es nf) (List.range N) = .ok l) (g : Nat)
    (hg : ∀ r ∈ l, ∀ c ∈ r, c.1.length = g) :
    (partialDependence wide L st old).result = .error .valueError ∧
    (partialDependence wide L st old).localPartial = some l ∧
    (partialDependence wide L st old).featurePartial = old.featurePartial := by
  have hs : allSameLength l = true := by
    have hg' : ∀ c ∈ l.flatten, c.1.length = g := by
      intro c hc
      obtain ⟨r, hr, hc⟩ := List.mem_flatten.1 hc
      exact hg r hr c hc
    unfold allSameLength
    split
    · rfl
    · rename_i c cs heq
      simp only [List.all_eq_true, beq_iff_eq]
      intro d hd
      rw [hg' d (by rw [heq]; simp [hd]), hg' c (by rw [heq]; simp)]
  unfold partialDependence
  simp [h1, h2, h3, h4, h5, h6, hl, pdFinish, hs]

/-- C78: in particular the call can never succeed on data where every feature takes at least 100
different values in every neighbourhood, because scikit-learn's grid then always has 100 points;
nor for a single location with a single feature. -/
theorem C78_continuous_data_fail (wide : List K → Except Err (List K)) (L : Learner K F)
    (st : WMState K F C) (old : PdOut K) (N nf : Nat) (X : Mat K) (B : Mat Bool)
    (h1 : st.N = some N) (h2 : st.nFeatures = some nf) (h4 : st.X = some X)
    (h6 : st.neighbourMatrix = some (.dense B))
    (hwide : ∀ vals g, wide vals = .ok g → g.length = 100)
    (hX : (∀ i < N, ∀ f < nf, 100 ≤ ((maskRows X (trueIdx B i)).col f).dedup.length) ∨
      (N ≤ 1 ∧ nf ≤ 1)) :
    ∀ l, (partialDependence wide L st old).result ≠ .ok l := by
  intro l h
  obtain ⟨N', nf', es, X', W, B', e1, e2, e3, e4, e5, e6, hlen, -, ⟨a, ha, b, hb, hab⟩, hloc, -⟩ :=
    C78_result wide L st old l h
  rw [h1] at e1; rw [h2] at e2; rw [h4] at e4; rw [h6] at e6
  injection e1 with e1; injection e2 with e2; injection e4 with e4; injection e6 with e6
  injection e6 with e6
  subst e1 e2 e4 e6
  have key : ∀ c ∈ l.flatten, ∃ i < N, ∃ f < nf, c = (l.getD i []).getD f ([], []) ∧
      (l.getD i []).length = nf ∧
      ∃ e, pdFeature wide (L.predict e) (maskRows X (trueIdx B i)) ((trueIdx B i).map (W.get i)) f
        = .ok c := by
    intro c hc
    obtain ⟨r, hr, hc⟩ := List.mem_flatten.1 hc
    obtain ⟨i, hi, rfl⟩ := List.getElem_of_mem hr
    obtain ⟨f, hf, rfl⟩ := List.getElem_of_mem hc
    obtain ⟨e, -, he⟩ := hloc i (by omega)
    have hli : l.getD i [] = l[i] := by simp [List.getElem?_eq_getElem hi]
    obtain ⟨p1, p2⟩ := localPd_ok he
    rw [hli] at p1 p2
    have hfn : f < nf := by omega
    have := p2 f hfn
    refine ⟨i, by omega, f, hfn, ?_, by rw [hli]; exact p1, e, ?_⟩
    · rw [hli]; simp [List.getElem?_eq_getElem hf]
    · rw [this]; simp [List.getElem?_eq_getElem hf]
  obtain ⟨i, hi, f, hf, ca, -, e, pa⟩ := key a ha
  obtain ⟨i', hi', f', hf', cb, -, e', pb⟩ := key b hb
  rcases hX with hX | ⟨hN, hnf⟩
  · have len : ∀ (i f : Nat) (c : List K × List K) (e : F), i < N → f < nf →
        pdFeature wide (L.predict e) (maskRows X (trueIdx B i)) ((trueIdx B i).map (W.get i)) f
          = .ok c → c.1.length = 100 := by
      intro i f c e hi hf hc
      obtain ⟨-, hg, -⟩ := pdFeature_ok hc
      have hp : (uniqueL ((maskRows X (trueIdx B i)).col f)).Perm
          ((maskRows X (trueIdx B i)).col f).dedup := (sortL_perm _).dedup
      unfold pdGrid at hg
      rw [if_neg (by rw [hp.length_eq]; have := hX i hi f hf; omega)] at hg
      exact hwide _ _ hg
    exact hab (by rw [len i f a e hi hf pa, len i' f' b e' hi' hf' pb])
  · have hii : i = i' := by omega
    have hff : f = f' := by omega
    subst hii hff
    exact hab (by rw [ca, cb])

/-- C78: if one location has no estimator, or its curves cannot be computed, the call raises and
leaves `local_partial_` and `feature_partial_` as they were. -/
theorem C78_failure_keeps (wide : List K → Except Err (List K)) (L : Learner K F)
    (st : WMState K F C) (old : PdOut K) (N nf : Nat) (es : List (Option F)) (X W : Mat K)
    (B : Mat Bool) (h1 : st.N = some N) (h2 : st.nFeatures = some nf)
    (h3 : st.estimators = some es) (h4 : st.X = some X) (h5 : st.weightMatrix = some (.dense W))
    (h6 : st.neighbourMatrix = some (.dense B))
    (hi : ∃ i < N, ∀ f, es.getD i none = some f → ∀ c,
      localPd wide (L.predict f) (maskRows X (trueIdx B i)) ((trueIdx B i).map (W.get i)) nf ≠
        .ok c) :
    (∃ e, (partialDependence wide L st old).result = .error e) ∧
    (partialDependence wide L st old).localPartial = old.localPartial ∧
    (partialDependence wide L st old).featurePartial = old.featurePartial := by
  obtain ⟨i, hi, hf⟩ := hi
  have hno : ∀ l, mapE (pdLocation wide L X W B es nf) (List.range N) ≠ .ok l := by
    intro l hl
    obtain ⟨c, this⟩ : ∃ c, pdLocation wide L X W B es nf i = .ok c := by
      cases hc : pdLocation wide L X W B es nf i with
      | ok c => exact ⟨c, rfl⟩
      | error e =>
        obtain ⟨e', he⟩ := mapE_error_of_mem (List.mem_range.2 hi) ⟨e, hc⟩
        rw [hl] at he
        cases he
    unfold pdLocation at this
    split at this
    · cases this
    · split at this
      · cases this
      · rename_i f he
        exact hf f he _ this
  unfold partialDependence
  simp only [h1, h2, h3, h4, h5, h6]
  cases hm : mapE (pdLocation wide L X W B es nf) (List.range N) with
  | error e => exact ⟨⟨e, rfl⟩, rfl, rfl⟩
  | ok l => exact absurd hm (hno l)

/-! ### Examples -/

/-- Three observations; the second feature is constant. -/
def pdX : Mat ℚ := ⟨3, 2, fun i j => if j = 0 then (i : ℚ) else 1⟩
/-- Estimator `e` predicts `x₀ + e x₁`. -/
def pdLearner : Learner ℚ ℚ :=
  { fit := fun _ _ _ _ => .ok 0, predict := fun e r => r.getD 0 0 + e * r.getD 1 0 }
/-- A fitted state with `nf` features, where everyone is a neighbour of everyone. -/
def pdState (nf : Nat) : WMState ℚ ℚ Unit :=
  { N := some 3, nFeatures := some nf, X := some pdX, estimators := some [some 0, some 1, some 2],
    weightMatrix := some (.dense ⟨3, 3, fun i j => if i = j then 2 else 1⟩),
    neighbourMatrix := some (.dense ⟨3, 3, fun _ _ => true⟩) }
def pdWide (_ : List ℚ) : Except Err (List ℚ) := .error .valueError

/-- The hypotheses of C67 hold: the values are weighted means, `local_pd` drops the last
observation and its grid value, weights that add up to zero raise. The method succeeds with curves
of different lengths and raises when they are all equally long. -/
example :
    localPd pdWide (pdLearner.predict 2) pdX [1, 2, 1] 2 =
      .ok [([0, 1, 2], [2, 3, 4]), ([1], [3])] ∧
    localPd pdWide (fun r => r.getD 0 0 * r.getD 0 0 * r.getD 1 0) pdX [0, 2, 1] 2 =
      .ok [([0, 1, 2], [0, 1, 4]), ([1], [2])] ∧
    localPdModule pdWide (fun r => r.getD 0 0 * r.getD 0 0 * r.getD 1 0) pdX [1, 3, 0] =
      .ok [([0, 1], [0, 1]), ([1], [3 / 4])] ∧
    localPd pdWide (pdLearner.predict 2) pdX [1, 0, -1] 2 = .error .zeroDivisionError ∧
    okAnd (partialDependence pdWide pdLearner (pdState 2) ⟨.ok [], none, none⟩).result
      (fun l => l.length == 3 && (l.getD 1 []) == [([0, 1, 2], [1, 2, 3]), ([1], [2])]) = true ∧
    (partialDependence pdWide pdLearner (pdState 1) ⟨.ok [], none, none⟩).result =
      .error .valueError := by
  decide +kernel

/-- A location without estimator: the call raises and what an earlier call recorded stays. -/
example (c : List (List (List ℚ × List ℚ))) :
    (partialDependence pdWide pdLearner { pdState 2 with estimators := some [some 0, none, some 2] }
      ⟨.ok [], some c, some c⟩).localPartial = some c :=
  (C78_failure_keeps pdWide pdLearner _ ⟨.ok [], some c, some c⟩ 3 2 [some 0, none, some 2] pdX _ _
    rfl rfl rfl rfl rfl rfl ⟨1, by norm_num, fun f h => by cases h⟩).2.1

end Geo
