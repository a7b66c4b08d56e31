import Verif.Model.CurveGrids
import Verif.Props.AleCurve
import Verif.Props.AleModel
import Verif.Props.LocalPd
import Verif.Lemmas.WeightMatrix
/-
C126 (integer features in effect curves) and C127 (the grid of partial dependence).
-/
set_option linter.unusedSectionVars false
namespace Geo
variable {K : Type} [Field K] [LinearOrder K] [IsStrictOrderedRing K] [FloorRing K] {F C S : Type}
open Finset

/-! ### C126 -/

/-- The predictor that sees the feature without what is behind the decimal point. -/
def onTruncated (feature : Nat) (pred : List K → K) (row : List K) : K :=
  pred (row.set feature (intStored (row.getD feature 0)))

/-- The same for a learner. -/
def Learner.onTruncated (L : Learner K F) (feature : Nat) : Learner K F :=
  { L with predict := fun f => Geo.onTruncated feature (L.predict f) }

theorem intStored_int (z : ℤ) : intStored (z : K) = z := by
  unfold intStored truncInt
  split <;> simp

theorem truncInt_close (v : K) : |((truncInt v : ℤ) : K) - v| < 1 := by
  unfold truncInt
  split
  · rw [abs_sub_comm, abs_of_nonneg (sub_nonneg.2 (Int.floor_le v))]
    have := Int.lt_floor_add_one v
    linarith
  · rw [abs_of_nonneg (sub_nonneg.2 (Int.le_ceil v))]
    have := Int.ceil_lt_add_one v
    linarith

theorem onTruncated_set {X : Mat K} {feature : Nat} (hf : feature < X.c) (pred : List K → K)
    (i : Nat) (v : K) :
    onTruncated feature pred ((X.row i).set feature v) =
      pred ((X.row i).set feature (intStored v)) := by
  unfold onTruncated
  rw [row_set_getD hf, List.set_set]

/-- C126: on integer features `weighted_ale` computes the curve of another predictor, the one that
sees the truncated feature, and draws it over the grid that is not truncated. -/
theorem C126_ale (X : Mat K) (feature : Nat) (pred : List K → K) (w : Option (List K))
    (normalize : Bool) (m : ℤ) :
    weightedAleInt X feature pred w normalize m =
      weightedAle X feature
        (fun row => pred (row.set feature ((truncInt (row.getD feature 0) : ℤ) : K))) w normalize m := by
  unfold weightedAleInt weightedAle
  by_cases hf : X.c ≤ feature
  · rw [if_pos hf, if_pos hf]
  rw [if_neg hf, if_neg hf]
  have e : ∀ vals i, pred (withFeatureInt X feature vals i) =
      pred ((withFeature X feature vals i).set feature
        ((truncInt ((withFeature X feature vals i).getD feature 0) : ℤ) : K)) := fun vals i =>
    (onTruncated_set (not_le.1 hf) pred i _).symm
  simp only [e]
  rfl

theorem aleWeighted_congr {q : List K} {idx : List Nat} {low high low' high' : Nat → K}
    (hl : ∀ i < idx.length, low i = low' i) (hh : ∀ i < idx.length, high i = high' i)
    (w : Option (List K)) (b : Bool) :
    aleWeighted q idx low high w b = aleWeighted q idx low' high' w b := by
  have hm : ∀ k, ∀ i ∈ members idx k, i < idx.length := fun k i hi =>
    List.mem_range.1 (List.mem_of_mem_filter hi)
  have e1 : (members idx 1).map low = (members idx 1).map low' :=
    List.map_congr_left fun i hi => hl i (hm 1 i hi)
  have e2 : ∀ k, (members idx k).map (fun i => high i - low i) =
      (members idx k).map fun i => high' i - low' i := fun k =>
    List.map_congr_left fun i hi => by rw [hl i (hm k i hi), hh i (hm k i hi)]
  unfold aleWeighted groupAverages
  simp only [e1, e2]

/-- Only the predictions with the feature at a grid point count. -/
theorem weightedAle_congr {X : Mat K} {feature : Nat} {p p' : List K → K}
    {m : ℤ} (h : ∀ q n, adaptiveGrid (X.col feature) m = .ok (q, n) → ∀ v ∈ q, ∀ i < X.r,
      p ((X.row i).set feature v) = p' ((X.row i).set feature v))
    (w : Option (List K)) (b : Bool) :
    weightedAle X feature p w b m = weightedAle X feature p' w b m := by
  unfold weightedAle
  split
  · rfl
  cases hg : adaptiveGrid (X.col feature) m with
  | error e => rfl
  | ok qn =>
  obtain ⟨q, n⟩ := qn
  simp only
  have hlen : (aleIdx q (X.col feature)).length = X.r := by simp [aleIdx, Mat.col]
  have key : ∀ (sh : Nat → Nat) (vals : List K),
      mapE (fun i => pyGet q (sh i)) (aleIdx q (X.col feature)) = .ok vals →
      ∀ i < X.r, p (withFeature X feature vals i) = p' (withFeature X feature vals i) := by
    intro sh vals hv i hi
    refine h q n hg _ ?_ i hi
    have hi' : i < (aleIdx q (X.col feature)).length := by rw [hlen]; exact hi
    have := mapE_get hv (i := i) hi'
    have hm := pyGet_mem this
    have hl := mapE_length hv
    rw [List.getD_eq_getElem _ _ (by omega)]
    exact hm
  cases hlow : mapE (fun i => pyGet q (i - 1)) (aleIdx q (X.col feature)) with
  | error e => rfl
  | ok lows =>
  cases hhigh : mapE (fun i => pyGet q i) (aleIdx q (X.col feature)) with
  | error e => rfl
  | ok highs =>
  simp only
  exact aleWeighted_congr (fun i hi => key _ _ hlow i (by omega))
    (fun i hi => key (fun i => i) _ hhigh i (by omega)) w b

/-- `weighted_ale` looks at the entries of the array only. -/
theorem weightedAle_entries {A B : Mat K} (feature : Nat) (pred : List K → K) (m : ℤ)
    (hr : A.r = B.r) (hc : A.c = B.c) (hg : ∀ i < A.r, ∀ j < A.c, A.get i j = B.get i j)
    (w : Option (List K)) (b : Bool) :
    weightedAle A feature pred w b m = weightedAle B feature pred w b m := by
  unfold weightedAle
  by_cases hf : A.c ≤ feature
  · rw [if_pos hf, if_pos (by omega)]
  rw [if_neg hf, if_neg (by omega)]
  have hcol : A.col feature = B.col feature := by
    unfold Mat.col
    rw [← hr]
    exact List.map_congr_left fun i hi => hg i (List.mem_range.1 hi) feature (by omega)
  have hrow : ∀ vals i, i < A.r → withFeature A feature vals i = withFeature B feature vals i := by
    intro vals i hi
    unfold withFeature
    rw [Mat.row_congr hc fun j hj => hg i hi j hj]
  rw [hcol]
  cases adaptiveGrid (B.col feature) m with
  | error e => rfl
  | ok qn =>
  simp only
  have hlen : (aleIdx qn.1 (B.col feature)).length = A.r := by simp [aleIdx, Mat.col, hr]
  cases mapE (fun i => pyGet qn.1 (i - 1)) (aleIdx qn.1 (B.col feature)) with
  | error e => rfl
  | ok lows =>
  cases mapE (fun i => pyGet qn.1 i) (aleIdx qn.1 (B.col feature)) with
  | error e => rfl
  | ok highs =>
  simp only
  exact aleWeighted_congr (fun i hi => by rw [hrow _ i (by omega)])
    (fun i hi => by rw [hrow _ i (by omega)]) w b

/-- C77: the curve of a location depends on its neighbours, their rows of features, their local
weights and the local estimator only. Two fitted models that agree in these have the same curve at
this location, whatever else they contain. -/
theorem C77_local {L : Learner K F} {st st' : WMState K F C} {feature : Nat}
    {curves curves' : List (List K × List K)}
    (h : localAle L st feature = .ok curves) (h' : localAle L st' feature = .ok curves')
    {es es' : List (Option F)} {X X' W W' : Mat K} {B B' : Mat Bool}
    (he : st.estimators = some es) (hX : st.X = some X) (hW : st.weightMatrix = some (.dense W))
    (hB : st.neighbourMatrix = some (.dense B))
    (he' : st'.estimators = some es') (hX' : st'.X = some X')
    (hW' : st'.weightMatrix = some (.dense W')) (hB' : st'.neighbourMatrix = some (.dense B'))
    (hr : X'.r = X.r) (hc : X'.c = X.c)
    (i : Nat) (hi : i < es.length) (hi' : i < es'.length) (hes : es'.getD i none = es.getD i none)
    (hnb : ∀ k < X.r, B'.get i k = B.get i k)
    (hdata : ∀ k < X.r, B.get i k = true → W'.get i k = W.get i k ∧
      ∀ c < X.c, X'.get k c = X.get k c) :
    curves'.getD i ([], []) = curves.getD i ([], []) := by
  unfold localAle at h h'
  rw [he, hX, hW, hB] at h
  rw [he', hX', hW', hB'] at h'
  simp only at h h'
  have l := mapE_length h
  have l' := mapE_length h'
  have g := mapE_get h (i := i) (by simpa using hi)
  have g' := mapE_get h' (i := i) (by simpa using hi')
  simp only [List.length_range] at l l'
  simp only [List.getElem_range] at g g'
  rw [List.getD_eq_getElem _ _ (by omega), List.getD_eq_getElem _ _ (by omega)]
  have key : localAleOne L X' W' B' feature i (es'.getD i none) =
      localAleOne L X W B feature i (es.getD i none) := by
    unfold localAleOne at g g' ⊢
    rw [hes] at g' ⊢
    by_cases c1 : B.r ≤ i ∨ W.r ≤ i ∨ B.c ≠ W.c ∨ B.c ≠ X.r
    · rw [if_pos c1] at g; cases g
    by_cases c2 : B'.r ≤ i ∨ W'.r ≤ i ∨ B'.c ≠ W'.c ∨ B'.c ≠ X'.r
    · rw [if_pos c2] at g'; cases g'
    rw [if_neg c1, if_neg c2]
    push Not at c1 c2
    have ht : trueIdx B' i = trueIdx B i := by
      unfold trueIdx
      rw [c1.2.2.2, c2.2.2.2, hr]
      exact List.filter_congr fun k hk => hnb k (by simpa using hk)
    have hm : ∀ k ∈ trueIdx B i, k < X.r ∧ B.get i k = true := by
      intro k hk
      simpa [trueIdx, c1.2.2.2] using hk
    have hw : (trueIdx B i).map (W'.get i) = (trueIdx B i).map (W.get i) :=
      List.map_congr_left fun k hk => (hdata k (hm k hk).1 (hm k hk).2).1
    cases es.getD i none with
    | none => rfl
    | some f =>
    simp only
    rw [ht, hw]
    refine weightedAle_entries (A := maskRows X' (trueIdx B i)) (B := maskRows X (trueIdx B i))
      feature _ 5 rfl hc ?_ _ _
    intro t ht' j hj
    have ht' : t < (trueIdx B i).length := ht'
    simp only [maskRows]
    rw [List.getD_eq_getElem _ _ ht']
    have := hm _ (List.getElem_mem ht')
    exact (hdata _ this.1 this.2).2 j (by have : j < X'.c := hj; omega)
  rw [key, g] at g'
  injection g' with g'
  exact g'.symm

/-- Changing the last observation, which is not among the neighbours of the first location. -/
example :
    okAnd (localAle alLearner { alState 5 with
      X := some { alX with get := fun i j => if i = 11 then 40 + j else alX.get i j } } 0)
      (fun r => okAnd (localAle alLearner (alState 5) 0) fun s =>
        r.getD 0 ([], []) == s.getD 0 ([], []) && r.getD 11 ([], []) != s.getD 11 ([], [])) = true := by
  decide +kernel

/-- C126: if every grid point is an integer nothing changes. -/
theorem C126_ale_whole (X : Mat K) (feature : Nat) (pred : List K → K) (w : Option (List K))
    (normalize : Bool) (m : ℤ)
    (hq : ∀ q n, adaptiveGrid (X.col feature) m = .ok (q, n) → ∀ v ∈ q, ∃ z : ℤ, v = z) :
    weightedAleInt X feature pred w normalize m = weightedAle X feature pred w normalize m := by
  by_cases hf : X.c ≤ feature
  · simp [weightedAleInt, weightedAle, hf]
  rw [C126_ale]
  refine weightedAle_congr (fun q n hg v hv i _ => ?_) w normalize
  obtain ⟨z, rfl⟩ := hq q n hg v hv
  have := onTruncated_set (not_le.1 hf) pred i (z : K)
  rw [intStored_int] at this
  exact this

/-- C126: what the curve of an additive predictor shows: the effect at the truncated grid points,
at whole numbers for the ends. -/
theorem C126_ale_additive (X : Mat K) (feature : Nat) (f : K → K) (g : List K → K) (w : List K)
    (normalize : Bool) (m : ℤ) (hm : 0 ≤ m) (q ale : List K)
    (hg : ∀ row v, g (row.set feature v) = g row)
    (h : weightedAleInt X feature (fun row => f (row.getD feature 0) + g row) (some w) normalize m =
      .ok (q, ale)) (k : Nat) (hk : k < q.length) :
    ale.getD k 0 - ale.getD 0 0 =
      f ((truncInt (q.getD k 0) : ℤ) : K) - f ((truncInt (q.getD 0 0) : ℤ) : K) := by
  have hfc : feature < X.c := by
    by_contra hc
    rw [weightedAleInt, if_pos (by omega)] at h
    cases h
  rw [C126_ale] at h
  refine C60_additive X feature (fun v => f ((truncInt v : ℤ) : K)) g w normalize m hm q ale hg ?_
    k hk
  rw [← h]
  refine weightedAle_congr (fun q n _ v _ i _ => ?_) _ _
  rw [row_set_getD hfc, List.set_set, row_set_getD hfc, hg, hg]

/-- C126: with integer features the curve of a predictor that is linear in the feature is off by the
slope times what the truncation drops: by less than one slope, and not at all only where the grid
point is an integer. The smallest and largest grid points are. -/
theorem C126_ale_linear (X : Mat K) (feature : Nat) (b : K) (g : List K → K) (w : List K)
    (normalize : Bool) (m : ℤ) (hm : 0 ≤ m) (q ale : List K)
    (hX : ∀ i < X.r, ∃ z : ℤ, X.get i feature = z)
    (hg : ∀ row v, g (row.set feature v) = g row) (hb : b ≠ 0)
    (h : weightedAleInt X feature (fun row => b * row.getD feature 0 + g row) (some w) normalize m =
      .ok (q, ale)) (k : Nat) (hk : k < q.length) :
    ale.getD k 0 - ale.getD 0 0 = b * (((truncInt (q.getD k 0) : ℤ) : K) - q.getD 0 0) ∧
    |(ale.getD k 0 - ale.getD 0 0) - b * (q.getD k 0 - q.getD 0 0)| < |b| ∧
    (ale.getD k 0 - ale.getD 0 0 = b * (q.getD k 0 - q.getD 0 0) ↔ ∃ z : ℤ, q.getD k 0 = z) ∧
    (k + 1 = q.length → ∃ z : ℤ, q.getD k 0 = z) := by
  have hv := C126_ale_additive X feature (fun v => b * v) g w normalize m hm q ale hg h k hk
  rw [C126_ale] at h
  obtain ⟨hfc, _, hbins, _⟩ := weightedAle_ok hm h
  obtain ⟨⟨a, ha, ham, _⟩, ⟨c, hc, hcm, _⟩⟩ := And.intro hbins.grid.first hbins.grid.last
  have hint : ∀ v ∈ X.col feature, ∃ z : ℤ, v = z := by
    intro v hv
    simp only [Mat.col, List.mem_map, List.mem_range] at hv
    obtain ⟨i, hi, rfl⟩ := hv
    exact hX i hi
  obtain ⟨za, hza⟩ := hint a ham
  have hq0 : q.getD 0 0 = a := by
    cases q with
    | nil => simp at ha
    | cons x l => simpa using ha
  have hlast : k + 1 = q.length → ∃ z : ℤ, q.getD k 0 = z := by
    intro hk1
    obtain ⟨zc, hzc⟩ := hint c hcm
    refine ⟨zc, ?_⟩
    rw [List.getLast?_eq_getElem?] at hc
    rw [List.getD_eq_getElem?_getD, show k = q.length - 1 by omega, hc]
    exact hzc
  have h0 : ((truncInt (q.getD 0 0) : ℤ) : K) = q.getD 0 0 := by
    rw [hq0, hza]
    exact intStored_int za
  rw [h0] at hv
  have hv' : ale.getD k 0 - ale.getD 0 0 = b * (((truncInt (q.getD k 0) : ℤ) : K) - q.getD 0 0) := by
    rw [hv]; ring
  refine ⟨hv', ?_, ?_, hlast⟩
  · rw [hv']
    have : b * (((truncInt (q.getD k 0) : ℤ) : K) - q.getD 0 0) - b * (q.getD k 0 - q.getD 0 0) =
      b * (((truncInt (q.getD k 0) : ℤ) : K) - q.getD k 0) := by ring
    rw [this, abs_mul]
    have h1 := truncInt_close (q.getD k 0)
    have h2 := abs_pos.2 hb
    nlinarith
  · rw [hv']
    constructor
    · intro he
      have := mul_left_cancel₀ hb he
      exact ⟨truncInt (q.getD k 0), by linarith⟩
    · rintro ⟨z, hz⟩
      have := intStored_int (K := K) z
      rw [hz]
      unfold intStored at this
      rw [this]

/-- C126: the same for `local_ALE`. -/
theorem C126_local (L : Learner K F) (st : WMState K F C) (feature : Nat) :
    localAleInt L st feature = localAle (L.onTruncated feature) st feature := by
  unfold localAleInt localAle
  have e : ∀ X W B i x, localAleOneInt L X W B feature i x =
      localAleOne (L.onTruncated feature) X W B feature i x := by
    intro X W B i x
    unfold localAleOneInt localAleOne
    split
    · rfl
    cases x with
    | none => rfl
    | some f => exact C126_ale _ _ _ _ _ _
  split <;> simp_all

/-- C126: the same for `global_ALE`. -/
theorem C126_global (L : Learner K F) (st : WMState K F C) (feature : Nat) :
    globalAleInt L st feature = globalAle (L.onTruncated feature) st feature := by
  unfold globalAleInt globalAle
  cases st.X with
  | none => rfl
  | some X =>
  cases st.estimators with
  | none => rfl
  | some es =>
  simp only
  by_cases hf : X.c ≤ feature
  · rw [if_pos hf, if_pos hf]
  rw [if_neg hf, if_neg hf]
  have e : ∀ lows highs i x, globalPairInt L X feature lows highs i x =
      globalPair (L.onTruncated feature) X feature lows highs i x := by
    intro lows highs i x
    unfold globalPairInt globalPair
    split
    · rfl
    cases x with
    | none => rfl
    | some f =>
      simp only [Learner.onTruncated, withFeature, withFeatureInt,
        onTruncated_set (not_le.1 hf)]
  simp only [e]
  rfl

theorem pdFeatureInt_eq (wide : List K → Except Err (List K)) (pred : List K → K) (X : Mat K)
    (ws : List K) (f : Nat) :
    pdFeatureInt wide pred X ws f = pdFeature wide (onTruncated f pred) X ws f := by
  unfold pdFeatureInt pdFeature
  by_cases hf : X.c ≤ f
  · rw [if_pos hf, if_pos hf]
  rw [if_neg hf, if_neg hf]
  have e : icePointInt X f pred = icePoint X f (onTruncated f pred) := by
    funext v
    simp only [icePointInt, icePoint, atValue, onTruncated_set (not_le.1 hf)]
  rw [e]
  rfl

/-- C126: a partial-dependence curve on integer features shows at a grid point the weighted mean
prediction at the truncated grid point. -/
theorem C126_pd (wide : List K → Except Err (List K)) (pred : List K → K) (X : Mat K)
    (ws : List K) (nf : Nat) (l : List (List K × List K))
    (h : localPdInt wide pred X ws nf = .ok l) (f : Nat) (hf : f < nf) :
    ∃ grid pd, l[f]? = some (grid, pd) ∧ pdGrid wide (X.col f) = .ok grid ∧
      pd.length = grid.length ∧ ws.sum ≠ 0 ∧
      ∀ k < grid.length, pd.getD k 0 =
        (∑ i ∈ range X.r, pred ((X.row i).set f ((truncInt (grid.getD k 0) : ℤ) : K)) *
          ws.getD i 0) / ws.sum := by
  have hl := mapE_length h
  have hf' : f < l.length := by rw [hl]; simpa using hf
  have hg := mapE_get h (i := f) (by simpa using hf)
  simp only [List.getElem_range] at hg
  rw [pdFeatureInt_eq] at hg
  obtain ⟨hc, hgrid, _, hs, hv⟩ := pdFeature_ok hg
  refine ⟨l[f].1, l[f].2, List.getElem?_eq_getElem hf', hgrid, by rw [hv]; simp, hs, ?_⟩
  intro k hk
  rw [hv, List.getD_eq_getElem _ _ (by simpa using hk), List.getD_eq_getElem _ _ hk]
  simp only [List.getElem_map, atValue, onTruncated_set hc]
  rfl

/-- C126: with fewer than 100 distinct integers in every feature the partial dependence is right. -/
theorem C126_pd_few (wide : List K → Except Err (List K)) (pred : List K → K) (X : Mat K)
    (ws : List K) (nf : Nat) (hX : ∀ i < X.r, ∀ f < nf, ∃ z : ℤ, X.get i f = z)
    (hd : ∀ f < nf, (X.col f).dedup.length < 100) :
    localPdInt wide pred X ws nf = localPd wide pred X ws nf := by
  unfold localPdInt localPd
  refine mapE_congr fun f hf => ?_
  have hf := List.mem_range.1 hf
  rw [pdFeatureInt_eq]
  unfold pdFeature
  by_cases hc : X.c ≤ f
  · rw [if_pos hc, if_pos hc]
  rw [if_neg hc, if_neg hc]
  have hp : (uniqueL (X.col f)).Perm (X.col f).dedup := (sortL_perm _).dedup
  have hgrid : pdGrid wide (X.col f) = .ok (uniqueL (X.col f)) := by
    unfold pdGrid
    rw [if_pos (by rw [hp.length_eq]; exact hd f hf)]
  rw [hgrid]
  have e : (uniqueL (X.col f)).map (icePoint X f (onTruncated f pred)) =
      (uniqueL (X.col f)).map (icePoint X f pred) := by
    refine List.map_congr_left fun v hv => ?_
    have hv := mem_uniqueL.1 hv
    simp only [Mat.col, List.mem_map, List.mem_range] at hv
    obtain ⟨i, hi, rfl⟩ := hv
    obtain ⟨z, hz⟩ := hX i hi f hf
    rw [hz]
    simp only [icePoint, atValue, onTruncated_set (not_le.1 hc), intStored_int]
  simp only [e]

/-- Twelve observations of one whole-numbered feature. -/
def exWhole : Mat ℚ := ⟨12, 1, fun i _ => i⟩

/-- On whole-numbered observations the grid need not be whole: here 0, 11/2, 11; the curve of the
identity is drawn at 5 instead of 11/2. -/
example : weightedAleInt exWhole 0 (fun row => row.getD 0 0) (some (List.replicate 12 1)) false 5 =
    .ok ([0, 11 / 2, 11], [0, 5, 11]) := by decide +kernel
example : weightedAle exWhole 0 (fun row => row.getD 0 0) (some (List.replicate 12 1)) false 5 =
    .ok ([0, 11 / 2, 11], [0, 11 / 2, 11]) := by decide +kernel
example : ∀ i < exWhole.r, ∃ z : ℤ, exWhole.get i 0 = z := fun i _ => ⟨i, by simp [exWhole]⟩
/-- Whole grid: thirteen observations. -/
example : weightedAleInt ⟨13, 1, fun i _ => (i : ℚ)⟩ 0 (fun row => row.getD 0 0)
    (some (List.replicate 13 1)) false 5 = .ok ([0, 6, 12], [0, 6, 12]) := by decide +kernel
example : localPdInt (fun _ => .error .valueError) (fun row => row.getD 0 0 * row.getD 0 0) exWhole
    (List.replicate 12 1) 1 = localPd (fun _ => .error .valueError)
      (fun row => row.getD 0 0 * row.getD 0 0) exWhole (List.replicate 12 1) 1 :=
  C126_pd_few _ _ _ _ _ (fun i _ f _ => ⟨i, by simp [exWhole]⟩) (fun f hf => by
    refine lt_of_le_of_lt (List.Sublist.length_le (List.dedup_sublist _)) ?_
    simp [exWhole, Mat.col])
/-- With the grid points 1/2 and 3/2 the values at 0 and 1 are returned. -/
example : (pdFeatureInt (fun _ => .ok [1 / 2, 3 / 2]) (fun row => row.getD 0 0)
    (⟨100, 1, fun i _ => (i : ℚ)⟩) (List.replicate 100 1) 0).map Prod.snd = .ok [0, 1] := by
  decide +kernel

/-! ### C127 -/

theorem virtMq_low (n : Nat) : virtMq n (1 / 20 : K) = (n : K) / 20 - 59 / 100 := by
  unfold virtMq; ring

theorem virtMq_high (n : Nat) : virtMq n (19 / 20 : K) = 19 * (n : K) / 20 - 41 / 100 := by
  unfold virtMq; ring

/-- Counting around an interpolated order statistic. -/
theorem lerp_counts (vals : List K) {v : K} (h0 : 0 ≤ v) (h : v < (vals.length : K) - 1) :
    v < (vals.countP fun x => decide (x ≤ lerp (fun i => (sortL vals).getD i 0) vals.length v) : Nat) ∧
    ((vals.countP fun x => decide (x < lerp (fun i => (sortL vals).getD i 0) vals.length v) : Nat) : K)
      ≤ v + 1 := by
  obtain ⟨hlo, hhi⟩ := lerp_bracket (sortL_monoTo vals) h0 h
  have hk := floor_lt_of_lt_pred h0 h
  set t := lerp (fun i => (sortL vals).getD i 0) vals.length v
  have hlen := sortL_length vals
  have hk1 : ⌊v⌋₊ + 1 < (sortL vals).length := by omega
  simp only [List.getD_eq_getElem _ _ (show ⌊v⌋₊ < (sortL vals).length by omega),
    List.getD_eq_getElem _ _ hk1] at hlo hhi
  constructor
  · have h1 := countP_le_sorted (sortL_pairwise vals) (k := ⌊v⌋₊) (by omega)
    have h2 : (sortL vals).countP (fun x => decide (x ≤ (sortL vals)[⌊v⌋₊])) ≤
        (sortL vals).countP (fun x => decide (x ≤ t)) :=
      List.countP_mono_left fun x _ hx => by
        simp only [decide_eq_true_eq] at hx ⊢
        exact hx.trans hlo
    rw [(sortL_perm vals).countP_eq (fun x => decide (x ≤ t))] at h2
    have h3 := Nat.lt_floor_add_one v
    have h4 : (⌊v⌋₊ : K) + 1 ≤ (vals.countP fun x => decide (x ≤ t) : Nat) := by
      exact_mod_cast h1.trans h2
    linarith
  · have h1 := countP_lt_sorted (sortL_pairwise vals) (k := ⌊v⌋₊ + 1) hk1
    have h2 : (sortL vals).countP (fun x => decide (x < t)) ≤
        (sortL vals).countP (fun x => decide (x < (sortL vals)[⌊v⌋₊ + 1])) :=
      List.countP_mono_left fun x _ hx => by
        simp only [decide_eq_true_eq] at hx ⊢
        exact hx.trans_le hhi
    rw [(sortL_perm vals).countP_eq (fun x => decide (x < t))] at h2
    have h3 := Nat.floor_le h0
    have h4 : ((vals.countP fun x => decide (x < t) : Nat) : K) ≤ (⌊v⌋₊ : K) + 1 := by
      exact_mod_cast h2.trans h1
    linarith

/-- The two ends of the wide grid, by counting. -/
theorem wide_ends (vals : List K) (h : 100 ≤ vals.length) :
    ((vals.length : K) / 20 - 59 / 100 <
        (vals.countP fun x => decide (x ≤ quantileVal virtMq vals (1 / 20)) : Nat) ∧
      ((vals.countP fun x => decide (x < quantileVal virtMq vals (1 / 20)) : Nat) : K) ≤
        (vals.length : K) / 20 + 41 / 100) ∧
    (19 * (vals.length : K) / 20 - 41 / 100 <
        (vals.countP fun x => decide (x ≤ quantileVal virtMq vals (19 / 20)) : Nat) ∧
      ((vals.countP fun x => decide (x < quantileVal virtMq vals (19 / 20)) : Nat) : K) ≤
        19 * (vals.length : K) / 20 + 59 / 100) := by
  have hn : (100 : K) ≤ vals.length := by exact_mod_cast h
  have h1 := lerp_counts vals (v := virtMq vals.length (1 / 20))
    (by rw [virtMq_low]; linarith) (by rw [virtMq_low]; linarith)
  have h2 := lerp_counts vals (v := virtMq vals.length (19 / 20))
    (by rw [virtMq_high]; linarith) (by rw [virtMq_high]; linarith)
  rw [show lerp (fun i => (sortL vals).getD i 0) vals.length (virtMq vals.length (1 / 20)) =
    quantileVal virtMq vals (1 / 20) from rfl, virtMq_low] at h1
  rw [show lerp (fun i => (sortL vals).getD i 0) vals.length (virtMq vals.length (19 / 20)) =
    quantileVal virtMq vals (19 / 20) from rfl, virtMq_high] at h2
  refine ⟨⟨h1.1, ?_⟩, h2.1, ?_⟩
  · linarith [h1.2]
  · linarith [h2.2]

theorem countP_ge_eq (vals : List K) (t : K) :
    (vals.countP fun x => decide (t ≤ x)) + (vals.countP fun x => decide (x < t)) =
      vals.length := by
  rw [List.length_eq_countP_add_countP fun x => decide (t ≤ x)]
  simp

theorem countP_gt_eq (vals : List K) (t : K) :
    (vals.countP fun x => decide (t < x)) + (vals.countP fun x => decide (x ≤ t)) =
      vals.length := by
  rw [List.length_eq_countP_add_countP fun x => decide (t < x)]
  simp

/-- C127: the grid for a feature with at least 100 distinct values, if there is one: 100 points at
equal distances, increasing; about a twentieth of the observations lies before the first point and
about a twentieth after the last. -/
theorem C127_wide (vals grid : List K) (hd : 100 ≤ vals.dedup.length)
    (h : pdGrid wideGrid vals = .ok grid) :
    grid.length = 100 ∧ grid.Pairwise (· < ·) ∧
    (∀ k, k + 2 < 100 →
      grid.getD (k + 2) 0 - grid.getD (k + 1) 0 = grid.getD (k + 1) 0 - grid.getD k 0) ∧
    (∀ v ∈ grid, (∃ x ∈ vals, x ≤ v) ∧ ∃ x ∈ vals, v ≤ x) ∧
    ((vals.length : K) / 20 - 59 / 100 <
        (vals.countP fun x => decide (x ≤ grid.getD 0 0) : Nat) ∧
      ((vals.countP fun x => decide (x < grid.getD 0 0) : Nat) : K) ≤
        (vals.length : K) / 20 + 41 / 100) ∧
    ((vals.length : K) / 20 - 59 / 100 ≤
        (vals.countP fun x => decide (grid.getD 99 0 ≤ x) : Nat) ∧
      ((vals.countP fun x => decide (grid.getD 99 0 < x) : Nat) : K) <
        (vals.length : K) / 20 + 41 / 100) := by
  have hp : (uniqueL vals).Perm vals.dedup := (sortL_perm _).dedup
  have hlen : 100 ≤ vals.length := hd.trans (List.Sublist.length_le (List.dedup_sublist _))
  have hn : (100 : K) ≤ vals.length := by exact_mod_cast hlen
  unfold pdGrid at h
  rw [if_neg (by rw [hp.length_eq]; omega)] at h
  unfold wideGrid at h
  split at h
  · cases h
  rename_i hcl
  injection h with h
  obtain ⟨hA, hB⟩ := wide_ends vals hlen
  set a := quantileVal virtMq vals (1 / 20)
  set b := quantileVal virtMq vals (19 / 20)
  have hab : a ≤ b := lerp_mono (sortL_monoTo vals) (by omega) (by
    rw [virtMq_low, virtMq_high]; linarith)
  have hlt : a < b := by
    refine lt_of_le_of_ne hab fun he => hcl ?_
    unfold allClose
    rw [he, sub_self, abs_zero, decide_eq_true_eq]
    positivity
  have hget : ∀ k < 100, grid.getD k 0 = a + (b - a) * ((k : K) / 99) := by
    intro k hk
    rw [← h, List.getD_eq_getElem _ _ (by simpa using hk)]
    simp
  have hg0 : grid.getD 0 0 = a := by rw [hget 0 (by norm_num)]; simp
  have hg99 : grid.getD 99 0 = b := by
    rw [hget 99 (by norm_num)]
    norm_num
  refine ⟨by rw [← h]; simp, ?_, ?_, ?_, by rw [hg0]; exact hA, ?_⟩
  · rw [← h, List.pairwise_map]
    refine List.pairwise_lt_range.imp fun {i j} hij => ?_
    have : (i : K) < j := by exact_mod_cast hij
    have h1 : 0 < b - a := sub_pos.2 hlt
    have h2 : (i : K) / 99 < j / 99 := by linarith
    have := mul_lt_mul_of_pos_left h2 h1
    linarith
  · intro k hk
    rw [hget _ hk, hget _ (by omega), hget _ (by omega)]
    push_cast
    ring
  · intro v hv
    rw [← h] at hv
    obtain ⟨k, hk, rfl⟩ := List.mem_map.1 hv
    have hk := List.mem_range.1 hk
    have hk' : (k : K) ≤ 99 := by exact_mod_cast Nat.le_of_lt_succ hk
    have h0 : (0 : K) ≤ k := Nat.cast_nonneg k
    have h1 : 0 < b - a := sub_pos.2 hlt
    have h2 : 0 ≤ (b - a) * ((k : K) / 99) := by positivity
    have h3 : (b - a) * ((k : K) / 99) ≤ b - a := by
      have := mul_le_mul_of_nonneg_left (show (k : K) / 99 ≤ 1 by linarith) h1.le
      linarith
    constructor
    · have : 0 < vals.countP fun x => decide (x ≤ a) := by
        by_contra hc
        have hz : (vals.countP fun x => decide (x ≤ a)) = 0 := by omega
        have := hA.1
        rw [hz] at this
        push_cast at this
        linarith
      obtain ⟨x, hx, hxa⟩ := List.countP_pos_iff.1 this
      exact ⟨x, hx, by have := of_decide_eq_true hxa; linarith⟩
    · have : 0 < vals.countP fun x => decide (b ≤ x) := by
        by_contra hc
        have hz : (vals.countP fun x => decide (b ≤ x)) = 0 := by omega
        have e := countP_ge_eq vals b
        rw [hz, zero_add] at e
        have := hB.2
        rw [e] at this
        linarith
      obtain ⟨x, hx, hxb⟩ := List.countP_pos_iff.1 this
      exact ⟨x, hx, by have := of_decide_eq_true hxb; linarith⟩
  · rw [hg99]
    have e1 : ((vals.countP fun x => decide (b ≤ x) : Nat) : K) +
        (vals.countP fun x => decide (x < b) : Nat) = vals.length := by
      exact_mod_cast countP_ge_eq vals b
    have e2 : ((vals.countP fun x => decide (b < x) : Nat) : K) +
        (vals.countP fun x => decide (x ≤ b) : Nat) = vals.length := by
      exact_mod_cast countP_gt_eq vals b
    constructor
    · linarith [hB.2]
    · linarith [hB.1]

/-- C127: a feature most of whose values are equal (say, zero) has no grid: `ValueError`, and no
curve of any feature at that location. -/
theorem C127_concentrated (vals : List K) (c : K) (hd : 100 ≤ vals.dedup.length)
    (hlo : ((vals.countP fun x => decide (x < c) : Nat) : K) ≤ (vals.length : K) / 20 - 59 / 100)
    (hhi : ((vals.countP fun x => decide (c < x) : Nat) : K) < (vals.length : K) / 20 - 59 / 100) :
    pdGrid wideGrid vals = .error .valueError := by
  have hp : (uniqueL vals).Perm vals.dedup := (sortL_perm _).dedup
  have hlen : 100 ≤ vals.length := hd.trans (List.Sublist.length_le (List.dedup_sublist _))
  have hn : (100 : K) ≤ vals.length := by exact_mod_cast hlen
  obtain ⟨hA, hB⟩ := wide_ends vals hlen
  have lower : ∀ t : K, (vals.length : K) / 20 - 59 / 100 <
      (vals.countP fun x => decide (x ≤ t) : Nat) → c ≤ t := by
    intro t ht
    by_contra hc
    have : vals.countP (fun x => decide (x ≤ t)) ≤ vals.countP fun x => decide (x < c) :=
      List.countP_mono_left fun x _ hx => by
        simp only [decide_eq_true_eq] at hx ⊢
        exact hx.trans_lt (not_le.1 hc)
    have : ((vals.countP fun x => decide (x ≤ t) : Nat) : K) ≤
      (vals.countP fun x => decide (x < c) : Nat) := by exact_mod_cast this
    linarith
  have upper : ∀ t : K, ((vals.countP fun x => decide (x < t) : Nat) : K) ≤
      19 * (vals.length : K) / 20 + 59 / 100 → t ≤ c := by
    intro t ht
    by_contra hc
    have : vals.countP (fun x => decide (t ≤ x)) ≤ vals.countP fun x => decide (c < x) :=
      List.countP_mono_left fun x _ hx => by
        simp only [decide_eq_true_eq] at hx ⊢
        exact (not_le.1 hc).trans_le hx
    have : ((vals.countP fun x => decide (t ≤ x) : Nat) : K) ≤
      (vals.countP fun x => decide (c < x) : Nat) := by exact_mod_cast this
    have e1 : ((vals.countP fun x => decide (t ≤ x) : Nat) : K) +
        (vals.countP fun x => decide (x < t) : Nat) = vals.length := by
      exact_mod_cast countP_ge_eq vals t
    linarith
  unfold pdGrid
  rw [if_neg (by rw [hp.length_eq]; omega)]
  unfold wideGrid
  have ha := le_antisymm (upper _ (by linarith [hA.2])) (lower _ hA.1)
  have hb := le_antisymm (upper _ hB.2) (lower _ (by linarith [hB.1]))
  rw [if_pos]
  rw [ha, hb]
  unfold allClose
  rw [sub_self, abs_zero, decide_eq_true_eq]
  positivity

/-- C127: as part of a curve: the grid is the one of the observations given, whatever the regressor
and the weights; a location where it fails has no curve. -/
theorem C127_curve (pred : List K → K) (X : Mat K) (ws : List K) (nf : Nat) :
    (∀ l, localPd wideGrid pred X ws nf = .ok l →
      ∀ f < nf, pdGrid wideGrid (X.col f) = .ok (l.getD f ([], [])).1) ∧
    ((∃ f < nf, pdGrid wideGrid (X.col f) = .error .valueError) →
      ∃ e, localPd wideGrid pred X ws nf = .error e) := by
  refine ⟨fun l h f hf => (pdFeature_ok ((localPd_ok h).2 f hf)).2.1, fun ⟨f, hf, he⟩ => ?_⟩
  cases h : localPd wideGrid pred X ws nf with
  | error e => exact ⟨e, rfl⟩
  | ok l =>
    have := (pdFeature_ok ((localPd_ok h).2 f hf)).2.1
    rw [he] at this
    cases this

/-- C127: with fewer than 100 distinct values the grid is made of these. -/
theorem C127_few (vals : List K) (hd : vals.dedup.length < 100) :
    ∃ grid, pdGrid wideGrid vals = .ok grid ∧ grid.Pairwise (· < ·) ∧ ∀ v, v ∈ grid ↔ v ∈ vals := by
  have hp : (uniqueL vals).Perm vals.dedup := (sortL_perm _).dedup
  refine ⟨uniqueL vals, ?_, uniqueL_pairwise _, fun v => mem_uniqueL⟩
  unfold pdGrid
  rw [if_pos (by rw [hp.length_eq]; exact hd)]

/-- C127: partial dependence is linear in the predictor: the curve of `a * p₁ + b * p₂` is made of
the two curves over the same grid. In particular another unit or another zero of the target changes
the curve in the same way. -/
theorem C127_superposition (p₁ p₂ : List K → K) (a b : K) (X : Mat K) (ws : List K) (nf : Nat)
    (l₁ : List (List K × List K)) (h₁ : localPd wideGrid p₁ X ws nf = .ok l₁) :
    ∃ l₂ l, localPd wideGrid p₂ X ws nf = .ok l₂ ∧
      localPd wideGrid (fun row => a * p₁ row + b * p₂ row) X ws nf = .ok l ∧
      ∀ f < nf, (l.getD f ([], [])).1 = (l₁.getD f ([], [])).1 ∧
        (l₂.getD f ([], [])).1 = (l₁.getD f ([], [])).1 ∧
        ∀ k < (l₁.getD f ([], [])).1.length, (l.getD f ([], [])).2.getD k 0 =
          a * (l₁.getD f ([], [])).2.getD k 0 + b * (l₂.getD f ([], [])).2.getD k 0 := by
  have any : ∀ p : List K → K, ∃ l, localPd wideGrid p X ws nf = .ok l := by
    intro p
    refine ⟨_, mapE_of_forall (g := fun f => ((l₁.getD f ([], [])).1,
      ((l₁.getD f ([], [])).1.map (icePoint X f p)).map
        fun c => (List.zipWith (· * ·) c ws).sum / ws.sum)) fun f hf => ?_⟩
    obtain ⟨hc, hg, hw, hs, _⟩ := pdFeature_ok ((localPd_ok h₁).2 f (List.mem_range.1 hf))
    unfold pdFeature
    rw [if_neg (by omega), hg]
    simp [averageColumns, hw, hs, Except.map]
  obtain ⟨l₂, h₂⟩ := any p₂
  obtain ⟨l, h⟩ := any fun row => a * p₁ row + b * p₂ row
  refine ⟨l₂, l, h₂, h, fun f hf => ?_⟩
  obtain ⟨_, g₁, _, hs, v₁⟩ := pdFeature_ok ((localPd_ok h₁).2 f hf)
  obtain ⟨_, g₂, _, _, v₂⟩ := pdFeature_ok ((localPd_ok h₂).2 f hf)
  obtain ⟨_, g, _, _, v⟩ := pdFeature_ok ((localPd_ok h).2 f hf)
  rw [g₁] at g₂ g
  injection g₂ with g₂
  injection g with g
  refine ⟨g.symm, g₂.symm, fun k hk => ?_⟩
  rw [v, v₁, v₂, ← g, ← g₂]
  generalize (l₁.getD f ([], [])).1 = grid at hk ⊢
  rw [List.getD_eq_getElem _ _ (by simpa using hk), List.getD_eq_getElem _ _ (by simpa using hk),
    List.getD_eq_getElem _ _ (by simpa using hk)]
  simp only [List.getElem_map]
  rw [← mul_div_assoc, ← mul_div_assoc, ← add_div, Finset.mul_sum, Finset.mul_sum,
    ← Finset.sum_add_distrib]
  congr 1
  refine Finset.sum_congr rfl fun i _ => ?_
  ring

/-- One hundred different values. -/
example : (match pdGrid wideGrid ((List.range 100).map fun k : ℕ => (k : ℚ)) with
    | .ok g => some (g.length, g.getD 0 0, g.getD 99 0)
    | .error _ => none) = some (100, 441 / 100, 9459 / 100) := by decide +kernel
/-- Two thousand zeros and the numbers from 1 to 100. -/
example : pdGrid wideGrid ((List.range 100).map (fun k : ℕ => (k : ℚ) + 1) ++ List.replicate 2000 0) =
    .error .valueError := by
  have hnd : ((List.range 100).map fun k : ℕ => (k : ℚ) + 1).Nodup :=
    List.Nodup.map (fun a b h => by simpa using h) List.nodup_range
  refine C127_concentrated _ 0 ?_ ?_ ?_
  · have hsub : ((List.range 100).map fun k : ℕ => (k : ℚ) + 1) ⊆
        ((List.range 100).map (fun k : ℕ => (k : ℚ) + 1) ++ List.replicate 2000 0).dedup := fun x hx =>
      List.mem_dedup.2 (List.mem_append_left _ hx)
    have := (List.subperm_of_subset hnd hsub).length_le
    rwa [List.length_map, List.length_range] at this
  · have h0 : ((List.range 100).map (fun k : ℕ => (k : ℚ) + 1) ++ List.replicate 2000 0).countP
        (fun x => decide (x < 0)) = 0 := by
      rw [List.countP_eq_zero]
      intro x hx
      rw [List.mem_append] at hx
      rcases hx with hx | hx
      · obtain ⟨k, _, rfl⟩ := List.mem_map.1 hx
        have : (0 : ℚ) ≤ (k : ℚ) + 1 := by positivity
        simpa using this
      · simp [List.eq_of_mem_replicate hx]
    rw [h0]
    norm_num
  · rw [List.countP_append, List.countP_eq_zero (l := List.replicate 2000 (0 : ℚ)) |>.2 (by
      intro x hx; simp [List.eq_of_mem_replicate hx])]
    have := List.countP_le_length (p := fun x => decide ((0 : ℚ) < x))
      (l := (List.range 100).map fun k : ℕ => (k : ℚ) + 1)
    have h2 : ((((List.range 100).map fun k : ℕ => (k : ℚ) + 1).countP fun x => decide (0 < x)) + 0 : ℕ) ≤
        (100 : ℕ) := by simpa using this
    have h3 : (((((List.range 100).map fun k : ℕ => (k : ℚ) + 1).countP fun x => decide (0 < x)) + 0 : ℕ) : ℚ)
        ≤ 100 := by exact_mod_cast h2
    refine lt_of_le_of_lt h3 ?_
    norm_num

end Geo
