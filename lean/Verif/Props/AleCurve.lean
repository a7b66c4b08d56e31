import Verif.Lemmas.AleCurve
/-
C59 (bins), C60 (additive effects), C61 (centring), C62 (failures), C77 (`local_ALE`) and the same
facts for `global_ALE`.
-/
set_option linter.unusedSectionVars false
namespace Geo
variable {K : Type} [Field K] [LinearOrder K] [IsStrictOrderedRing K] [FloorRing K] {F C S : Type}

/-! ### C59 -/

/-- C59: on the grid of a successful `adaptive_grid` with at least two points, every observation
lies in exactly one interval, the index computed by the code is that interval, no interval is
empty, and the interval counts add up to the number of observations. -/
theorem C59_bins_partition (X : Mat K) (feature : Nat) (m : ℤ) (hm : 0 ≤ m) (q : List K) (n : ℤ)
    (h : adaptiveGrid (X.col feature) m = .ok (q, n)) (h2 : 2 ≤ q.length) :
    (∀ i < X.r, ∃ k, (k + 1 < q.length ∧ (k = 0 ∨ q.getD k 0 < X.get i feature) ∧
        X.get i feature ≤ q.getD (k + 1) 0 ∧ q.getD k 0 ≤ X.get i feature) ∧
      (aleIdx q (X.col feature))[i]? = some (k + 1) ∧
      ∀ k', k' + 1 < q.length → (k' = 0 ∨ q.getD k' 0 < X.get i feature) →
        X.get i feature ≤ q.getD (k' + 1) 0 → k' = k) ∧
    (bincount (aleIdx q (X.col feature))).sum = X.r ∧
    (bincount (aleIdx q (X.col feature))).length = q.length ∧
    (∀ k, k + 1 < q.length → m < ((bincount (aleIdx q (X.col feature))).getD (k + 1) 0 : Nat)) ∧
    (bincount (aleIdx q (X.col feature))).getD 0 0 = 0 := by
  obtain ⟨hb, hc⟩ := adaptiveGrid_bins hm h h2
  have hlen : (aleIdx q (X.col feature)).length = X.r := by simp [aleIdx, Mat.col]
  refine ⟨fun i hi => ?_, ?_, ?_, ?_, ?_⟩
  · have hcov := hb.grid.cover (v := X.get i feature)
      (List.mem_map.2 ⟨i, List.mem_range.2 hi, rfl⟩)
    have hpos := binOf_pos q (X.get i feature)
    have hk : binOf q (X.get i feature) = (binOf q (X.get i feature) - 1) + 1 := by omega
    have hin := (binOf_eq_iff hb.grid.strict h2 hcov _).1 hk
    refine ⟨binOf q (X.get i feature) - 1, ⟨hin.1, hin.2.1, hin.2.2, ?_⟩, ?_, ?_⟩
    · rcases hin.2.1 with h0 | h0
      · obtain ⟨a, ha, _, hle⟩ := hb.grid.first
        rw [h0, List.getD_eq_getElem _ _ (by omega)]
        rw [List.head?_eq_getElem?] at ha
        obtain ⟨_, ha⟩ := List.getElem?_eq_some_iff.1 ha
        rw [ha]
        exact hle _ (List.mem_map.2 ⟨i, List.mem_range.2 hi, rfl⟩)
      · exact h0.le
    · rw [← hk, ← aleIdx_getD hi, List.getElem?_eq_getElem (by omega),
        List.getD_eq_getElem _ _ (by omega)]
    · intro k' h1 h3 h4
      have := (binOf_eq_iff hb.grid.strict h2 hcov k').2 ⟨h1, h3, h4⟩
      omega
  · rw [sum_bincount, hlen]
  · rw [hb.idx.counts.1]; omega
  · intro k hk
    rw [bincount_getD, count_eq_members, hb.members]
    exact hc k hk
  · rw [bincount_getD, List.count_eq_zero]
    intro h0
    have := (hb.idx.range 0 h0).1
    omega

/-! ### the curve -/

/-- The sum over a bin. -/
def binSum (X : Mat K) (feature : Nat) (q : List K) (k : Nat) (f : Nat → K) : K :=
  ((binMembers X feature q k).map f).sum

theorem aleWeighted_ok {q : List K} {idx : List Nat} {n : Nat} (hi : IdxSpec idx n)
    {low high : Nat → K} {weights : Option (List K)} {normalize : Bool} {r : List K × List K}
    (h : aleWeighted q idx low high weights normalize = .ok r) :
    ∃ (w accum : List K) (c : K), weights = some w ∧ w.length = idx.length ∧ r = (q, accum.map (· + c)) ∧
      StepSpec idx n (fun i => high i - low i) (fun i => w.getD i 0) accum ∧
      accum.getD 0 0 = 0 ∧
      (normalize = false → c = ((members idx 1).map fun i => w.getD i 0 * low i).sum /
        ((members idx 1).map fun i => w.getD i 0).sum) ∧
      (normalize = true → midMean idx n (accum.map (· + c)) = 0) := by
  unfold aleWeighted at h
  cases weights with
  | none => cases h
  | some w =>
  simp only at h
  by_cases hl : w.length ≠ idx.length
  · rw [if_pos hl] at h; cases h
  rw [if_neg hl] at h
  cases hb : npAverage ((members idx 1).map low) ((members idx 1).map fun i => w.getD i 0) with
  | error e => rw [hb] at h; cases h
  | ok base =>
  rw [hb] at h
  simp only at h
  cases hg : groupAverages idx (fun i => high i - low i) (fun i => w.getD i 0) with
  | error e => rw [hg] at h; cases h
  | ok avg =>
  rw [hg] at h
  simp only at h
  have hs := groupAverages_spec hi hg
  unfold aleFinish at h
  cases normalize with
  | false =>
    simp only [Bool.false_eq_true, if_false] at h
    injection h with h
    exact ⟨w, _, base, rfl, not_not.1 hl, h.symm, hs, rfl, fun _ => (npAverage_ok hb).2,
      fun hc => by cases hc⟩
  | true =>
    simp only [if_true] at h
    obtain ⟨c, hc, hmid⟩ := centre_spec hi hs.1
    rw [hc] at h
    injection h with h
    exact ⟨w, _, c, rfl, not_not.1 hl, h.symm, hs, rfl, fun hc => (by cases hc), fun _ => hmid⟩

/-- What a successful call returns. -/
theorem weightedAle_ok {X : Mat K} {feature : Nat} {pred : List K → K} {weights : Option (List K)}
    {normalize : Bool} {m : ℤ} (hm : 0 ≤ m) {q ale : List K}
    (h : weightedAle X feature pred weights normalize m = .ok (q, ale)) :
    feature < X.c ∧ (∃ n, adaptiveGrid (X.col feature) m = .ok (q, n)) ∧ BinsOk X feature q ∧
    ∃ (w accum : List K) (c : K), weights = some w ∧ w.length = X.r ∧ ale = accum.map (· + c) ∧
      accum.length = q.length ∧ accum.getD 0 0 = 0 ∧
      (∀ k, k + 1 < q.length → binSum X feature q k (fun i => w.getD i 0) ≠ 0 ∧
        accum.getD (k + 1) 0 - accum.getD k 0 =
          binSum X feature q k (fun i => w.getD i 0 *
            (pred ((X.row i).set feature (q.getD (k + 1) 0)) -
              pred ((X.row i).set feature (q.getD k 0)))) /
          binSum X feature q k (fun i => w.getD i 0)) ∧
      (normalize = false → c = binSum X feature q 0 (fun i => w.getD i 0 *
            pred ((X.row i).set feature (q.getD 0 0))) /
          binSum X feature q 0 (fun i => w.getD i 0)) ∧
      (normalize = true → ((List.range (q.length - 1)).map fun k =>
        ((binMembers X feature q k).length : K) *
          ((ale.getD k 0 + ale.getD (k + 1) 0) / 2)).sum = 0) := by
  unfold weightedAle at h
  by_cases hf : X.c ≤ feature
  · rw [if_pos hf] at h; cases h
  rw [if_neg hf] at h
  cases hg : adaptiveGrid (X.col feature) m with
  | error e => rw [hg] at h; cases h
  | ok qn =>
  obtain ⟨q', n⟩ := qn
  rw [hg] at h
  simp only at h
  cases hlow : mapE (fun i => pyGet q' (i - 1)) (aleIdx q' (X.col feature)) with
  | error e => rw [hlow] at h; cases h
  | ok lows =>
  rw [hlow] at h
  simp only at h
  cases hhigh : mapE (fun i => pyGet q' i) (aleIdx q' (X.col feature)) with
  | error e => rw [hhigh] at h; cases h
  | ok highs =>
  rw [hhigh] at h
  simp only at h
  have hr : 0 < X.r := by
    by_contra hc
    have hnil : X.col feature = [] := by simp [Mat.col]; omega
    rw [(adaptiveGrid_cases _ m).1 (Or.inr hnil)] at hg
    cases hg
  have h2 : 2 ≤ q'.length := by
    have := (grid_lookup (g := id) hhigh hr).1
    have hpos := binOf_pos q' (X.get 0 feature)
    simp only [id] at this
    omega
  obtain ⟨hb, _⟩ := adaptiveGrid_bins hm hg h2
  obtain ⟨w, accum, c, hw, hwl, hq, hs, h0, hbase, hmid⟩ := aleWeighted_ok hb.idx h
  injection hq with hq hale
  subst hq
  have hlen : (aleIdx q (X.col feature)).length = X.r := by simp [aleIdx, Mat.col]
  have hlo : ∀ {k i}, i ∈ binMembers X feature q k →
      withFeature X feature lows i = (X.row i).set feature (q.getD k 0) := by
    intro k i hi
    unfold withFeature
    rw [(grid_lookup (g := fun i => i - 1) hlow (mem_binMembers.1 hi).1).2, hb.binOf_of_mem hi]
    rfl
  have hhi : ∀ {k i}, i ∈ binMembers X feature q k →
      withFeature X feature highs i = (X.row i).set feature (q.getD (k + 1) 0) := by
    intro k i hi
    unfold withFeature
    rw [(grid_lookup (g := id) hhigh (mem_binMembers.1 hi).1).2, hb.binOf_of_mem hi]
    rfl
  refine ⟨by omega, ⟨n, rfl⟩, hb, w, accum, c, hw, hwl.trans hlen, hale, by rw [hs.1]; omega, h0,
    fun k hk => ?_, fun hn => ?_, fun hn => ?_⟩
  · obtain ⟨e1, e2⟩ := hs.2 k (by omega)
    rw [hb.members] at e1 e2
    refine ⟨e1, e2.trans ?_⟩
    unfold binSum
    congr 2
    apply List.map_congr_left
    intro i hi
    simp only
    rw [hlo hi, hhi hi]
  · rw [hbase hn, show (1 : Nat) = 0 + 1 from rfl, hb.members]
    unfold binSum
    congr 2
    apply List.map_congr_left
    intro i hi
    rw [hlo hi]
  · have := hmid hn
    unfold midMean at this
    simp only [hb.members] at this
    rw [hale]
    exact this

theorem getD_map_add {l : List K} {c : K} {k : Nat} (hk : k < l.length) :
    (l.map (· + c)).getD k 0 = l.getD k 0 + c := by
  rw [List.getD_eq_getElem _ _ (by simpa using hk), List.getD_eq_getElem _ _ hk]
  simp

/-- C59: the curve has one value per grid point. C60: the step from one grid point to the next is
the weighted average, over the observations in the interval, of the difference of the predictions
with the feature moved to the two ends of the interval. -/
theorem C60_steps (X : Mat K) (feature : Nat) (pred : List K → K) (w : List K)
    (normalize : Bool) (m : ℤ) (hm : 0 ≤ m) (q ale : List K)
    (h : weightedAle X feature pred (some w) normalize m = .ok (q, ale)) :
    ale.length = q.length ∧ 2 ≤ q.length ∧ ∀ k, k + 1 < q.length →
      binSum X feature q k (fun i => w.getD i 0) ≠ 0 ∧
      ale.getD (k + 1) 0 - ale.getD k 0 =
        binSum X feature q k (fun i => w.getD i 0 *
          (pred ((X.row i).set feature (q.getD (k + 1) 0)) -
            pred ((X.row i).set feature (q.getD k 0)))) /
        binSum X feature q k (fun i => w.getD i 0) := by
  obtain ⟨_, _, hb, w', accum, c, hw, _, rfl, hl, h0, hs, _⟩ := weightedAle_ok hm h
  injection hw with hw
  subst hw
  refine ⟨by simp [hl], hb.two, fun k hk => ⟨(hs k hk).1, ?_⟩⟩
  rw [getD_map_add (by omega), getD_map_add (by omega), ← (hs k hk).2]
  ring

/-- C59: the number of values of the curve. -/
theorem C59_one_value_per_grid_point (X : Mat K) (feature : Nat) (pred : List K → K)
    (w : Option (List K)) (normalize : Bool) (m : ℤ) (hm : 0 ≤ m) (q ale : List K)
    (h : weightedAle X feature pred w normalize m = .ok (q, ale)) : ale.length = q.length := by
  obtain ⟨_, _, hb, w', accum, c, hw, _, rfl, hl, _⟩ := weightedAle_ok hm h
  simp [hl]

theorem sum_pos_of_pos {l : List K} (h : ∀ x ∈ l, 0 < x) (hl : l ≠ []) : 0 < l.sum := by
  induction l with
  | nil => exact absurd rfl hl
  | cons a l ih =>
    rw [List.sum_cons]
    by_cases hl : l = []
    · subst hl; simpa using h a (by simp)
    · exact add_pos (h a (by simp)) (ih (fun x hx => h x (by simp [hx])) hl)

theorem binSum_const {X : Mat K} {feature : Nat} {q : List K} {k : Nat} {w f : Nat → K} {c : K}
    (h0 : binSum X feature q k w ≠ 0)
    (hf : ∀ i ∈ binMembers X feature q k, f i = c) :
    binSum X feature q k (fun i => w i * f i) / binSum X feature q k w = c := by
  have : binSum X feature q k (fun i => w i * f i) = binSum X feature q k w * c := by
    unfold binSum
    revert hf
    generalize binMembers X feature q k = l
    intro hf
    induction l with
    | nil => simp
    | cons a l ih =>
      simp only [List.map_cons, List.sum_cons, hf a (by simp), ih fun i hi => hf i (by simp [hi])]
      ring
  rw [this, mul_div_cancel_left₀ _ h0]

/-- Steps that are differences of a function of the grid points add up. -/
theorem steps_telescope {q ale : List K} {f : K → K}
    (h : ∀ k, k + 1 < q.length → ale.getD (k + 1) 0 - ale.getD k 0 =
      f (q.getD (k + 1) 0) - f (q.getD k 0)) (k : Nat) (hk : k < q.length) :
    ale.getD k 0 - ale.getD 0 0 = f (q.getD k 0) - f (q.getD 0 0) := by
  induction k with
  | zero => simp
  | succ k ih =>
    have h1 := ih (by omega)
    have h2 := h k hk
    linarith

theorem row_set_getD {X : Mat K} {i feature : Nat} (hf : feature < X.c) (v : K) :
    ((X.row i).set feature v).getD feature 0 = v := by
  rw [List.getD_eq_getElem _ _ (by simpa [Mat.row] using hf)]
  simp

/-- C60: an additive predictor is recovered exactly, for every weighting and with or without
normalisation: the curve differences are those of the feature's own effect. -/
theorem C60_additive (X : Mat K) (feature : Nat) (f : K → K) (g : List K → K) (w : List K)
    (normalize : Bool) (m : ℤ) (hm : 0 ≤ m) (q ale : List K)
    (hg : ∀ row v, g (row.set feature v) = g row)
    (h : weightedAle X feature (fun row => f (row.getD feature 0) + g row) (some w) normalize m =
      .ok (q, ale)) (k : Nat) (hk : k < q.length) :
    ale.getD k 0 - ale.getD 0 0 = f (q.getD k 0) - f (q.getD 0 0) := by
  obtain ⟨hl, h2, hs⟩ := C60_steps X feature _ w normalize m hm q ale h
  have hfc := (weightedAle_ok hm h).1
  refine steps_telescope (fun k hk => ?_) k hk
  rw [(hs k hk).2]
  apply binSum_const (hs k hk).1
  intro i _
  rw [row_set_getD hfc, row_set_getD hfc, hg, hg]
  ring

/-- C60: the curve of a predictor that ignores the feature is flat. -/
theorem C60_ignored_feature (X : Mat K) (feature : Nat) (pred : List K → K) (w : List K)
    (normalize : Bool) (m : ℤ) (hm : 0 ≤ m) (q ale : List K)
    (hg : ∀ row v, pred (row.set feature v) = pred row)
    (h : weightedAle X feature pred (some w) normalize m = .ok (q, ale)) (k : Nat)
    (hk : k < q.length) : ale.getD k 0 = ale.getD 0 0 := by
  have := C60_additive X feature (fun _ => 0) pred w normalize m hm q ale hg (by simpa using h) k hk
  simpa [sub_eq_zero] using this

/-- C60: the curve that is not normalised starts at the weighted mean prediction of the first
interval, with the feature moved to the smallest grid point. -/
theorem C60_start (X : Mat K) (feature : Nat) (pred : List K → K) (w : List K)
    (m : ℤ) (hm : 0 ≤ m) (q ale : List K)
    (h : weightedAle X feature pred (some w) false m = .ok (q, ale)) :
    ale.getD 0 0 = binSum X feature q 0 (fun i => w.getD i 0 *
        pred ((X.row i).set feature (q.getD 0 0))) /
      binSum X feature q 0 (fun i => w.getD i 0) := by
  obtain ⟨_, _, hb, w', accum, c, hw, _, rfl, hl, h0, hs, hc, _⟩ := weightedAle_ok hm h
  injection hw with hw
  subst hw
  have := hb.two
  rw [getD_map_add (by omega), h0, hc rfl]
  ring

/-! ### C61 -/

/-- C61: the normalised curve is centred: the mean of the interval midpoints, weighted by the
number of observations in the interval, is zero. -/
theorem C61_centred (X : Mat K) (feature : Nat) (pred : List K → K) (w : Option (List K))
    (m : ℤ) (hm : 0 ≤ m) (q ale : List K)
    (h : weightedAle X feature pred w true m = .ok (q, ale)) :
    ((List.range (q.length - 1)).map fun k => ((binMembers X feature q k).length : K) *
      ((ale.getD k 0 + ale.getD (k + 1) 0) / 2)).sum = 0 := by
  obtain ⟨_, _, _, _, _, _, _, _, _, _, _, _, _, hc⟩ := weightedAle_ok hm h
  exact hc rfl

/-- Success does not depend on the normalisation, which only shifts the curve. -/
theorem aleFinish_cases {idx : List Nat} {n : Nat} (hi : IdxSpec idx n) (q : List K) (base : K)
    {accum : List K} (hl : accum.length = n + 1) (b : Bool) :
    ∃ c, aleFinish q b base (bincount idx) accum = .ok (q, accum.map (· + c)) := by
  unfold aleFinish
  cases b with
  | false => exact ⟨base, rfl⟩
  | true =>
    obtain ⟨c, hc, _⟩ := centre_spec hi hl
    refine ⟨c, ?_⟩
    rw [if_pos rfl, hc]
    rfl

/-- C61: normalising does not change the grid, whether the call succeeds, or which exception is
raised, and shifts the curve by a constant. -/
theorem C61_normalise_shifts (X : Mat K) (feature : Nat) (pred : List K → K)
    (w : Option (List K)) (m : ℤ) (hm : 0 ≤ m) :
    (∃ e, weightedAle X feature pred w true m = .error e ∧
      weightedAle X feature pred w false m = .error e) ∨
    ∃ q ale c, weightedAle X feature pred w false m = .ok (q, ale) ∧
      weightedAle X feature pred w true m = .ok (q, ale.map (· + c)) := by
  unfold weightedAle
  by_cases hf : X.c ≤ feature
  · exact Or.inl ⟨_, by rw [if_pos hf], by rw [if_pos hf]⟩
  rw [if_neg hf, if_neg hf]
  cases hg : adaptiveGrid (X.col feature) m with
  | error e => exact Or.inl ⟨e, rfl, rfl⟩
  | ok qn =>
  obtain ⟨q, n⟩ := qn
  simp only
  cases hlow : mapE (fun i => pyGet q (i - 1)) (aleIdx q (X.col feature)) with
  | error e => exact Or.inl ⟨e, rfl, rfl⟩
  | ok lows =>
  simp only
  cases hhigh : mapE (fun i => pyGet q i) (aleIdx q (X.col feature)) with
  | error e => exact Or.inl ⟨e, rfl, rfl⟩
  | ok highs =>
  simp only
  unfold aleWeighted
  cases w with
  | none => exact Or.inl ⟨_, rfl, rfl⟩
  | some w =>
  simp only
  split
  · exact Or.inl ⟨_, rfl, rfl⟩
  cases npAverage ((members (aleIdx q (X.col feature)) 1).map
      fun i => pred (withFeature X feature lows i))
      ((members (aleIdx q (X.col feature)) 1).map fun i => w.getD i 0) with
  | error e => exact Or.inl ⟨e, rfl, rfl⟩
  | ok base =>
  simp only
  cases hga : groupAverages (aleIdx q (X.col feature))
      (fun i => pred (withFeature X feature highs i) - pred (withFeature X feature lows i))
      (fun i => w.getD i 0) with
  | error e => exact Or.inl ⟨e, rfl, rfl⟩
  | ok avg =>
  right
  simp only
  have hr : 0 < X.r := by
    by_contra hc
    have hnil : X.col feature = [] := by simp [Mat.col]; omega
    rw [(adaptiveGrid_cases _ m).1 (Or.inr hnil)] at hg
    cases hg
  have h2 : 2 ≤ q.length := by
    have := (grid_lookup (g := id) hhigh hr).1
    have hpos := binOf_pos q (X.get 0 feature)
    simp only [id] at this
    omega
  obtain ⟨hb, _⟩ := adaptiveGrid_bins hm hg h2
  have hs := groupAverages_spec hb.idx hga
  obtain ⟨c1, hc1⟩ := aleFinish_cases hb.idx q base hs.1 false
  obtain ⟨c2, hc2⟩ := aleFinish_cases hb.idx q base hs.1 true
  refine ⟨q, _, c2 - c1, hc1, hc2.trans ?_⟩
  congr 2
  rw [List.map_map]
  apply List.map_congr_left
  intro a _
  simp

/-! ### C62 -/

/-- C62: a missing column raises `IndexError`. -/
theorem C62_missing_column (X : Mat K) (feature : Nat) (pred : List K → K) (w : Option (List K))
    (b : Bool) (m : ℤ) (h : X.c ≤ feature) :
    weightedAle X feature pred w b m = .error .indexError := by
  simp [weightedAle, h]

/-- C62: with at most `min_bin_points` observations, or none, `ValueError`. -/
theorem C62_too_few (X : Mat K) (feature : Nat) (pred : List K → K) (w : Option (List K))
    (b : Bool) (m : ℤ) (hf : feature < X.c) (h : (X.r : ℤ) ≤ m ∨ X.r = 0) :
    weightedAle X feature pred w b m = .error .valueError := by
  unfold weightedAle
  rw [if_neg (by omega), (adaptiveGrid_cases _ m).1]
  rcases h with h | h
  · left; simpa [Mat.col] using h
  · right; simp [Mat.col, h]

/-- C62: a constant feature, or no more than two observations, raises. -/
theorem C62_degenerate (X : Mat K) (feature : Nat) (pred : List K → K) (w : Option (List K))
    (b : Bool) (m : ℤ) (hf : feature < X.c) (hm : m < X.r) (h0 : 0 < X.r)
    (h : X.r ≤ 2 ∨ ∀ i < X.r, ∀ j < X.r, X.get i feature = X.get j feature) :
    weightedAle X feature pred w b m = .error .indexError := by
  have hv : X.col feature ≠ [] := by simp [Mat.col]; omega
  have hlen : (X.col feature).length = X.r := by simp [Mat.col]
  obtain ⟨n, h1, _, _, hg⟩ := (adaptiveGrid_cases (X.col feature) m).2 (by rw [hlen]; exact hm) hv
  have hq : (uniqueL ((List.range n).map (gridPoint (X.col feature) n))).length ≤ 1 := by
    rcases h with h | h
    · refine (List.Sublist.length_le (List.dedup_sublist _)).trans ?_
      simp; omega
    · by_contra hc
      have hmem : ∀ x ∈ uniqueL ((List.range n).map (gridPoint (X.col feature) n)),
          x = X.get 0 feature := by
        intro x hx
        obtain ⟨j, _, rfl⟩ := List.mem_map.1 (mem_uniqueL.1 hx)
        obtain ⟨a, ha, b, hb, e1, e2, _⟩ := quantileVal_between virtLinear
          ((j : K) / ((n - 1 : Nat) : K)) (List.length_pos_iff.2 hv)
        obtain ⟨i, hi, rfl⟩ := List.mem_map.1 ha
        obtain ⟨i', hi', rfl⟩ := List.mem_map.1 hb
        rw [h i (List.mem_range.1 hi) 0 h0] at e1
        rw [h i' (List.mem_range.1 hi') 0 h0] at e2
        exact le_antisymm e2 e1
      have hp := List.pairwise_iff_getElem.1
        (uniqueL_pairwise ((List.range n).map (gridPoint (X.col feature) n))) 0 1 (by omega)
        (by omega) (by omega)
      rw [hmem _ (List.getElem_mem _), hmem _ (List.getElem_mem _)] at hp
      exact lt_irrefl _ hp
  unfold weightedAle
  rw [if_neg (by omega), hg]
  simp only
  have key : ∀ (q : List K), q.length ≤ 1 → ∀ r, mapE (fun i => pyGet q i)
      (aleIdx q (X.col feature)) ≠ .ok r := by
    intro q hq r hr
    have := (grid_lookup (g := id) hr h0).1
    have := binOf_pos q (X.get 0 feature)
    simp only [id] at *
    omega
  have herr : ∀ (q : List K) (g : Nat → Nat) (l : List Nat) (e : Err),
      mapE (fun i => pyGet q (g i)) l = .error e → e = .indexError := by
    intro q g l e
    induction l with
    | nil => intro h; cases h
    | cons a l ih =>
      intro h
      simp only [mapE] at h
      split at h
      · rename_i e' he
        injection h with h
        subst h
        unfold pyGet at he
        split at he
        · cases he
        · injection he with he; exact he.symm
      · split at h
        · rename_i h'
          injection h with h
          subst h
          exact ih h'
        · cases h
  cases hlow : mapE (fun i => pyGet (uniqueL ((List.range n).map (gridPoint (X.col feature) n)))
      (i - 1)) (aleIdx (uniqueL ((List.range n).map (gridPoint (X.col feature) n)))
        (X.col feature)) with
  | error e =>
    have := herr _ (fun i => i - 1) _ _ hlow
    subst this
    rfl
  | ok lows =>
    simp only
    cases hhigh : mapE (fun i => pyGet (uniqueL ((List.range n).map (gridPoint (X.col feature) n)))
        i) (aleIdx (uniqueL ((List.range n).map (gridPoint (X.col feature) n)))
          (X.col feature)) with
    | error e =>
      have := herr _ id _ _ hhigh
      subst this
      rfl
    | ok highs => exact absurd hhigh (key _ hq _)

/-- C62: in all other cases the call succeeds when the weights are positive, raises `TypeError`
without weights (the default), and `IndexError` when their number is wrong. -/
theorem C62_succeeds (X : Mat K) (feature : Nat) (pred : List K → K) (b : Bool) (m : ℤ)
    (hf : feature < X.c) (hm0 : 0 ≤ m) (hm : m < X.r) (h3 : 3 ≤ X.r)
    (hne : ∃ i < X.r, ∃ j < X.r, X.get i feature ≠ X.get j feature) :
    weightedAle X feature pred none b m = .error .typeError ∧
    (∀ w, w.length ≠ X.r → weightedAle X feature pred (some w) b m = .error .indexError) ∧
    (∀ w, w.length = X.r → (∀ x ∈ w, 0 < x) →
      ∃ q ale, weightedAle X feature pred (some w) b m = .ok (q, ale)) := by
  have hv : X.col feature ≠ [] := by simp [Mat.col]; omega
  have hlen : (X.col feature).length = X.r := by simp [Mat.col]
  obtain ⟨n, h1, h2, _, hg⟩ := (adaptiveGrid_cases (X.col feature) m).2 (by rw [hlen]; exact hm) hv
  have h2 := h2 (by omega)
  have hgs := gridSpec hv h2
  have hq2 : 2 ≤ (uniqueL ((List.range n).map (gridPoint (X.col feature) n))).length := by
    apply hgs.length
    obtain ⟨i, hi, j, hj, hij⟩ := hne
    exact ⟨_, List.mem_map.2 ⟨i, List.mem_range.2 hi, rfl⟩, _,
      List.mem_map.2 ⟨j, List.mem_range.2 hj, rfl⟩, hij⟩
  obtain ⟨hb, _⟩ := adaptiveGrid_bins hm0 hg hq2
  generalize hqq : uniqueL ((List.range n).map (gridPoint (X.col feature) n)) = q at *
  obtain ⟨lows, hlow⟩ := grid_lookup_ok hb (g := fun i => i - 1) (fun k => Nat.sub_le k 1)
  obtain ⟨highs, hhigh⟩ := grid_lookup_ok hb (g := fun i => i) (fun k => le_rfl)
  have hidx : (aleIdx q (X.col feature)).length = X.r := by simp [aleIdx, Mat.col]
  have hun : ∀ w, weightedAle X feature pred w b m = aleWeighted q (aleIdx q (X.col feature))
      (fun i => pred (withFeature X feature lows i))
      (fun i => pred (withFeature X feature highs i)) w b := by
    intro w
    unfold weightedAle
    rw [if_neg (by omega), hg]
    simp only
    rw [hlow]
    simp only
    rw [hhigh]
  refine ⟨by rw [hun]; rfl, fun w hw => ?_, fun w hw hpos => ?_⟩
  · rw [hun]
    unfold aleWeighted
    simp only
    rw [if_pos (by rw [hidx]; exact hw)]
  · have hsum : ∀ k < q.length - 1, ((members (aleIdx q (X.col feature)) (k + 1)).map
        fun i => w.getD i 0).sum ≠ 0 := by
      intro k hk
      apply ne_of_gt
      apply sum_pos_of_pos
      · intro x hx
        obtain ⟨i, hi, rfl⟩ := List.mem_map.1 hx
        have : i < w.length := by
          have := List.mem_range.1 (List.mem_filter.1 hi).1
          omega
        rw [List.getD_eq_getElem _ _ this]
        exact hpos _ (List.getElem_mem this)
      · simp only [ne_eq, List.map_eq_nil_iff]
        exact members_ne (hb.idx.all k hk)
    have havg : ∀ (k : Nat) (f : Nat → K), k < q.length - 1 → ∃ x,
        npAverage ((members (aleIdx q (X.col feature)) (k + 1)).map f)
          ((members (aleIdx q (X.col feature)) (k + 1)).map fun i => w.getD i 0) = .ok x := by
      intro k f hk
      unfold npAverage
      rw [if_neg (hsum k hk)]
      exact ⟨_, rfl⟩
    rw [hun]
    unfold aleWeighted
    simp only
    rw [if_neg (by rw [hidx]; exact not_not.2 hw)]
    obtain ⟨base, hbase⟩ := havg 0 (fun i => pred (withFeature X feature lows i)) (by omega)
    simp only [Nat.zero_add] at hbase
    rw [hbase]
    simp only
    cases hga : groupAverages (aleIdx q (X.col feature))
        (fun i => pred (withFeature X feature highs i) - pred (withFeature X feature lows i))
        (fun i => w.getD i 0) with
    | error e =>
      exfalso
      unfold groupAverages at hga
      rw [hb.idx.groups] at hga
      rw [mapE_of_forall (g := fun k => match npAverage ((members (aleIdx q (X.col feature)) k).map
          (fun i => pred (withFeature X feature highs i) - pred (withFeature X feature lows i)))
          ((members (aleIdx q (X.col feature)) k).map fun i => w.getD i 0) with
            | .ok x => x | .error _ => 0)] at hga
      · cases hga
      · intro a ha
        obtain ⟨k, hk, rfl⟩ := List.mem_map.1 ha
        obtain ⟨x, hx⟩ := havg k (fun i => pred (withFeature X feature highs i) -
          pred (withFeature X feature lows i)) (List.mem_range.1 hk)
        rw [hx]
    | ok avg =>
      simp only
      obtain ⟨c, hc⟩ := aleFinish_cases hb.idx q base (groupAverages_spec hb.idx hga).1 b
      exact ⟨_, _, hc⟩

end Geo
