import Verif.Props.RowOrder
import Verif.Props.Superposition
import Verif.Props.AleModel
import Verif.Props.Reach
import Verif.Model.CurveGrids
/-
C147: effect curves do not depend on the order of the observations.
-/
set_option linter.unusedSectionVars false
namespace Geo
variable {K : Type} [Field K] [LinearOrder K] [IsStrictOrderedRing K] [FloorRing K]
  {F C S : Type}

/-! ### The grid -/

theorem uniqueL_perm {α : Type} [LinearOrder α] {l l' : List α} (h : l'.Perm l) : uniqueL l' = uniqueL l := by
  unfold uniqueL
  rw [sortL_eq_of_perm h]

theorem getQuantiles_perm {l l' : List K} (h : l'.Perm l) (n : ℤ) : getQuantiles l' n = getQuantiles l n := by
  unfold getQuantiles
  have : npQuantile virtLinear l' = npQuantile (K := K) virtLinear l := funext fun q => npQuantile_perm h q
  rw [this]

theorem foldr_max_perm {l l' : List Nat} (h : l'.Perm l) : l'.foldr max 0 = l.foldr max 0 := by
  have : LeftCommutative (max : Nat → Nat → Nat) := ⟨fun a b c => by omega⟩
  exact h.foldr_eq 0

theorem bincount_perm {l l' : List Nat} (h : l'.Perm l) : bincount l' = bincount l := by
  unfold bincount
  have : l' = [] ↔ l = [] := by rw [← List.length_eq_zero_iff, ← List.length_eq_zero_iff, h.length_eq]
  rw [foldr_max_perm h]
  simp only [this, h.count_eq]

theorem minimumSatisfied_perm {l l' : List K} (h : l'.Perm l) (m n : ℤ) :
    minimumSatisfied l' m n = minimumSatisfied l m n := by
  unfold minimumSatisfied
  rw [getQuantiles_perm h]
  cases getQuantiles l n with
  | error e => rfl
  | ok qs =>
    simp only
    rw [aleIdx_eq, aleIdx_eq, bincount_perm (h.map _)]

/-- The grid depends on the values only, not on their order. -/
theorem adaptiveGrid_perm {l l' : List K} (h : l'.Perm l) (m : ℤ) : adaptiveGrid l' m = adaptiveGrid l m := by
  unfold adaptiveGrid
  have : minimumNotSatisfied l' m = minimumNotSatisfied (K := K) l m := funext fun n => by
    unfold minimumNotSatisfied
    rw [minimumSatisfied_perm h]
  rw [this, h.length_eq]
  simp only [getQuantiles_perm h]

/-! ### Averages over the members of an interval -/

/-- Positions read off a list and filtered by what is there. -/
theorem members_read {α β : Type} (l : List α) (κ : α → Nat) (k : Nat) (d : α) (g : Nat → β) (g' : α → β)
    (hg : ∀ (i : Nat) (h : i < l.length), g i = g' l[i]) :
    (members (l.map κ) k).map g = (l.filter fun a => κ a == k).map g' := by
  have e : l = (List.range l.length).map fun i => l.getD i d := by
    apply List.ext_getElem
    · simp
    · intro i h1 h2
      simp [h1]
  conv_rhs => rw [e, List.filter_map, List.map_map]
  unfold members
  rw [List.length_map]
  have hf : (List.range l.length).filter (fun i => (l.map κ).getD i 0 == k) =
      (List.range l.length).filter ((fun a => κ a == k) ∘ fun i => l.getD i d) := by
    refine List.filter_congr fun i hi => ?_
    have hi := List.mem_range.1 hi
    simp [hi]
  rw [hf]
  refine List.map_congr_left fun i hi => ?_
  have hi := List.mem_range.1 (List.mem_filter.1 hi).1
  rw [hg i hi, Function.comp, List.getD_eq_getElem _ _ hi]

theorem npAverage_perm {α : Type} {l l' : List α} (h : l'.Perm l) (f g : α → K) :
    npAverage (l'.map f) (l'.map g) = npAverage (l.map f) (l.map g) := by
  unfold npAverage
  have e : ∀ l : List α, List.zipWith (· * ·) (l.map f) (l.map g) = l.map fun a => f a * g a := by
    intro l
    rw [List.zipWith_map]
    induction l with
    | nil => rfl
    | cons a l ih => simp
  rw [e, e, (h.map g).sum_eq, (h.map fun a => f a * g a).sum_eq]

theorem mapE_pyGet (q : List K) (g : Nat → Nat) (l : List Nat) :
    mapE (fun i => pyGet q (g i)) l =
      if l.any (fun i => decide (q.length ≤ g i)) then .error .indexError else .ok (l.map fun i => q.getD (g i) 0) := by
  induction l with
  | nil => rfl
  | cons a l ih =>
    rw [mapE, ih]
    by_cases h : q.length ≤ g a
    · simp [pyGet, h]
    · have h' : g a < q.length := by omega
      simp only [pyGet, List.getElem?_eq_getElem h', List.any_cons, h, decide_false, Bool.false_or,
        List.map_cons, List.getD_eq_getElem _ _ h']
      by_cases hl : (l.any fun i => decide (q.length ≤ g i)) = true
      · simp [hl]
      · simp [hl]

/-! ### The curve as a function of the observations -/

/-- The curve of weighted observations (row of features, weight) given as a list. -/
def curveOf (feature : Nat) (pred : List K → K) (normalize : Bool) (m : ℤ) (l : List (List K × K)) :
    Except Err (List K × List K) :=
  match adaptiveGrid (l.map fun o => o.1.getD feature 0) m with
  | .error e => .error e
  | .ok (q, _) =>
    let κ := fun o : List K × K => binOf q (o.1.getD feature 0)
    let at_ := fun (d : Nat) (o : List K × K) => pred (o.1.set feature (q.getD (κ o - d) 0))
    if (l.map κ).any (fun i => decide (q.length ≤ i - 1)) then .error .indexError
    else if (l.map κ).any (fun i => decide (q.length ≤ i)) then .error .indexError
    else
      match npAverage ((l.filter fun o => κ o == 1).map (at_ 1)) ((l.filter fun o => κ o == 1).map Prod.snd) with
      | .error e => .error e
      | .ok base =>
        match mapE (fun k => npAverage ((l.filter fun o => κ o == k).map fun o => at_ 0 o - at_ 1 o)
            ((l.filter fun o => κ o == k).map Prod.snd)) (uniqueL (l.map κ)) with
        | .error e => .error e
        | .ok avg => aleFinish q normalize base (bincount (l.map κ)) (accumulate avg)

/-- The observations of a call. -/
def observations (X : Mat K) (w : List K) : List (List K × K) := (List.range X.r).map fun i => (X.row i, w.getD i 0)

theorem row_getD (X : Mat K) (i : Nat) {f : Nat} (h : f < X.c) : (X.row i).getD f 0 = X.get i f := by
  simp [Mat.row, h]

theorem weightedAle_eq_curveOf (X : Mat K) (feature : Nat) (hf : feature < X.c) (pred : List K → K) (w : List K)
    (hw : w.length = X.r) (normalize : Bool) (m : ℤ) :
    weightedAle X feature pred (some w) normalize m = curveOf feature pred normalize m (observations X w) := by
  have hcol : X.col feature = (observations X w).map fun o => o.1.getD feature 0 := by
    unfold observations Mat.col
    rw [List.map_map]
    exact List.map_congr_left fun i _ => (row_getD X i hf).symm
  have hlen : (observations X w).length = X.r := by simp [observations]
  have hget : ∀ (i : Nat) (h : i < (observations X w).length), (observations X w)[i] = (X.row i, w.getD i 0) := by
    intro i h
    simp [observations]
  unfold weightedAle curveOf
  rw [if_neg (by omega), hcol]
  cases adaptiveGrid ((observations X w).map fun o => o.1.getD feature 0) m with
  | error e => rfl
  | ok qn =>
    obtain ⟨q, n⟩ := qn
    simp only
    have hidx : aleIdx q ((observations X w).map fun o => o.1.getD feature 0) =
        (observations X w).map fun o => binOf q (o.1.getD feature 0) := by
      unfold aleIdx
      rw [List.map_map]
      rfl
    rw [hidx, mapE_pyGet q (fun i => i - 1), mapE_pyGet q fun i => i]
    by_cases h1 : ((observations X w).map fun o => binOf q (o.1.getD feature 0)).any
        (fun i => decide (q.length ≤ i - 1)) = true
    · simp only [h1, if_true]
    by_cases h2 : ((observations X w).map fun o => binOf q (o.1.getD feature 0)).any
        (fun i => decide (q.length ≤ i)) = true
    · simp only [h1, h2, if_true, Bool.false_eq_true, if_false]
    simp only [h1, h2, Bool.false_eq_true, if_false]
    unfold aleWeighted
    simp only [List.length_map, hlen, hw, ne_eq, not_true_eq_false, if_false]
    have hlow : ∀ (i : Nat) (h : i < (observations X w).length),
        pred (withFeature X feature (((observations X w).map fun o => binOf q (o.1.getD feature 0)).map
          fun i => q.getD (i - 1) 0) i) =
        pred ((observations X w)[i].1.set feature
          (q.getD (binOf q ((observations X w)[i].1.getD feature 0) - 1) 0)) := by
      intro i h
      unfold withFeature
      rw [hget i h, List.map_map, List.getD_eq_getElem _ _ (by simpa using h), List.getElem_map, hget i h]
      rfl
    have hhigh : ∀ (i : Nat) (h : i < (observations X w).length),
        pred (withFeature X feature (((observations X w).map fun o => binOf q (o.1.getD feature 0)).map
          fun i => q.getD i 0) i) =
        pred ((observations X w)[i].1.set feature
          (q.getD (binOf q ((observations X w)[i].1.getD feature 0) - 0) 0)) := by
      intro i h
      unfold withFeature
      rw [hget i h, List.map_map, List.getD_eq_getElem _ _ (by simpa using h), List.getElem_map, hget i h]
      rfl
    have hww : ∀ (i : Nat) (h : i < (observations X w).length), w.getD i 0 = ((observations X w)[i]).2 := by
      intro i h
      rw [hget i h]
    rw [members_read (observations X w) (fun o => binOf q (o.1.getD feature 0)) 1 ([], 0) _ (fun o =>
        pred (o.1.set feature (q.getD (binOf q (o.1.getD feature 0) - 1) 0))) hlow,
      members_read (observations X w) (fun o => binOf q (o.1.getD feature 0)) 1 ([], 0) _ Prod.snd hww]
    have hgrp : ∀ k, npAverage ((members ((observations X w).map fun o => binOf q (o.1.getD feature 0)) k).map fun i =>
          pred (withFeature X feature (((observations X w).map fun o => binOf q (o.1.getD feature 0)).map
            fun i => q.getD i 0) i) -
          pred (withFeature X feature (((observations X w).map fun o => binOf q (o.1.getD feature 0)).map
            fun i => q.getD (i - 1) 0) i))
        ((members ((observations X w).map fun o => binOf q (o.1.getD feature 0)) k).map fun i => w.getD i 0) =
        npAverage (((observations X w).filter fun o => binOf q (o.1.getD feature 0) == k).map fun o =>
          pred (o.1.set feature (q.getD (binOf q (o.1.getD feature 0) - 0) 0)) -
          pred (o.1.set feature (q.getD (binOf q (o.1.getD feature 0) - 1) 0)))
        (((observations X w).filter fun o => binOf q (o.1.getD feature 0) == k).map Prod.snd) := by
      intro k
      rw [members_read (observations X w) (fun o => binOf q (o.1.getD feature 0)) k ([], 0) _ (fun o =>
          pred (o.1.set feature (q.getD (binOf q (o.1.getD feature 0) - 0) 0)) -
          pred (o.1.set feature (q.getD (binOf q (o.1.getD feature 0) - 1) 0)))
          (fun i h => by rw [hlow i h, hhigh i h]),
        members_read (observations X w) (fun o => binOf q (o.1.getD feature 0)) k ([], 0) _ Prod.snd hww]
    simp only [groupAverages, hgrp]
    rfl

theorem curveOf_perm (feature : Nat) (pred : List K → K) (normalize : Bool) (m : ℤ) {l l' : List (List K × K)}
    (h : l'.Perm l) : curveOf feature pred normalize m l' = curveOf feature pred normalize m l := by
  unfold curveOf
  rw [adaptiveGrid_perm (h.map _)]
  cases adaptiveGrid (l.map fun o => o.1.getD feature 0) m with
  | error e => rfl
  | ok qn =>
    obtain ⟨q, n⟩ := qn
    simp only
    have hany : ∀ (p : Nat → Bool), (l'.map fun o => binOf q (o.1.getD feature 0)).any p =
        (l.map fun o => binOf q (o.1.getD feature 0)).any p := fun p => by
      rw [Bool.eq_iff_iff, List.any_eq_true, List.any_eq_true]
      simp only [(h.map _).mem_iff]
    rw [hany, hany, npAverage_perm (h.filter _), uniqueL_perm (h.map _), bincount_perm (h.map _)]
    simp only [fun k => npAverage_perm (h.filter fun o => binOf q (o.1.getD feature 0) == k)
      (fun o => pred (o.1.set feature (q.getD (binOf q (o.1.getD feature 0) - 0) 0)) -
            pred (o.1.set feature (q.getD (binOf q (o.1.getD feature 0) - 1) 0))) Prod.snd]

/-- C147: `weighted_ale` depends on the observations with their weights, not on their order: it returns
the same grid and curve, or raises the same exception. -/
theorem C147_weighted_ale (X X' : Mat K) (feature : Nat) (hc : X'.c = X.c)
    (pred : List K → K) (w w' : List K) (hw : w.length = X.r) (hw' : w'.length = X'.r) (normalize : Bool) (m : ℤ)
    (h : ((List.range X'.r).map fun i => (X'.row i, w'.getD i 0)).Perm
      ((List.range X.r).map fun i => (X.row i, w.getD i 0))) :
    weightedAle X' feature pred (some w') normalize m = weightedAle X feature pred (some w) normalize m := by
  by_cases hf : feature < X.c
  · rw [weightedAle_eq_curveOf X feature hf pred w hw, weightedAle_eq_curveOf X' feature (hc ▸ hf) pred w' hw']
    exact curveOf_perm feature pred normalize m h
  · unfold weightedAle
    rw [if_pos (by omega), if_pos (by omega)]

/-! ### Two fits of the same observations in two orders -/

theorem PermBelow.onto {σ : Nat → Nat} {n : Nat} (h : PermBelow σ n) {j : Nat} (hj : j < n) : ∃ i < n, σ i = j := by
  have := h.range_perm.mem_iff.2 (List.mem_range.2 hj)
  obtain ⟨i, hi, he⟩ := List.mem_map.1 this
  exact ⟨i, List.mem_range.1 hi, he⟩

theorem trainingSet_relabel (p : WMParams K C) {σ : Nat → Nat} {n : Nat} (hσ : PermBelow σ n) (D : Mat K) {i : Nat}
    (hi : i < n) : ((trainingSet p n (relabel σ D) i).map σ).Perm (trainingSet p n D (σ i)) := by
  have : trainingSet p n (relabel σ D) i = (List.range n).filter fun k =>
      decide (D.get (σ i) (σ k) ≠ 0 ∧ ¬ (p.leaveLocalOut = true ∧ σ k = σ i)) := by
    refine List.filter_congr fun k hk => ?_
    have : σ k = σ i ↔ k = i := ⟨hσ.2 k (List.mem_range.1 hk) i hi, fun h => by rw [h]⟩
    exact decide_eq_decide.2 (by simp only [relabel, this])
  rw [this]
  exact hσ.filter_perm fun k => decide (D.get (σ i) k ≠ 0 ∧ ¬ (p.leaveLocalOut = true ∧ k = σ i))

/-- What the two fits leave behind for inspection. -/
theorem relabelled_fits (L : Learner K F) (hL : OrderFree L) (rng : Rng S) (p : WMParams K C)
    (hrate : p.sampleRate = none) (hdata : p.cacheData = true) (hest : p.cacheEstimator = true)
    (st : WMState K F C) (s : S) (X : Mat K) (y : List K)
    (coords coords' : Option C) (W W' : Option (WMat K)) (D : Mat K) (hr : D.r = X.r)
    (hc : D.c = X.r) (σ : Nat → Nat) (hσ : PermBelow σ X.r)
    (hW : chosenWeights p coords W = .ok (.dense D))
    (hW' : chosenWeights p coords' W' = .ok (.dense (relabel σ D)))
    (hok : (wmFit L rng p st s X y coords W).result = .ok ()) :
    let o := wmFit L rng p st s X y coords W
    let o' := wmFit L rng p st s (selRows σ X.r X) ((List.range X.r).map fun i => y.getD (σ i) 0)
      coords' W'
    ∃ (fs fs' : List F) (E E' : Mat K), fs.length = X.r ∧ fs'.length = X.r ∧
      (E.r = X.r ∧ E.c = X.r ∧ E'.r = X.r ∧ E'.c = X.r) ∧
      (∀ i < X.r, ∀ j < X.r, E'.get i j = E.get (σ i) (σ j)) ∧
      (∀ (i : Nat) (f f' : F), fs[σ i]? = some f → fs'[i]? = some f' → ∀ x, L.predict f' x = L.predict f x) ∧
      (o.state.N = some X.r ∧ o.state.nFeatures = some X.c ∧ o.state.X = some X ∧
        o.state.estimators = some (fs.map some) ∧
        o.state.weightMatrix = some (.dense E) ∧ o.state.neighbourMatrix = some (.dense (gt0 E))) ∧
      (o'.state.N = some X.r ∧ o'.state.nFeatures = some X.c ∧ o'.state.X = some (selRows σ X.r X) ∧
        o'.state.estimators = some (fs'.map some) ∧
        o'.state.weightMatrix = some (.dense E') ∧ o'.state.neighbourMatrix = some (.dense (gt0 E'))) := by
  intro o o'
  have hok' : o'.result = .ok () := (C92_row_order L hL rng p hrate st s X y coords coords' W W' D hr hc σ hσ hW hW' hok).1
  obtain ⟨idx, s1, fs, hi1, -, hl1, -, he1, -, ht1⟩ := fit_values (.inr hrate) hW hok
  obtain ⟨idx', s1', fs', hi1', -, hl1', -, he1', -, ht1'⟩ := fit_values (.inr hrate) hW' hok'
  rw [hrate] at hi1 hi1'
  cases hi1
  cases hi1'
  obtain ⟨E, hE, hEr, hEc, hEg⟩ := leaveOut_dense p D
  obtain ⟨E', hE', hEr', hEc', hEg'⟩ := leaveOut_dense p (relabel σ D)
  have hst : ∀ (X : Mat K) (y : List K) (coords : Option C) (W : Option (WMat K)) (D E : Mat K),
      chosenWeights p coords W = .ok (.dense D) → leaveOut p (.dense D) = .dense E →
      (wmFit L rng p st s X y coords W).result = .ok () →
      (wmFit L rng p st s X y coords W).state.N = some X.r ∧
      (wmFit L rng p st s X y coords W).state.nFeatures = some X.c ∧
      (wmFit L rng p st s X y coords W).state.X = some X ∧
      (wmFit L rng p st s X y coords W).state.weightMatrix = some (.dense E) ∧
      (wmFit L rng p st s X y coords W).state.neighbourMatrix = some (.dense (gt0 E)) := by
    intro X y coords W D E hW hE hok
    obtain ⟨W0, idx, s', res, sc, -, h2, -, -, -, -, -, h8⟩ := wmFit_ok hok
    rw [hW] at h2
    cases h2
    have hcw : (coords.isNone && W.isNone) = false := by
      cases coords <;> cases W <;> simp [chosenWeights] at hW ⊢
    rw [h8, hE]
    simp [stateBegin, hcw, hdata, WMat.gt0]
  obtain ⟨a1, a2, a3, a4, a5⟩ := hst X y coords W D E hW hE hok
  obtain ⟨b1, b2, b3, b4, b5⟩ := hst _ _ coords' W' _ E' hW' hE' hok'
  simp only [hest, if_true] at he1 he1'
  simp only [List.length_range, selRows] at hl1 hl1'
  refine ⟨fs, fs', E, E', hl1, hl1', ⟨by omega, by omega, hEr'.trans hr, hEc'.trans hc⟩, ?_, ?_,
    ⟨a1, a2, a3, he1, a4, a5⟩, ⟨b1, b2, b3, he1', b4, b5⟩⟩
  · intro i hi j hj
    rw [hEg, hEg']
    by_cases hij : i = j
    · subst hij
      simp only [and_true, relabel]
    · rw [if_neg fun h => hij h.2, if_neg fun h => hij (hσ.2 i hi j hj h.2)]
      rfl
  · intro i f f' hf hf' x
    have hi : i < X.r := by
      have := (List.getElem?_eq_some_iff.1 hf').1
      omega
    have hs := hσ.1 i hi
    have t1 := ht1 (σ i) (σ i) f (by simp [hs]) hf
    have t2 := ht1' i i f' (by simp [selRows, hi]) hf'
    have hperm := ((trainingSet_relabel p hσ D hi).map fun k => (X.row k, y.getD k 0, D.get (σ i) k)).symm
    have e1 : (trainingSet p X.r (relabel σ D) i).map (selRows σ X.r X).row =
        (((trainingSet p X.r (relabel σ D) i).map σ).map fun k => (X.row k, y.getD k 0, D.get (σ i) k)).map
          fun r => r.1 := by
      simp only [List.map_map]
      rfl
    have e2 : ((trainingSet p X.r (relabel σ D) i).map fun k =>
          ((List.range X.r).map fun i => y.getD (σ i) 0).getD k 0) =
        (((trainingSet p X.r (relabel σ D) i).map σ).map fun k => (X.row k, y.getD k 0, D.get (σ i) k)).map
          fun r => r.2.1 := by
      simp only [List.map_map]
      refine List.map_congr_left fun k hk => ?_
      have hk := List.mem_range.1 (List.mem_filter.1 hk).1
      simp [List.getD_eq_getElem?_getD, hk]
    have e3 : (trainingSet p X.r (relabel σ D) i).map ((relabel σ D).get i) =
        (((trainingSet p X.r (relabel σ D) i).map σ).map fun k => (X.row k, y.getD k 0, D.get (σ i) k)).map
          fun r => r.2.2 := by
      simp only [List.map_map]
      rfl
    obtain ⟨g, hg, hgx⟩ := hL (σ i) i _ _ hperm f (by
      simp only [List.map_map]
      exact t1)
    rw [← e1, ← e2, ← e3] at hg
    have : f' = g := by
      have t2' : L.fit i ((trainingSet p X.r (relabel σ D) i).map (selRows σ X.r X).row)
        ((trainingSet p X.r (relabel σ D) i).map fun k => ((List.range X.r).map fun i => y.getD (σ i) 0).getD k 0)
        ((trainingSet p X.r (relabel σ D) i).map ((relabel σ D).get i)) = .ok f' := t2
      rw [t2'] at hg
      injection hg
    rw [this]
    exact hgx x

/-! ### The curves of the model -/

theorem observations_mask (X : Mat K) (T : List Nat) (g : Nat → K) :
    ((List.range (maskRows X T).r).map fun j => ((maskRows X T).row j, (T.map g).getD j 0)) =
      T.map fun k => (X.row k, g k) := by
  apply List.ext_getElem
  · simp [maskRows]
  · intro j h1 h2
    simp only [List.length_map] at h2
    simp [maskRows, Mat.row, h2]

theorem mask_perm {X E E' : Mat K} {σ : Nat → Nat} (hσ : PermBelow σ X.r)
    (hc : E.c = X.r) (hc' : E'.c = X.r) {i : Nat}
    (hE : ∀ j < X.r, E'.get i j = E.get (σ i) (σ j)) :
    ((trueIdx (gt0 E') i).map fun k => ((selRows σ X.r X).row k, E'.get i k)).Perm
      ((trueIdx (gt0 E) (σ i)).map fun k => (X.row k, E.get (σ i) k)) := by
  have h1 : trueIdx (gt0 E') i = (List.range X.r).filter fun j => decide (0 < E.get (σ i) (σ j)) := by
    unfold trueIdx
    rw [show (gt0 E').c = X.r from hc']
    refine List.filter_congr fun j hj => ?_
    simp only [gt0, Mat.map]
    rw [hE j (List.mem_range.1 hj)]
  have h2 : trueIdx (gt0 E) (σ i) = (List.range X.r).filter fun j => decide (0 < E.get (σ i) j) := by
    unfold trueIdx
    rw [show (gt0 E).c = X.r from hc]
    rfl
  have h3 : ((trueIdx (gt0 E') i).map fun k => ((selRows σ X.r X).row k, E'.get i k)) =
      ((trueIdx (gt0 E') i).map σ).map fun k => (X.row k, E.get (σ i) k) := by
    rw [List.map_map]
    refine List.map_congr_left fun k hk => ?_
    have hk : k < X.r := by
      rw [h1] at hk
      exact List.mem_range.1 (List.mem_filter.1 hk).1
    simp only [Function.comp, hE k hk]
    rfl
  rw [h3, h1, h2]
  exact (hσ.filter_perm fun k => decide (0 < E.get (σ i) k)).map _

theorem getD_map_some {fs : List F} {i : Nat} {f : F} (h : fs[i]? = some f) : (fs.map some).getD i none = some f := by
  simp [List.getD_eq_getElem?_getD, h]

/-- Loops over the same things in two orders succeed together. -/
theorem mapE_reorder {β : Type} {f g : Nat → Except Err β} {σ : Nat → Nat} {n : Nat} (hσ : PermBelow σ n)
    (h : ∀ i < n, g i = f (σ i)) (d : β) :
    (∀ bs, mapE f (List.range n) = .ok bs → mapE g (List.range n) = .ok ((List.range n).map fun i => bs.getD (σ i) d)) ∧
    ∀ e, mapE f (List.range n) = .error e → ∃ e', mapE g (List.range n) = .error e' := by
  constructor
  · intro bs hb
    refine mapE_of_forall fun i hi => ?_
    have hi := List.mem_range.1 hi
    have hs := hσ.1 i hi
    have hg := mapE_get hb (i := σ i) (by simpa using hs)
    have hl := mapE_length hb
    simp only [List.length_range] at hl
    rw [h i hi, List.getD_eq_getElem _ _ (by omega)]
    simpa using hg
  · intro e he
    cases hg : mapE g (List.range n) with
    | error e' => exact ⟨e', rfl⟩
    | ok bs =>
      exfalso
      have hl := mapE_length hg
      simp only [List.length_range] at hl
      have hall : ∀ j < n, ∃ b, f j = .ok b := by
        intro j hj
        obtain ⟨i, hi, rfl⟩ := hσ.onto hj
        have hgi := mapE_get hg (i := i) (by simpa using hi)
        simp only [List.getElem_range] at hgi
        exact ⟨_, (h i hi).symm.trans hgi⟩
      have hne : ∀ j ∈ List.range n, f j = .ok ((f j).toOption.getD d) := by
        intro j hj
        obtain ⟨b, hb⟩ := hall j (List.mem_range.1 hj)
        rw [hb]
        rfl
      rw [mapE_of_forall hne] at he
      cases he

/-- C147: `local_ALE` after two fits of the same observations in two orders: the curve of an
observation is the same, wherever the observation stands; and the call raises in one order if it
raises in the other. -/
theorem C147_local_ALE (L : Learner K F) (hL : OrderFree L) (rng : Rng S) (p : WMParams K C)
    (hrate : p.sampleRate = none) (hdata : p.cacheData = true) (hest : p.cacheEstimator = true)
    (st : WMState K F C) (s : S) (X : Mat K) (y : List K)
    (coords coords' : Option C) (W W' : Option (WMat K)) (D : Mat K) (hr : D.r = X.r)
    (hc : D.c = X.r) (σ : Nat → Nat) (hσ : PermBelow σ X.r)
    (hW : chosenWeights p coords W = .ok (.dense D))
    (hW' : chosenWeights p coords' W' = .ok (.dense (relabel σ D)))
    (hok : (wmFit L rng p st s X y coords W).result = .ok ()) (feature : Nat) :
    let o := wmFit L rng p st s X y coords W
    let o' := wmFit L rng p st s (selRows σ X.r X) ((List.range X.r).map fun i => y.getD (σ i) 0)
      coords' W'
    (∀ curves, localAle L o.state feature = .ok curves → curves.length = X.r ∧
      localAle L o'.state feature = .ok ((List.range X.r).map fun i => curves.getD (σ i) ([], []))) ∧
    ∀ e, localAle L o.state feature = .error e → ∃ e', localAle L o'.state feature = .error e' := by
  intro o o'
  obtain ⟨fs, fs', E, E', hl, hl', ⟨hEr, hEc, hEr', hEc'⟩, hE, hp, ⟨-, -, a3, a4, a5, a6⟩, -, -, b3, b4, b5, b6⟩ :=
    relabelled_fits L hL rng p hrate hdata hest st s X y coords coords' W W' D hr hc σ hσ hW hW' hok
  have key : ∀ i < X.r, localAleOne L (selRows σ X.r X) E' (gt0 E') feature i ((fs'.map some).getD i none) =
      localAleOne L X E (gt0 E) feature (σ i) ((fs.map some).getD (σ i) none) := by
    intro i hi
    have hs := hσ.1 i hi
    have e1 : fs[σ i]? = some (fs[σ i]'(by omega)) := List.getElem?_eq_getElem _
    have e2 : fs'[i]? = some (fs'[i]'(by omega)) := List.getElem?_eq_getElem _
    rw [getD_map_some e1, getD_map_some e2]
    unfold localAleOne
    rw [if_neg (by simp [gt0, Mat.map, selRows]; omega), if_neg (by simp [gt0, Mat.map]; omega)]
    simp only
    rw [show L.predict (fs'[i]'(by omega)) = L.predict (fs[σ i]'(by omega)) from funext (hp i _ _ e1 e2)]
    refine C147_weighted_ale (maskRows X (trueIdx (gt0 E) (σ i))) (maskRows (selRows σ X.r X) (trueIdx (gt0 E') i))
      feature rfl _ ((trueIdx (gt0 E) (σ i)).map (E.get (σ i))) ((trueIdx (gt0 E') i).map (E'.get i))
      (List.length_map ..) (List.length_map ..) false 5 ?_
    rw [observations_mask, observations_mask]
    exact mask_perm hσ hEc hEc' (hE i hi)
  have hA : localAle L o.state feature =
      mapE (fun i => localAleOne L X E (gt0 E) feature i ((fs.map some).getD i none)) (List.range X.r) := by
    unfold localAle
    rw [a3, a4, a5, a6]
    simp only [List.length_map, hl]
  have hB : localAle L o'.state feature =
      mapE (fun i => localAleOne L (selRows σ X.r X) E' (gt0 E') feature i ((fs'.map some).getD i none))
        (List.range X.r) := by
    unfold localAle
    rw [b3, b4, b5, b6]
    simp only [List.length_map, hl']
  rw [hA, hB]
  have := mapE_reorder (f := fun i => localAleOne L X E (gt0 E) feature i ((fs.map some).getD i none))
    (g := fun i => localAleOne L (selRows σ X.r X) E' (gt0 E') feature i ((fs'.map some).getD i none)) hσ key ([], [])
  refine ⟨fun cs h => ⟨by simpa using mapE_length h, this.1 cs h⟩, this.2⟩

/-! ### The global curve -/

/-- The curve of observations, each with its own predictor. -/
def globalCurveOf (feature : Nat) (l : List (List K × (List K → K))) : Except Err (List K × List K) :=
  match adaptiveGrid (l.map fun o => o.1.getD feature 0) 1 with
  | .error e => .error e
  | .ok (q, _) =>
    if (l.map fun o => binOf q (o.1.getD feature 0)).any (fun i => decide (q.length ≤ i - 1)) then .error .indexError
    else if (l.map fun o => binOf q (o.1.getD feature 0)).any (fun i => decide (q.length ≤ i)) then .error .indexError
    else (centre (accumulate ((uniqueL (l.map fun o => binOf q (o.1.getD feature 0))).map fun k =>
        meanL ((l.filter fun o => binOf q (o.1.getD feature 0) == k).map fun o =>
          o.2 (o.1.set feature (q.getD (binOf q (o.1.getD feature 0)) 0)) -
          o.2 (o.1.set feature (q.getD (binOf q (o.1.getD feature 0) - 1) 0)))))
      (bincount (l.map fun o => binOf q (o.1.getD feature 0)))).map fun a => (q, a)

theorem meanL_perm {l l' : List K} (h : l'.Perm l) : meanL l' = meanL l := by
  unfold meanL
  rw [h.sum_eq, h.length_eq]

theorem globalCurveOf_perm (feature : Nat) {l l' : List (List K × (List K → K))} (h : l'.Perm l) :
    globalCurveOf feature l' = globalCurveOf feature l := by
  unfold globalCurveOf
  rw [adaptiveGrid_perm (h.map _)]
  cases adaptiveGrid (l.map fun o => o.1.getD feature 0) 1 with
  | error e => rfl
  | ok qn =>
    obtain ⟨q, n⟩ := qn
    simp only
    have hany : ∀ (p : Nat → Bool), (l'.map fun o => binOf q (o.1.getD feature 0)).any p =
        (l.map fun o => binOf q (o.1.getD feature 0)).any p := fun p => by
      rw [Bool.eq_iff_iff, List.any_eq_true, List.any_eq_true]
      simp only [(h.map _).mem_iff]
    rw [hany, hany, uniqueL_perm (h.map _), bincount_perm (h.map _)]
    simp only [fun k => meanL_perm ((h.filter fun o => binOf q (o.1.getD feature 0) == k).map fun o =>
          o.2 (o.1.set feature (q.getD (binOf q (o.1.getD feature 0)) 0)) -
          o.2 (o.1.set feature (q.getD (binOf q (o.1.getD feature 0) - 1) 0)))]

theorem globalAle_eq_curve (L : Learner K F) (st : WMState K F C) (X : Mat K) (fs : List F) (hl : fs.length = X.r)
    (hX : st.X = some X) (hes : st.estimators = some (fs.map some)) (feature : Nat) (hf : feature < X.c) :
    globalAle L st feature =
      globalCurveOf feature (List.zipWith (fun i f => (X.row i, L.predict f)) (List.range X.r) fs) := by
  set l := List.zipWith (fun i f => (X.row i, L.predict f)) (List.range X.r) fs with hldef
  have hlen : l.length = X.r := by simp [hldef, hl]
  have hget : ∀ (i : Nat) (h : i < l.length), l[i] = (X.row i, L.predict (fs[i]'(by omega))) := by
    intro i h
    simp [hldef]
  have hcol : X.col feature = l.map fun o => o.1.getD feature 0 := by
    apply List.ext_getElem
    · simp [Mat.col, hlen]
    · intro i h1 h2
      simp only [List.length_map] at h2
      rw [List.getElem_map, hget i h2, row_getD X i hf]
      simp [Mat.col]
  unfold globalAle globalCurveOf
  rw [hX, hes]
  simp only
  rw [if_neg (by omega), hcol]
  cases adaptiveGrid (l.map fun o => o.1.getD feature 0) 1 with
  | error e => rfl
  | ok qn =>
    obtain ⟨q, n⟩ := qn
    simp only
    have hidx : aleIdx q (l.map fun o => o.1.getD feature 0) = l.map fun o => binOf q (o.1.getD feature 0) := by
      rw [aleIdx_eq, List.map_map]
      rfl
    rw [hidx, mapE_pyGet q (fun i => i - 1), mapE_pyGet q fun i => i]
    by_cases h1 : (l.map fun o => binOf q (o.1.getD feature 0)).any (fun i => decide (q.length ≤ i - 1)) = true
    · simp only [h1, if_true]
    by_cases h2 : (l.map fun o => binOf q (o.1.getD feature 0)).any (fun i => decide (q.length ≤ i)) = true
    · simp only [h1, h2, if_true, Bool.false_eq_true, if_false]
    simp only [h1, h2, Bool.false_eq_true, if_false]
    have hw : ∀ (d i : Nat) (h : i < l.length), withFeature X feature
        ((l.map fun o => binOf q (o.1.getD feature 0)).map fun i => q.getD (i - d) 0) i =
        (X.row i).set feature (q.getD (binOf q ((X.row i).getD feature 0) - d) 0) := by
      intro d i h
      unfold withFeature
      rw [List.map_map, List.getD_eq_getElem _ _ (by simpa using h), List.getElem_map, hget i h]
      rfl
    have hps : mapE (fun i => globalPair L X feature
        ((l.map fun o => binOf q (o.1.getD feature 0)).map fun i => q.getD (i - 1) 0)
        ((l.map fun o => binOf q (o.1.getD feature 0)).map fun i => q.getD i 0) i ((fs.map some).getD i none))
        (List.range (fs.map some).length) = .ok ((List.range (fs.map some).length).map fun i =>
          ((l.getD i ([], fun _ => 0)).2 ((X.row i).set feature (q.getD (binOf q ((X.row i).getD feature 0) - 1) 0)),
          (l.getD i ([], fun _ => 0)).2 ((X.row i).set feature (q.getD (binOf q ((X.row i).getD feature 0) - 0) 0)))) := by
      refine mapE_of_forall fun i hi => ?_
      have hi : i < X.r := by simpa [hl] using hi
      have hi' : i < l.length := by omega
      have := hw 0 i hi'
      simp only [Nat.sub_zero] at this
      rw [getD_map_some (List.getElem?_eq_getElem (by omega : i < fs.length))]
      unfold globalPair
      rw [if_neg (by omega)]
      simp only [hw 1 i hi', this, List.getD_eq_getElem _ _ hi', hget i hi', Nat.sub_zero]
    rw [hps]
    simp only
    unfold globalFinish
    rw [if_neg (by simp [hl, hlen])]
    unfold groupMeans
    congr 4
    funext k
    congr 1
    refine members_read l (fun o => binOf q (o.1.getD feature 0)) k ([], fun _ => 0) _ _ ?_
    intro i h
    have hi : i < X.r := by omega
    rw [List.getD_eq_getElem _ _ (by simpa [hl] using hi), List.getElem_map, List.getElem_range,
      List.getD_eq_getElem _ _ h, hget i h]
    rfl

/-- C147: `global_ALE` after two fits of the same observations in two orders is the same curve, or
the same exception. -/
theorem C147_global_ALE (L : Learner K F) (hL : OrderFree L) (rng : Rng S) (p : WMParams K C)
    (hrate : p.sampleRate = none) (hdata : p.cacheData = true) (hest : p.cacheEstimator = true)
    (st : WMState K F C) (s : S) (X : Mat K) (y : List K)
    (coords coords' : Option C) (W W' : Option (WMat K)) (D : Mat K) (hr : D.r = X.r)
    (hc : D.c = X.r) (σ : Nat → Nat) (hσ : PermBelow σ X.r)
    (hW : chosenWeights p coords W = .ok (.dense D))
    (hW' : chosenWeights p coords' W' = .ok (.dense (relabel σ D)))
    (hok : (wmFit L rng p st s X y coords W).result = .ok ()) (feature : Nat) :
    globalAle L (wmFit L rng p st s (selRows σ X.r X) ((List.range X.r).map fun i => y.getD (σ i) 0)
      coords' W').state feature =
    globalAle L (wmFit L rng p st s X y coords W).state feature := by
  obtain ⟨fs, fs', E, E', hl, hl', -, -, hp, ⟨-, -, a3, a4, -, -⟩, -, -, b3, b4, -, -⟩ :=
    relabelled_fits L hL rng p hrate hdata hest st s X y coords coords' W W' D hr hc σ hσ hW hW' hok
  by_cases hf : feature < X.c
  · rw [globalAle_eq_curve L _ X fs hl a3 a4 feature hf,
      globalAle_eq_curve L _ (selRows σ X.r X) fs' hl' b3 b4 feature hf]
    apply globalCurveOf_perm
    have h1 : List.zipWith (fun i f => ((selRows σ X.r X).row i, L.predict f)) (List.range (selRows σ X.r X).r) fs' =
        ((List.range X.r).map σ).map fun k =>
          (X.row k, match fs[k]? with
            | some f => L.predict f
            | none => fun _ => 0) := by
      apply List.ext_getElem
      · simp [selRows, hl']
      · intro i h1 h2
        simp only [List.length_map, List.length_range] at h2
        have hs := hσ.1 i h2
        have e1 : fs[σ i]? = some (fs[σ i]'(by omega)) := List.getElem?_eq_getElem _
        have e2 : fs'[i]? = some (fs'[i]'(by omega)) := List.getElem?_eq_getElem _
        simp only [List.getElem_zipWith, List.getElem_range, List.getElem_map, e1]
        rw [funext (hp i _ _ e1 e2)]
        rfl
    have h2 : List.zipWith (fun i f => (X.row i, L.predict f)) (List.range X.r) fs =
        (List.range X.r).map fun k =>
          (X.row k, match fs[k]? with
            | some f => L.predict f
            | none => fun _ => 0) := by
      apply List.ext_getElem
      · simp [hl]
      · intro i h1 h2
        simp only [List.length_map, List.length_range] at h2
        have e1 : fs[i]? = some (fs[i]'(by omega)) := List.getElem?_eq_getElem _
        simp only [List.getElem_zipWith, List.getElem_range, List.getElem_map, e1]
    rw [h1, h2]
    exact hσ.range_perm.map _
  · unfold globalAle
    rw [a3, a4, b3, b4]
    simp only
    rw [if_pos (show (selRows σ X.r X).c ≤ feature from by show X.c ≤ feature; omega), if_pos (by omega)]

/-! ### Partial dependence -/

theorem wideGrid_perm {l l' : List K} (h : l'.Perm l) : wideGrid l' = wideGrid l := by
  unfold wideGrid
  have : ∀ q : K, quantileVal virtMq l' q = quantileVal virtMq l q := fun q => by
    unfold quantileVal
    rw [sortL_eq_of_perm h, h.length_eq]
  simp only [this]

/-- C147: `local_partial_dependence` depends on the observations with their weights, not on their
order. -/
theorem C147_pd_curve (X X' : Mat K) (hc : X'.c = X.c) (pred : List K → K) (w w' : List K)
    (hw : w.length = X.r) (hw' : w'.length = X'.r) (nf : Nat)
    (h : ((List.range X'.r).map fun i => (X'.row i, w'.getD i 0)).Perm
      ((List.range X.r).map fun i => (X.row i, w.getD i 0))) :
    localPd wideGrid pred X' w' nf = localPd wideGrid pred X w nf := by
  unfold localPd
  refine mapE_congr fun feature _ => ?_
  unfold pdFeature
  rw [hc]
  by_cases hf : X.c ≤ feature
  · rw [if_pos hf, if_pos hf]
  rw [if_neg hf, if_neg hf]
  have hf : feature < X.c := by omega
  have hcol : ∀ (X : Mat K) (w : List K), feature < X.c → X.col feature =
      ((List.range X.r).map fun i => (X.row i, w.getD i 0)).map fun o => o.1.getD feature 0 := by
    intro X w hf
    unfold Mat.col
    rw [List.map_map]
    exact List.map_congr_left fun i _ => (row_getD X i hf).symm
  have hgrid : pdGrid wideGrid (X'.col feature) = pdGrid wideGrid (X.col feature) := by
    unfold pdGrid
    have hp : (X'.col feature).Perm (X.col feature) := by
      rw [hcol X w hf, hcol X' w' (by omega)]
      exact h.map _
    rw [uniqueL_perm hp, wideGrid_perm hp]
  have hws : ∀ (X : Mat K) (w : List K), w.length = X.r →
      w = ((List.range X.r).map fun i => (X.row i, w.getD i 0)).map Prod.snd := by
    intro X w hw
    apply List.ext_getElem
    · simp [hw]
    · intro i h1 h2
      simp [h1]
  have hsum : w'.sum = w.sum := by
    rw [hws X w hw, hws X' w' hw']
    exact (h.map _).sum_eq
  rw [hgrid]
  cases pdGrid wideGrid (X.col feature) with
  | error e => rfl
  | ok grid =>
    simp only
    congr 1
    unfold averageColumns
    rw [if_neg (not_not.2 hw), if_neg (not_not.2 hw'), hsum]
    by_cases h0 : w.sum = 0
    · rw [if_pos h0, if_pos h0]
    rw [if_neg h0, if_neg h0]
    congr 1
    rw [List.map_map, List.map_map]
    refine List.map_congr_left fun v _ => ?_
    have hz : ∀ (X : Mat K) (w : List K), w.length = X.r →
        List.zipWith (· * ·) (icePoint X feature pred v) w =
        ((List.range X.r).map fun i => (X.row i, w.getD i 0)).map fun o => pred (o.1.set feature v) * o.2 := by
      intro X w hw
      apply List.ext_getElem
      · simp [icePoint, hw]
      · intro i h1 h2
        simp only [List.length_map, List.length_range] at h2
        simp [icePoint, atValue, hw, h2]
    simp only [Function.comp]
    rw [hz X w hw, hz X' w' hw', (h.map _).sum_eq]

theorem sameLengths_iff (l : List (List (List K × List K))) :
    allSameLength l = true ↔ ∀ c ∈ l.flatten, ∀ d ∈ l.flatten, d.1.length = c.1.length := by
  unfold allSameLength
  cases l.flatten with
  | nil => simp
  | cons c cs =>
    simp only [List.all_eq_true, beq_iff_eq]
    constructor
    · intro h a ha b hb
      have : ∀ x ∈ c :: cs, x.1.length = c.1.length := by
        intro x hx
        rcases List.mem_cons.1 hx with rfl | hx
        · rfl
        · exact h x hx
      rw [this a ha, this b hb]
    · intro h d hd
      exact h c (by simp) d (by simp [hd])

theorem reorder_eq {β : Type} {l : List β} {n : Nat} (hl : l.length = n) (σ : Nat → Nat) (hσ : PermBelow σ n) (d : β) :
    ((List.range n).map fun i => l.getD (σ i) d).Perm l := by
  have h1 : ((List.range n).map fun i => l.getD (σ i) d) = ((List.range n).map σ).map fun k => l.getD k d := by
    rw [List.map_map]
    rfl
  have h2 : l = (List.range n).map fun k => l.getD k d := by
    apply List.ext_getElem
    · simp [hl]
    · intro i a b
      simp [a]
  rw [h1]
  conv_rhs => rw [h2]
  exact hσ.range_perm.map _

/-- C147: `partial_dependence` after two fits of the same observations in two orders: the curves of
an observation are the same wherever it stands, in the result and in `local_partial_`, and the two
calls succeed or raise together. -/
theorem C147_partial_dependence (L : Learner K F) (hL : OrderFree L) (rng : Rng S) (p : WMParams K C)
    (hrate : p.sampleRate = none) (hdata : p.cacheData = true) (hest : p.cacheEstimator = true)
    (st : WMState K F C) (s : S) (X : Mat K) (y : List K)
    (coords coords' : Option C) (W W' : Option (WMat K)) (D : Mat K) (hr : D.r = X.r)
    (hc : D.c = X.r) (σ : Nat → Nat) (hσ : PermBelow σ X.r)
    (hW : chosenWeights p coords W = .ok (.dense D))
    (hW' : chosenWeights p coords' W' = .ok (.dense (relabel σ D)))
    (hok : (wmFit L rng p st s X y coords W).result = .ok ()) (old : PdOut K) :
    let o := partialDependence wideGrid L (wmFit L rng p st s X y coords W).state old
    let o' := partialDependence wideGrid L (wmFit L rng p st s (selRows σ X.r X)
      ((List.range X.r).map fun i => y.getD (σ i) 0) coords' W').state old
    (∀ r, o.result = .ok r → r.length = X.r ∧ o.localPartial = some r ∧
      o'.result = .ok ((List.range X.r).map fun i => r.getD (σ i) []) ∧
      o'.localPartial = some ((List.range X.r).map fun i => r.getD (σ i) [])) ∧
    ∀ e, o.result = .error e → ∃ e', o'.result = .error e' := by
  intro o o'
  obtain ⟨fs, fs', E, E', hl, hl', ⟨hEr, hEc, hEr', hEc'⟩, hE, hp, ⟨a1, a2, a3, a4, a5, a6⟩, b1, b2, b3, b4, b5, b6⟩ :=
    relabelled_fits L hL rng p hrate hdata hest st s X y coords coords' W W' D hr hc σ hσ hW hW' hok
  have key : ∀ i < X.r, pdLocation wideGrid L (selRows σ X.r X) E' (gt0 E') (fs'.map some) X.c i =
      pdLocation wideGrid L X E (gt0 E) (fs.map some) X.c (σ i) := by
    intro i hi
    have hs := hσ.1 i hi
    have e1 : fs[σ i]? = some (fs[σ i]'(by omega)) := List.getElem?_eq_getElem _
    have e2 : fs'[i]? = some (fs'[i]'(by omega)) := List.getElem?_eq_getElem _
    unfold pdLocation
    rw [if_neg (by simp [gt0, Mat.map, selRows]; omega), if_neg (by simp [gt0, Mat.map]; omega),
      getD_map_some e1, getD_map_some e2]
    simp only
    rw [show L.predict (fs'[i]'(by omega)) = L.predict (fs[σ i]'(by omega)) from funext (hp i _ _ e1 e2)]
    refine C147_pd_curve (maskRows X (trueIdx (gt0 E) (σ i))) (maskRows (selRows σ X.r X) (trueIdx (gt0 E') i))
      rfl _ ((trueIdx (gt0 E) (σ i)).map (E.get (σ i))) ((trueIdx (gt0 E') i).map (E'.get i))
      (List.length_map ..) (List.length_map ..) _ ?_
    rw [observations_mask, observations_mask]
    exact mask_perm hσ hEc hEc' (hE i hi)
  have hA : o = match mapE (pdLocation wideGrid L X E (gt0 E) (fs.map some) X.c) (List.range X.r) with
      | .error e => ⟨.error e, old.localPartial, old.featurePartial⟩
      | .ok l => pdFinish old X.c l := by
    simp only [o]
    unfold partialDependence
    rw [a1, a2, a3, a4, a5, a6]
    rfl
  have hB : o' = match mapE (pdLocation wideGrid L (selRows σ X.r X) E' (gt0 E') (fs'.map some) X.c)
        (List.range X.r) with
      | .error e => ⟨.error e, old.localPartial, old.featurePartial⟩
      | .ok l => pdFinish old X.c l := by
    simp only [o']
    unfold partialDependence
    rw [b1, b2, b3, b4, b5, b6]
    rfl
  have hre := mapE_reorder hσ key []
  cases hm : mapE (pdLocation wideGrid L X E (gt0 E) (fs.map some) X.c) (List.range X.r) with
  | error e =>
    obtain ⟨e', he'⟩ := hre.2 e hm
    rw [hm] at hA
    rw [he'] at hB
    rw [hA, hB]
    exact ⟨fun r h => (by cases h), fun _ _ => ⟨e', rfl⟩⟩
  | ok l =>
    have hl0 : l.length = X.r := by simpa using mapE_length hm
    rw [hre.1 l hm] at hB
    rw [hm] at hA
    simp only at hA hB
    have hsame : allSameLength ((List.range X.r).map fun i => l.getD (σ i) []) = allSameLength l := by
      have hp := (reorder_eq hl0 σ hσ []).flatten
      rw [Bool.eq_iff_iff, sameLengths_iff, sameLengths_iff]
      simp only [hp.mem_iff]
    unfold pdFinish at hA hB
    rw [hsame] at hB
    by_cases hs : allSameLength l = true
    · rw [if_pos hs] at hA hB
      rw [hA, hB]
      exact ⟨fun r h => (by cases h), fun _ _ => ⟨_, rfl⟩⟩
    · rw [if_neg hs] at hA hB
      rw [hA, hB]
      refine ⟨fun r h => ?_, fun e h => by cases h⟩
      cases h
      exact ⟨hl0, rfl, rfl, rfl⟩

/-! ### The hypotheses are met -/

/-- Eight observations with two features. -/
def coX : Mat ℚ := ⟨8, 2, fun i j => if j = 0 then (i : ℚ) * i else ((i % 3 : Nat) : ℚ)⟩

/-- Weights that fall off with the distance along a line. -/
def coD : Mat ℚ := ⟨8, 8, fun i j => if |(i - j : ℚ)| ≤ 6 then 7 - |(i - j : ℚ)| else 0⟩

/-- The targets. -/
def coY : List ℚ := [3, 1, 4, 1, 5, 9, 2, 6]

/-- Data and estimators are kept. -/
def coP : WMParams ℚ Unit := { exP with leaveLocalOut := false }

/-- Observations in the opposite order: all hypotheses of C147 hold, the calls return, and the curves
do move to other positions. -/
example : OrderFree meanLearner ∧ PermBelow (fun i => 7 - i) 8 ∧
    chosenWeights coP none (some (.dense coD)) = .ok (.dense coD) ∧
    (wmFit meanLearner countRng coP {} 0 coX coY none (some (.dense coD))).result = .ok () ∧
    okAnd (localAle meanLearner (wmFit meanLearner countRng coP {} 0 coX coY none (some (.dense coD))).state 0)
      (fun r => r.length == 8 && !(r.getD 0 ([], []) == r.getD 7 ([], []))) = true ∧
    okAnd (globalAle meanLearner (wmFit meanLearner countRng coP {} 0 coX coY none (some (.dense coD))).state 0)
      (fun r => r.1.length == 5) = true ∧
    okAnd (partialDependence wideGrid meanLearner
      (wmFit meanLearner countRng coP {} 0 coX coY none (some (.dense coD))).state ⟨.ok [], none, none⟩).result
      (fun r => r.length == 8) = true :=
  ⟨meanLearner_orderFree, ⟨fun j hj => by simp only; omega, fun j hj k hk h => by simp only at h; omega⟩, rfl,
    by decide +kernel, by decide +kernel, by decide +kernel, by decide +kernel⟩

end Geo
