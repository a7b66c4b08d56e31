import Verif.Props.WeightModelState
import Verif.Props.LocalIce
import Verif.Props.AleModel
import Verif.Model.LocalPd
/-
C133: effect curves after a fit at sampled locations.
-/
set_option linter.unusedSectionVars false
namespace Geo
variable {K : Type} [Field K] [LinearOrder K] [IsStrictOrderedRing K] [FloorRing K] {F C S : Type}

/-- C133: after a successful fit that evaluated fewer locations than there are rows,
`partial_dependence`, `local_ICE` and `global_ALE` raise, and leave the recorded curves alone. -/
theorem C133_refused (L : Learner K F) (rng : Rng S) (p : WMParams K C)
    (st : WMState K F C) (s : S) (X : Mat K) (y : List K) (coords : Option C)
    (W : Option (WMat K)) (hd : p.cacheData = true) (idx : List Nat)
    (hok : (wmFit L rng p st s X y coords W).result = .ok ())
    (hidx : (wmFit L rng p st s X y coords W).state.localIndices = some idx)
    (hlt : idx.length < X.r) :
    let a := (wmFit L rng p st s X y coords W).state
    (∀ wide old, ∃ e, partialDependence wide L a old =
      ⟨.error e, old.localPartial, old.featurePartial⟩) ∧
    (∀ fourArgs wide store old, ∃ e, localICE fourArgs wide L store a old =
      ⟨.error e, old.localIce, old.featureIce⟩) ∧
    (∀ feature, ∃ e, globalAle L a feature = .error e) := by
  obtain ⟨W0, idx', s', res, sc, hc, hW, hsl, -, hlen, h2, -, hst⟩ := wmFit_ok hok
  rw [hst] at hidx ⊢
  simp only [Option.some.injEq] at hidx
  subst hidx
  have hX : X.r ≠ 0 := by omega
  have hCW : (coords.isNone && W.isNone) = false := by
    cases W with
    | some W => simp
    | none =>
      cases coords with
      | some c => rfl
      | none => cases hW
  generalize hes : (res.map fun r => if p.cacheEstimator then some r.2 else none) = es
  have hel : es.length < X.r := by rw [← hes, List.length_map]; omega
  generalize leaveOut p W0 = Wm
  refine ⟨fun wide old => ?_, fun fa wide store old => ?_, fun feature => ?_⟩
  · unfold partialDependence
    simp only [stateBegin, hCW, hd, Bool.false_eq_true, if_false, if_true]
    cases Wm with
    | sparse A =>
      simp only [WMat.gt0]
      exact ⟨.indexError, by rw [if_neg hX]⟩
    | dense D =>
      simp only [WMat.gt0]
      obtain ⟨e, he⟩ := mapE_error_of_mem (f := pdLocation wide L X D (gt0 D) es X.c)
        (l := List.range X.r) (a := es.length) (by simpa using hel)
        ⟨.indexError, by unfold pdLocation; rw [if_pos (by simp)]⟩
      rw [he]
      exact ⟨e, rfl⟩
  · unfold localICE
    simp only [stateBegin, hCW, hd, Bool.false_eq_true, if_false, if_true]
    cases Wm with
    | sparse A =>
      simp only [WMat.gt0]
      exact ⟨.indexError, by rw [if_neg hX]⟩
    | dense D =>
      simp only [WMat.gt0]
      obtain ⟨e, he⟩ := mapE_error_of_mem (f := iceLocation fa wide L store X (gt0 D) es X.c)
        (l := List.range X.r) (a := es.length) (by simpa using hel)
        ⟨.indexError, by unfold iceLocation; rw [if_pos (by simp)]⟩
      rw [he]
      exact ⟨e, rfl⟩
  · cases h : globalAle L _ feature with
    | error e => exact ⟨e, rfl⟩
    | ok r =>
      exfalso
      unfold globalAle at h
      simp only [stateBegin, hCW, hd, Bool.false_eq_true, if_false, if_true] at h
      split at h
      · cases h
      split at h
      · cases h
      rename_i q n hq
      split at h
      · cases h
      split at h
      · cases h
      split at h
      · cases h
      rename_i ps hps
      have hl := mapE_length hps
      have hi : (aleIdx q (X.col feature)).length = X.r := by simp [aleIdx, Mat.col]
      unfold globalFinish at h
      rw [List.length_range] at hl
      rw [if_pos (by omega)] at h
      cases h

/-- C133: `local_ALE` does not raise for that reason. It returns one curve per sampled location, and
its `k`-th curve combines the estimator of the `k`-th sampled location with the neighbours and the
weights of row `k`, whichever location was sampled `k`-th. -/
theorem C133_local_ale_rows (L : Learner K F) (rng : Rng S) (p : WMParams K C)
    (st : WMState K F C) (s : S) (X : Mat K) (y : List K) (coords : Option C) (W : Mat K)
    (hd : p.cacheData = true) (hj : p.nJobs = none) (idx : List Nat)
    (hok : (wmFit L rng p st s X y coords (some (.dense W))).result = .ok ())
    (hidx : (wmFit L rng p st s X y coords (some (.dense W))).state.localIndices = some idx)
    (feature : Nat) (curves : List (List K × List K))
    (hcur : localAle L (wmFit L rng p st s X y coords (some (.dense W))).state feature = .ok curves) :
    let w := fun i j => if p.leaveLocalOut ∧ i = j then 0 else W.get i j
    let train := fun i => (List.range X.r).filter fun j => decide (w i j ≠ 0)
    let near := fun i => (List.range X.r).filter fun j => decide (0 < w i j)
    curves.length = idx.length ∧ ∀ k < idx.length, ∃ i f c, idx[k]? = some i ∧
      L.fit i ((train i).map X.row) ((train i).map fun j => y.getD j 0) ((train i).map (w i)) = .ok f ∧
      curves[k]? = some c ∧
      weightedAle ⟨(near k).length, X.c, fun t j => X.get ((near k).getD t 0) j⟩ feature
        (L.predict f) (some ((near k).map (w k))) false 5 = .ok c := by
  obtain ⟨W0, idx', s', res, sc, hc, hW, hsl, hfa, hlen, h2, -, hst⟩ := wmFit_ok hok
  cases hW
  rw [hst] at hidx hcur
  simp only [Option.some.injEq] at hidx
  subst hidx
  intro w train near
  have hm := fitAll_ok hfa (.inl hj) hlen
  obtain ⟨D, hD, hDr, hDc, hDg⟩ : ∃ D, leaveOut p (.dense W) = .dense D ∧ D.r = W.r ∧ D.c = W.c ∧
      ∀ i j, D.get i j = w i j := by
    unfold leaveOut
    by_cases hl : p.leaveLocalOut = true
    · rw [if_pos hl]
      refine ⟨_, rfl, rfl, rfl, fun i j => ?_⟩
      simp only [w, hl, true_and]
    · rw [if_neg hl]
      refine ⟨_, rfl, rfl, rfl, fun i j => ?_⟩
      simp [w, hl]
  rw [hD] at hm hcur
  unfold localAle at hcur
  simp only [stateBegin, Option.isNone_some, Bool.and_false, hd, Bool.false_eq_true, if_false,
    if_true, WMat.gt0] at hcur
  have hcl := mapE_length hcur
  simp only [List.length_range, List.length_map] at hcl
  refine ⟨by omega, fun k hk => ?_⟩
  have hk' : k < res.length := by omega
  have g := mapE_get hm (i := k) hk
  rw [locTask_eq (locTask_ok g)] at g
  simp only at g
  unfold denseTask at g
  split at g
  · cases g
  rename_i hDX
  push Not at hDX
  have c := mapE_get hcur (i := k) (by simpa using hk')
  simp only [List.getElem_range] at c
  unfold localAleOne at c
  split at c
  · cases c
  rw [List.getD_eq_getElem _ _ (by simpa using hk'), List.getElem_map] at c
  cases hce : p.cacheEstimator with
  | false => simp [hce] at c
  | true =>
  simp only [hce, if_true] at c
  unfold fitLocal at g
  simp only at g
  cases hf : L.fit (idx'[k]) ((nonzeroIdx D.c (D.get (idx'[k]))).map X.row)
      ((nonzeroIdx D.c (D.get (idx'[k]))).map (yfun y))
      ((nonzeroIdx D.c (D.get (idx'[k]))).map (D.get (idx'[k]))) with
  | error e => rw [hf] at g; cases g
  | ok f =>
  rw [hf] at g
  have g : (L.predict f (X.row idx'[k]), f) = res[k] := by
    injection g
  rw [← g] at c
  have hfun : ∀ i, D.get i = w i := fun i => funext fun j => hDg i j
  refine ⟨idx'[k], f, _, List.getElem?_eq_getElem hk, ?_, List.getElem?_eq_getElem (by omega), ?_⟩
  · rw [← hf, hfun]
    simp only [nonzeroIdx, hDX]
    rfl
  · have ht : trueIdx (gt0 D) k = near k := by
      unfold trueIdx
      have : (gt0 D).c = X.r := hDX
      rw [this]
      refine List.filter_congr fun j _ => ?_
      simp [gt0, Mat.map, hDg]
    rw [ht, hfun] at c
    exact c

/-- Estimator `e` predicts `x₀² + e x₁`, where `e` is the location it was fitted for. -/
def siLearner : Learner ℚ ℚ :=
  { fit := fun e _ _ _ => .ok (e : ℚ), predict := fun e r => r.getD 0 0 * r.getD 0 0 + e * r.getD 1 0 }
def siW : Mat ℚ := ⟨12, 12, fun i j => if |(i - j : ℚ)| ≤ 7 then 1 else 0⟩
def siP : WMParams ℚ Unit := { exP with sampleRate := some (1 / 2), leaveLocalOut := true }

/-- Six of twelve locations are fitted, 6 to 11. The six curves are drawn over the neighbours of the
locations 0 to 5: the first one ends at 7, though the first fitted location has the neighbour 11. -/
example :
    (wmFit siLearner lastRng siP {} 0 alX ((List.range 12).map fun (i : Nat) => (i : ℚ)) none
      (some (.dense siW))).result = .ok () ∧
    (wmFit siLearner lastRng siP {} 0 alX ((List.range 12).map fun (i : Nat) => (i : ℚ)) none
      (some (.dense siW))).state.localIndices = some [6, 7, 8, 9, 10, 11] ∧
    okAnd (localAle siLearner (wmFit siLearner lastRng siP {} 0 alX
        ((List.range 12).map fun (i : Nat) => (i : ℚ)) none (some (.dense siW))).state 0)
      (fun r => r.length == 6 && (r.getD 0 ([], [])).1.getLast? == some 7) = true ∧
    siW.get 6 11 = 1 ∧ alX.get 11 0 = 11 := by
  decide +kernel

end Geo
