import Verif.Props.WeightModelState
import Verif.Props.ImportanceLocal
import Verif.Props.LocalIce
import Verif.Model.Importance
import Verif.Model.Ale
/-
C132: what can be asked of a model that was fitted with a sparse weight matrix.
-/
set_option linter.unusedSectionVars false
namespace Geo
variable {K : Type} [Field K] [LinearOrder K] [IsStrictOrderedRing K] [FloorRing K] {F C S : Type}

/-- C132: after every successful fit with a sparse weight matrix that keeps data and estimators, the
four methods that look at neighbourhoods raise `IndexError` and leave the object as it was. -/
theorem C132_local_methods_raise (L : Learner K F) (rng : Rng S) (p : WMParams K C)
    (st : WMState K F C) (s : S) (X : Mat K) (y : List K) (coords : Option C) (A : Csr K)
    (hd : p.cacheData = true) (he : p.cacheEstimator = true)
    (hok : (wmFit L rng p st s X y coords (some (.sparse A))).result = .ok ()) :
    let a := (wmFit L rng p st s X y coords (some (.sparse A))).state
    (∀ {S' : Type} (g : PRng S') (seeds : Nat → S') (R : Nat),
      importanceLocal L g seeds p a R = .error .indexError) ∧
    (∀ wide old, partialDependence wide L a old =
      ⟨.error .indexError, old.localPartial, old.featurePartial⟩) ∧
    (∀ fourArgs wide store old, localICE fourArgs wide L store a old =
      ⟨.error .indexError, old.localIce, old.featureIce⟩) ∧
    (∀ feature, localAle L a feature = .error .indexError) := by
  obtain ⟨W0, idx, s', res, sc, hc, hW, hsl, -, hlen, h2, -, hst⟩ := wmFit_ok hok
  cases hW
  rw [hst]
  have hX : X.r ≠ 0 := by
    intro h0
    unfold checkXy at hc
    simp [h0] at hc
  have hlo : ∃ A', leaveOut p (.sparse A) = .sparse A' := by
    unfold leaveOut
    split
    · exact ⟨_, rfl⟩
    · exact ⟨_, rfl⟩
  obtain ⟨A', hA'⟩ := hlo
  have hne : (res.map fun r => if p.cacheEstimator then some r.2 else none) ≠ [] := by
    intro h
    rw [List.map_eq_nil_iff] at h
    subst h
    simp at hlen
    omega
  simp only [hA', WMat.gt0]
  refine ⟨fun g seeds R => ?_, fun wide old => ?_, fun fa wide store old => ?_, fun feature => ?_⟩
  · unfold importanceLocal
    simp [hd, he, stateBegin, hX]
  · unfold partialDependence
    simp [hd, stateBegin, hX]
  · unfold localICE
    simp [hd, stateBegin, hX]
  · unfold localAle
    simp only [hd, stateBegin]
    simp only [Option.isNone_some, Bool.and_false, Bool.false_eq_true, if_false, if_true]
    rw [if_neg hne]

/-- The object without its two matrices. -/
def withoutMatrices (st : WMState K F C) : WMState K F C :=
  { st with weightMatrix := none, neighbourMatrix := none }

theorem importanceGlobal_noMat (L : Learner K F) (g : PRng S) (p : WMParams K C)
    (st : WMState K F C) (s : S) (R : Nat) :
    importanceGlobal L g p (withoutMatrices st) s R =
      ⟨(importanceGlobal L g p st s R).result,
        withoutMatrices (importanceGlobal L g p st s R).state,
        (importanceGlobal L g p st s R).rng⟩ := by
  unfold importanceGlobal
  have hf : fittedParts (withoutMatrices st) = fittedParts st := rfl
  rw [hf]
  split
  · rfl
  cases fittedParts st with
  | error e => rfl
  | ok d =>
  simp only
  split
  · rfl
  cases permDecreases L d (drawPerms g d.X.r (d.X.c * R) s).1 R with
  | error e => rfl
  | ok dec =>
  simp only
  have hp : (withoutMatrices st).permDecrease = st.permDecrease := rfl
  rw [hp]
  cases appendTrials st.permDecrease dec <;> rfl

theorem interactionWith_noMat (L : Learner K F) (g : PRng S) (junk : Nat → Nat → Nat → K)
    (st : WMState K F C) (s : S) (R : Nat) (single : List K) :
    interactionWith L g junk (withoutMatrices st) s R single =
      ⟨(interactionWith L g junk st s R single).result,
        withoutMatrices (interactionWith L g junk st s R single).state,
        (interactionWith L g junk st s R single).rng⟩ := by
  unfold interactionWith
  have hf : fittedParts (withoutMatrices st) = fittedParts st := rfl
  have hp : (withoutMatrices st).interaction = st.interaction := rfl
  rw [hf, hp]
  cases fittedParts st with
  | error e => rfl
  | ok d =>
  simp only
  obtain ⟨r, s'⟩ := pairLoop L g d R (featurePairs d.X.c) s
  cases r with
  | error e => rfl
  | ok l =>
  simp only
  cases addTranspose (pairMatrix d.X.c R junk single l) with
  | error e => rfl
  | ok M =>
  simp only
  cases appendArr3 st.interaction M <;> rfl

theorem interactionGlobal_noMat (L : Learner K F) (g : PRng S) (junk : Nat → Nat → Nat → K)
    (p : WMParams K C) (st : WMState K F C) (s : S) (R : Nat) :
    interactionGlobal L g junk p (withoutMatrices st) s R =
      ⟨(interactionGlobal L g junk p st s R).result,
        withoutMatrices (interactionGlobal L g junk p st s R).state,
        (interactionGlobal L g junk p st s R).rng⟩ := by
  unfold interactionGlobal
  have hp : (withoutMatrices st).permDecrease = st.permDecrease := rfl
  rw [hp]
  split
  · rfl
  cases st.permDecrease with
  | some dec => exact interactionWith_noMat ..
  | none =>
  simp only
  rw [importanceGlobal_noMat]
  obtain ⟨r, st', s'⟩ := importanceGlobal L g p st s 5
  cases r with
  | error e => rfl
  | ok single => exact interactionWith_noMat ..

/-- C132: the global methods do not need the matrices. After fits of one model with a sparse weight
matrix and with the equal dense one they return the same scores and curves, or the same exception,
draw the same random numbers and leave the same attributes behind. -/
theorem C132_global_methods_agree (L : Learner K F) (rng : Rng S) (p : WMParams K C)
    (st : WMState K F C) (s : S) (X : Mat K) (y : List K) (coords : Option C) (A : Csr K)
    (h : A.Canonical) (hz : p.leaveLocalOut = true ∨ A.NoZeros) (hc : A.c = X.r)
    (hj : p.nJobs = none) :
    let a := (wmFit L rng p st s X y coords (some (.sparse A))).state
    let b := (wmFit L rng p st s X y coords (some (.dense A.dense))).state
    (∀ {S' : Type} (g : PRng S') (t : S') (R : Nat),
      (importanceGlobal L g p a t R).result = (importanceGlobal L g p b t R).result ∧
      (importanceGlobal L g p a t R).rng = (importanceGlobal L g p b t R).rng ∧
      (importanceGlobal L g p a t R).state.permDecrease =
        (importanceGlobal L g p b t R).state.permDecrease) ∧
    (∀ {S' : Type} (g : PRng S') junk (t : S') (R : Nat),
      (interactionGlobal L g junk p a t R).result = (interactionGlobal L g junk p b t R).result ∧
      (interactionGlobal L g junk p a t R).rng = (interactionGlobal L g junk p b t R).rng ∧
      (interactionGlobal L g junk p a t R).state.permDecrease =
        (interactionGlobal L g junk p b t R).state.permDecrease ∧
      (interactionGlobal L g junk p a t R).state.interaction =
        (interactionGlobal L g junk p b t R).state.interaction) ∧
    ∀ feature, globalAle L a feature = globalAle L b feature := by
  obtain ⟨-, -, hs, -⟩ := C40_sparse_eq_dense L rng p st s X y coords A h hz hc hj
  intro a b
  have hab : withoutMatrices a = withoutMatrices b := hs
  refine ⟨fun g t R => ?_, fun g junk t R => ?_, fun feature => ?_⟩
  · have e1 := importanceGlobal_noMat L g p a t R
    have e2 := importanceGlobal_noMat L g p b t R
    rw [hab, e2] at e1
    injection e1 with i1 i2 i3
    exact ⟨i1.symm, i3.symm, (congrArg WMState.permDecrease i2).symm⟩
  · have e1 := interactionGlobal_noMat L g junk p a t R
    have e2 := interactionGlobal_noMat L g junk p b t R
    rw [hab, e2] at e1
    injection e1 with i1 i2 i3
    exact ⟨i1.symm, i3.symm, (congrArg WMState.permDecrease i2).symm,
      (congrArg WMState.interaction i2).symm⟩
  · have e1 : globalAle L a feature = globalAle L (withoutMatrices a) feature := rfl
    have e2 : globalAle L b feature = globalAle L (withoutMatrices b) feature := rfl
    rw [e1, e2, hab]

/-- The sparse fit of the running example succeeds with both caches. -/
example : (wmFit meanLearner countRng exP {} 0 exX exY none (some (.sparse exSparse))).result = .ok () ∧
    exP.cacheData = true ∧ exP.cacheEstimator = true ∧ exSparse.Canonical ∧
    (exP.leaveLocalOut = true ∨ exSparse.NoZeros) ∧ exSparse.c = exX.r ∧ exP.nJobs = none :=
  ⟨by decide +kernel, rfl, rfl, exSparse_canonical, .inr (by unfold Csr.NoZeros; decide +kernel), rfl, rfl⟩

end Geo
