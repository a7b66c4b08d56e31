import Verif.Props.StackingSpec
import Verif.Props.WeightModel
import Mathlib.Data.List.Rotate
/-
Four locations on which the stacking model can be fitted, with dense and CSR weights and with
numba: the hypotheses of C49-C56 are met there. Also what happens without them.
-/
namespace Geo

/-- A generator that starts at another position in every call. -/
def rotRng : Rng Nat := ⟨0, fun s l k =>
  (if 0 ≤ k ∧ k ≤ l.length then .ok ((l.rotate s).take k.toNat) else .error .valueError, s + 1)⟩

theorem rotRng_valid : rotRng.Valid := by
  intro s l k hk
  refine ⟨(l.rotate s).take k, ?_, by simp [hk], ?_⟩
  · simp [rotRng, hk]
  · exact ((List.take_sublist _ _).subperm).trans (List.rotate_perm l s).subperm

def seX : Mat ℚ := ⟨4, 1, fun i _ => i⟩
def seY : List ℚ := [1, 5, 2, 7]
def seW : Mat ℚ := ⟨4, 4, fun i j => if i = j then 1 else 1 / (1 + i + j : ℚ)⟩
def seA : Csr ℚ := ⟨4, 4, [0, 4, 8, 12, 16], [0, 1, 2, 3, 0, 1, 2, 3, 0, 1, 2, 3, 0, 1, 2, 3],
  (List.range 4).flatMap fun i => (List.range 4).map (seW.get i)⟩
def seP : SParams ℚ Unit :=
  { nPatches := some 2, cpu := 2, weights := fun _ _ => .error .exception,
    leaveOutRate := some (1 / 4), leaveLocalOut := true }

theorem seA_canonical : seA.Canonical where
  len := rfl
  first := rfl
  last := rfl
  mono := by decide
  dataLen := rfl
  bound := by decide
  sorted := by decide

theorem seA_pos : ∀ x ∈ seA.data, 0 < x := by decide +kernel

/-- A fit of the example. -/
def seFit (p : SParams ℚ Unit) (y : List ℚ) (W : WMat ℚ) : SOut Unit ℚ ℚ ℚ Unit Nat :=
  stackFit meanLearner meanLearner meanLearner rotRng p {} 0 seX y none (some W)

/-- C49: the hypotheses are met, and the fit does depend on the changed target: the predictions of
the other locations change. -/
example :
    (seFit seP seY (.dense seW)).result = .ok () ∧
    (seFit seP (seY.set 1 9) (.dense seW)).result = .ok () ∧
    (seFit seP seY (.dense seW)).state.stackPredictions =
      some [7348 / 585, 2009 / 171, 121 / 9, 25217 / 1665] ∧
    (seFit seP (seY.set 1 9) (.dense seW)).state.stackPredictions =
      some [9832 / 585, 2009 / 171, 149 / 9, 34333 / 1665] ∧
    (seFit seP (seY.set 1 9) (.sparse seA)).state.stackPredictions =
      some [9832 / 585, 2009 / 171, 149 / 9, 34333 / 1665] ∧
    (seFit { seP with useNumba := true } (seY.set 1 9) (.sparse seA)).state.stackPredictions =
      some [9832 / 585, 2009 / 171, 149 / 9, 34333 / 1665] := by decide +kernel

/-- C50, C51: the conditions on the weights and the generator are met. -/
example : SparseFine rotRng seP (some (.sparse seA)) ∧
    (seFit seP seY (.sparse seA)).result = .ok () ∧
    (seFit { seP with useNumba := true } seY (.sparse seA)).result = .ok () ∧
    okAnd (shrinkMetaDense (some (1 / 2)) seW) (fun W1 => (List.range 4).all fun i => decide (0 < W1.get i i)) = true := by
  refine ⟨fun A hA => ?_, by decide +kernel, by decide +kernel, by decide +kernel⟩
  injection hA with hA
  injection hA with hA
  subst hA
  refine ⟨seA_canonical, fun x hx => (seA_pos x hx).ne', rotRng_valid, fun r hr => ?_⟩
  cases hr
  norm_num

/-- C52: with both shrink rates. -/
example :
    let p := { seP with metaShrink := some (1 / 2), leaveOutShrink := some (1 / 4) }
    (seFit p seY (.dense seW)).state.stackPredictions = some [38 / 3, 8, 41 / 3, 428 / 37] ∧
    (seFit p seY (.sparse seA)).state.stackPredictions = some [38 / 3, 8, 41 / 3, 428 / 37] ∧
    (seFit { p with useNumba := true } seY (.sparse seA)).state.stackPredictions =
      some [38 / 3, 8, 41 / 3, 428 / 37] ∧
    (seFit { p with useNumba := true } seY (.sparse seA)).state.fitScores =
      some [1, 1, 1, 1] := by decide +kernel

end Geo
