import Verif.Lemmas.Rel
import Verif.Props.WeightModel
import Verif.Props.StackingAttrs
set_option linter.unusedSectionVars false
/-
Units of the target: what happens to a fit when the target is rescaled and shifted.
-/
namespace Geo
variable {K : Type} [Field K] [LinearOrder K] [IsStrictOrderedRing K] [FloorRing K]
  {F C S : Type}

/-- A regressor whose predictions follow the unit of the target: fitted on `a * y + b` it raises
exactly when it raises on `y`, and predicts `a * prediction + b`. Means, trees, nearest neighbours
and least squares with an intercept are of this kind; a penalised regression is not. -/
def Equivariant (a b : K) (L : Learner K F) : Prop :=
  ∀ e rows ys ws, ERel (fun f f' => ∀ x, L.predict f' x = a * L.predict f x + b)
    (L.fit e rows ys ws) (L.fit e rows (ys.map fun v => a * v + b) ws)

theorem getD_affine (a b : K) {y : List K} {i : Nat} (h : i < y.length) :
    (y.map fun v => a * v + b).getD i 0 = a * y.getD i 0 + b := by
  simp [List.getD_eq_getElem?_getD, h]

theorem map_affine (a b : K) {y : List K} {idx : List Nat} (h : ∀ i ∈ idx, i < y.length) :
    (idx.map fun i => (y.map fun v => a * v + b).getD i 0) =
      (idx.map fun i => y.getD i 0).map fun v => a * v + b := by
  rw [List.map_map]
  exact List.map_congr_left fun i hi => getD_affine a b (h i hi)

/-- Related results of one location. -/
def UnitRel (a b : K) (L : Learner K F) (r r' : K × F) : Prop :=
  r'.1 = a * r.1 + b ∧ ∀ x, L.predict r'.2 x = a * L.predict r.2 x + b

theorem fitLocal_units {a b : K} {L : Learner K F} (hL : Equivariant a b L) {X : Mat K}
    {y : List K} {e : Nat} {idx : List Nat} {ws x : List K} (h : ∀ i ∈ idx, i < y.length) :
    ERel (UnitRel a b L) (fitLocal L X (fun i => y.getD i 0) e idx ws x)
      (fitLocal L X (fun i => (y.map fun v => a * v + b).getD i 0) e idx ws x) := by
  unfold fitLocal
  rw [map_affine a b h]
  exact ERel.map (hL e _ _ ws) fun f f' hf => ⟨hf x, hf⟩

theorem fitAll_units {a b : K} {L : Learner K F} (hL : Equivariant a b L) {X : Mat K}
    {y : List K} (hy : X.r = y.length) (W : WMat K) (nEst : Nat) (idx : Option (List Nat))
    (nJobs nPatches : Option ℤ) (cpu : Nat) :
    ERel (List.Forall₂ (UnitRel a b L))
      (fitAll L X (fun i => y.getD i 0) none W nEst idx nJobs nPatches cpu)
      (fitAll L X (fun i => (y.map fun v => a * v + b).getD i 0) none W nEst idx nJobs nPatches
        cpu) := by
  refine ERel.fitAll rfl ?_ ?_ _ _ _ _ _
  · intro D _ e i
    unfold denseTask
    split
    · rfl
    · rename_i hc
      refine fitLocal_units hL fun k hk => ?_
      have := (mem_nonzeroIdx.1 hk).1
      omega
  · intro A _ e i
    unfold sparseTask
    simp only
    split
    · rfl
    · rename_i hc
      refine fitLocal_units hL fun k hk => ?_
      rw [← hy]
      exact not_le.1 fun h => hc (List.any_eq_true.2 ⟨k, hk, decide_eq_true h⟩)

theorem unitRel_fst {a b : K} {L : Learner K F} {res res' : List (K × F)}
    (h : List.Forall₂ (UnitRel a b L) res res') :
    res'.map Prod.fst = (res.map Prod.fst).map fun v => a * v + b := by
  induction h with
  | nil => rfl
  | cons h1 _ ih => simp only [List.map_cons, ih, h1.1]

theorem sum_affine (a b : K) (l : List K) :
    (l.map fun v => a * v + b).sum = a * l.sum + b * (l.length : K) := by
  induction l with
  | nil => simp
  | cons x l ih =>
    simp only [List.map_cons, List.sum_cons, ih, List.length_cons, Nat.cast_succ]
    ring

/-- The coefficient of determination does not depend on the unit of the target. -/
theorem skR2_units {a b : K} (ha : a ≠ 0) (ys ps : List K) :
    skR2 (ys.map fun v => a * v + b) (ps.map fun v => a * v + b) = skR2 ys ps := by
  unfold skR2
  simp only [List.length_map]
  split
  · rfl
  split
  · rfl
  rename_i h0 h
  have hl : (ys.length : K) ≠ 0 := by
    have : ys.length ≠ 0 := by omega
    exact_mod_cast this
  have hnum : (((ys.map fun v => a * v + b).zip (ps.map fun v => a * v + b)).map
      fun e => (e.1 - e.2) ^ 2).sum = a ^ 2 * ((ys.zip ps).map fun e => (e.1 - e.2) ^ 2).sum := by
    rw [List.zip_map, List.map_map, ← List.sum_map_mul_left]
    congr 1
    apply List.map_congr_left
    rintro ⟨u, v⟩ -
    simp only [Function.comp, Prod.map]
    ring
  have hden : ((ys.map fun v => a * v + b).map fun y =>
      (y - (ys.map fun v => a * v + b).sum / (ys.length : K)) ^ 2).sum =
      a ^ 2 * (ys.map fun y => (y - ys.sum / (ys.length : K)) ^ 2).sum := by
    rw [List.map_map, ← List.sum_map_mul_left, sum_affine]
    congr 1
    apply List.map_congr_left
    intro v _
    simp only [Function.comp]
    field_simp
    ring
  have ha2 : a ^ 2 ≠ 0 := pow_ne_zero 2 ha
  rw [hnum, hden]
  generalize ((ys.zip ps).map fun e => (e.1 - e.2) ^ 2).sum = num
  generalize (ys.map fun y => (y - ys.sum / (ys.length : K)) ^ 2).sum = den
  congr 1
  simp only [ne_eq, mul_eq_zero, ha2, false_or, mul_div_mul_left _ _ ha2]

theorem zipWith_sub_units (a b : K) (ys ps : List K) :
    List.zipWith (fun u v => u - v) (ys.map fun v => a * v + b) (ps.map fun v => a * v + b) =
      (List.zipWith (fun u v => u - v) ys ps).map fun r => a * r := by
  induction ys generalizing ps with
  | nil => rfl
  | cons y ys ih =>
    cases ps with
    | nil => rfl
    | cons p ps =>
      simp only [List.map_cons, List.zipWith_cons_cons, ih]
      congr 1
      ring

/-- C89: the unit of the target does not matter to a geographically weighted model. Fit the same
model once on `y` and once on `a * y + b` (a ≠ 0), with the same data, weights, options and
generator, and a local regressor whose predictions follow the unit of the target. Both calls
succeed, or both raise the same exception; they draw the same numbers and leave the same weights
with the caller. After success they fitted the same locations, the R² is the same number, every
local prediction `v` has become `a * v + b` and every residual `r` has become `a * r`. -/
theorem C89_target_units (a b : K) (ha : a ≠ 0) (L : Learner K F) (hL : Equivariant a b L)
    (rng : Rng S) (hrng : rng.Valid) (p : WMParams K C)
    (hrate : ∀ r, p.sampleRate = some r → 0 ≤ r ∧ r ≤ 1) (st : WMState K F C) (s : S) (X : Mat K)
    (y : List K) (coords : Option C) (W : Option (WMat K)) :
    let o := wmFit L rng p st s X y coords W
    let o' := wmFit L rng p st s X (y.map fun v => a * v + b) coords W
    o'.result = o.result ∧ o'.caller = o.caller ∧ o'.rng = o.rng ∧
      (o.result = .ok () → ∃ idx v ps rs,
        o.state.localIndices = some idx ∧ o'.state.localIndices = some idx ∧
        o.state.score = some v ∧ o'.state.score = some v ∧
        o.state.localPredict = some ps ∧
        o'.state.localPredict = some (ps.map fun v => a * v + b) ∧
        o.state.residual = some rs ∧ o'.state.residual = some (rs.map fun r => a * r)) := by
  intro o o'
  simp only [o, o']
  unfold wmFit
  have hck : checkXy X (y.map fun v => a * v + b) = checkXy X y := by
    unfold checkXy
    rw [List.length_map]
  rw [hck]
  by_cases hc : checkXy X y = true
  swap
  · rw [if_neg hc, if_neg hc]
    exact ⟨rfl, rfl, rfl, fun h => by cases h⟩
  rw [if_pos hc, if_pos hc]
  have hy : X.r = y.length := (of_decide_eq_true hc).1
  cases hW : chosenWeights p coords W with
  | error e => exact ⟨rfl, rfl, rfl, fun h => by cases h⟩
  | ok W0 =>
    simp only
    unfold fitWith
    simp only
    have hsl : ∀ idx s', sampleLocations rng s p.sampleRate X.r = (.ok idx, s') →
        ∀ i ∈ idx, i < y.length := by
      intro idx s' h i hi
      rw [← hy]
      exact (sampleLocations_spec hrng hrate h).2.1 i hi
    rcases hs : sampleLocations rng s p.sampleRate X.r with ⟨r, s'⟩
    cases r with
    | error e => exact ⟨rfl, rfl, rfl, fun h => by cases h⟩
    | ok idx =>
      simp only
      have hf := fitAll_units hL hy (leaveOut p W0) X.r (some idx) p.nJobs p.storedPatches p.cpu
      rw [map_affine a b (hsl idx s' hs)]
      generalize fitAll L X (fun i => y.getD i 0) none (leaveOut p W0) X.r (some idx) p.nJobs
        p.storedPatches p.cpu = r1 at hf ⊢
      generalize fitAll L X (fun i => (y.map fun v => a * v + b).getD i 0) none (leaveOut p W0) X.r
        (some idx) p.nJobs p.storedPatches p.cpu = r2 at hf ⊢
      cases r1 with
      | error e =>
        rw [hf.error]
        exact ⟨rfl, rfl, rfl, fun h => by cases h⟩
      | ok res =>
        obtain ⟨res', rfl, hr⟩ := hf.ok
        simp only
        unfold stateEnd
        simp only
        rw [unitRel_fst hr, skR2_units ha]
        cases skR2 (idx.map fun i => y.getD i 0) (res.map Prod.fst) with
        | error e => exact ⟨rfl, trivial, trivial, fun h => by cases h⟩
        | ok v =>
          refine ⟨rfl, trivial, trivial, fun _ => ⟨idx, v, _, _, rfl, rfl, rfl, rfl, rfl, rfl, rfl, ?_⟩⟩
          rw [zipWith_sub_units]

/-- The weighted mean of the targets of the neighbours. -/
def localMean : Learner ℚ ℚ where
  fit _ _ y w := if w.sum = 0 ∨ y.length ≠ w.length then .error .valueError
    else .ok ((List.zipWith (· * ·) w y).sum / w.sum)
  predict f _ := f

theorem zipWith_affine (a b : ℚ) (w y : List ℚ) (h : y.length = w.length) :
    (List.zipWith (· * ·) w (y.map fun v => a * v + b)).sum =
      a * (List.zipWith (· * ·) w y).sum + b * w.sum := by
  induction w generalizing y with
  | nil => simp
  | cons u w ih =>
    cases y with
    | nil => simp at h
    | cons v y =>
      simp only [List.map_cons, List.zipWith_cons_cons, List.sum_cons, ih y (by simpa using h)]
      ring

theorem localMean_equivariant (a b : ℚ) : Equivariant a b localMean := by
  intro e rows ys ws
  simp only [localMean, List.length_map]
  by_cases h : ws.sum = 0 ∨ ys.length ≠ ws.length
  · rw [if_pos h, if_pos h]
    rfl
  · rw [if_neg h, if_neg h]
    intro x
    push Not at h
    simp only [zipWith_affine a b ws ys h.2]
    field_simp [h.1]

/-- The hypotheses of `C89_target_units` are met, and the fit succeeds. -/
example : Equivariant (-2 : ℚ) 7 localMean ∧ lastRng.Valid ∧
    (wmFit localMean lastRng exP {} 0 exX exY none (some (.dense exWd))).result = .ok () ∧
    (wmFit localMean lastRng exP {} 0 exX exY none (some (.dense exWd))).state.localPredict =
      some [3, 7 / 4, 17 / 5] :=
  ⟨localMean_equivariant _ _, lastRng_valid, by decide +kernel, by decide +kernel⟩

end Geo
