import Verif.Props.WeightMatrixArgs
import Verif.Props.WeightModelPredict
set_option linter.unusedSectionVars false
/-
Units of the coordinates: rescaling the distances of each dimension by its own factor.
-/
namespace Geo
variable {K : Type} [Field K] [LinearOrder K] [IsStrictOrderedRing K] [FloorRing K]

/-- A matrix in another unit. -/
def scaleMat (c : K) (D : Mat K) : Mat K := D.map (c * ·)

/-- A parameter given per dimension or once for all, in the new units of the dimensions. -/
def scaleParam {α : Type} (f : K → α → α) (cs : List K) : Param (Option α) → Param (Option α)
  | .scalar none => .scalar none
  | .scalar (some a) => .list (cs.map fun c => some (f c a))
  | .list l => .list (List.zipWith (fun c o => o.map (f c)) cs l)

theorem scaleParam_isNone {α : Type} (f : K → α → α) (cs : List K) (q : Param (Option α)) :
    (scaleParam f cs q).isNone = q.isNone := by
  cases q with
  | scalar o => cases o <;> rfl
  | list l => rfl

theorem pyGet_scaleParam {α : Type} (f : K → α → α) (cs : List K) (q : Param (Option α)) {d : Nat}
    (hd : d < cs.length) :
    pyGet ((scaleParam f cs q).expand cs.length) d =
      (pyGet (q.expand cs.length) d).map (Option.map (f cs[d])) := by
  cases q with
  | scalar o =>
    cases o with
    | none => simp [scaleParam, Param.expand, pyGet, hd, Except.map]
    | some a => simp [scaleParam, Param.expand, pyGet, hd, Except.map]
  | list l =>
    simp only [scaleParam, Param.expand, pyGet]
    by_cases hl : d < l.length
    · simp [hd, hl, Except.map]
    · rw [List.getElem?_eq_none (by simp; omega), List.getElem?_eq_none (by omega)]
      rfl

theorem normalizeDistance_scale (env : Env K) {c : K} (hc : 0 < c) (d b : K) :
    normalizeDistance env (c * d) (c * b) = normalizeDistance env d b := by
  have : Num.div (.fin (c * d)) (.fin (c * b)) = Num.div (.fin d) (.fin b) := by
    simp only [Num.div, mul_div_mul_left _ _ hc.ne', mul_eq_zero, hc.ne', false_or, Num.infSign,
      mul_pos_iff_of_pos_left hc]
  unfold normalizeDistance
  rw [this]

theorem kernelElem_scale (env : Env K) (lazy : Bool) (name : String) {w : K → K → Num K}
    (h : kernelElem env lazy name = .ok w) {c : K} (hc : 0 < c) (d b : K) :
    w (c * d) (c * b) = w d b := by
  have hn := normalizeDistance_scale env hc d b
  have hcut : ∀ x : Num K, cutSupport (c * d) (c * b) x = cutSupport d b x := by
    intro x
    unfold cutSupport
    simp only [gt_iff_lt, mul_lt_mul_iff_right₀ hc]
  unfold kernelElem at h
  split at h
  · cases h; rfl
  split at h
  · cases h; simp only [hn]
  split at h
  · cases h; simp only [hn]
  split at h
  · cases h; simp only [hn, hcut]
  split at h
  · cases h; simp only [hcut]
  split at h
  · split at h
    · cases h; simp only [hn]
    · cases h; simp only [hn, hcut]
  split at h
  · cases h; simp only [hn, hcut]
  · cases h

theorem kernelFunction_scale (env : Env K) (lazy : Bool) (D : Mat K) (bw : Nat → K) (name : String)
    {c : K} (hc : 0 < c) :
    kernelFunction env lazy (scaleMat c D) (fun i => c * bw i) name =
      kernelFunction env lazy D bw name := by
  unfold kernelFunction
  cases h : kernelElem env lazy name with
  | error e => rfl
  | ok w =>
    simp only [scaleMat, Mat.map, kernelElem_scale env lazy name h hc]

theorem sortL_scale {c : K} (hc : 0 < c) (l : List K) :
    sortL (l.map (c * ·)) = (sortL l).map (c * ·) := by
  apply List.Perm.eq_of_pairwise (le := (· ≤ ·)) (fun _ _ _ _ h1 h2 => le_antisymm h1 h2)
    (sortL_pairwise _)
  · rw [List.pairwise_map]
    exact (sortL_pairwise l).imp fun h => mul_le_mul_of_nonneg_left h hc.le
  · exact (sortL_perm _).trans ((sortL_perm l).map _).symm

theorem getD_scale (c : K) (l : List K) (i : Nat) : (l.map (c * ·)).getD i 0 = c * l.getD i 0 := by
  by_cases h : i < l.length
  · simp [List.getD_eq_getElem?_getD, h]
  · simp [List.getD_eq_getElem?_getD, List.getElem?_eq_none (not_lt.1 h)]

theorem quantileVal_scale (virt : Nat → K → K) {c : K} (hc : 0 < c) (l : List K) (q : K) :
    quantileVal virt (l.map (c * ·)) q = c * quantileVal virt l q := by
  unfold quantileVal lerp
  simp only [sortL_scale hc, getD_scale, List.length_map]
  split
  · rfl
  · split
    · rfl
    · ring

theorem scaleMat_row (c : K) (D : Mat K) (i : Nat) :
    (scaleMat c D).row i = (D.row i).map (c * ·) := by
  simp [Mat.row, scaleMat, Mat.map]

theorem adaptiveBandwidth_scale (lazy : Bool) (D : Mat K) (n : Count K) (S : Option (Mat K))
    {c : K} (hc : 0 < c) :
    adaptiveBandwidth lazy (scaleMat c D) n (S.map (scaleMat c)) =
      (adaptiveBandwidth lazy D n S).map fun bw i => c * bw i := by
  unfold adaptiveBandwidth
  cases lazy with
  | false =>
    simp only [Bool.false_eq_true, if_false]
    unfold adaptiveBandwidthEager
    cases n with
    | int k =>
      simp only [show (scaleMat c D).c = D.c from rfl, scaleMat_row, sortL_scale hc, getD_scale]
      split
      · rfl
      · split <;> rfl
    | float q =>
      simp only [show (scaleMat c D).c = D.c from rfl, scaleMat_row, quantileVal_scale _ hc]
      split
      · rfl
      · split
        · rfl
        · split <;> rfl
    | npInt k => rfl
  | true =>
    simp only [if_true]
    unfold adaptiveBandwidthLazy
    cases S with
    | some S =>
      simp only [Option.map_some, show (scaleMat c D).r = D.r from rfl,
        show (scaleMat c S).c = S.c from rfl]
      split
      · rfl
      · split
        · rfl
        · split <;> rfl
    | none =>
      simp only [Option.map_none, show (scaleMat c D).c = D.c from rfl, scaleMat_row,
        quantileVal_scale _ hc]
      split
      · rfl
      · split <;> rfl

theorem weightByDistance_scale (env : Env K) (lazy : Bool) (D : Mat K) (name : String)
    (b : Option K) (n : Option (Count K)) (S : Option (Mat K)) {c : K} (hc : 0 < c) :
    weightByDistance env lazy (scaleMat c D) name (b.map (c * ·)) n (S.map (scaleMat c)) =
      weightByDistance env lazy D name b n S := by
  unfold weightByDistance
  cases b with
  | some b =>
    cases n with
    | none => exact kernelFunction_scale env lazy D (fun _ => b) name hc
    | some n => rfl
  | none =>
    cases n with
    | none => rfl
    | some n =>
      simp only [Option.map_none]
      unfold adaptiveKernel
      rw [adaptiveBandwidth_scale lazy D n S hc]
      cases adaptiveBandwidth lazy D n S with
      | error e => rfl
      | ok bw => exact kernelFunction_scale env lazy D bw name hc

/-- C93: the unit in which a dimension is measured does not matter. Multiply the distances of every
dimension by a positive factor of its own, and the fixed bandwidths (and the presorted distances, if
given) by the same factor. Neighbour counts, kernels and everything else stay as they are. The call
gives the same weight matrix, or fails in the same way; with ndarrays and with dask arrays. With
`neighbour_count` alone there is nothing to convert. -/
theorem C93_dimension_units (env : Env K) (lazy : Bool) (Ds : List (Mat K)) (p : WParams K)
    (cs : List K) (hlen : cs.length = Ds.length) (hpos : ∀ c ∈ cs, 0 < c) :
    weightMatrixFromDistance env lazy (List.zipWith scaleMat cs Ds)
      { p with bandwidth := scaleParam (· * ·) cs p.bandwidth
               sorted := scaleParam scaleMat cs p.sorted } =
      weightMatrixFromDistance env lazy Ds p := by
  have hshape : (List.zipWith scaleMat cs Ds).map (fun D => (D.r, D.c)) =
      Ds.map fun D => (D.r, D.c) := by
    apply List.ext_getElem
    · simp [hlen]
    · intro i h1 h2
      simp [scaleMat, Mat.map]
  have hl : (List.zipWith scaleMat cs Ds).length = cs.length := by simp [hlen]
  have hdim : dimWeights env lazy (List.zipWith scaleMat cs Ds)
      { p with bandwidth := scaleParam (· * ·) cs p.bandwidth
               sorted := scaleParam scaleMat cs p.sorted } = dimWeights env lazy Ds p := by
    unfold dimWeights
    rw [hl, hlen]
    apply mapE_congr
    intro d hd
    have hd := List.mem_range.1 hd
    have hdc : d < cs.length := by omega
    have hc : 0 < cs[d] := hpos _ (List.getElem_mem hdc)
    unfold dimWeight sortedArg
    have e1 : pyGet (List.zipWith scaleMat cs Ds) d = (pyGet Ds d).map (scaleMat cs[d]) := by
      simp [pyGet, hd, hdc, Except.map]
    rw [e1, hl]
    simp only [pyGet_scaleParam _ cs _ hdc]
    rw [hlen]
    cases pyGet Ds d with
    | error e => rfl
    | ok D =>
      cases pyGet (p.kernel.expand Ds.length) d with
      | error e => rfl
      | ok name =>
        cases pyGet (p.bandwidth.expand Ds.length) d with
        | error e => rfl
        | ok b =>
          cases pyGet (p.count.expand Ds.length) d with
          | error e => rfl
          | ok n =>
            cases lazy with
            | false => exact weightByDistance_scale env false D name b n none hc
            | true =>
              cases h : pyGet (p.sorted.expand Ds.length) d with
              | error e => simp [bind, Except.bind, Except.map]
              | ok S =>
                simp only [bind, Except.bind, Except.map, if_true]
                exact weightByDistance_scale env true D name b n S hc
  unfold weightMatrixFromDistance
  rw [hshape]
  simp only [scaleParam_isNone]
  split
  · rfl
  split
  · rfl
  cases hratio : p.ratio with
  | some ratio =>
    simp only [effectiveDistances, mergeDistances, hl, hlen]
    cases ratio with
    | scalar a => simp only; split <;> rfl
    | list l => simp only; split <;> rfl
  | none =>
  rw [hratio] at hdim
  simp only [effectiveDistances]
  simp only [bind, Except.bind]
  rw [hdim]
  cases dimWeights env lazy Ds p with
  | error e => rfl
  | ok Ws =>
    cases Ds with
    | nil =>
      cases cs with
      | nil => rfl
      | cons c cs => simp at hlen
    | cons D Ds =>
      cases cs with
      | nil => simp at hlen
      | cons c cs => rfl

/-- C93: with neighbour counts only, no parameter has a unit: the weight matrix is the same
whatever the factors. -/
theorem C93_neighbour_count (env : Env K) (lazy : Bool) (Ds : List (Mat K)) (kernel : Param String)
    (count : Param (Option (Count K))) (cs : List K) (hlen : cs.length = Ds.length)
    (hpos : ∀ c ∈ cs, 0 < c) :
    weightMatrixFromDistance env lazy (List.zipWith scaleMat cs Ds)
      { kernel := kernel, count := count } =
      weightMatrixFromDistance env lazy Ds { kernel := kernel, count := count } :=
  C93_dimension_units env lazy Ds { kernel := kernel, count := count } cs hlen hpos

/-- Two dimensions, the first in a unit a thousand times smaller and the second in one twelve times
larger. Converting the distances but not the bandwidths gives other weights. -/
example : (∃ W, weightMatrixFromDistance ratEnv false [exSpace, exTime] exParams = .ok W) ∧
    (∀ c ∈ [(1000 : ℚ), 1 / 12], 0 < c) ∧
    okAnd (weightMatrixFromDistance ratEnv false [exSpace, exTime] exParams) (fun W =>
      okAnd (weightMatrixFromDistance ratEnv false
        (List.zipWith scaleMat [1000, 1 / 12] [exSpace, exTime]) exParams) fun W' =>
        decide (W.toLists ≠ W'.toLists)) = true :=
  ⟨⟨_, rfl⟩, by simp, by decide +kernel⟩

end Geo
