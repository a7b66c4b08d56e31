import Verif.Props.ReorderedRow
set_option linter.unusedSectionVars false
/-
C187: distances and bandwidths in another unit, in floating point.
-/
namespace Geo
section
variable {K : Type} [Field K] [LinearOrder K] [IsStrictOrderedRing K] {env : Env K} {a : Arith K}

/-- The same dimension in another unit: distances and bandwidth are multiplied by `c`, with rounding. -/
def inUnit (a : Arith K) (c : K) (t : RowDim K) : RowDim K :=
  { t with dist := fun j => (a.op (c * t.dist j)).toK, bw := (a.op (c * t.bw)).toK }

theorem kernelElemR_unit (lazy : Bool) (name : String) {c : K} (c0 : 0 < c) (d b : K) :
    kernelWeightR env a lazy name (c * d) (c * b) = kernelWeightR env a lazy name d b := by
  have h1 : Num.div (.fin (c * d)) (.fin (c * b)) = Num.div (.fin d) (.fin b) := by
    have : Num.infSign (c * d) = Num.infSign d := by
      simp only [Num.infSign, mul_pos_iff_of_pos_left c0, mul_eq_zero, c0.ne', false_or]
    simp only [Num.div, mul_eq_zero, c0.ne', false_or, mul_div_mul_left _ _ c0.ne', this]
  have h2 : normalizeDistanceR env a (c * d) (c * b) = normalizeDistanceR env a d b := by
    unfold normalizeDistanceR
    rw [h1]
  have h3 : ∀ x : Num K, cutSupport (c * d) (c * b) x = cutSupport d b x := by
    intro x
    simp only [cutSupport, mul_lt_mul_iff_right₀ c0]
  unfold kernelWeightR kernelElemR
  split_ifs <;> simp only [h2, h3]

/-- C187: if the change of unit is exact, for every distance and every bandwidth, the weights do not change in
floating point either, whatever the kernels and the order of summation. -/
theorem C187_exact (lazy : Bool) (dims : List (RowDim K)) (n : Nat) (shape : List (Num K) → SumTree K) {c : K}
    (c0 : 0 < c) (hb : ∀ t ∈ dims, a.Float (c * t.bw)) (hd : ∀ t ∈ dims, ∀ j < n, a.Float (c * t.dist j)) :
    weightRowR env a lazy (dims.map (inUnit a c)) n shape = weightRowR env a lazy dims n shape := by
  have h : ∀ j ∈ List.range n, rawWeightR env a lazy (dims.map (inUnit a c)) j = rawWeightR env a lazy dims j := by
    intro j hj
    have hj := List.mem_range.1 hj
    unfold rawWeightR
    rw [mapE_list_map]
    have : mapE (fun t => kernelWeightR env a lazy (inUnit a c t).kernel ((inUnit a c t).dist j) (inUnit a c t).bw) dims =
        mapE (fun t => kernelWeightR env a lazy t.kernel (t.dist j) t.bw) dims := by
      refine mapE_congr fun t ht => ?_
      have e1 : (inUnit a c t).dist j = c * t.dist j := by
        show (a.op (c * t.dist j)).toK = _
        rw [hd t ht j hj]
        rfl
      have e2 : (inUnit a c t).bw = c * t.bw := by
        show (a.op (c * t.bw)).toK = _
        rw [hb t ht]
        rfl
      rw [e1, e2]
      exact kernelElemR_unit lazy t.kernel c0 _ _
    rw [this]
  unfold weightRowR
  rw [mapE_congr h]

/-- C187: in any other unit a boxcar neighbour stays one: distances up to the bandwidth are rounded to distances up to
the rounded bandwidth. -/
theorem C187_boxcar (ha : a.Ok) (lazy : Bool) {c : K} (c0 : 0 ≤ c) {d b d' b' : K} (hdb : d ≤ b)
    (h1 : a.op (c * d) = .fin d') (h2 : a.op (c * b) = .fin b') :
    kernelWeightR env a lazy "boxcar" d' b' = .ok (.fin 1) := by
  have := ha.op.mono _ _ (mul_le_mul_of_nonneg_left hdb c0)
  rw [h1, h2] at this
  have hle : d' ≤ b' := this
  simp [kernelWeightR, kernelElemR, cutSupport, not_lt.2 hle]

/-- C187: and with the kernels that fall to zero at the bandwidth, whatever is at or beyond the bandwidth has weight zero
in any other unit, if the bandwidth does not become zero. -/
theorem C187_beyond (ha : a.Ok) (lazy : Bool) {name : String} (hn : name ∈ ["linear", "bisquare", "tricube"]) {c : K}
    (c0 : 0 ≤ c) {d b d' b' : K} (hbd : b ≤ d) (h1 : a.op (c * d) = .fin d') (h2 : a.op (c * b) = .fin b')
    (hb' : 0 < b') : kernelWeightR env a lazy name d' b' = .ok (.fin 0) := by
  have := ha.op.mono _ _ (mul_le_mul_of_nonneg_left hbd c0)
  rw [h1, h2] at this
  have hle : b' ≤ d' := this
  have hc : name ∈ compactKernels := by
    rcases (by simpa using hn) with rfl | rfl | rfl <;> decide
  rcases hle.eq_or_lt with rfl | hlt
  · obtain ⟨y, hy, -, -, hk⟩ := kernelR_inside (env := env) ha lazy hc hb'.le le_rfl
    have : normalizeDistanceR env a b' b' = .fin 1 := by
      simp [normalizeDistanceR, Num.div, hb'.ne', Num.rnd, ha.op.one]
    rw [this] at hy
    cases hy
    rw [hk, shapeR_one ha hn]
  · exact kernelR_beyond ha lazy hc hb'.le hlt

end

section
variable {K : Type} [Field K] [LinearOrder K] [IsStrictOrderedRing K] [FloorRing K]

/-- C187: multiplying by a power of two is exact in double precision unless it overflows, so units that differ by a power
of two give exactly the same weights. -/
theorem C187_power_of_two (env : Env K) (lazy : Bool) (dims : List (RowDim K)) (n : Nat)
    (shape : List (Num K) → SumTree K) (k : Nat)
    (hb : ∀ t ∈ dims, (double.arith : Arith K).Float t.bw ∧ |2 ^ k * t.bw| ≤ double.maxFinite K)
    (hd : ∀ t ∈ dims, ∀ j < n, (double.arith : Arith K).Float (t.dist j) ∧ |2 ^ k * t.dist j| ≤ double.maxFinite K) :
    weightRowR env double.arith lazy (dims.map (inUnit double.arith (2 ^ k))) n shape =
      weightRowR env double.arith lazy dims n shape := by
  have key : ∀ x : K, (double.arith : Arith K).Float x → |2 ^ k * x| ≤ double.maxFinite K →
      (double.arith : Arith K).Float (2 ^ k * x) := by
    intro x hx hm
    obtain ⟨m, e, h1, h2, rfl⟩ := Fmt.float_isFloat hx
    have : double.IsFloat ((2 : K) ^ k * (m * 2 ^ e)) :=
      ⟨m, e + k, h1, by omega, by rw [zpow_add₀ two_ne_zero, zpow_natCast]; ring⟩
    show double.toNum _ = _
    rw [Fmt.toNum_fin double_ok hm, Fmt.round_float _ _ this]
  exact C187_exact lazy dims n shape (by positivity) (fun t ht => key _ (hb t ht).1 (hb t ht).2)
    (fun t ht j hj => key _ (hd t ht j hj).1 (hd t ht j hj).2)

end

/-- C187: from metres to kilometres a neighbour can appear with the boxcar kernel and disappear with the linear one: at
bandwidth 7.9 an observation at the next larger distance, and at bandwidth 15.7 one at the next smaller distance. -/
theorem C187_kilometres :
    let km : ℚ → ℚ := fun x => (double.arith.op (double.round (1 / 1000) * x)).toK
    let b : ℚ := double.round (79 / 10)
    let d : ℚ := b + 1 / 2 ^ 50
    let b' : ℚ := double.round (157 / 10)
    let d' : ℚ := b' - 1 / 2 ^ 49
    double.round d = d ∧ double.round d' = d' ∧
    (kernelWeightR stepEnv double.arith false "boxcar" d b).toOption = some (.fin 0) ∧
    (kernelWeightR stepEnv double.arith false "boxcar" (km d) (km b)).toOption = some (.fin 1) ∧
    (kernelWeightR stepEnv double.arith false "linear" d' b').toOption = some (.fin (1 / 2 ^ 53)) ∧
    (kernelWeightR stepEnv double.arith false "linear" (km d') (km b')).toOption = some (.fin 0) := by
  decide +kernel

/-- The hypotheses of `C187_boxcar` and `C187_beyond` hold, from metres to kilometres. -/
example : kernelWeightR stepEnv double.arith false "boxcar" (double.round (double.round (1 / 1000) * 7))
      (double.round (double.round (1 / 1000) * 8)) = .ok (.fin (1 : ℚ)) ∧
    kernelWeightR stepEnv double.arith false "tricube" (double.round (double.round (1 / 1000) * 9))
      (double.round (double.round (1 / 1000) * 8)) = .ok (.fin (0 : ℚ)) :=
  ⟨C187_boxcar (C175_ieee double double_ok).1 false (c := double.round (1 / 1000)) (d := 7) (b := 8) (by decide +kernel)
    (by decide) (by decide +kernel) (by decide +kernel),
   C187_beyond (C175_ieee double double_ok).1 false (by decide) (c := double.round (1 / 1000)) (d := 9) (b := 8)
    (by decide +kernel) (by decide) (by decide +kernel) (by decide +kernel) (by decide +kernel)⟩

/-- The hypotheses of `C187_power_of_two` hold. -/
example : weightRowR stepEnv double.arith false (farDims.map (inUnit double.arith (2 ^ 10))) 8 pairwiseTree =
    weightRowR stepEnv double.arith false farDims 8 pairwiseTree := by
  refine C187_power_of_two stepEnv false farDims 8 pairwiseTree 10 ?_ ?_
  · intro t ht
    rw [List.mem_singleton.1 ht]
    exact ⟨by show double.toNum _ = _; decide +kernel, by decide +kernel⟩
  · intro t ht j hj
    rw [List.mem_singleton.1 ht]
    show double.toNum (if j < 7 then 1 else 4) = .fin (if j < 7 then 1 else 4) ∧ |2 ^ 10 * (if j < 7 then (1 : ℚ) else 4)| ≤ _
    split_ifs <;> exact ⟨by decide +kernel, by decide +kernel⟩

end Geo
