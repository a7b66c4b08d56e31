import Verif.Props.RoundedUnitsAdaptive
import Verif.Props.ReorderedTotal
set_option linter.unusedSectionVars false
/-
C187: rows of the weight matrix of a training location, with the distances in another unit, in floating point.
-/
namespace Geo
section
variable {K : Type} [Field K] [LinearOrder K] [IsStrictOrderedRing K] {env : Env K} {a : Arith K}

theorem list_sum_bound (l : List Nat) (f : Nat → K) (δ : K) (h : ∀ j ∈ l, f j ≤ δ) : (l.map f).sum ≤ l.length * δ := by
  induction l with
  | nil => simp
  | cons x l ih =>
    have h1 := h x (by simp)
    have h2 := ih fun j hj => h j (by simp [hj])
    simp only [List.map_cons, List.sum_cons, List.length_cons, Nat.cast_add, Nat.cast_one]
    linarith

theorem share_gap {r r' S S' δ D : K} (h0 : 0 ≤ r') (h1 : r' ≤ S') (S1 : 1 ≤ S) (S1' : 1 ≤ S') (hr : |r - r'| ≤ δ)
    (hS : |S - S'| ≤ D) : |r / S - r' / S'| ≤ δ + D := by
  have s0 : 0 < S := by linarith
  have s0' : 0 < S' := by linarith
  have e : r / S - r' / S' = (r - r') / S + r' / S' * ((S' - S) / S) := by
    field_simp
    ring
  have d0 : 0 ≤ δ := (abs_nonneg _).trans hr
  have q : |r' / S'| ≤ 1 := by
    rw [abs_of_nonneg (div_nonneg h0 s0'.le)]
    exact (div_le_one s0').2 h1
  have b1 : |(r - r') / S| ≤ δ := by
    rw [abs_div, abs_of_pos s0]
    exact (div_le_self (abs_nonneg _) S1).trans hr
  have b2 : |(S' - S) / S| ≤ D := by
    rw [abs_div, abs_of_pos s0, abs_sub_comm]
    exact (div_le_self (abs_nonneg _) S1).trans hS
  rw [e]
  calc _ ≤ |(r - r') / S| + |r' / S' * ((S' - S) / S)| := abs_add_le _ _
    _ ≤ δ + 1 * D := by
      rw [abs_mul]
      exact add_le_add b1 (mul_le_mul q b2 (abs_nonneg _) zero_le_one)
    _ = _ := by rw [one_mul]

/-- Rows from raw weights that differ by at most `δ`, both with a full weight: the normalised weights are close. -/
theorem rowR_shift (he : env.Ok) (ha : a.Ok) (hf : ∀ x ≤ 0, a.Float (env.exp x)) (lazy : Bool)
    (dims dims' : List (RowDim K)) (hd : ∀ t ∈ dims, t.Ok) (hd' : ∀ t ∈ dims', t.Ok) (n : Nat)
    {ε η M δ : K} (hA : a.Accurate ε η M) (η0 : 0 ≤ η) (k : Nat) (hk : n ≤ 15 + 113 * 2 ^ k)
    (hM : n * (1 + ε) ^ (25 + k) ≤ M)
    (hδ : ∀ j < n, |rawR env a lazy dims j - rawR env a lazy dims' j| ≤ δ)
    (i : Nat) (hi : i < n) (h1 : rawR env a lazy dims i = 1) (h1' : rawR env a lazy dims' i = 1) :
    ∃ row row' : List K, weightRowR env a lazy dims n pairwiseTree = .ok (row.map Num.fin) ∧
      weightRowR env a lazy dims' n pairwiseTree = .ok (row'.map Num.fin) ∧ row.length = n ∧ row'.length = n ∧
      ∀ j < n, |row.getD j 0 - row'.getD j 0| ≤
        (1 + ε) / (1 - ε) ^ (25 + k) - (1 - ε) / (1 + ε) ^ (25 + k) + 2 * η +
          (1 + ε) / (1 - ε) ^ (25 + k) * (δ + n * δ) := by
  obtain ⟨e, hrow, hb⟩ := rowR_close he ha hf lazy dims hd n hA η0 k hk hM
  obtain ⟨e', hrow', hb'⟩ := rowR_close he ha hf lazy dims' hd' n hA η0 k hk hM
  have hraw := fun j => (rawR_eq he ha hf lazy dims hd j).2
  have hraw' := fun j => (rawR_eq he ha hf lazy dims' hd' j).2
  set R := rawR env a lazy dims
  set R' := rawR env a lazy dims'
  have le_sum : ∀ f : Nat → K, (∀ j, 0 ≤ f j) → ∀ j < n, f j ≤ ((List.range n).map f).sum := by
    intro f f0 j hj
    refine List.single_le_sum (fun x hx => ?_) _ (List.mem_map.2 ⟨j, List.mem_range.2 hj, rfl⟩)
    obtain ⟨m, -, rfl⟩ := List.mem_map.1 hx
    exact f0 m
  have S1 : 1 ≤ ((List.range n).map R).sum := h1 ▸ le_sum R (fun j => (hraw j).1) i hi
  have S1' : 1 ≤ ((List.range n).map R').sum := h1' ▸ le_sum R' (fun j => (hraw' j).1) i hi
  have hS : |((List.range n).map R).sum - ((List.range n).map R').sum| ≤ n * δ := by
    refine (list_abs_sum_sub _ _ _).trans ?_
    have := list_sum_bound (List.range n) (fun j => |R j - R' j|) δ fun j hj => hδ j (List.mem_range.1 hj)
    rwa [List.length_range] at this
  refine ⟨(List.range n).map e, (List.range n).map e', hrow, hrow', by simp, by simp, fun j hj => ?_⟩
  have g1 : ∀ f : Nat → K, ((List.range n).map f).getD j 0 = f j := by
    intro f
    rw [List.getD_eq_getElem?_getD, List.getElem?_map, List.getElem?_range hj]
    rfl
  rw [g1, g1]
  obtain ⟨a1, a2, -, q0⟩ := hb j hj
  obtain ⟨b1, b2, -, q0'⟩ := hb' j hj
  have gap := share_gap (hraw' j).1 (le_sum R' (fun j => (hraw' j).1) j hj) S1 S1' (hδ j hj) hS
  have q1 : R j / ((List.range n).map R).sum ≤ 1 :=
    (div_le_one (by linarith)).2 (le_sum R (fun j => (hraw j).1) j hj)
  have q1' : R' j / ((List.range n).map R').sum ≤ 1 :=
    (div_le_one (by linarith)).2 (le_sum R' (fun j => (hraw' j).1) j hj)
  have e0 := hA.eps_nonneg
  have e1 : 0 < 1 - ε := by linarith [hA.eps_lt]
  have e2 : 0 < 1 + ε := by linarith
  have U1 : 1 ≤ (1 + ε) / (1 - ε) ^ (25 + k) := by
    rw [le_div_iff₀ (pow_pos e1 _), one_mul]
    exact (pow_le_one₀ e1.le (by linarith)).trans (by linarith)
  have L1 : (1 - ε) / (1 + ε) ^ (25 + k) ≤ 1 := by
    rw [div_le_one (pow_pos e2 _)]
    exact (show 1 - ε ≤ 1 by linarith).trans (one_le_pow₀ (by linarith))
  generalize (1 + ε) / (1 - ε) ^ (25 + k) = U at *
  generalize (1 - ε) / (1 + ε) ^ (25 + k) = L at *
  generalize R j / ((List.range n).map R).sum = q at *
  generalize R' j / ((List.range n).map R').sum = q' at *
  obtain ⟨g2, g3⟩ := abs_le.1 gap
  have m1 : (U - L) * q ≤ U - L := mul_le_of_le_one_right (by linarith) q1
  have m2 : (U - L) * q' ≤ U - L := mul_le_of_le_one_right (by linarith) q1'
  have m3 : U * (q - q') ≤ U * (δ + n * δ) := mul_le_mul_of_nonneg_left g3 (by linarith)
  have m4 : U * (q' - q) ≤ U * (δ + n * δ) := mul_le_mul_of_nonneg_left (by linarith) (by linarith)
  rw [abs_le]
  constructor <;> linarith

end

section
variable {K : Type} [Field K] [LinearOrder K] [IsStrictOrderedRing K] [FloorRing K]

/-- C187: at a location that is one of the training locations the row changes little as well: with one dimension, a
linear, bisquare or tricube kernel, up to a million observations and converted distances and bandwidth that are zero or
normal numbers, no weight changes by more than `(n + 3) / 2⁴⁶` in double precision. -/
theorem C187_training_location (env : Env K) (he : env.Ok)
    (hf : ∀ x ≤ 0, (double.arith : Arith K).Float (env.exp x)) (lazy : Bool) (t : RowDim K)
    (hn : t.kernel ∈ ["linear", "bisquare", "tricube"]) {c : K} (c0 : 0 < c) (b0 : 0 < t.bw)
    (hb : 2 ^ double.emin ≤ c * t.bw) (hbM : c * t.bw ≤ double.maxFinite K) (d0 : ∀ j, 0 ≤ t.dist j)
    (hd : ∀ j, t.dist j = 0 ∨ 2 ^ double.emin ≤ c * t.dist j) (hdM : ∀ j, c * t.dist j ≤ double.maxFinite K)
    (n : Nat) (hn6 : n ≤ 10 ^ 6) (i : Nat) (hi : i < n) (hself : t.dist i = 0) :
    ∃ row row' : List K, weightRowR env double.arith lazy [t] n pairwiseTree = .ok (row.map Num.fin) ∧
      weightRowR env double.arith lazy [inUnit double.arith c t] n pairwiseTree = .ok (row'.map Num.fin) ∧
      row.length = n ∧ row'.length = n ∧ ∀ j < n, |row.getD j 0 - row'.getD j 0| ≤ (n + 3) / 2 ^ 46 := by
  have ha : (double.arith : Arith K).Ok := Fmt.arith_ok double_ok
  have hen : t.kernel ∈ kernelTypeEnum := by
    rcases (by simpa using hn) with h | h | h <;> rw [h] <;> decide
  have cd : ∀ j, 0 ≤ c * t.dist j := fun j => mul_nonneg c0.le (d0 j)
  have cb : 0 < c * t.bw := mul_pos c0 b0
  have fd : ∀ j, (double.arith : Arith K).op (c * t.dist j) = .fin (double.round (c * t.dist j)) := fun j =>
    Fmt.toNum_fin double_ok (by rw [abs_of_nonneg (cd j)]; exact hdM j)
  have fb : (double.arith : Arith K).op (c * t.bw) = .fin (double.round (c * t.bw)) :=
    Fmt.toNum_fin double_ok (by rw [abs_of_pos cb]; exact hbM)
  have id' : ∀ j, (inUnit double.arith c t).dist j = double.round (c * t.dist j) := fun j => by
    show ((double.arith : Arith K).op (c * t.dist j)).toK = _
    rw [fd]
    rfl
  have ib' : (inUnit double.arith c t).bw = double.round (c * t.bw) := by
    show ((double.arith : Arith K).op (c * t.bw)).toK = _
    rw [fb]
    rfl
  have r0 : ∀ x : K, 0 ≤ x → 0 ≤ double.round x := fun x hx => by
    have := double.round_mono hx
    rwa [Fmt.round_zero] at this
  have ok1 : ∀ u ∈ [t], u.Ok := by
    intro u hu
    rw [List.mem_singleton.1 hu]
    exact ⟨hen, b0.le, d0⟩
  have ok2 : ∀ u ∈ [inUnit double.arith c t], u.Ok := by
    intro u hu
    rw [List.mem_singleton.1 hu]
    exact ⟨hen, by rw [ib']; exact r0 _ cb.le, fun j => by rw [id']; exact r0 _ (cd j)⟩
  have single : ∀ (u : RowDim K), (∀ v ∈ [u], v.Ok) → ∀ (j : Nat) (w : K),
      kernelWeightR env double.arith lazy u.kernel (u.dist j) u.bw = .ok (.fin w) →
      rawR env double.arith lazy [u] j = w := by
    intro u hu j w hw
    have hok := hu u (by simp)
    have := kernelR_float he ha hf lazy hok.1 (hok.2.2 j) hok.2.1 hw
    have e : (double.arith : Arith K).op w = .fin w := this
    simp [rawR, rawWeightR, mapE, hw, Num.mul, Num.rnd, e, Num.toK]
  have hA := Fmt.arith_accurate (K := K) double_ok
  have eε : (2 : K) ^ (-(double.frac + 1 : ℤ)) = 1 / 2 ^ 53 := by
    have : (-(double.frac + 1 : ℤ)) = -53 := rfl
    rw [this, zpow_neg, ← one_div]; norm_cast
  have eη : (2 : K) ^ (double.emin - double.frac - 1) = 1 / 2 ^ 1075 := by
    have : (double.emin - double.frac - 1 : ℤ) = -1075 := rfl
    rw [this, zpow_neg, ← one_div]; norm_cast
  rw [eε, eη] at hA
  have hbig : (2 : K) ^ 903 ≤ double.maxFinite K := by
    have e : (2 : K) ^ (903 : ℕ) ≤ 2 ^ (double.emax - double.frac) := by
      rw [← zpow_natCast]
      exact zpow_le_zpow_right₀ (by norm_num) (by decide)
    have e2 : double.frac + 1 = 53 := rfl
    rw [Fmt.maxFinite, e2]
    refine e.trans ?_
    have := Fmt.two_zpow_pos (K := K) (double.emax - double.frac)
    have h2 : (1 : K) ≤ 2 ^ 53 - 1 := by norm_num
    calc _ = 1 * (2 : K) ^ (double.emax - double.frac) := (one_mul _).symm
      _ ≤ _ := mul_le_mul_of_nonneg_right h2 this.le
  have hn' : (n : K) ≤ 10 ^ 6 := by exact_mod_cast hn6
  have hup : (1 + (1 : K) / 2 ^ 53) ^ 39 ≤ 1 + 40 / 2 ^ 53 := by norm_num
  have hlo : 1 - 40 / 2 ^ 53 ≤ (1 - (1 : K) / 2 ^ 53) ^ 39 := by norm_num
  obtain ⟨row, row', h1, h2, h3, h4, h5⟩ := rowR_shift (δ := 1 / 2 ^ 46) he ha hf lazy [t] [inUnit double.arith c t] ok1 ok2 n hA
    (by positivity) 14 (hn6.trans (by norm_num)) (by
      refine (mul_le_mul hn' hup (by positivity) (by positivity)).trans (le_trans ?_ hbig)
      have : (2 : K) ^ 30 ≤ 2 ^ 903 := pow_le_pow_right₀ (by norm_num) (by norm_num)
      exact le_trans (by norm_num) this)
    (by
      intro j _
      obtain ⟨w, w', g1, g2, g3⟩ := C187_double env lazy hn c0 (d0 j) b0 (hd j) hb (hdM j) hbM
      rw [single t ok1 j w g1, single _ ok2 j w' (by rw [id', ib']; exact g2)]
      exact g3) i hi
    (rawR_one he ha hf lazy _ ok1 i (by
      intro u hu
      rw [List.mem_singleton.1 hu]
      exact hself))
    (rawR_one he ha hf lazy _ ok2 i (by
      intro u hu
      rw [List.mem_singleton.1 hu, id', hself, mul_zero, Fmt.round_zero]))
  refine ⟨row, row', h1, h2, h3, h4, fun j hj => (h5 j hj).trans ?_⟩
  have b1 : (1 + (1 : K) / 2 ^ 53) / (1 - 1 / 2 ^ 53) ^ (25 + 14) ≤ 1 + 42 / 2 ^ 53 := by
    refine (div_le_div_of_nonneg_left (by norm_num) (by norm_num) hlo).trans ?_
    norm_num
  have b2 : 1 - 42 / 2 ^ 53 ≤ (1 - (1 : K) / 2 ^ 53) / (1 + 1 / 2 ^ 53) ^ (25 + 14) := by
    refine le_trans ?_ (div_le_div_of_nonneg_left (by norm_num) (by positivity) hup)
    norm_num
  have b3 : 2 * (1 / (2 : K) ^ 1075) ≤ 1 / 2 ^ 53 := by
    rw [mul_one_div, div_le_div_iff₀ (by positivity) (by positivity), one_mul, ← pow_succ']
    exact pow_le_pow_right₀ (by norm_num) (by norm_num)
  have n0 : (0 : K) ≤ n := Nat.cast_nonneg n
  have b4 : (1 + (1 : K) / 2 ^ 53) / (1 - 1 / 2 ^ 53) ^ (25 + 14) * (1 / 2 ^ 46 + n * (1 / 2 ^ 46)) ≤
      (1 + 42 / 2 ^ 53) * (1 / 2 ^ 46 + n * (1 / 2 ^ 46)) := mul_le_mul_of_nonneg_right b1 (by positivity)
  have b5 : (1 + 42 / 2 ^ 53) * (1 / (2 : K) ^ 46 + n * (1 / 2 ^ 46)) ≤ (n + 2) / 2 ^ 46 := by
    norm_num
    linarith
  have b6 : (1 + (1 : K) / 2 ^ 53) / (1 - 1 / 2 ^ 53) ^ (25 + 14) - (1 - (1 : K) / 2 ^ 53) / (1 + 1 / 2 ^ 53) ^ (25 + 14) +
      2 * (1 / (2 : K) ^ 1075) ≤ 1 / 2 ^ 46 := by
    calc _ ≤ (1 + 42 / 2 ^ 53) - (1 - 42 / 2 ^ 53) + 1 / (2 : K) ^ 53 := by linarith
      _ ≤ _ := by norm_num
  calc _ ≤ 1 / (2 : K) ^ 46 + (n + 2) / 2 ^ 46 := add_le_add b6 (b4.trans b5)
    _ = _ := by ring

end

/-- The hypotheses of `C187_training_location` hold: a location and two neighbours, from kilometres to metres. -/
example : ∃ row row' : List ℝ,
    weightRowR doubleEnv double.arith false [⟨"bisquare", fun j => if j = 0 then 0 else 1, 2⟩] 3 pairwiseTree =
      .ok (row.map Num.fin) ∧
    weightRowR doubleEnv double.arith false [inUnit double.arith 1000 ⟨"bisquare", fun j => if j = 0 then 0 else 1, 2⟩] 3
      pairwiseTree = .ok (row'.map Num.fin) ∧ row.length = 3 ∧ row'.length = 3 ∧
    ∀ j < 3, |row.getD j 0 - row'.getD j 0| ≤ ((3 : ℕ) + 3) / 2 ^ 46 := by
  have small : (2 : ℝ) ^ double.emin ≤ 1 := zpow_le_one_of_nonpos₀ (by norm_num) (by decide)
  have big : (2000 : ℝ) ≤ double.maxFinite ℝ := by
    have e : (2 : ℝ) ^ (11 : ℕ) ≤ 2 ^ (double.emax - double.frac) := by
      rw [← zpow_natCast]
      exact zpow_le_zpow_right₀ (by norm_num) (by decide)
    have e2 : double.frac + 1 = 53 := rfl
    rw [Fmt.maxFinite, e2]
    nlinarith
  refine C187_training_location doubleEnv doubleEnv_ok doubleEnv_float false _ (by decide) (by norm_num) (by norm_num)
    ?_ ?_ ?_ ?_ ?_ 3 (by norm_num) 0 (by norm_num) rfl
  · show _ ≤ (1000 : ℝ) * 2
    linarith
  · show (1000 : ℝ) * 2 ≤ _
    linarith
  · intro j
    show (0 : ℝ) ≤ if j = 0 then 0 else 1
    split_ifs <;> norm_num
  · intro j
    show (if j = 0 then (0 : ℝ) else 1) = 0 ∨ _ ≤ (1000 : ℝ) * if j = 0 then 0 else 1
    split_ifs
    · exact .inl rfl
    · exact .inr (by linarith)
  · intro j
    show (1000 : ℝ) * (if j = 0 then 0 else 1) ≤ _
    split_ifs <;> linarith

end Geo
