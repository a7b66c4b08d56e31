import Verif.Props.ReorderedRow
set_option linter.unusedSectionVars false
/-
C186: predictions with the training observations in another order, in floating point, when the weights are computed
again from the reordered observations.
-/
namespace Geo
section
variable {K : Type} [Field K] [LinearOrder K] [IsStrictOrderedRing K] {env : Env K} {a : Arith K}

/-- The row of the weight matrix is close to the exact shares of the raw weights, which sum to at most one. -/
theorem rowR_close (he : env.Ok) (ha : a.Ok) (hf : ∀ x ≤ 0, a.Float (env.exp x)) (lazy : Bool)
    (dims : List (RowDim K)) (hd : ∀ t ∈ dims, t.Ok) (n : Nat)
    {ε η M : K} (hA : a.Accurate ε η M) (η0 : 0 ≤ η) (k : Nat) (hk : n ≤ 15 + 113 * 2 ^ k)
    (hM : n * (1 + ε) ^ (25 + k) ≤ M) :
    ∃ e : Nat → K, weightRowR env a lazy dims n pairwiseTree = .ok (((List.range n).map e).map Num.fin) ∧
      ∀ j < n,
        (1 - ε) / (1 + ε) ^ (25 + k) *
          (rawR env a lazy dims j / ((List.range n).map (rawR env a lazy dims)).sum) - η ≤ e j ∧
        e j ≤ (1 + ε) / (1 - ε) ^ (25 + k) *
          (rawR env a lazy dims j / ((List.range n).map (rawR env a lazy dims)).sum) + η ∧
        0 ≤ e j ∧ 0 ≤ rawR env a lazy dims j / ((List.range n).map (rawR env a lazy dims)).sum := by
  have hraw := fun j => (rawR_eq he ha hf lazy dims hd j).2
  have close : ∀ j ∈ List.range n, ∃ e,
      normalizeEntryR a ((pairwiseTree ((List.range n).map fun i => Num.fin (rawR env a lazy dims i))).value a)
        (.fin (rawR env a lazy dims j)) = .fin e ∧
        (1 - ε) / (1 + ε) ^ (25 + k) *
          (rawR env a lazy dims j / ((List.range n).map (rawR env a lazy dims)).sum) - η ≤ e ∧
        e ≤ (1 + ε) / (1 - ε) ^ (25 + k) *
          (rawR env a lazy dims j / ((List.range n).map (rawR env a lazy dims)).sum) + η ∧
        0 ≤ e ∧ 0 ≤ rawR env a lazy dims j / ((List.range n).map (rawR env a lazy dims)).sum := by
    intro j hj
    obtain ⟨e, h1, h2, h3, h4, -⟩ := normEntryR_close ha hA η0 pairwiseTree C185_all.1
      ((List.range n).map (rawR env a lazy dims))
      (by
        intro w hw
        obtain ⟨i, -, rfl⟩ := List.mem_map.1 hw
        exact hraw i) (25 + k) (C185_depth _ k (by simpa using hk)) (by simpa using hM) (rawR env a lazy dims j)
      (List.mem_map.2 ⟨j, hj, rfl⟩)
    rw [List.map_map] at h1
    have hj' := List.mem_range.1 hj
    have hsum := rowR_sum he ha hf lazy dims hd n pairwiseTree C185_all.1 (by omega)
    obtain ⟨e', g1, g2, -⟩ := normEntryR ha hsum.1 (hraw j).1 (hsum.2 j hj')
    have : e = e' := by
      have := h1.symm.trans g1
      exact Num.fin.inj this
    exact ⟨e, h1, h2, h3, this ▸ g2, h4⟩
  refine ⟨fun j => (normalizeEntryR a ((pairwiseTree ((List.range n).map fun i =>
    Num.fin (rawR env a lazy dims i))).value a) (.fin (rawR env a lazy dims j))).toK, ?_, ?_⟩
  · rw [rowR_eq he ha hf lazy dims hd n pairwiseTree, List.map_map]
    congr 1
    refine List.map_congr_left fun j hj => ?_
    obtain ⟨e, h1, -⟩ := close j hj
    simp only [Function.comp_apply]
    rw [h1]
    rfl
  · intro j hj
    obtain ⟨e, h1, h2⟩ := close j (List.mem_range.2 hj)
    simp only [h1, Num.toK]
    exact h2

theorem list_abs_sum_sub (l : List Nat) (f g : Nat → K) :
    |(l.map f).sum - (l.map g).sum| ≤ (l.map fun j => |f j - g j|).sum := by
  induction l with
  | nil => simp
  | cons x l ih =>
    simp only [List.map_cons, List.sum_cons]
    calc _ = |(f x - g x) + ((l.map f).sum - (l.map g).sum)| := by congr 1; ring
      _ ≤ |f x - g x| + |(l.map f).sum - (l.map g).sum| := abs_add_le _ _
      _ ≤ _ := by linarith

theorem list_sum_affine (l : List Nat) (q : Nat → K) (c d P : K) :
    (l.map fun j => (c * q j + d) * P).sum = P * (c * (l.map q).sum + l.length * d) := by
  induction l with
  | nil => simp
  | cons x l ih =>
    simp only [List.map_cons, List.sum_cons, ih, List.length_cons, Nat.cast_add, Nat.cast_one]
    ring

/-- C186: weights computed again from the reordered training observations, and then the prediction: it changes by the
rounding of the weights and of the weighted sum only, both small against the largest local prediction. -/
theorem C186_total (he : env.Ok) (ha : a.Ok) (hf : ∀ x ≤ 0, a.Float (env.exp x)) (lazy : Bool)
    (dims : List (RowDim K)) (hd : ∀ t ∈ dims, t.Ok) (n : Nat) (n0 : 0 < n) (σ : Nat → Nat)
    (hσ : ((List.range n).map σ).Perm (List.range n)) (p : Nat → K) (P : K) (hP : ∀ j < n, |p j| ≤ P)
    {ε η M : K} (hA : a.Accurate ε η M) (hS : a.SignedAccurate ε η M) (k : Nat) (hk : n ≤ 15 + 113 * 2 ^ k)
    (hMn : n * (1 + ε) ^ (25 + k) ≤ M)
    (hM : (1 + ε) ^ (25 + k) * ((1 + ε) * (P * ((1 + ε) / (1 - ε) ^ (25 + k) + n * η)) + n * η) ≤ M) :
    ∃ row row' v v', weightRowR env a lazy dims n pairwiseTree = .ok row ∧
      weightRowR env a lazy (reorderDims σ dims) n pairwiseTree = .ok row' ∧
      predictEntryR a pairwiseTree row ((List.range n).map fun j => Num.fin (p j)) = .fin v ∧
      predictEntryR a pairwiseTree row' ((List.range n).map fun j => Num.fin (p (σ j))) = .fin v' ∧
      |v - v'| ≤ P * ((1 + ε) / (1 - ε) ^ (25 + k) - (1 - ε) / (1 + ε) ^ (25 + k) + n * (2 * η)) +
        2 * (((1 + ε) ^ (26 + k) - 1) * (P * ((1 + ε) / (1 - ε) ^ (25 + k) + n * η)) +
          (1 + ε) ^ (25 + k) * (n * η)) := by
  have hd' : ∀ t ∈ reorderDims σ dims, t.Ok := by
    intro t ht
    obtain ⟨u, hu, rfl⟩ := List.mem_map.1 ht
    obtain ⟨h1, h2, h3⟩ := hd u hu
    exact ⟨h1, h2, fun j => h3 (σ j)⟩
  have η0 := hS.eta_nonneg
  have e0 := hA.eps_nonneg
  have e1 : 0 < 1 - ε := by linarith [hA.eps_lt]
  have e2 : 0 < 1 + ε := by linarith
  have P0 : 0 ≤ P := (abs_nonneg _).trans (hP 0 n0)
  have hσm : ∀ j < n, σ j < n := fun j hj =>
    List.mem_range.1 (hσ.mem_iff.1 (List.mem_map.2 ⟨j, List.mem_range.2 hj, rfl⟩))
  obtain ⟨e, hrow, he1⟩ := rowR_close he ha hf lazy dims hd n hA η0 k hk hMn
  obtain ⟨e', hrow', he2⟩ := rowR_close he ha hf lazy _ hd' n hA η0 k hk hMn
  set R := rawR env a lazy dims with hR
  have hR' : rawR env a lazy (reorderDims σ dims) = fun j => R (σ j) := funext fun j => rawR_reorder lazy σ dims j
  have hsum : ((List.range n).map fun i => R (σ i)).sum = ((List.range n).map R).sum := by
    have := (hσ.map R).sum_eq
    rw [List.map_map] at this
    exact this
  rw [hR'] at he2
  simp only [hsum] at he2
  set S := ((List.range n).map R).sum with hSdef
  have q1 : ((List.range n).map fun j => R j / S).sum ≤ 1 := by
    simp only [div_eq_mul_inv]
    rw [List.sum_map_mul_right, ← hSdef, ← div_eq_mul_inv]
    exact div_self_le_one S
  have q1' : ((List.range n).map fun j => R (σ j) / S).sum ≤ 1 := by
    have := (hσ.map fun j => R j / S).sum_eq
    rw [List.map_map] at this
    simp only [Function.comp_def] at this
    rw [this]
    exact q1
  set U := (1 + ε) / (1 - ε) ^ (25 + k) with hU
  set L := (1 - ε) / (1 + ε) ^ (25 + k) with hL
  have U1 : 1 ≤ U := by
    rw [hU, le_div_iff₀ (pow_pos e1 _), one_mul]
    exact (pow_le_one₀ e1.le (by linarith)).trans (by linarith)
  have L1 : L ≤ 1 := by
    rw [hL, div_le_one (pow_pos e2 _)]
    exact (show 1 - ε ≤ 1 by linarith).trans (one_le_pow₀ (by linarith))
  -- the prediction from one row
  have one : ∀ (e q r : Nat → K), (∀ j < n, e j ≤ U * q j + η ∧ 0 ≤ e j) → ((List.range n).map q).sum ≤ 1 →
      (∀ j < n, |r j| ≤ P) → ∃ v, predictEntryR a pairwiseTree (((List.range n).map e).map Num.fin)
        ((List.range n).map fun j => Num.fin (r j)) = .fin v ∧
        |v - ((List.range n).map fun j => e j * r j).sum| ≤
          ((1 + ε) ^ (26 + k) - 1) * (P * (U + n * η)) + (1 + ε) ^ (25 + k) * (n * η) := by
    intro e q r h1 h2 h3
    have z1 : List.zipWith (fun w p => |w * p|) ((List.range n).map e) ((List.range n).map r) =
        (List.range n).map fun j => |e j * r j| := by
      rw [List.zipWith_map, List.zipWith_self]
    have z2 : List.zipWith (· * ·) ((List.range n).map e) ((List.range n).map r) =
        (List.range n).map fun j => e j * r j := by
      rw [List.zipWith_map, List.zipWith_self]
    have size : ((List.range n).map fun j => |e j * r j|).sum ≤ P * (U + n * η) := by
      have : ((List.range n).map fun j => |e j * r j|).sum ≤
          ((List.range n).map fun j => (U * q j + η) * P).sum := by
        refine List.sum_le_sum fun j hj => ?_
        have hj := List.mem_range.1 hj
        rw [abs_mul, abs_of_nonneg (h1 j hj).2]
        exact mul_le_mul (h1 j hj).1 (h3 j hj) (abs_nonneg _) ((h1 j hj).2.trans (h1 j hj).1)
      refine this.trans ?_
      rw [list_sum_affine, List.length_range]
      refine mul_le_mul_of_nonneg_left ?_ P0
      have : U * ((List.range n).map q).sum ≤ U := mul_le_of_le_one_right (by linarith) h2
      linarith
    have p1 : 0 ≤ (1 + ε) ^ (25 + k) := (pow_pos e2 _).le
    have p2 : 0 ≤ (1 + ε) ^ (26 + k) - 1 := by
      have : 1 ≤ (1 + ε) ^ (26 + k) := one_le_pow₀ (by linarith)
      linarith
    obtain ⟨v, hv, hb⟩ := C185_error ha hS k ((List.range n).map e) ((List.range n).map r) (by simpa using hk)
      (by simp) (by
        intro h
        have := congrArg List.length h
        simp at this
        omega) (by
        rw [z1, List.length_map, List.length_range]
        refine le_trans (mul_le_mul_of_nonneg_left ?_ p1) hM
        have := mul_le_mul_of_nonneg_left size e2.le
        linarith)
    rw [z1, z2, List.length_map, List.length_range] at hb
    refine ⟨v, ?_, hb.trans ?_⟩
    · rw [List.map_map (l := List.range n) (f := r)] at hv
      exact hv
    · have := mul_le_mul_of_nonneg_left size p2
      linarith
  obtain ⟨v, hv, b1⟩ := one e (fun j => R j / S) p (fun j hj => ⟨(he1 j hj).2.1, (he1 j hj).2.2.1⟩) q1 hP
  obtain ⟨v', hv', b2⟩ := one e' (fun j => R (σ j) / S) (fun j => p (σ j))
    (fun j hj => ⟨(he2 j hj).2.1, (he2 j hj).2.2.1⟩) q1' (fun j hj => hP _ (hσm j hj))
  refine ⟨_, _, v, v', hrow, hrow', hv, hv', ?_⟩
  have hperm : ((List.range n).map fun j => e (σ j) * p (σ j)).sum = ((List.range n).map fun j => e j * p j).sum := by
    have := (hσ.map fun j => e j * p j).sum_eq
    rw [List.map_map] at this
    exact this
  have mid : |((List.range n).map fun j => e j * p j).sum - ((List.range n).map fun j => e' j * p (σ j)).sum| ≤
      P * (U - L + n * (2 * η)) := by
    rw [← hperm]
    refine (list_abs_sum_sub _ _ _).trans ?_
    have : ((List.range n).map fun j => |e (σ j) * p (σ j) - e' j * p (σ j)|).sum ≤
        ((List.range n).map fun j => ((U - L) * (R (σ j) / S) + 2 * η) * P).sum := by
      refine List.sum_le_sum fun j hj => ?_
      have hj := List.mem_range.1 hj
      obtain ⟨g1, g2, -, -⟩ := he1 (σ j) (hσm j hj)
      obtain ⟨g3, g4, -, -⟩ := he2 j hj
      have hd : |e (σ j) - e' j| ≤ (U - L) * (R (σ j) / S) + 2 * η := by
        rw [abs_le]
        constructor <;> linarith
      rw [← sub_mul, abs_mul]
      exact mul_le_mul hd (hP _ (hσm j hj)) (abs_nonneg _) ((abs_nonneg _).trans hd)
    refine this.trans ?_
    rw [list_sum_affine (List.range n) (fun j => R (σ j) / S), List.length_range]
    refine mul_le_mul_of_nonneg_left ?_ P0
    have : (U - L) * ((List.range n).map fun j => R (σ j) / S).sum ≤ U - L :=
      mul_le_of_le_one_right (by linarith) q1'
    linarith
  have t1 := abs_sub_le v ((List.range n).map fun j => e j * p j).sum v'
  have t2 := abs_sub_le ((List.range n).map fun j => e j * p j).sum ((List.range n).map fun j => e' j * p (σ j)).sum v'
  rw [abs_sub_comm ((List.range n).map fun j => e' j * p (σ j)).sum v'] at t2
  linarith

end

section
variable {K : Type} [Field K] [LinearOrder K] [IsStrictOrderedRing K] [FloorRing K]

theorem total_arith (P U L A B t : K) (P0 : 0 ≤ P) (hU : U ≤ 1 + 42 / 2 ^ 53) (hL : 1 - 42 / 2 ^ 53 ≤ L) (B0 : 0 ≤ B)
    (hB : B ≤ 41 / 2 ^ 53) (A0 : 0 ≤ A) (hA : A ≤ 1 + 40 / 2 ^ 53) (t0 : 0 ≤ t) (ht : t ≤ 1 / 2 ^ 54) :
    P * (U - L + 2 * t) + 2 * (B * (P * (U + t)) + A * t) ≤ P / 2 ^ 45 + 4 * t ∧
      A * ((1 + 1 / 2 ^ 53) * (P * (U + t)) + t) ≤ 4 * P + 1 := by
  have h1 : P * (U - L + 2 * t) ≤ P * (85 / 2 ^ 53) := mul_le_mul_of_nonneg_left (by linarith) P0
  have h2 : P * (U + t) ≤ P * 2 := mul_le_mul_of_nonneg_left (by norm_num at hU ht ⊢; linarith) P0
  have h3 : B * (P * (U + t)) ≤ 41 / 2 ^ 53 * (P * 2) :=
    (mul_le_mul_of_nonneg_left h2 B0).trans (mul_le_mul_of_nonneg_right hB (by positivity))
  have h4 : A * t ≤ 2 * t := mul_le_mul_of_nonneg_right (hA.trans (by norm_num)) t0
  have h5 : P * (U + t) ≤ P * (3 / 2) := mul_le_mul_of_nonneg_left (by norm_num at hU ht ⊢; linarith) P0
  refine ⟨by norm_num at h1 h3 ⊢; linarith, ?_⟩
  have h6 : (1 + 1 / 2 ^ 53) * (P * (U + t)) + t ≤ 2 * P + 1 / 2 := by
    have : (1 + (1 : K) / 2 ^ 53) * (P * (U + t)) ≤ (1 + 1 / 2 ^ 53) * (P * (3 / 2)) :=
      mul_le_mul_of_nonneg_left h5 (by norm_num)
    norm_num at this ht ⊢
    linarith
  have h7 : A * ((1 + 1 / 2 ^ 53) * (P * (U + t)) + t) ≤ A * (2 * P + 1 / 2) := mul_le_mul_of_nonneg_left h6 A0
  have h8 : A * (2 * P + 1 / 2) ≤ 2 * (2 * P + 1 / 2) :=
    mul_le_mul_of_nonneg_right (hA.trans (by norm_num)) (by positivity)
  linarith

/-- C186: in double precision, with up to a million training observations and local predictions of size at most `P`,
the prediction at a location changes by at most `P / 2⁴⁵` when the training observations are reordered, plus less than
any normal number. -/
theorem C186_total_double (env : Env K) (he : env.Ok)
    (hf : ∀ x ≤ 0, (double.arith : Arith K).Float (env.exp x)) (lazy : Bool)
    (dims : List (RowDim K)) (hd : ∀ t ∈ dims, t.Ok) (n : Nat) (n0 : 0 < n) (hn : n ≤ 10 ^ 6) (σ : Nat → Nat)
    (hσ : ((List.range n).map σ).Perm (List.range n)) (p : Nat → K) (P : K) (hP : ∀ j < n, |p j| ≤ P)
    (hP9 : P ≤ 2 ^ 900) :
    ∃ row row' v v', weightRowR env double.arith lazy dims n pairwiseTree = .ok row ∧
      weightRowR env double.arith lazy (reorderDims σ dims) n pairwiseTree = .ok row' ∧
      predictEntryR double.arith pairwiseTree row ((List.range n).map fun j => Num.fin (p j)) = .fin v ∧
      predictEntryR double.arith pairwiseTree row' ((List.range n).map fun j => Num.fin (p (σ j))) = .fin v' ∧
      |v - v'| ≤ P / 2 ^ 45 + 1 / 2 ^ 1050 := by
  have hA := Fmt.arith_accurate (K := K) double_ok
  have hS := Fmt.arith_signed (K := K) double_ok
  have eε : (2 : K) ^ (-(double.frac + 1 : ℤ)) = 1 / 2 ^ 53 := by
    have : (-(double.frac + 1 : ℤ)) = -53 := rfl
    rw [this, zpow_neg, ← one_div]; norm_cast
  have eη : (2 : K) ^ (double.emin - double.frac - 1) = 1 / 2 ^ 1075 := by
    have : (double.emin - double.frac - 1 : ℤ) = -1075 := rfl
    rw [this, zpow_neg, ← one_div]; norm_cast
  rw [eε, eη] at hA hS
  have hbig : (2 : K) ^ 903 ≤ double.maxFinite K := by
    have e : (2 : K) ^ (903 : ℕ) ≤ 2 ^ (double.emax - double.frac) := by
      rw [← zpow_natCast]
      exact zpow_le_zpow_right₀ (by norm_num) (by decide)
    have e2 : double.frac + 1 = 53 := rfl
    rw [Fmt.maxFinite, e2]
    refine e.trans ?_
    have := Fmt.two_zpow_pos (K := K) (double.emax - double.frac)
    have h2 : (1 : K) ≤ 2 ^ 53 - 1 := by norm_num
    calc _ = 1 * (2 : K) ^ (double.emax - double.frac) := (one_mul _).symm
      _ ≤ _ := mul_le_mul_of_nonneg_right h2 this.le
  have P0 : 0 ≤ P := (abs_nonneg _).trans (hP 0 n0)
  have hn' : (n : K) ≤ 2 ^ 20 := by
    have : (n : K) ≤ 10 ^ 6 := by exact_mod_cast hn
    exact this.trans (by norm_num)
  have hup : (1 + (1 : K) / 2 ^ 53) ^ (25 + 14) ≤ 1 + 40 / 2 ^ 53 := by norm_num
  have hup' : (1 + (1 : K) / 2 ^ 53) ^ (26 + 14) - 1 ≤ 41 / 2 ^ 53 := by norm_num
  have hup0 : (0 : K) ≤ (1 + (1 : K) / 2 ^ 53) ^ (26 + 14) - 1 := by norm_num
  have hlo : 1 - 40 / 2 ^ 53 ≤ (1 - (1 : K) / 2 ^ 53) ^ (25 + 14) := by norm_num
  have b1 : (1 + (1 : K) / 2 ^ 53) / (1 - 1 / 2 ^ 53) ^ (25 + 14) ≤ 1 + 42 / 2 ^ 53 := by
    refine (div_le_div_of_nonneg_left (by norm_num) (by norm_num) hlo).trans ?_
    norm_num
  have b2 : 1 - 42 / 2 ^ 53 ≤ (1 - (1 : K) / 2 ^ 53) / (1 + 1 / 2 ^ 53) ^ (25 + 14) := by
    refine le_trans ?_ (div_le_div_of_nonneg_left (by norm_num) (by positivity) hup)
    norm_num
  -- the absolute error of all observations together
  have tη : (n : K) * (1 / 2 ^ 1075) ≤ 1 / 2 ^ 1055 := by
    have : (n : K) * (1 / 2 ^ 1075) ≤ 2 ^ 20 * (1 / 2 ^ 1075) := mul_le_mul_of_nonneg_right hn' (by positivity)
    refine this.trans (le_of_eq ?_)
    rw [mul_one_div, div_eq_div_iff (by positivity) (by positivity), one_mul, ← pow_add]
  have tη0 : (0 : K) ≤ n * (1 / 2 ^ 1075) := by positivity
  have small : (1 : K) / 2 ^ 1055 ≤ 1 / 2 ^ 54 :=
    one_div_le_one_div_of_le (by positivity) (pow_le_pow_right₀ (by norm_num) (by norm_num))
  have small' : 4 * ((1 : K) / 2 ^ 1055) ≤ 1 / 2 ^ 1050 := by
    have h : (2 : K) ^ 1055 = 32 * 2 ^ 1050 := by
      rw [show 1055 = 5 + 1050 from rfl, pow_add]
      congr 1
      norm_num
    have h0 : (0 : K) < 2 ^ 1050 := by positivity
    rw [h]
    generalize (2 : K) ^ 1050 = X at h0
    rw [mul_one_div, div_le_div_iff₀ (by positivity) h0]
    linarith
  have h900 : 4 * P + 1 ≤ 2 ^ 903 := by
    have h : (2 : K) ^ 903 = 8 * 2 ^ 900 := by
      rw [show 903 = 3 + 900 from rfl, pow_add]
      congr 1
      norm_num
    have h1 : (1 : K) ≤ 2 ^ 900 := one_le_pow₀ (by norm_num)
    rw [h]
    generalize (2 : K) ^ 900 = X at h1 hP9
    linarith
  have hA0 : (0 : K) ≤ (1 + 1 / 2 ^ 53) ^ (25 + 14) := by positivity
  obtain ⟨r1, r2⟩ := total_arith P _ _ _ _ _ P0 b1 b2 hup0 hup' hA0 hup tη0 (tη.trans small)
  obtain ⟨row, row', v, v', h1, h2, h3, h4, h5⟩ := C186_total he (Fmt.arith_ok double_ok) hf lazy dims hd n n0 σ hσ p P
    hP hA hS 14 (hn.trans (by norm_num)) (by
      refine (mul_le_mul hn' hup (by positivity) (by positivity)).trans (le_trans ?_ hbig)
      have : (2 : K) ^ 30 ≤ 2 ^ 903 := pow_le_pow_right₀ (by norm_num) (by norm_num)
      exact le_trans (by norm_num) this) (r2.trans (h900.trans hbig))
  refine ⟨row, row', v, v', h1, h2, h3, h4, h5.trans ?_⟩
  rw [mul_left_comm (n : K) 2]
  refine r1.trans (add_le_add le_rfl (le_trans ?_ small'))
  exact mul_le_mul_of_nonneg_left tη (by norm_num)

end

/-- The hypotheses of `C186_total_double` hold: three observations, in reverse order, with double-precision `exp`. -/
example : ∃ row row' v v',
    weightRowR doubleEnv double.arith false [⟨"gaussian", fun j => j, 2⟩] 3 pairwiseTree = .ok row ∧
    weightRowR doubleEnv double.arith false (reorderDims (fun j => 2 - j) [⟨"gaussian", fun j => j, 2⟩]) 3 pairwiseTree =
      .ok row' ∧
    predictEntryR double.arith pairwiseTree row ((List.range 3).map fun j => Num.fin ((j : ℝ) - 1)) = .fin v ∧
    predictEntryR double.arith pairwiseTree row' ((List.range 3).map fun j => Num.fin (((2 - j : ℕ) : ℝ) - 1)) = .fin v' ∧
    |v - v'| ≤ 1 / 2 ^ 45 + 1 / 2 ^ 1050 := by
  refine C186_total_double doubleEnv doubleEnv_ok doubleEnv_float false _ ?_ 3 (by norm_num) (by norm_num) _
    (by decide) (fun j => (j : ℝ) - 1) 1 ?_ (one_le_pow₀ (by norm_num))
  · intro t ht
    rw [List.mem_singleton.1 ht]
    exact ⟨by decide, by norm_num, fun j => Nat.cast_nonneg j⟩
  · intro j hj
    have h1 : (j : ℝ) ≤ 2 := by exact_mod_cast Nat.lt_succ_iff.1 hj
    have h0 : (0 : ℝ) ≤ j := Nat.cast_nonneg j
    rw [abs_le]
    constructor <;> linarith

end Geo
