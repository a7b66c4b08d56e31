import Verif.Props.Reordered
import Verif.Props.Objects
set_option linter.unusedSectionVars false
/-
C186: rows of the weight matrix with the training observations in another order, in floating point.
-/
namespace Geo
section
variable {K : Type} [Field K] [LinearOrder K] [IsStrictOrderedRing K] {env : Env K} {a : Arith K}

/-- every entry of a row is close to its share of the exact sum of the raw weights -/
theorem normEntryR_close (ha : a.Ok) {ε η M : K} (hA : a.Accurate ε η M) (η0 : 0 ≤ η)
    (shape : List (Num K) → SumTree K) (hs : SumsAll shape) (rs : List K)
    (hr : ∀ w ∈ rs, 0 ≤ w ∧ w ≤ 1 ∧ a.Float w) (h : Nat) (hh : (shape (rs.map Num.fin)).depth ≤ h)
    (hM : rs.length * (1 + ε) ^ h ≤ M) (w : K) (hw : w ∈ rs) :
    ∃ e, normalizeEntryR a ((shape (rs.map Num.fin)).value a) (.fin w) = .fin e ∧
      (1 - ε) / (1 + ε) ^ h * (w / rs.sum) - η ≤ e ∧ e ≤ (1 + ε) / (1 - ε) ^ h * (w / rs.sum) + η ∧
      0 ≤ w / rs.sum ∧ w / rs.sum ≤ 1 := by
  have e0 := hA.eps_nonneg
  have e1 : 0 < 1 - ε := by linarith [hA.eps_lt]
  have e2 : 0 < 1 + ε := by linarith
  have hne : rs.map Num.fin ≠ [] := by
    intro e
    rw [List.map_eq_nil_iff.1 e] at hw
    cases hw
  have hp := hs _ hne
  have hleaf : ∀ z ∈ (shape (rs.map Num.fin)).leaves, ∃ w, z = .fin w ∧ 0 ≤ w ∧ w ≤ 1 ∧ a.Float w := by
    intro z hz
    obtain ⟨w, hw, rfl⟩ := List.mem_map.1 (hp.mem_iff.1 hz)
    exact ⟨w, rfl, hr w hw⟩
  have hpow : (1 + ε) ^ (shape (rs.map Num.fin)).depth ≤ (1 + ε) ^ h := pow_le_pow_right₀ (by linarith) hh
  have hpow' : (1 - ε) ^ h ≤ (1 - ε) ^ (shape (rs.map Num.fin)).depth :=
    pow_le_pow_of_le_one e1.le (by linarith) hh
  obtain ⟨v, hv, -, t0, -, vl, vu⟩ := SumTree.value_bounds ha hA _ hleaf (by
    rw [hp.length_eq, List.length_map]
    exact (mul_le_mul_of_nonneg_left hpow (Nat.cast_nonneg _)).trans hM)
  have htot : (shape (rs.map Num.fin)).total = rs.sum := by
    rw [SumTree.total, (hp.map Num.toK).sum_eq, List.map_map]
    congr 1
    exact List.map_id _
  rw [htot] at t0 vl vu
  have hwT : w ≤ rs.sum := List.single_le_sum (fun x hx => (hr x hx).1) w hw
  have w0 := (hr w hw).1
  have hwv : w ≤ v := by
    have := (SumTree.value_spec ha (shape (rs.map Num.fin)) (fun z hz => by
      obtain ⟨w, h1, h2, -, h3⟩ := hleaf z hz
      exact ⟨w, h1, h2, h3⟩)).2 w (hp.mem_iff.2 (List.mem_map.2 ⟨w, hw, rfl⟩))
    rw [hv] at this
    exact this
  rw [hv]
  rcases t0.eq_or_lt with hz | hT
  · obtain rfl : w = 0 := le_antisymm (hz ▸ hwT) w0
    have : v = 0 := le_antisymm (by rw [← hz, mul_zero] at vu; exact vu) hwv
    refine ⟨0, ?_, ?_, ?_, by simp, by simp⟩
    · simp [this, normalizeEntryR, Num.div, Num.rnd, ha.op.zero]
    · simpa using η0
    · simpa using η0
  · have q0 : 0 ≤ w / rs.sum := div_nonneg w0 hT.le
    have q1 : w / rs.sum ≤ 1 := (div_le_one hT).2 hwT
    have vl' : (1 - ε) ^ h * rs.sum ≤ v := (mul_le_mul_of_nonneg_right hpow' hT.le).trans vl
    have vu' : v ≤ (1 + ε) ^ h * rs.sum := vu.trans (mul_le_mul_of_nonneg_right hpow hT.le)
    have pl : 0 < (1 - ε) ^ h := pow_pos e1 _
    have pu : 0 < (1 + ε) ^ h := pow_pos e2 _
    have vpos : 0 < v := lt_of_lt_of_le (mul_pos pl hT) vl'
    obtain ⟨z, hz, hzc⟩ := hA.unit (w / v) (div_nonneg w0 vpos.le) ((div_le_one vpos).2 hwv)
    have hup : w / v ≤ w / rs.sum / (1 - ε) ^ h := by
      rw [div_div, mul_comm]
      exact div_le_div_of_nonneg_left w0 (mul_pos pl hT) vl'
    have hlo : w / rs.sum / (1 + ε) ^ h ≤ w / v := by
      rw [div_div, mul_comm]
      exact div_le_div_of_nonneg_left w0 vpos vu'
    obtain ⟨h1, h2⟩ := abs_le.1 hzc
    refine ⟨z, ?_, ?_, ?_, q0, q1⟩
    · rw [← hz]
      simp [normalizeEntryR, vpos.ne', Num.div, Num.rnd]
    · have : (1 - ε) / (1 + ε) ^ h * (w / rs.sum) = (1 - ε) * (w / rs.sum / (1 + ε) ^ h) := by ring
      rw [this]
      have := mul_le_mul_of_nonneg_left hlo e1.le
      linarith
    · have : (1 + ε) / (1 - ε) ^ h * (w / rs.sum) = (1 + ε) * (w / rs.sum / (1 - ε) ^ h) := by ring
      rw [this]
      have := mul_le_mul_of_nonneg_left hup e2.le
      linarith

/-- The same dimensions with the training observations in another order: observation `j` is what was `σ j`. -/
def reorderDims (σ : Nat → Nat) (dims : List (RowDim K)) : List (RowDim K) :=
  dims.map fun t => { t with dist := fun j => t.dist (σ j) }

theorem rawR_reorder (lazy : Bool) (σ : Nat → Nat) (dims : List (RowDim K)) (j : Nat) :
    rawR env a lazy (reorderDims σ dims) j = rawR env a lazy dims (σ j) := by
  unfold rawR rawWeightR reorderDims
  rw [mapE_list_map]

/-- C186: with the training observations in another order, every weight of a row of the weight matrix moves along with
its observation, up to the rounding of the row sum and of the division. -/
theorem C186_weights (he : env.Ok) (ha : a.Ok) (hf : ∀ x ≤ 0, a.Float (env.exp x)) (lazy : Bool)
    (dims : List (RowDim K)) (hd : ∀ t ∈ dims, t.Ok) (n : Nat) (σ : Nat → Nat)
    (hσ : ((List.range n).map σ).Perm (List.range n))
    {ε η M : K} (hA : a.Accurate ε η M) (η0 : 0 ≤ η) (k : Nat) (hk : n ≤ 15 + 113 * 2 ^ k)
    (hM : n * (1 + ε) ^ (25 + k) ≤ M) :
    ∃ row row' : List K, weightRowR env a lazy dims n pairwiseTree = .ok (row.map Num.fin) ∧
      weightRowR env a lazy (reorderDims σ dims) n pairwiseTree = .ok (row'.map Num.fin) ∧
      row.length = n ∧ row'.length = n ∧
      ∀ j < n, |row'.getD j 0 - row.getD (σ j) 0| ≤
        (1 + ε) / (1 - ε) ^ (25 + k) - (1 - ε) / (1 + ε) ^ (25 + k) + 2 * η := by
  have hd' : ∀ t ∈ reorderDims σ dims, t.Ok := by
    intro t ht
    obtain ⟨u, hu, rfl⟩ := List.mem_map.1 ht
    obtain ⟨h1, h2, h3⟩ := hd u hu
    exact ⟨h1, h2, fun j => h3 (σ j)⟩
  set R := rawR env a lazy dims with hR
  have hraw := fun j => (rawR_eq he ha hf lazy dims hd j).2
  have close : ∀ f : Nat → Nat, ∀ j ∈ List.range n, ∃ e,
      normalizeEntryR a ((pairwiseTree (((List.range n).map fun i => R (f i)).map Num.fin)).value a) (.fin (R (f j))) =
        .fin e ∧ _ := fun f j hj =>
    normEntryR_close ha hA η0 pairwiseTree C185_all.1 ((List.range n).map fun i => R (f i))
      (by
        intro w hw
        obtain ⟨i, -, rfl⟩ := List.mem_map.1 hw
        exact hraw (f i)) (25 + k) (C185_depth _ k (by simpa using hk)) (by simpa using hM) (R (f j))
      (List.mem_map.2 ⟨j, hj, rfl⟩)
  have row : ∀ f : Nat → Nat, (List.range n).map (fun j => normalizeEntryR a
      ((pairwiseTree ((List.range n).map fun i => Num.fin (R (f i)))).value a) (.fin (R (f j)))) =
      ((List.range n).map fun j => (normalizeEntryR a
        ((pairwiseTree ((List.range n).map fun i => Num.fin (R (f i)))).value a) (.fin (R (f j)))).toK).map Num.fin := by
    intro f
    rw [List.map_map]
    refine List.map_congr_left fun j hj => ?_
    obtain ⟨e, h1, -⟩ := close f j hj
    rw [List.map_map] at h1
    simp only [Function.comp_def] at h1 ⊢
    rw [h1]
    rfl
  refine ⟨(List.range n).map fun j => (normalizeEntryR a
        ((pairwiseTree ((List.range n).map fun i => Num.fin (R (id i)))).value a) (.fin (R (id j)))).toK,
    (List.range n).map fun j => (normalizeEntryR a
        ((pairwiseTree ((List.range n).map fun i => Num.fin (R (σ i)))).value a) (.fin (R (σ j)))).toK,
    (rowR_eq he ha hf lazy dims hd n pairwiseTree).trans (congrArg Except.ok (row id)),
    (rowR_eq he ha hf lazy _ hd' n pairwiseTree).trans (congrArg Except.ok ?_), ?_, ?_, ?_⟩
  · simp only [rawR_reorder]
    exact row σ
  · rw [List.length_map, List.length_range]
  · rw [List.length_map, List.length_range]
  · intro j hj
    have hσj : σ j ∈ List.range n := hσ.mem_iff.1 (List.mem_map.2 ⟨j, List.mem_range.2 hj, rfl⟩)
    obtain ⟨e, h1, h2, h3, q0, q1⟩ := close id (σ j) hσj
    obtain ⟨e', h1', h2', h3', -, -⟩ := close σ j (List.mem_range.2 hj)
    have hsum : ((List.range n).map fun i => R (σ i)).sum = ((List.range n).map fun i => R (id i)).sum := by
      have := (hσ.map R).sum_eq
      rw [List.map_map] at this
      exact this
    rw [hsum] at h2' h3'
    rw [List.map_map] at h1 h1'
    simp only [Function.comp_def] at h1 h1'
    have g1 : ∀ (f : Nat → K) (i : Nat), i ∈ List.range n → ((List.range n).map f).getD i 0 = f i := by
      intro f i hi
      rw [List.getD_eq_getElem?_getD, List.getElem?_map, List.getElem?_range (List.mem_range.1 hi)]
      rfl
    rw [g1 _ _ hσj, g1 _ _ (List.mem_range.2 hj), h1, h1']
    simp only [Num.toK, id] at *
    set q := R (σ j) / ((List.range n).map fun i => R i).sum
    have e0 := hA.eps_nonneg
    have e1 : 0 < 1 - ε := by linarith [hA.eps_lt]
    have e2 : 0 < 1 + ε := by linarith
    have b1 : 1 ≤ (1 + ε) / (1 - ε) ^ (25 + k) := by
      rw [le_div_iff₀ (pow_pos e1 _), one_mul]
      exact (pow_le_one₀ e1.le (by linarith)).trans (by linarith)
    have b2 : (1 - ε) / (1 + ε) ^ (25 + k) ≤ 1 := by
      rw [div_le_one (pow_pos e2 _)]
      exact (show 1 - ε ≤ 1 by linarith).trans (one_le_pow₀ (by linarith))
    have b3 : ((1 + ε) / (1 - ε) ^ (25 + k) - (1 - ε) / (1 + ε) ^ (25 + k)) * q ≤
        (1 + ε) / (1 - ε) ^ (25 + k) - (1 - ε) / (1 + ε) ^ (25 + k) :=
      mul_le_of_le_one_right (by linarith) q1
    rw [abs_le]
    constructor <;> nlinarith

theorem leftTree_zeros (l : List (Num K)) (hl : ∀ x ∈ l, x.IsFl a) (ha : a.Ok) (k : Nat) :
    (leftTree (l ++ List.replicate k (.fin 0))).value a = (leftTree l).value a := by
  have hz : (Num.fin (0 : K)).IsFl a := by
    intro x hx
    cases hx
    exact ha.op.zero
  rw [leftTree_fold _ hl, leftTree_fold _ (by
    intro x hx
    rcases List.mem_append.1 hx with hx | hx
    · exact hl x hx
    · rw [List.eq_of_mem_replicate hx]
      exact hz), List.foldl_append]
  have key : ∀ (l : List (Num K)) (s : Num K), s.IsFl a →
      (l.foldl (fun s x => Num.rnd a.op (.add s x)) s).IsFl a := by
    intro l
    induction l with
    | nil => intro s h; exact h
    | cons x l ih => intro s _; exact ih _ (rnd_isFl ha _)
  have hs := key l _ hz
  generalize l.foldl (fun s x => Num.rnd a.op (.add s x)) (.fin 0) = s at hs ⊢
  have stay : Num.rnd a.op (.add s (.fin 0)) = s := by
    cases s with
    | fin v =>
      simp only [Num.add, Num.rnd, add_zero]
      exact hs v rfl
    | pinf => rfl
    | ninf => rfl
    | nan => rfl
  induction k with
  | zero => rfl
  | succ k ih => rw [List.replicate_succ, List.foldl_cons, stay, ih]

/-- C185: with fewer than eight training observations, appended observations that are out of reach of a location get
weight zero and leave the other weights of its row exactly as they are, also in floating point. -/
theorem C185_few_weights (he : env.Ok) (ha : a.Ok) (hf : ∀ x ≤ 0, a.Float (env.exp x)) (lazy : Bool)
    (dims : List (RowDim K)) (hd : ∀ t ∈ dims, t.Ok) (n k : Nat) (h8 : n + k < 8)
    (far : ∀ j, n ≤ j → j < n + k →
      ∃ t ∈ dims, t.kernel ∈ ["linear", "boxcar", "bisquare", "tricube"] ∧ t.bw < t.dist j) :
    ∃ row, weightRowR env a lazy dims n pairwiseTree = .ok row ∧
      weightRowR env a lazy dims (n + k) pairwiseTree = .ok (row ++ List.replicate k (.fin 0)) := by
  have hraw := fun j => (rawR_eq he ha hf lazy dims hd j).2
  have h0 : ∀ i ∈ List.range k, rawR env a lazy dims (n + i) = 0 := fun i hi =>
    rawR_zero he ha hf lazy dims hd _ (far _ (by omega) (by have := List.mem_range.1 hi; omega))
  have hsplit : ((List.range (n + k)).map fun j => Num.fin (rawR env a lazy dims j)) =
      ((List.range n).map fun j => Num.fin (rawR env a lazy dims j)) ++ List.replicate k (.fin 0) := by
    rw [List.range_add, List.map_append, List.map_map]
    congr 1
    refine List.eq_replicate_iff.2 ⟨by simp, fun z hz => ?_⟩
    obtain ⟨i, hi, rfl⟩ := List.mem_map.1 hz
    simp only [Function.comp_apply]
    rw [h0 i hi]
  have hval : (pairwiseTree ((List.range (n + k)).map fun j => Num.fin (rawR env a lazy dims j))).value a =
      (pairwiseTree ((List.range n).map fun j => Num.fin (rawR env a lazy dims j))).value a := by
    rw [(C185_recursion _).1 (by simpa using h8), (C185_recursion _).1 (by simp; omega), hsplit]
    refine leftTree_zeros _ (fun x hx => ?_) ha k
    obtain ⟨j, -, rfl⟩ := List.mem_map.1 hx
    intro y hy
    cases hy
    exact (hraw j).2.2
  refine ⟨_, rowR_eq he ha hf lazy dims hd n pairwiseTree, ?_⟩
  rw [rowR_eq he ha hf lazy dims hd (n + k) pairwiseTree, hval, List.range_add, List.map_append, List.map_map]
  congr 2
  refine List.eq_replicate_iff.2 ⟨by simp, fun z hz => ?_⟩
  obtain ⟨i, hi, rfl⟩ := List.mem_map.1 hz
  have hi' := List.mem_range.1 hi
  simp only [Function.comp_apply]
  rw [h0 i hi, ← hval]
  have hsum := rowR_sum he ha hf lazy dims hd (n + k) pairwiseTree C185_all.1 (by omega)
  have hle := hsum.2 (n + i) (by omega)
  rw [h0 i hi] at hle
  obtain ⟨e, h1, -, -, h2, -⟩ := normEntryR ha hsum.1 le_rfl hle
  rw [h1, h2 rfl]

end

section
variable {K : Type} [Field K] [LinearOrder K] [IsStrictOrderedRing K] [FloorRing K]

/-- C186: in double precision and with up to a million training observations, no weight of a row changes by more than
`2⁻⁴⁶` when they are reordered. -/
theorem C186_weights_double (env : Env K) (he : env.Ok)
    (hf : ∀ x ≤ 0, (double.arith : Arith K).Float (env.exp x)) (lazy : Bool)
    (dims : List (RowDim K)) (hd : ∀ t ∈ dims, t.Ok) (n : Nat) (hn : n ≤ 10 ^ 6) (σ : Nat → Nat)
    (hσ : ((List.range n).map σ).Perm (List.range n)) :
    ∃ row row' : List K, weightRowR env double.arith lazy dims n pairwiseTree = .ok (row.map Num.fin) ∧
      weightRowR env double.arith lazy (reorderDims σ dims) n pairwiseTree = .ok (row'.map Num.fin) ∧
      row.length = n ∧ row'.length = n ∧ ∀ j < n, |row'.getD j 0 - row.getD (σ j) 0| ≤ 1 / 2 ^ 46 := by
  have hA := Fmt.arith_accurate (K := K) double_ok
  have eε : (2 : K) ^ (-(double.frac + 1 : ℤ)) = 1 / 2 ^ 53 := by
    have : (-(double.frac + 1 : ℤ)) = -53 := rfl
    rw [this, zpow_neg, ← one_div]; norm_cast
  have eη : (2 : K) ^ (double.emin - double.frac - 1) = 1 / 2 ^ 1075 := by
    have : (double.emin - double.frac - 1 : ℤ) = -1075 := rfl
    rw [this, zpow_neg, ← one_div]; norm_cast
  rw [eε, eη] at hA
  have hbig : (2 : K) ^ 903 ≤ double.maxFinite K := by
    have e : (2 : K) ^ (903 : ℕ) ≤ 2 ^ (double.emax - double.frac) := by
      rw [← zpow_natCast]
      exact zpow_le_zpow_right₀ (by norm_num) (by decide)
    have e2 : double.frac + 1 = 53 := rfl
    rw [Fmt.maxFinite, e2]
    refine e.trans ?_
    have := Fmt.two_zpow_pos (K := K) (double.emax - double.frac)
    have h2 : (1 : K) ≤ 2 ^ 53 - 1 := by norm_num
    calc _ = 1 * (2 : K) ^ (double.emax - double.frac) := (one_mul _).symm
      _ ≤ _ := mul_le_mul_of_nonneg_right h2 this.le
  have hn' : (n : K) ≤ 10 ^ 6 := by exact_mod_cast hn
  have hup : (1 + (1 : K) / 2 ^ 53) ^ 39 ≤ 1 + 40 / 2 ^ 53 := by norm_num
  have hlo : 1 - 40 / 2 ^ 53 ≤ (1 - (1 : K) / 2 ^ 53) ^ 39 := by norm_num
  obtain ⟨row, row', h1, h2, h3, h4, h5⟩ := C186_weights he (Fmt.arith_ok double_ok) hf lazy dims hd n σ hσ hA
    (by positivity) 14 (hn.trans (by norm_num)) (by
      refine (mul_le_mul hn' hup (by positivity) (by positivity)).trans (le_trans ?_ hbig)
      have : (2 : K) ^ 30 ≤ 2 ^ 903 := pow_le_pow_right₀ (by norm_num) (by norm_num)
      exact le_trans (by norm_num) this)
  refine ⟨row, row', h1, h2, h3, h4, fun j hj => (h5 j hj).trans ?_⟩
  have b1 : (1 + (1 : K) / 2 ^ 53) / (1 - 1 / 2 ^ 53) ^ (25 + 14) ≤ 1 + 42 / 2 ^ 53 := by
    refine (div_le_div_of_nonneg_left (by norm_num) (by norm_num) hlo).trans ?_
    norm_num
  have b2 : 1 - 42 / 2 ^ 53 ≤ (1 - (1 : K) / 2 ^ 53) / (1 + 1 / 2 ^ 53) ^ (25 + 14) := by
    refine le_trans ?_ (div_le_div_of_nonneg_left (by norm_num) (by positivity) hup)
    norm_num
  have b3 : 2 * (1 / (2 : K) ^ 1075) ≤ 1 / 2 ^ 53 := by
    rw [mul_one_div, div_le_div_iff₀ (by positivity) (by positivity), one_mul, ← pow_succ']
    exact pow_le_pow_right₀ (by norm_num) (by norm_num)
  have b4 : (1 : K) / 2 ^ 46 = 128 / 2 ^ 53 := by norm_num
  rw [b4]
  have : (0 : K) < 1 / 2 ^ 53 := by positivity
  calc _ ≤ (1 + 42 / 2 ^ 53) - (1 - 42 / 2 ^ 53) + 1 / (2 : K) ^ 53 := by linarith
    _ ≤ _ := by norm_num

end

/-- The hypotheses of `C186_weights_double` hold: three observations, in reverse order, with double-precision `exp`. -/
example : ∃ row row' : List ℝ,
    weightRowR doubleEnv double.arith false [⟨"gaussian", fun j => j, 2⟩] 3 pairwiseTree = .ok (row.map Num.fin) ∧
    weightRowR doubleEnv double.arith false (reorderDims (fun j => 2 - j) [⟨"gaussian", fun j => j, 2⟩]) 3 pairwiseTree =
      .ok (row'.map Num.fin) ∧ row.length = 3 ∧ row'.length = 3 ∧
    ∀ j < 3, |row'.getD j 0 - row.getD (2 - j) 0| ≤ 1 / 2 ^ 46 := by
  refine C186_weights_double doubleEnv doubleEnv_ok doubleEnv_float false _ ?_ 3 (by norm_num) _ (by decide)
  intro t ht
  rw [List.mem_singleton.1 ht]
  exact ⟨by decide, by norm_num, fun j => Nat.cast_nonneg j⟩

/-- Seven observations at distance 1 and further ones at distance 4. -/
def farDims : List (RowDim ℚ) := [⟨"linear", fun j => if j < 7 then 1 else 4, 3⟩]

/-- C185: with eight they can change all of them: a linear kernel with bandwidth 3 gives seven observations at distance
1 the weight 1/7 each, rounded, and if there is an eighth observation, at distance 4, one unit in the last place more. -/
theorem C185_far_observation :
    (weightRowR stepEnv double.arith false farDims 7 pairwiseTree).toOption =
      some (List.replicate 7 (.fin (double.round (1 / 7)))) ∧
    (weightRowR stepEnv double.arith false farDims 8 pairwiseTree).toOption =
      some (List.replicate 7 (.fin (double.round (1 / 7) + 1 / 2 ^ 55)) ++ [.fin 0]) := by
  decide +kernel

/-- The hypotheses of `C185_few_weights` hold, with an observation out of reach. -/
example : ∃ row, weightRowR stepEnv tinyArith false exampleDims 2 pairwiseTree = .ok row ∧
    weightRowR stepEnv tinyArith false exampleDims 3 pairwiseTree = .ok (row ++ [.fin 0]) := by
  refine C185_few_weights stepEnv_ok tinyArith_ok stepEnv_float false exampleDims exampleDims_ok 2 1 (by decide) ?_
  intro j h1 h2
  obtain rfl : j = 2 := by omega
  exact ⟨_, List.mem_singleton.2 rfl, by decide, by decide +kernel⟩

end Geo
