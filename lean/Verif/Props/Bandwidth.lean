import Verif.Lemmas.Kernel
import Verif.Spec.Order
import Mathlib.Tactic.NormNum
set_option linter.unusedSectionVars false
/-
Properties C08-C10: adaptive bandwidths.
-/
namespace Geo
variable {K : Type} [Field K] [LinearOrder K] [IsStrictOrderedRing K] [FloorRing K]

/-- Number of entries of a row that satisfy a condition. -/
def countRow (D : Mat K) (i : Nat) (p : K → Bool) : Nat :=
  ((List.range D.c).filter fun j => p (D.get i j)).length

theorem countRow_eq (D : Mat K) (i : Nat) (p : K → Bool) :
    countRow D i p = (D.row i).countP p := by
  unfold countRow Mat.row
  rw [List.countP_map, List.countP_eq_length_filter]; rfl

/-- C08: an accepted integer count `k` satisfies `1 ≤ k ≤ n` and gives, in each row, a
distance of that row such that at least `k` entries are within it and fewer than `k` are
strictly closer. -/
theorem C08_kth_nearest (D : Mat K) (k : ℤ) (bw : Nat → K)
    (h : adaptiveBandwidth false D (.int k) none = .ok bw) (i : Nat) :
    1 ≤ k ∧ k ≤ D.c ∧ (∃ j < D.c, D.get i j = bw i) ∧
    k ≤ countRow D i (fun x => x ≤ bw i) ∧ countRow D i (fun x => x < bw i) < k := by
  simp only [adaptiveBandwidth, adaptiveBandwidthEager, Bool.false_eq_true, if_false] at h
  split at h
  · cases h
  · rename_i hk
    split at h
    · rename_i hlt
      injection h with h
      have hs : (k - 1).toNat < (sortL (D.row i)).length := by simpa using hlt
      have hb : bw i = (sortL (D.row i))[(k - 1).toNat] := by
        rw [← h]; exact List.getD_eq_getElem _ _ hs
      rw [hb]
      refine ⟨by omega, by omega, ?_, ?_, ?_⟩
      · exact Mat.mem_row.1 (mem_sortL.1 (List.getElem_mem hs))
      · rw [countRow_eq, ← (sortL_perm (D.row i)).countP_eq]
        have := countP_le_sorted (sortL_pairwise (D.row i)) hs
        omega
      · rw [countRow_eq, ← (sortL_perm (D.row i)).countP_eq]
        have := countP_lt_sorted (sortL_pairwise (D.row i)) hs
        omega
    · cases h

/-- C08, validation: exactly the counts `1 .. n` are accepted. -/
theorem C08_count_validated (D : Mat K) (k : ℤ) :
    (∃ bw, adaptiveBandwidth false D (.int k) none = .ok bw) ↔ 1 ≤ k ∧ k ≤ D.c := by
  constructor
  · rintro ⟨bw, h⟩
    have := C08_kth_nearest D k bw h 0
    exact ⟨this.1, this.2.1⟩
  · rintro ⟨h1, h2⟩
    have h3 : ¬ k ≤ 0 := by omega
    have h4 : (k - 1).toNat < D.c := by omega
    refine ⟨fun i => (sortL (D.row i)).getD (k - 1).toNat 0, ?_⟩
    simp only [adaptiveBandwidth, adaptiveBandwidthEager, Bool.false_eq_true, if_false, h3, h4,
      if_true]

/-- C08, consequence for the weights: `linear`, `bisquare` and `tricube` give non-zero weight
to fewer than `k` entries of each row whose bandwidth is positive, `boxcar` to at least `k`
entries of each row. (With bandwidth 0 all these kernels select the duplicates, at least `k`.) -/
theorem C08_neighbour_counts (env : Env K) (D : Mat K)
    (hD : ∀ i < D.r, ∀ j < D.c, 0 ≤ D.get i j)
    (k : ℤ) (name : String) (W : Mat (Num K))
    (h : adaptiveKernel env false D (.int k) name none = .ok W) (i : Nat) (hi : i < D.r) :
    (name ∈ ["linear", "bisquare", "tricube"] →
      (k ≤ countRow D i (fun x => x = 0) ∨
      (((List.range D.c).filter fun j => W.get i j ≠ .fin 0).length : ℤ) < k)) ∧
    (name = "boxcar" →
      k ≤ (((List.range D.c).filter fun j => W.get i j ≠ .fin 0).length : ℤ)) := by
  unfold adaptiveKernel at h
  split at h
  · cases h
  · rename_i bw hbw
    obtain ⟨hk1, hk2, ⟨j0, hj0, hj0e⟩, hle, hlt⟩ := C08_kth_nearest D k bw hbw i
    have hb0 : 0 ≤ bw i := hj0e ▸ hD i hi j0 hj0
    unfold kernelFunction at h
    split at h
    · cases h
    · rename_i w hw
      injection h with h
      subst h
      have key (hn : name ∈ kernelTypeEnum) (j : Nat) (hj : j < D.c) :
          w (D.get i j) (bw i) = .fin (kval env name (D.get i j) (bw i)) := by
        have := kernelWeight_eq env false hn (hD i hi j hj) hb0
        simp only [kernelWeight, hw] at this
        injection this
      have : ∀ (p q : Nat → Bool), (∀ j < D.c, p j → q j) →
          ((List.range D.c).filter p).length ≤ ((List.range D.c).filter q).length := by
        intro p q hpq
        rw [← List.countP_eq_length_filter, ← List.countP_eq_length_filter]
        exact List.countP_mono_left fun j hj => hpq j (by simpa using hj)
      constructor
      · intro hm
        have hn : name ∈ kernelTypeEnum := by
          rcases (by simpa using hm) with rfl | rfl | rfl <;> decide
        rcases hb0.eq_or_lt with hb0 | hb0
        · left
          refine hle.trans ?_
          unfold countRow
          norm_cast
          refine this _ _ fun j hj hp => ?_
          simp only [decide_eq_true_eq] at hp ⊢
          exact le_antisymm (by rw [hb0]; exact hp) (hD i hi j hj)
        · right
          refine lt_of_le_of_lt ?_ hlt
          unfold countRow
          norm_cast
          refine this _ _ fun j hj hp => ?_
          simp only [decide_eq_true_eq] at hp ⊢
          rw [key hn j hj] at hp
          by_contra hc
          rw [not_lt] at hc
          apply hp
          rw [Num.fin.injEq]
          rcases hc.eq_or_lt with he | hl
          · rcases (by simpa using hm) with rfl | rfl | rfl <;> simp [kval, ← he, hb0.ne']
          · rcases (by simpa using hm) with rfl | rfl | rfl <;> simp [kval, hl]
      · rintro rfl
        refine hle.trans ?_
        unfold countRow
        norm_cast
        refine this _ _ fun j hj hp => ?_
        simp only [decide_eq_true_eq] at hp ⊢
        rw [key (by decide) j hj]
        simp [kval, not_lt.2 hp]

example : ∃ W : Mat (Num ℚ),
    adaptiveKernel ratEnv false ⟨1, 4, fun _ j => (j : ℚ)⟩ (.int 3) "bisquare" none = .ok W ∧
    W.toLists = [[.fin 1, .fin (9 / 16), .fin 0, .fin 0]] := by
  refine ⟨_, rfl, ?_⟩
  decide +kernel


/-- C09, validation: exactly the fractions in `(0, 1]` are accepted on a non-empty row. -/
theorem C09_fraction_validated (D : Mat K) (hD : 0 < D.c) (q : K) :
    (∃ bw, adaptiveBandwidth false D (.float q) none = .ok bw) ↔ 0 < q ∧ q ≤ 1 := by
  simp only [adaptiveBandwidth, adaptiveBandwidthEager, Bool.false_eq_true, if_false, hD.ne']
  by_cases h0 : q ≤ 0
  · simp [h0, not_lt.2 h0]
  · have h0' := not_le.1 h0
    by_cases h1 : q ≤ 1
    · have h2 : ¬ (q < 0 ∨ 1 < q) := by rw [not_or, not_lt, not_lt]; exact ⟨h0'.le, h1⟩
      simp [h0, h0', h1, h2]
    · simp [h0, h1, not_le.1 h1]

theorem adaptiveBandwidth_float_ok {D : Mat K} {q : K} {bw : Nat → K}
    (h : adaptiveBandwidth false D (.float q) none = .ok bw) :
    0 < q ∧ q ≤ 1 ∧ 0 < D.c ∧ ∀ i, bw i = quantileVal virtMedian (D.row i) q := by
  simp only [adaptiveBandwidth, adaptiveBandwidthEager, Bool.false_eq_true, if_false] at h
  split at h
  · cases h
  · split at h
    · cases h
    · split at h
      · cases h
      · injection h with h
        rename_i h0 h1 h2
        simp only [not_or, not_lt] at h1
        exact ⟨not_le.1 h0, h1.2, Nat.pos_of_ne_zero h2, fun i => by rw [← h]⟩

/-- C09: the bandwidth lies between the smallest and the largest distance of the row. -/
theorem C09_between_min_and_max (D : Mat K) (q : K) (bw : Nat → K)
    (h : adaptiveBandwidth false D (.float q) none = .ok bw) (i : Nat) :
    (∃ j < D.c, D.get i j ≤ bw i) ∧ (∃ j < D.c, bw i ≤ D.get i j) := by
  obtain ⟨-, -, hc, hb⟩ := adaptiveBandwidth_float_ok h
  obtain ⟨a, ha, b, hb', h1, h2, -, -⟩ :=
    quantileVal_between virtMedian (l := D.row i) q (by simpa using hc)
  rw [← hb i] at h1 h2
  obtain ⟨j, hj, rfl⟩ := Mat.mem_row.1 ha
  obtain ⟨j', hj', rfl⟩ := Mat.mem_row.1 hb'
  exact ⟨⟨j, hj, h1⟩, ⟨j', hj', h2⟩⟩

/-- C09: a larger fraction never gives a smaller bandwidth. -/
theorem C09_monotone_in_fraction (D : Mat K) (q q' : K) (bw bw' : Nat → K)
    (h : adaptiveBandwidth false D (.float q) none = .ok bw)
    (h' : adaptiveBandwidth false D (.float q') none = .ok bw') (hq : q ≤ q') (i : Nat) :
    bw i ≤ bw' i := by
  obtain ⟨-, -, hc, hb⟩ := adaptiveBandwidth_float_ok h
  obtain ⟨-, -, -, hb'⟩ := adaptiveBandwidth_float_ok h'
  rw [hb i, hb' i]
  apply quantileVal_mono (by simpa using hc)
  unfold virtMedian
  have hn : (0 : K) ≤ ((D.row i).length : K) := Nat.cast_nonneg _
  have := mul_le_mul_of_nonneg_left hq hn
  have h3 : (0 : K) ≤ 1 - 1 / 3 - 1 / 3 := by norm_num
  have := mul_le_mul_of_nonneg_right hq h3
  linarith

/-- C09: the fraction 1 gives the largest distance, so every point is within the bandwidth. -/
theorem C09_fraction_one_is_max (D : Mat K) (bw : Nat → K)
    (h : adaptiveBandwidth false D (.float 1) none = .ok bw) (i : Nat) :
    (∃ j < D.c, D.get i j = bw i) ∧ ∀ j < D.c, D.get i j ≤ bw i := by
  obtain ⟨-, -, hc, hb⟩ := adaptiveBandwidth_float_ok h
  have hs : D.c - 1 < (sortL (D.row i)).length := by simp; omega
  have e : bw i = (sortL (D.row i))[D.c - 1] := by
    rw [hb i]
    unfold quantileVal lerp virtMedian
    have : (((D.row i).length : K)) - 1 ≤
        (D.row i).length * 1 + (1 / 3 + 1 * (1 - 1 / 3 - 1 / 3)) - 1 := by norm_num
    rw [if_pos this]
    simp only [Mat.row_length]
    rw [List.getD_eq_getElem _ _ hs]
  constructor
  · obtain ⟨j, hj, he⟩ := Mat.mem_row.1 (mem_sortL.1 (List.getElem_mem hs))
    exact ⟨j, hj, by rw [he, e]⟩
  · intro j hj
    rw [e]
    have hm : D.get i j ∈ sortL (D.row i) := mem_sortL.2 (Mat.mem_row.2 ⟨j, hj, rfl⟩)
    obtain ⟨a, ha, hae⟩ := List.getElem_of_mem hm
    rw [← hae]
    exact sorted_getElem_le (sortL_pairwise _) (by simp at ha; omega) hs

/-- C09: exact value. If the virtual rank `h = n*q + (1+q)/3` (counting from 1) lies in
`[k, k+1)` with `1 ≤ k < n`, the bandwidth interpolates linearly between the `k`-th and the
`(k+1)`-th smallest distance of the row. -/
theorem C09_median_unbiased_value (D : Mat K) (q : K) (bw : Nat → K)
    (h : adaptiveBandwidth false D (.float q) none = .ok bw) (i k : Nat) (a b : K)
    (hk : 1 ≤ k) (hkn : k < D.c)
    (hlo : (k : K) ≤ D.c * q + (1 + q) / 3) (hhi : D.c * q + (1 + q) / 3 < k + 1)
    (ha : IsKthSmallest (D.row i) k a) (hb : IsKthSmallest (D.row i) (k + 1) b) :
    bw i = a + (D.c * q + (1 + q) / 3 - k) * (b - a) := by
  obtain ⟨-, -, hc, hbw⟩ := adaptiveBandwidth_float_ok h
  obtain ⟨k, rfl⟩ : ∃ m, k = m + 1 := ⟨k - 1, by omega⟩
  have hs : k < (sortL (D.row i)).length := by simp; omega
  have hs' : k + 1 < (sortL (D.row i)).length := by simp; omega
  rw [ha.eq_sortL hs, hb.eq_sortL hs', hbw i]
  push_cast at hlo hhi
  have hv : virtMedian (D.row i).length q = D.c * q + (1 + q) / 3 - 1 := by
    simp only [virtMedian, Mat.row_length]; ring
  unfold quantileVal
  rw [hv]
  generalize hvv : (D.c : K) * q + (1 + q) / 3 - 1 = v
  have e1 : (D.c : K) * q + (1 + q) / 3 = v + 1 := by rw [← hvv]; ring
  rw [e1] at hlo hhi ⊢
  have hk0 : (k : K) ≤ v := by linarith
  have hv0 : 0 ≤ v := (Nat.cast_nonneg k).trans hk0
  have hfl : ⌊v⌋₊ = k := by
    rw [Nat.floor_eq_iff hv0]; exact ⟨hk0, by linarith⟩
  have hlt : ¬ (((D.row i).length : K)) - 1 ≤ v := by
    rw [not_le, Mat.row_length]
    have : ((k : K) + 1) + 1 ≤ D.c := by exact_mod_cast hkn
    linarith
  unfold lerp
  rw [if_neg hlt, if_neg (not_lt.2 hv0), hfl]
  simp only [List.getD_eq_getElem _ _ hs, List.getD_eq_getElem _ _ hs']
  push_cast
  ring

/-- C09: how many points the bandwidth selects, with `h = n*q + (1+q)/3`: at most `⌊h⌋` are
strictly closer and at least `min ⌊h⌋ n` are within. -/
theorem C09_selected_count (D : Mat K) (q : K) (bw : Nat → K)
    (h : adaptiveBandwidth false D (.float q) none = .ok bw) (i : Nat) :
    countRow D i (fun x => x < bw i) ≤ ⌊(D.c : K) * q + (1 + q) / 3⌋₊ ∧
    min ⌊(D.c : K) * q + (1 + q) / 3⌋₊ D.c ≤ countRow D i (fun x => x ≤ bw i) := by
  obtain ⟨hq, -, hc, hbw⟩ := adaptiveBandwidth_float_ok h
  have hv : virtMedian (D.row i).length q = D.c * q + (1 + q) / 3 - 1 := by
    simp only [virtMedian, Mat.row_length]; ring
  have hcq : (0 : K) ≤ D.c * q := mul_nonneg (Nat.cast_nonneg _) hq.le
  have hh0 : (0 : K) ≤ D.c * q + (1 + q) / 3 := by
    have : (0 : K) ≤ (1 + q) / 3 := by positivity
    linarith
  have hlen : (sortL (D.row i)).length = D.c := by simp
  rw [countRow_eq, countRow_eq, ← (sortL_perm (D.row i)).countP_eq,
    ← (sortL_perm (D.row i)).countP_eq]
  have hb : bw i = lerp (fun i_1 => (sortL (D.row i)).getD i_1 0) D.c
      (D.c * q + (1 + q) / 3 - 1) := by
    rw [hbw i]; unfold quantileVal; rw [hv]; simp
  generalize (D.c : K) * q + (1 + q) / 3 = t at hb hh0
  by_cases h1 : (D.c : K) - 1 ≤ t - 1
  · have hs : D.c - 1 < (sortL (D.row i)).length := by rw [hlen]; omega
    have hb' : bw i = (sortL (D.row i))[D.c - 1] := by
      rw [hb]; unfold lerp; rw [if_pos h1]; exact List.getD_eq_getElem _ _ hs
    have hct : D.c ≤ ⌊t⌋₊ := Nat.le_floor (by linarith)
    have := countP_lt_sorted (sortL_pairwise (D.row i)) hs
    have := countP_le_sorted (sortL_pairwise (D.row i)) hs
    rw [hb']
    constructor
    · omega
    · rw [min_eq_right hct]; omega
  · by_cases h2 : t - 1 < 0
    · have hs : 0 < (sortL (D.row i)).length := by rw [hlen]; omega
      have hb' : bw i = (sortL (D.row i))[0] := by
        rw [hb]; unfold lerp; rw [if_neg h1, if_pos h2]; exact List.getD_eq_getElem _ _ hs
      have hct : ⌊t⌋₊ = 0 := by rw [Nat.floor_eq_zero]; linarith
      have := countP_lt_sorted (sortL_pairwise (D.row i)) hs
      rw [hb', hct]
      exact ⟨this, by simp⟩
    · have h1' := not_le.1 h1
      have h2' := not_lt.1 h2
      have hf : ⌊t⌋₊ = ⌊t - 1⌋₊ + 1 := by
        rw [Nat.floor_eq_iff hh0]
        have a := Nat.floor_le h2'
        have b := Nat.lt_floor_add_one (t - 1)
        push_cast
        exact ⟨by linarith, by linarith⟩
      have hlt := floor_lt_of_lt_pred h2' h1'
      have hmono := sortL_monoTo (D.row i)
      rw [Mat.row_length] at hmono
      obtain ⟨ha, hb2⟩ := lerp_bracket hmono h2' h1'
      rw [← hb] at ha hb2
      have hs : ⌊t - 1⌋₊ < (sortL (D.row i)).length := by rw [hlen]; omega
      have hs' : ⌊t - 1⌋₊ + 1 < (sortL (D.row i)).length := by rw [hlen]; omega
      simp only [List.getD_eq_getElem _ _ hs, List.getD_eq_getElem _ _ hs'] at ha hb2
      have c1 := countP_lt_sorted (sortL_pairwise (D.row i)) hs'
      have c2 := countP_le_sorted (sortL_pairwise (D.row i)) hs
      rw [hf]
      constructor
      · refine le_trans (List.countP_mono_left fun x _ hx => ?_) c1
        simp only [decide_eq_true_eq] at hx ⊢
        exact hx.trans_le hb2
      · refine le_trans (min_le_left _ _) (le_trans c2 (List.countP_mono_left fun x _ hx => ?_))
        simp only [decide_eq_true_eq] at hx ⊢
        exact hx.trans ha

/-- C09: the order of the points in the row does not matter. -/
theorem C09_order_irrelevant (D D' : Mat K) (q : K) (bw bw' : Nat → K)
    (h : adaptiveBandwidth false D (.float q) none = .ok bw)
    (h' : adaptiveBandwidth false D' (.float q) none = .ok bw') (i : Nat)
    (hp : (D.row i).Perm (D'.row i)) : bw i = bw' i := by
  rw [(adaptiveBandwidth_float_ok h).2.2.2 i, (adaptiveBandwidth_float_ok h').2.2.2 i,
    quantileVal_perm hp]

example : ∃ bw : Nat → ℚ,
    adaptiveBandwidth false ⟨1, 4, fun _ j => 10 * ((4 - j : ℕ) : ℚ)⟩ (.float (1/2)) none = .ok bw ∧
    bw 0 = 25 := by
  obtain ⟨bw, h, hb⟩ := of_okAnd (p := fun bw : Nat → ℚ => decide (bw 0 = 25))
    (x := adaptiveBandwidth false ⟨1, 4, fun _ j => 10 * ((4 - j : ℕ) : ℚ)⟩ (.float (1/2)) none)
    (by decide +kernel)
  exact ⟨bw, h, by simpa using hb⟩
example : IsKthSmallest [(30:ℚ), 10, 20, 10] 3 20 := by
  unfold IsKthSmallest; decide +kernel

/-- `S` holds the rows of `D` sorted. -/
def SortedRows (D S : Mat K) : Prop :=
  S.r = D.r ∧ S.c = D.c ∧ ∀ i < D.r, S.row i = sortL (D.row i)

theorem SortedRows.get {D S : Mat K} (h : SortedRows D S) {i j : Nat} (hi : i < D.r)
    (hj : j < D.c) : S.get i j = (sortL (D.row i)).getD j 0 := by
  have hs : j < (sortL (D.row i)).length := by simpa using hj
  have hs' : j < (S.row i).length := by rw [Mat.row_length, h.2.1]; exact hj
  rw [List.getD_eq_getElem _ _ hs]
  have : (S.row i)[j] = (sortL (D.row i))[j] := by simp only [h.2.2 i hi]
  rw [← this]; simp [Mat.row]

/-- C10: for a square matrix with its sorted version and a count of at least 1, the lazy path
returns the bandwidths of the eager path, or both paths reject the count. The paths differ for
the count 0 (`C10_lazy_accepts_zero`), for fractions (`C10_lazy_fraction_differs`) and for
matrices that are not square (`C10_lazy_rejects_wide`). -/
theorem C10_lazy_eq_eager (D S : Mat K) (hsq : D.r = D.c) (hS : SortedRows D S)
    (k : ℤ) (h1 : 1 ≤ k) (bw : Nat → K) :
    (adaptiveBandwidth false D (.int k) none = .ok bw →
      ∃ bw', adaptiveBandwidth true D (.int k) (some S) = .ok bw' ∧ ∀ i < D.r, bw' i = bw i) ∧
    ((∃ e, adaptiveBandwidth false D (.int k) none = .error e) →
      ∃ e, adaptiveBandwidth true D (.int k) (some S) = .error e) := by
  have h3 : ¬ k ≤ 0 := by omega
  simp only [adaptiveBandwidth, adaptiveBandwidthEager, adaptiveBandwidthLazy, Count.ceil,
    Bool.false_eq_true, if_false, if_true, h3]
  by_cases hk : (k - 1).toNat < D.c
  · have h4 : ¬ k > D.r := by omega
    have h5 : 0 ≤ k - 1 ∧ k - 1 < S.c := by rw [hS.2.1]; omega
    simp only [hk, h4, h5, if_true, if_false, and_self]
    refine ⟨fun h => ⟨_, rfl, fun i hi => ?_⟩, fun h => ?_⟩
    · injection h with h
      rw [← h, hS.get hi hk]
    · obtain ⟨e, he⟩ := h; cases he
  · have h4 : k > D.r := by omega
    simp only [hk, h4, if_true, if_false]
    exact ⟨fun h => (by cases h), fun _ => ⟨_, rfl⟩⟩

example : SortedRows (⟨2, 2, fun i j => ((i + 1) * (2 - j : ℕ) : ℚ)⟩ : Mat ℚ)
    ⟨2, 2, fun i j => ((i + 1) * (j + 1 : ℕ) : ℚ)⟩ := by
  refine ⟨rfl, rfl, ?_⟩
  intro i hi
  have : i = 0 ∨ i = 1 := by simp at hi; omega
  rcases this with rfl | rfl <;> decide +kernel

/-- C10, negation: on every non-empty square matrix the lazy path accepts the count 0, which
the eager path rejects, and silently uses the largest distance. -/
theorem C10_lazy_accepts_zero (D S : Mat K) (hsq : D.r = D.c) (hc : 0 < D.c)
    (hS : SortedRows D S) :
    adaptiveBandwidth false D (.int 0) none = .error .exception ∧
    ∃ bw, adaptiveBandwidth true D (.int 0) (some S) = .ok bw ∧
      ∀ i < D.r, ∀ j < D.c, D.get i j ≤ bw i := by
  refine ⟨by simp [adaptiveBandwidth, adaptiveBandwidthEager], ?_⟩
  have h4 : ¬ (0 : ℤ) > D.r := by omega
  have h5 : ¬ (0 ≤ (0 : ℤ) - 1 ∧ (0 : ℤ) - 1 < S.c) := by omega
  have h6 : (0 : ℤ) - 1 < 0 ∧ -(S.c : ℤ) ≤ 0 - 1 := by rw [hS.2.1]; omega
  refine ⟨fun i => S.get i ((0 : ℤ) - 1 + S.c).toNat, ?_, ?_⟩
  · simp only [adaptiveBandwidth, adaptiveBandwidthLazy, Count.ceil, if_true, h4, h5, h6, if_false, and_self]
  · intro i hi j hj
    have hj' : ((0 : ℤ) - 1 + S.c).toNat < D.c := by rw [hS.2.1]; omega
    simp only [hS.get hi hj']
    have hm : D.get i j ∈ sortL (D.row i) := mem_sortL.2 (Mat.mem_row.2 ⟨j, hj, rfl⟩)
    obtain ⟨a, ha, hae⟩ := List.getElem_of_mem hm
    have hs : ((0 : ℤ) - 1 + S.c).toNat < (sortL (D.row i)).length := by simpa using hj'
    rw [← hae, List.getD_eq_getElem _ _ hs]
    apply sorted_getElem_le (sortL_pairwise _)
    have := hS.2.1
    simp at ha
    omega

/-- C10, negation for fractions: on this 4-by-4 matrix the two paths differ at fraction 1/2. -/
theorem C10_lazy_fraction_differs :
    ∃ (D S : Mat ℚ) (bw bw' : Nat → ℚ), SortedRows D S ∧ D.r = D.c ∧
      adaptiveBandwidth false D (.float (1/2)) none = .ok bw ∧
      adaptiveBandwidth true D (.float (1/2)) (some S) = .ok bw' ∧ bw 0 = 25 ∧ bw' 0 = 20 := by
  obtain ⟨bw, h, hb⟩ := of_okAnd (p := fun bw : Nat → ℚ => decide (bw 0 = 25))
    (x := adaptiveBandwidth false ⟨4, 4, fun _ j => 10 * ((j : ℚ) + 1)⟩ (.float (1/2)) none)
    (by decide +kernel)
  obtain ⟨bw', h', hb'⟩ := of_okAnd (p := fun bw : Nat → ℚ => decide (bw 0 = 20))
    (x := adaptiveBandwidth true ⟨4, 4, fun _ j => 10 * ((j : ℚ) + 1)⟩ (.float (1/2))
      (some ⟨4, 4, fun _ j => 10 * ((j : ℚ) + 1)⟩))
    (by decide +kernel)
  refine ⟨_, _, bw, bw', ⟨rfl, rfl, ?_⟩, rfl, h, h', by simpa using hb, by simpa using hb'⟩
  intro i _
  simp only [Mat.row]
  decide +kernel

/-- C10, lazy fractions: with the sorted matrix of a square matrix of `n` rows, a fraction `q` gives
the distance of the `k`-th nearest point for the smallest `k` with `q * n ≤ k`; fractions above 1
are rejected. -/
theorem C10_lazy_fraction (D S : Mat K) (hsq : D.r = D.c) (hc : 0 < D.c) (hS : SortedRows D S)
    (q : K) :
    (0 < q → q ≤ 1 → ∃ bw, adaptiveBandwidth true D (.float q) (some S) = .ok bw ∧
      ∃ k : Nat, (k : K) < q * D.c + 1 ∧ q * D.c ≤ k ∧
        ∀ i < D.r, IsKthSmallest (D.row i) k (bw i)) ∧
    (1 < q → adaptiveBandwidth true D (.float q) (some S) = .error .exception) := by
  have hK : (0 : K) < D.c := by exact_mod_cast hc
  constructor
  · intro h0 h1
    have hp : 0 < (D.r : K) * q := by rw [hsq]; exact mul_pos hK h0
    have c1 : 1 ≤ ⌈(D.r : K) * q⌉ := Int.one_le_ceil_iff.2 hp
    have c2 : ⌈(D.r : K) * q⌉ ≤ D.c := by
      rw [Int.ceil_le, hsq]
      have := mul_le_mul_of_nonneg_left h1 hK.le
      simpa using this
    have h4 : ¬ ⌈(D.r : K) * q⌉ > D.r := by omega
    have h5 : 0 ≤ ⌈(D.r : K) * q⌉ - 1 ∧ ⌈(D.r : K) * q⌉ - 1 < S.c := by
      have := hS.2.1; omega
    refine ⟨fun i => S.get i (⌈(D.r : K) * q⌉ - 1).toNat, ?_, ⌈(D.r : K) * q⌉.toNat, ?_, ?_, ?_⟩
    · simp only [adaptiveBandwidth, adaptiveBandwidthLazy, Count.ceil, if_true, h4, h5, if_false,
        and_self]
    · have : ((⌈(D.r : K) * q⌉.toNat : ℤ) : K) = (⌈(D.r : K) * q⌉ : K) := by
        rw [Int.toNat_of_nonneg (by omega)]
      rw [Int.cast_natCast] at this
      rw [this, mul_comm q, ← hsq]
      exact Int.ceil_lt_add_one _
    · have : ((⌈(D.r : K) * q⌉.toNat : ℤ) : K) = (⌈(D.r : K) * q⌉ : K) := by
        rw [Int.toNat_of_nonneg (by omega)]
      rw [Int.cast_natCast] at this
      rw [this, mul_comm q, ← hsq]
      exact Int.le_ceil _
    · intro i hi
      have hj : (⌈(D.r : K) * q⌉ - 1).toNat < D.c := by omega
      have hs : (⌈(D.r : K) * q⌉ - 1).toNat < (sortL (D.row i)).length := by simpa using hj
      have hk := isKthSmallest_sortL hs
      simp only [hS.get hi hj, List.getD_eq_getElem _ _ hs]
      have e : (⌈(D.r : K) * q⌉ - 1).toNat + 1 = ⌈(D.r : K) * q⌉.toNat := by omega
      rwa [e] at hk
  · intro h1
    have : ⌈(D.r : K) * q⌉ > D.r := by
      rw [gt_iff_lt, Int.lt_ceil]
      have := mul_lt_mul_of_pos_left h1 hK
      rw [hsq]
      simpa using this
    simp only [adaptiveBandwidth, adaptiveBandwidthLazy, Count.ceil, if_true, this]

example : ∃ bw, adaptiveBandwidth true (⟨4, 4, fun _ j => 10 * ((j : ℚ) + 1)⟩ : Mat ℚ) (.float (2/3))
    (some ⟨4, 4, fun _ j => 10 * ((j : ℚ) + 1)⟩) = .ok bw ∧ bw 0 = 30 := by
  obtain ⟨bw, h, hb⟩ := of_okAnd (p := fun bw : Nat → ℚ => decide (bw 0 = 30))
    (x := adaptiveBandwidth true ⟨4, 4, fun _ j => 10 * ((j : ℚ) + 1)⟩ (.float (2/3))
      (some ⟨4, 4, fun _ j => 10 * ((j : ℚ) + 1)⟩))
    (by decide +kernel)
  exact ⟨bw, h, by simpa using hb⟩

/-- C10, negation for non-square input: the lazy path compares the count with the number of
rows, so with one row it rejects every count above 1 that the eager path accepts. -/
theorem C10_lazy_rejects_wide (D S : Mat K) (hr : D.r = 1) (k : ℤ) (h1 : 2 ≤ k) (h2 : k ≤ D.c) :
    (∃ bw, adaptiveBandwidth false D (.int k) none = .ok bw) ∧
    adaptiveBandwidth true D (.int k) (some S) = .error .exception := by
  refine ⟨(C08_count_validated D k).2 ⟨by omega, h2⟩, ?_⟩
  have : k > D.r := by rw [hr]; omega
  simp only [adaptiveBandwidth, adaptiveBandwidthLazy, Count.ceil, if_true, this]

/-- C10, dask without a sorted matrix: the number is taken as a quantile, so every integer count
except 0 and 1 is rejected, the count 1 gives the largest distance of the row and the count 0 the
smallest. -/
theorem C10_unsorted_counts (D : Mat K) (hc : 0 < D.c) (k : ℤ) :
    (k ≠ 0 → k ≠ 1 → adaptiveBandwidth true D (.int k) none = .error .valueError) ∧
    (∃ bw, adaptiveBandwidth true D (.int 1) none = .ok bw ∧
      ∀ i, IsKthSmallest (D.row i) D.c (bw i)) ∧
    ∃ bw, adaptiveBandwidth true D (.int 0) none = .ok bw ∧
      ∀ i, IsKthSmallest (D.row i) 1 (bw i) := by
  have hK : (1 : K) ≤ (D.c : K) := by exact_mod_cast hc
  refine ⟨fun h0 h1 => ?_, ⟨fun i => quantileVal virtLinear (D.row i) 1, ?_, fun i => ?_⟩,
    ⟨fun i => quantileVal virtLinear (D.row i) 0, ?_, fun i => ?_⟩⟩
  · have hk : (k : K) < 0 ∨ (1 : K) < k := by
      rcases lt_or_gt_of_ne h0 with h | h
      · left; exact_mod_cast h
      · right
        have : (1 : ℤ) < k := by omega
        exact_mod_cast this
    exact if_pos hk
  · simp only [adaptiveBandwidth, adaptiveBandwidthLazy, Count.toNumber, if_true, Int.cast_one]
    rw [if_neg (by push Not; exact ⟨zero_le_one, le_refl _⟩), if_neg (by omega)]
  · have hs : D.c - 1 < (sortL (D.row i)).length := by simp; omega
    have : quantileVal virtLinear (D.row i) 1 = (sortL (D.row i))[D.c - 1] := by
      unfold quantileVal virtLinear
      rw [mul_one, Mat.row_length]
      have : (D.c : K) - 1 = ((D.c - 1 : Nat) : K) := by
        rw [Nat.cast_sub hc, Nat.cast_one]
      rw [this, lerp_nat (by omega), List.getD_eq_getElem _ _ hs]
    simp only [this]
    have := isKthSmallest_sortL hs
    rwa [Nat.sub_add_cancel hc] at this
  · simp only [adaptiveBandwidth, adaptiveBandwidthLazy, Count.toNumber, if_true, Int.cast_zero]
    rw [if_neg (by push Not; exact ⟨le_refl _, zero_le_one⟩), if_neg (by omega)]
  · have hs : 0 < (sortL (D.row i)).length := by simp; omega
    have : quantileVal virtLinear (D.row i) 0 = (sortL (D.row i))[0] := by
      unfold quantileVal virtLinear
      rw [mul_zero, Mat.row_length, ← Nat.cast_zero, lerp_nat (by omega),
        List.getD_eq_getElem _ _ hs]
    simp only [this]
    exact isKthSmallest_sortL hs

/-- C10, dask without a sorted matrix: a fraction gives numpy's default quantile. If
`q * (n - 1)` lies in `[k, k + 1)`, the bandwidth interpolates linearly between the `(k+1)`-th and
the `(k+2)`-th smallest distance. -/
theorem C10_unsorted_fraction (D : Mat K) (q : K) (bw : Nat → K)
    (h : adaptiveBandwidth true D (.float q) none = .ok bw) (i k : Nat) (a b : K)
    (hkn : k + 1 < D.c) (hlo : (k : K) ≤ q * (D.c - 1)) (hhi : q * (D.c - 1) < k + 1)
    (ha : IsKthSmallest (D.row i) (k + 1) a) (hb : IsKthSmallest (D.row i) (k + 2) b) :
    bw i = a + (q * (D.c - 1) - k) * (b - a) := by
  change (if q < 0 ∨ 1 < q then Except.error Err.valueError
    else if D.c = 0 then .error .indexError
    else .ok fun i => quantileVal virtLinear (D.row i) q) = _ at h
  by_cases hq : q < 0 ∨ 1 < q
  · rw [if_pos hq] at h; cases h
  rw [if_neg hq, if_neg (by omega)] at h
  injection h with h
  have hs : k < (sortL (D.row i)).length := by simp; omega
  have hs' : k + 1 < (sortL (D.row i)).length := by simp; omega
  rw [ha.eq_sortL hs, hb.eq_sortL hs', ← h]
  have hv : virtLinear (D.row i).length q = q * (D.c - 1) := by
    simp only [virtLinear, Mat.row_length]; ring
  unfold quantileVal
  beta_reduce
  rw [hv]
  generalize q * ((D.c : K) - 1) = v at hlo hhi ⊢
  have hv0 : 0 ≤ v := (Nat.cast_nonneg k).trans hlo
  have hfl : ⌊v⌋₊ = k := by
    rw [Nat.floor_eq_iff hv0]; exact ⟨hlo, by linarith⟩
  have hlt : ¬ (((D.row i).length : K)) - 1 ≤ v := by
    rw [not_le, Mat.row_length]
    have : ((k : K) + 1) + 1 ≤ D.c := by exact_mod_cast hkn
    linarith
  unfold lerp
  rw [if_neg hlt, if_neg (not_lt.2 hv0), hfl]
  simp only [List.getD_eq_getElem _ _ hs, List.getD_eq_getElem _ _ hs']
  ring

/-- The hypotheses are met: the median of four distances. -/
example : okAnd (adaptiveBandwidth true (⟨1, 4, fun _ j => ([3, 1, 9, 4] : List ℚ).getD j 0⟩ : Mat ℚ)
    (.float (1/2)) none) (fun bw => decide (bw 0 = 7/2)) = true ∧
    (1 : ℚ) ≤ 1/2 * (4 - 1) ∧ (1/2 : ℚ) * (4 - 1) < 1 + 1 := by
  refine ⟨by decide +kernel, by norm_num, by norm_num⟩

end Geo
