import Verif.Props.RoundedUnitsBound
import Verif.Props.Bandwidth
set_option linter.unusedSectionVars false
/-
C187: bandwidths from a number of neighbours, with the distances in another unit, in floating point.
-/
namespace Geo
section
variable {K : Type} [Field K] [LinearOrder K] [IsStrictOrderedRing K]

theorem sortL_map_mono (f : K → K) (l : List K) (hf : ∀ x ∈ l, ∀ y ∈ l, x ≤ y → f x ≤ f y) :
    sortL (l.map f) = (sortL l).map f := by
  have hp : (sortL l).Perm l := List.perm_insertionSort _ l
  refine List.Perm.eq_of_pairwise' (r := (· ≤ ·)) ?_ ?_ ?_
  · exact List.pairwise_insertionSort _ _
  · rw [List.pairwise_map]
    exact (List.pairwise_insertionSort (· ≤ ·) l).imp_of_mem fun hx hy h =>
      hf _ (hp.mem_iff.1 hx) _ (hp.mem_iff.1 hy) h
  · exact (List.perm_insertionSort _ _).trans (hp.map f).symm

variable [FloorRing K] {a : Arith K}

/-- C187: with an integer `neighbour_count`, the bandwidths computed from the converted distances are the converted
bandwidths, exactly, so the statements about distance and bandwidth apply. -/
theorem C187_adaptive (ha : a.Ok) {c : K} (c0 : 0 ≤ c) (D : Mat K) (k : ℤ) (bw : Nat → K)
    (hfin : ∀ i < D.r, ∀ j < D.c, ∃ z, a.op (c * D.get i j) = .fin z)
    (h : adaptiveBandwidth false D (.int k) none = .ok bw) :
    ∃ bw', adaptiveBandwidth false ⟨D.r, D.c, fun i j => (a.op (c * D.get i j)).toK⟩ (.int k) none = .ok bw' ∧
      ∀ i < D.r, a.op (c * bw i) = .fin (bw' i) := by
  obtain ⟨k1, k2⟩ := (C08_count_validated D k).1 ⟨bw, h⟩
  have hk : (k - 1).toNat < D.c := by omega
  simp only [adaptiveBandwidth, adaptiveBandwidthEager, Bool.false_eq_true, if_false, not_le.2 (show 0 < k by omega),
    hk, if_true] at h ⊢
  refine ⟨_, rfl, fun i hi => ?_⟩
  have hmem : ∀ x ∈ D.row i, ∃ z, a.op (c * x) = .fin z := by
    intro x hx
    obtain ⟨j, hj, rfl⟩ := List.mem_map.1 hx
    exact hfin i hi j (List.mem_range.1 hj)
  have hrow : Mat.row (⟨D.r, D.c, fun i j => (a.op (c * D.get i j)).toK⟩ : Mat K) i =
      (D.row i).map fun x => (a.op (c * x)).toK := by
    simp [Mat.row]
  rw [hrow, sortL_map_mono _ _ (by
    intro x hx y hy hxy
    obtain ⟨u, hu⟩ := hmem x hx
    obtain ⟨v, hv⟩ := hmem y hy
    have := ha.op.mono _ _ (mul_le_mul_of_nonneg_left hxy c0)
    rw [hu, hv] at this ⊢
    exact this)]
  have hp : (sortL (D.row i)).Perm (D.row i) := List.perm_insertionSort _ _
  have hlen : (k - 1).toNat < (sortL (D.row i)).length := by
    rw [hp.length_eq]
    simpa [Mat.row] using hk
  have hbw : bw i = (sortL (D.row i))[(k - 1).toNat] := by
    rw [← Except.ok.inj h]
    exact List.getD_eq_getElem _ _ hlen
  rw [List.getD_eq_getElem _ _ (by simpa using hlen), List.getElem_map, ← hbw]
  obtain ⟨z, hz⟩ := hmem (bw i) (hp.mem_iff.1 (hbw ▸ List.getElem_mem hlen))
  rw [hz]
  rfl

end

/-- The hypotheses of `C187_adaptive` hold: the distance to the second neighbour, from metres to kilometres. -/
example : ∃ bw', adaptiveBandwidth false (⟨1, 3, fun _ j =>
      ((double.arith : Arith ℚ).op (1 / 1000 * [0, 79 / 10, 3].getD j 0)).toK⟩ : Mat ℚ) (.int 2) none = .ok bw' ∧
    ∀ i < 1, (double.arith : Arith ℚ).op (1 / 1000 * 3) = .fin (bw' i) := by
  have h : adaptiveBandwidth false (⟨1, 3, fun _ j => [0, 79 / 10, 3].getD j 0⟩ : Mat ℚ) (.int 2) none =
      .ok fun _ => 3 := by
    rw [adaptiveBandwidth, if_neg (by decide), adaptiveBandwidthEager, if_neg (by decide), if_pos (by decide)]
    congr 1
    funext i
    show (sortL [(0 : ℚ), 79 / 10, 3]).getD 1 0 = 3
    decide +kernel
  exact C187_adaptive (C175_ieee double double_ok).1 (by norm_num) _ 2 _ (by
    intro i hi j hj
    refine ⟨_, Fmt.toNum_fin double_ok ?_⟩
    have : j = 0 ∨ j = 1 ∨ j = 2 := by
      have : j < 3 := hj
      omega
    show |1 / 1000 * [(0 : ℚ), 79 / 10, 3].getD j 0| ≤ _
    rcases this with rfl | rfl | rfl <;> decide +kernel) h

/-- C187: where the row of a new location is normalised this can decide everything: its only neighbour, just inside the
bandwidth of 15.7 metres, has weight one in metres and weight zero in kilometres, so the prediction is that of the
neighbour, or zero. -/
theorem C187_only_neighbour :
    let b : ℚ := double.round (157 / 10)
    let t : RowDim ℚ := ⟨"linear", fun _ => b - 1 / 2 ^ 49, b⟩
    (weightRowR stepEnv double.arith false [t] 1 pairwiseTree).toOption = some [.fin 1] ∧
    (weightRowR stepEnv double.arith false [inUnit double.arith (double.round (1 / 1000)) t] 1 pairwiseTree).toOption =
      some [.fin 0] ∧
    predictEntryR double.arith pairwiseTree [.fin 1] [.fin 5] = .fin (5 : ℚ) ∧
    predictEntryR double.arith pairwiseTree [.fin 0] [.fin 5] = .fin (0 : ℚ) := by
  decide +kernel

end Geo
