import Verif.Props.Shrink
import Verif.Props.SecondOrder
import Mathlib.Data.List.Sort
set_option linter.unusedSectionVars false
/-
Properties C30-C32: sampling of neighbours.
-/
namespace Geo
variable {K : Type} [Field K] [LinearOrder K] [IsStrictOrderedRing K] [FloorRing K] {S : Type}

/-- What is assumed of `np.random.choice(a, k, replace=False)`: for `0 ≤ k ≤ len(a)` it returns
`k` elements at different positions of `a`. -/
def Rng.Valid (rng : Rng S) : Prop :=
  ∀ s (l : List Nat) (k : Nat), k ≤ l.length →
    ∃ c, (rng.choice s l k).1 = .ok c ∧ c.length = k ∧ c.Subperm l

/-- A generator that takes the first elements and counts its calls. -/
def countRng : Rng Nat := ⟨0, fun s l k =>
  (if 0 ≤ k ∧ k ≤ l.length then .ok (l.take k.toNat) else .error .valueError, s + 1)⟩

theorem countRng_valid : countRng.Valid := by
  intro s l k hk
  refine ⟨l.take k, ?_, by simp [hk], (List.take_sublist k l).subperm⟩
  simp [countRng, hk]

/-- The number drawn from `cnt` candidates: `min (cnt, max (1, ⌈cnt·rate⌉))`. -/
theorem sampleCount_eq (rate : K) (h : 0 ≤ rate) (cnt : Nat) :
    sampleCount rate cnt = ((min cnt (max 1 ⌈(cnt : K) * rate⌉₊) : Nat) : ℤ) := by
  have h0 : 0 ≤ (cnt : K) * rate := mul_nonneg (Nat.cast_nonneg _) h
  have hc : ⌈(cnt : K) * rate⌉ = ((⌈(cnt : K) * rate⌉₊ : Nat) : ℤ) :=
    (Int.natCast_ceil_eq_ceil h0).symm
  unfold sampleCount
  rw [hc]
  generalize ⌈(cnt : K) * rate⌉₊ = n
  simp only
  by_cases hn : n = 0
  · subst hn
    simp only [Nat.cast_zero, if_true]
    split <;> omega
  · have hn' : ¬ ((n : ℤ) = 0) := by exact_mod_cast hn
    simp only [hn', if_false]
    split <;> omega

/-- The loop draws for every row. -/
theorem sampleLoop_spec (rng : Rng S) (hv : rng.Valid) (rate : K) (h : 0 ≤ rate)
    (rows : List (List Nat)) (s : S) :
    ∃ chosen s', sampleLoop rng rate s rows = (.ok chosen, s') ∧
      List.Forall₂ (fun c l => c.Subperm l ∧
        c.length = min l.length (max 1 ⌈(l.length : K) * rate⌉₊)) chosen rows := by
  induction rows generalizing s with
  | nil => exact ⟨[], s, rfl, .nil⟩
  | cons l rows ih =>
    obtain ⟨c, hc1, hc2, hc3⟩ := hv s l (min l.length (max 1 ⌈(l.length : K) * rate⌉₊))
      (Nat.min_le_left _ _)
    rw [← sampleCount_eq rate h] at hc1
    obtain ⟨cs, s', hcs, hall⟩ := ih (rng.choice s l (sampleCount rate l.length)).2
    refine ⟨c :: cs, s', ?_, .cons ⟨hc3, hc2⟩ hall⟩
    unfold sampleLoop
    generalize hr : rng.choice s l (sampleCount rate l.length) = r at hc1 hcs
    obtain ⟨r1, r2⟩ := r
    simp only at hc1 hcs
    subst hc1
    simp [hcs]

/-- The candidates of row `i`: the other points with positive weight. -/
def positiveOthers (W : Mat K) (i : Nat) : List Nat :=
  (List.range W.c).filter fun j => decide (0 < W.get i j) && i != j

/-- The weights used for the selection: the given ones, or the shrunk ones. -/
def IsUsed (W : Mat K) (shrink : Option K) (W' : Mat K) : Prop :=
  match shrink with
  | none => W' = W
  | some q => shrinkDense W q = .ok W'

theorem sampleMask_used {W W' : Mat K} {shrink : Option K} (h : IsUsed W shrink W') :
    sampleMaskDense W shrink = (.ok (gt0 W'), W) := by
  cases shrink with
  | none => simp only [IsUsed] at h; subst h; rfl
  | some q =>
    simp only [IsUsed] at h
    simp [sampleMaskDense, neighbourShrinkDense, h, maskOfDense]

theorem forall₂_getD {α β : Type} {R : α → β → Prop} {l₁ : List α} {l₂ : List β}
    (h : List.Forall₂ R l₁ l₂) {i : Nat} (hi : i < l₂.length) (a : α) :
    R (l₁.getD i a) l₂[i] := by
  have hl := h.length_eq
  have := List.forall₂_iff_get.1 h
  rw [List.getD_eq_getElem _ _ (by omega)]
  exact this.2 i (by omega) hi

/-- C30: for a non-negative sampling rate the selection succeeds; it contains the diagonal, apart
from it only points whose (shrunk) weight is positive, and of `cnt` such points exactly
`min (cnt, max (1, ⌈cnt·rate⌉))`. The caller's array is unchanged. -/
theorem C30_sample_dense (rng : Rng S) (hv : rng.Valid) (s : S) (W W' : Mat K) (rate : K)
    (hrate : 0 ≤ rate) (shrink : Option K) (hu : IsUsed W shrink W') :
    ∃ M, (sampleNeighbourDense rng s W rate shrink).result = .ok M ∧
      (sampleNeighbourDense rng s W rate shrink).caller = W ∧ M.r = W'.r ∧ M.c = W'.c ∧
      ∀ i < W'.r, M.get i i = true ∧
        (∀ j, M.get i j = true → j ≠ i → j < W'.c ∧ 0 < W'.get i j) ∧
        ((List.range M.c).filter fun j => M.get i j && i != j).length =
          min (positiveOthers W' i).length
            (max 1 ⌈((positiveOthers W' i).length : K) * rate⌉₊) := by
  obtain ⟨chosen, s', hloop, hall⟩ := sampleLoop_spec rng hv rate hrate
    ((List.range W'.r).map (candidatesDense (gt0 W'))) rng.seed0
  have hres : sampleNeighbourDense rng s W rate shrink =
      ⟨.ok ⟨W'.r, W'.c, fun i j => decide (j ∈ chosen.getD i []) || i == j⟩, s', W⟩ := by
    unfold sampleNeighbourDense
    rw [sampleMask_used hu]
    simp only
    have : (gt0 W').r = W'.r := rfl
    rw [this, hloop]
    rfl
  rw [hres]
  refine ⟨_, rfl, rfl, rfl, rfl, fun i hi => ?_⟩
  have hi' : i < ((List.range W'.r).map (candidatesDense (gt0 W'))).length := by simpa using hi
  have hrow := forall₂_getD hall hi' []
  have hcand : ((List.range W'.r).map (candidatesDense (gt0 W')))[i] = positiveOthers W' i := by
    rw [List.getElem_map, List.getElem_range]
    rfl
  rw [hcand] at hrow
  obtain ⟨hsub, hlen⟩ := hrow
  have hmem : ∀ j ∈ chosen.getD i [], j < W'.c ∧ 0 < W'.get i j ∧ i ≠ j := by
    intro j hj
    have := hsub.subset hj
    simpa [positiveOthers] using this
  refine ⟨by simp, fun j hj hji => ?_, ?_⟩
  · simp only [Bool.or_eq_true, decide_eq_true_eq, beq_iff_eq] at hj
    rcases hj with hj | rfl
    · exact ⟨(hmem j hj).1, (hmem j hj).2.1⟩
    · exact absurd rfl hji
  · rw [← hlen]
    apply List.Perm.length_eq
    rw [List.perm_ext_iff_of_nodup]
    · intro j
      simp only [List.mem_filter, List.mem_range, Bool.and_eq_true, Bool.or_eq_true,
        decide_eq_true_eq, beq_iff_eq, bne_iff_ne, ne_eq]
      constructor
      · rintro ⟨-, h1 | h1, h2⟩
        · exact h1
        · exact absurd h1 h2
      · intro hj
        exact ⟨(hmem j hj).1, .inl hj, (hmem j hj).2.2⟩
    · exact List.Nodup.filter _ List.nodup_range
    · have hnd : (positiveOthers W' i).Nodup := List.Nodup.filter _ List.nodup_range
      obtain ⟨l, hp, hs⟩ := hsub
      exact (hp.nodup_iff).1 (hs.nodup hnd)

/-- The hypotheses of C30 are met by every array for `shrink_rate=None`, and by every rate in
`[0,1]`. -/
theorem isUsed_exists (W : Mat K) (shrink : Option K) (h : ∀ q ∈ shrink, 0 ≤ q ∧ q ≤ 1) :
    ∃ W', IsUsed W shrink W' := by
  cases shrink with
  | none => exact ⟨W, rfl⟩
  | some q => exact ⟨_, shrinkDense_ok W q (h q rfl).1 (h q rfl).2⟩

example : okAnd (sampleNeighbourDense countRng 5
    (⟨3, 3, fun i j => [[1, 2, 3], [4, 0, 5], [0, 0, 7]].getD i [] |>.getD j 0⟩ : Mat ℚ) (1/2) none).result
    (fun M => M.row 0 == [true, true, false] && M.row 1 == [true, true, false] &&
      M.row 2 == [false, false, true]) = true := by
  decide +kernel

/-- C31: the result does not depend on what the generator was used for before. -/
theorem C31_history_independent (rng : Rng S) (s₁ s₂ : S) (W : Mat K) (rate : K)
    (shrink : Option K) :
    (sampleNeighbourDense rng s₁ W rate shrink).result =
      (sampleNeighbourDense rng s₂ W rate shrink).result := by
  unfold sampleNeighbourDense
  rcases sampleMaskDense W shrink with ⟨_ | N, _⟩
  · rfl
  · simp only

/-- C31: a call with valid rates resets the generator: the state it leaves does not depend on
the state before, so whatever the caller had seeded is lost. -/
theorem C31_generator_reset (rng : Rng S) (s₁ s₂ : S) (W : Mat K) (rate : K)
    (shrink : Option K) (h : ∀ q ∈ shrink, 0 ≤ q ∧ q ≤ 1) :
    (sampleNeighbourDense rng s₁ W rate shrink).rng =
      (sampleNeighbourDense rng s₂ W rate shrink).rng := by
  obtain ⟨W', hW'⟩ := isUsed_exists W shrink h
  unfold sampleNeighbourDense
  rw [sampleMask_used hW']

example : ∀ q ∈ some (1 / 2 : ℚ), 0 ≤ q ∧ q ≤ 1 := by
  intro q hq; cases hq; constructor <;> norm_num

/-- C31: two calls in a row select the same neighbours, whatever happens in between. -/
theorem C31_repeat (rng : Rng S) (s : S) (between : S → S) (W : Mat K) (rate : K)
    (shrink : Option K) :
    (sampleNeighbourDense rng (between (sampleNeighbourDense rng s W rate shrink).rng) W rate
      shrink).result = (sampleNeighbourDense rng s W rate shrink).result :=
  C31_history_independent rng _ _ W rate shrink

/-- C31, sparse arrays. -/
theorem C31_history_independent_sparse (rng : Rng S) (s₁ s₂ : S) (A : Csr K) (rate : K)
    (shrink : Option K) :
    (sampleNeighbourSparse rng s₁ A rate shrink).result =
      (sampleNeighbourSparse rng s₂ A rate shrink).result := by
  unfold sampleNeighbourSparse
  rcases sampleMaskSparse A shrink with ⟨_ | N, _⟩
  · rfl
  · simp only

theorem gt0_candidates {A : Csr K} (h : A.Canonical) {W : Mat K} (hs : A.dense.Same W) {i : Nat}
    (hi : i < A.r) : candidatesSparse A.gt0 i = candidatesDense (gt0 W) i := by
  have hc : (A.gt0).Canonical := h.keep _ _
  have hr : A.gt0.r = A.r := Csr.keep_r _ _ _
  have h1 : (candidatesSparse A.gt0 i).Pairwise (· < ·) :=
    List.Pairwise.filter _ (hc.sorted i (by rw [hr]; exact hi))
  have h2 : (candidatesDense (gt0 W) i).Pairwise (· < ·) :=
    List.Pairwise.filter _ List.pairwise_lt_range
  apply List.Perm.eq_of_pairwise (le := (· < ·)) (fun _ _ _ _ h1 h2 => absurd h1 (Nat.lt_asymm h2))
    h1 h2
  rw [List.perm_ext_iff_of_nodup (nodup_of_lt h1) (nodup_of_lt h2)]
  intro j
  have hcW : A.c = W.c := hs.2.1
  unfold candidatesSparse candidatesDense
  simp only [List.mem_filter, Csr.gt0, h.mem_keep_rowIdx _ _ hi, decide_eq_true_eq, bne_iff_ne,
    ne_eq, List.mem_range, Bool.and_eq_true, gt0, Mat.map]
  constructor
  · rintro ⟨⟨h1, h2⟩, h3⟩
    have hj := h.rowIdx_lt h1
    have := hs.2.2 i hi j hj
    refine ⟨hcW ▸ hj, ?_, h3⟩
    rw [← this]; exact h2
  · rintro ⟨h1, h2, h3⟩
    have hj : j < A.c := hcW.symm ▸ h1
    have := hs.2.2 i hi j hj
    rw [← this] at h2
    refine ⟨⟨?_, h2⟩, h3⟩
    by_contra hm
    have h0 : A.dense.get i j = 0 := Csr.entry_of_not_mem hm
    rw [h0] at h2
    exact lt_irrefl _ h2

/-- The masks of both storage forms give the same candidates. -/
theorem sampleMask_sparse (A : Csr K) (h : A.Canonical) (hz : A.NoZeros) (shrink : Option K) :
    (∃ e, sampleMaskSparse A shrink = (.error e, A) ∧
      sampleMaskDense A.dense shrink = (.error e, A.dense)) ∨
    ∃ N M, sampleMaskSparse A shrink = (.ok N, A) ∧
      sampleMaskDense A.dense shrink = (.ok M, A.dense) ∧ N.r = A.r ∧ M.r = A.r ∧ M.c = A.c ∧
        ∀ i < A.r, candidatesSparse N i = candidatesDense M i := by
  cases shrink with
  | none =>
    right
    exact ⟨A.gt0, gt0 A.dense, rfl, rfl, Csr.keep_r _ _ _, rfl, rfl, fun i hi =>
      gt0_candidates h ⟨rfl, rfl, fun _ _ _ _ => rfl⟩ hi⟩
  | some q =>
    obtain ⟨hE, hO⟩ := C28_sparse_eq_dense A q h hz
    cases hA : shrinkSparse A q with
    | error e =>
      left
      refine ⟨e, ?_, ?_⟩
      · simp [sampleMaskSparse, neighbourShrinkSparse, hA, maskOfSparse]
      · simp [sampleMaskDense, neighbourShrinkDense, (hE e).1 hA, maskOfDense]
    | ok A' =>
      right
      obtain ⟨hc, hz', W', hW', hs⟩ := hO A' hA
      have hr : A'.r = A.r := by
        have := hs.1
        unfold shrinkDense at hW'
        split at hW'
        · cases hW'
        · injection hW' with hW'; rw [← hW'] at this; exact this
      have hcc : A'.c = A.c := by
        have := hs.2.1
        unfold shrinkDense at hW'
        split at hW'
        · cases hW'
        · injection hW' with hW'; rw [← hW'] at this; exact this
      refine ⟨A'.gt0, gt0 W', ?_, ?_, ?_, ?_, ?_, fun i hi => gt0_candidates hc hs (hr ▸ hi)⟩
      · simp [sampleMaskSparse, neighbourShrinkSparse, hA, maskOfSparse]
      · simp [sampleMaskDense, neighbourShrinkDense, hW', maskOfDense]
      · exact (Csr.keep_r _ _ _).trans hr
      · exact hs.1.symm.trans hr
      · exact hs.2.1.symm.trans hcc

theorem mem_sortNat {l : List Nat} {x : Nat} : x ∈ sortNat l ↔ x ∈ l :=
  (List.perm_insertionSort (· ≤ ·) l).mem_iff

theorem sampleLoop_length (rng : Rng S) (rate : K) (rows : List (List Nat)) (s s' : S)
    (chosen : List (List Nat)) (h : sampleLoop rng rate s rows = (.ok chosen, s')) :
    chosen.length = rows.length := by
  induction rows generalizing s chosen with
  | nil => simp only [sampleLoop, Prod.mk.injEq, Except.ok.injEq] at h; rw [← h.1]
  | cons l rows ih =>
    unfold sampleLoop at h
    rcases hr : rng.choice s l (sampleCount rate l.length) with ⟨_ | c, s1⟩
    · rw [hr] at h; simp at h
    · rw [hr] at h
      simp only at h
      rcases hr2 : sampleLoop rng rate s1 rows with ⟨_ | cs, s2⟩
      · rw [hr2] at h; simp at h
      · rw [hr2] at h
        simp only [Prod.mk.injEq, Except.ok.injEq] at h
        rw [← h.1, List.length_cons, ih _ _ (by rw [hr2, h.2]), List.length_cons]

/-- C32: for a canonical square CSR array without stored zeros, sampling from the sparse and the
dense form with the same generator and the same rates fails alike, or selects the same pairs;
the generator ends in the same state, and both callers' arrays are unchanged. -/
theorem C32_sparse_eq_dense (rng : Rng S) (s : S) (A : Csr K) (h : A.Canonical) (hz : A.NoZeros)
    (hN : 0 < A.r) (rate : K) (shrink : Option K) :
    (sampleNeighbourSparse rng s A rate shrink).rng =
        (sampleNeighbourDense rng s A.dense rate shrink).rng ∧
      (sampleNeighbourSparse rng s A rate shrink).caller = A ∧
      (sampleNeighbourDense rng s A.dense rate shrink).caller = A.dense ∧
      ((∃ e, (sampleNeighbourSparse rng s A rate shrink).result = .error e ∧
          (sampleNeighbourDense rng s A.dense rate shrink).result = .error e) ∨
        ∃ B M, (sampleNeighbourSparse rng s A rate shrink).result = .ok B ∧
          (sampleNeighbourDense rng s A.dense rate shrink).result = .ok M ∧ B.r = A.r ∧
          ∀ i < A.r, ∀ j, j ∈ B.rowIdx i ↔ M.get i j = true) := by
  unfold sampleNeighbourSparse sampleNeighbourDense
  rcases sampleMask_sparse A h hz shrink with ⟨e, h1, h2⟩ | ⟨N, M, h1, h2, hNr, hMr, hMc, hcand⟩
  · rw [h1, h2]
    exact ⟨rfl, rfl, rfl, .inl ⟨e, rfl, rfl⟩⟩
  · rw [h1, h2]
    simp only [hNr, hMr]
    rw [List.map_congr_left (g := candidatesDense M) fun i hi => hcand i (by simpa using hi)]
    rcases hl : sampleLoop rng rate rng.seed0 ((List.range A.r).map (candidatesDense M)) with
      ⟨e | chosen, s'⟩
    · exact ⟨rfl, rfl, rfl, .inl ⟨e, rfl, rfl⟩⟩
    · refine ⟨rfl, rfl, rfl, .inr ?_⟩
      simp only
      have hlen := sampleLoop_length rng rate _ _ _ _ hl
      rw [List.length_map, List.length_range] at hlen
      rcases csrInferred_cases (chosen.mapIdx fun i l => sortNat (l ++ [i])) with
        ⟨hnil, -⟩ | ⟨m, -, -, hok⟩
      · exfalso
        have h0 : (chosen.mapIdx fun i l => sortNat (l ++ [i]))[0]'(by simpa [hlen] using hN) = [] :=
          hnil _ (List.getElem_mem _)
        rw [List.getElem_mapIdx] at h0
        have : (0 : Nat) ∈ sortNat (chosen[0] ++ [0]) := mem_sortNat.2 (by simp)
        rw [h0] at this
        cases this
      · refine ⟨_, _, hok, rfl, ?_, fun i hi j => ?_⟩
        · show (chosen.mapIdx _).length = _
          rw [List.length_mapIdx, hlen]
        · rw [Csr.ofRows_rowIdx _ _ _ (by rw [List.length_mapIdx, hlen]; exact hi),
            List.getElem_mapIdx, mem_sortNat]
          simp only [List.mem_append, List.mem_singleton, Bool.or_eq_true, decide_eq_true_eq,
            beq_iff_eq]
          rw [List.getD_eq_getElem _ _ (by rw [hlen]; exact hi)]
          exact or_congr Iff.rfl eq_comm

/-- C32: with a valid generator and a square array the sparse selection is a canonical `N × N`
array: the shape is not lost, because every point selects itself. -/
theorem C32_sparse_canonical (rng : Rng S) (hv : rng.Valid) (s : S) (A : Csr K) (h : A.Canonical)
    (hz : A.NoZeros) (hN : 0 < A.r) (hsq : A.c = A.r) (rate : K) (hrate : 0 ≤ rate)
    (shrink : Option K) (hq : ∀ q ∈ shrink, 0 ≤ q ∧ q ≤ 1) :
    ∃ B, (sampleNeighbourSparse rng s A rate shrink).result = .ok B ∧ B.Canonical ∧
      B.r = A.r ∧ B.c = A.r := by
  unfold sampleNeighbourSparse
  rcases sampleMask_sparse A h hz shrink with ⟨e, h1, h2⟩ | ⟨N, M, h1, h2, hNr, hMr, hMc, hcand⟩
  · exfalso
    obtain ⟨W', hW'⟩ := isUsed_exists A.dense shrink hq
    rw [sampleMask_used hW'] at h2
    simp at h2
  · rw [h1]
    simp only [hNr]
    rw [List.map_congr_left (g := candidatesDense M) fun i hi => hcand i (by simpa using hi)]
    obtain ⟨chosen, s', hl, hall⟩ := sampleLoop_spec rng hv rate hrate
      ((List.range A.r).map (candidatesDense M)) rng.seed0
    rw [hl]
    simp only
    have hlen : chosen.length = A.r := by
      have := hall.length_eq; simpa using this
    have hsub : ∀ i (hi : i < chosen.length), chosen[i].Subperm (candidatesDense M i) := by
      intro i hi
      have h' := forall₂_getD hall (i := i) (by simpa [← hlen] using hi) []
      rw [List.getD_eq_getElem _ _ hi] at h'
      simpa using h'.1
    have hlt : ∀ i (hi : i < chosen.length), ∀ j ∈ chosen[i], j < A.r ∧ i ≠ j := by
      intro i hi j hj
      have := (hsub i hi).subset hj
      simp only [candidatesDense, List.mem_filter, List.mem_range, Bool.and_eq_true, bne_iff_ne,
        ne_eq] at this
      rw [hMc, hsq] at this
      exact ⟨this.1, this.2.2⟩
    have hrow : ∀ l ∈ chosen.mapIdx fun i l => sortNat (l ++ [i]),
        (∀ j ∈ l, j < A.r) ∧ l.Pairwise (· < ·) := by
      intro l hl
      obtain ⟨i, hi, rfl⟩ := List.getElem_of_mem hl
      rw [List.length_mapIdx] at hi
      rw [List.getElem_mapIdx]
      constructor
      · intro j hj
        rw [mem_sortNat, List.mem_append, List.mem_singleton] at hj
        rcases hj with hj | rfl
        · exact (hlt i hi j hj).1
        · exact hlen ▸ hi
      · have hnd : (chosen[i] ++ [i]).Nodup := by
          have h1 : chosen[i].Nodup := by
            have hnd : (candidatesDense M i).Nodup := List.Nodup.filter _ List.nodup_range
            obtain ⟨l, hp, hs⟩ := hsub i hi
            exact (hp.nodup_iff).1 (hs.nodup hnd)
          rw [List.nodup_append]
          refine ⟨h1, by simp, ?_⟩
          intro a ha b hb
          rw [List.mem_singleton] at hb
          subst hb
          exact fun e => (hlt _ hi a ha).2 e.symm
        have hs : (sortNat (chosen[i] ++ [i])).Pairwise (· ≤ ·) := List.pairwise_insertionSort _ _
        have hnd' : (sortNat (chosen[i] ++ [i])).Nodup :=
          (List.perm_insertionSort (· ≤ ·) _).nodup_iff.2 hnd
        exact hs.imp₂ (fun a b h1 h2 => lt_of_le_of_ne h1 h2) hnd'
    rcases csrInferred_cases (chosen.mapIdx fun i l => sortNat (l ++ [i])) with
      ⟨hnil, -⟩ | ⟨m, hm, hmax, hok⟩
    · exfalso
      have h0 : (chosen.mapIdx fun i l => sortNat (l ++ [i]))[0]'(by simpa [hlen] using hN) = [] :=
        hnil _ (List.getElem_mem _)
      rw [List.getElem_mapIdx] at h0
      have : (0 : Nat) ∈ sortNat (chosen[0] ++ [0]) := mem_sortNat.2 (by simp)
      rw [h0] at this
      cases this
    · have hm1 : m < A.r := by
        obtain ⟨l, hl, hml⟩ := List.mem_flatten.1 hm
        exact (hrow l hl).1 m hml
      have hm2 : A.r - 1 ≤ m := by
        have hi : A.r - 1 < (chosen.mapIdx fun i l => sortNat (l ++ [i])).length := by
          rw [List.length_mapIdx, hlen]; omega
        apply hmax _ (List.getElem_mem hi)
        rw [List.getElem_mapIdx, mem_sortNat]
        simp
      refine ⟨_, hok, ?_, ?_, ?_⟩
      · apply Csr.ofRows_canonical
        · rw [List.length_map]
        · intro l hl j hj
          exact Nat.lt_succ_of_le (hmax l hl j hj)
        · intro l hl
          exact (hrow l hl).2
      · show (chosen.mapIdx _).length = _
        rw [List.length_mapIdx, hlen]
      · show m + 1 = A.r
        omega

/-- The example of the previous section made square. -/
def exSquare : Csr ℚ := ⟨3, 3, [0, 2, 5, 6], [0, 2, 0, 1, 2, 1], [1, 3, 1, 2, 4, 2]⟩

example : exSquare.Canonical ∧ exSquare.NoZeros ∧ countRng.Valid ∧
    okAnd (sampleNeighbourSparse countRng 5 exSquare (1 / 2) (some (1 / 2))).result
      (fun B => B.indices == [0, 2, 1, 2, 1, 2]) = true :=
  ⟨⟨rfl, rfl, by decide, rfl, rfl, by decide, by decide⟩, by unfold Csr.NoZeros; decide +kernel,
    countRng_valid, by decide +kernel⟩

end Geo
