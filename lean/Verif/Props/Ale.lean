import Verif.Lemmas.Ale
/-
C57 (bisection), C58 (the adaptive grid), C59 (the bins).
-/
set_option linter.unusedSectionVars false
namespace Geo
variable {K : Type} [Field K] [LinearOrder K] [IsStrictOrderedRing K] [FloorRing K]

/-! ### C57 -/

/-- C57: the loop ends, and if the function does not raise on `[lo, hi)` neither does the search. -/
theorem C57_terminates (f : ℤ → Except Err K) (t : K) (lo hi : ℤ)
    (hf : ∀ x, lo ≤ x → x < hi → ∃ y, f x = .ok y) : ∃ v, bisectFun f t lo hi = .ok v := by
  cases h : bisectFun f t lo hi with
  | ok v => exact ⟨v, rfl⟩
  | error e =>
    obtain ⟨x, h1, h2, h3⟩ := bisectFun_error h
    obtain ⟨y, hy⟩ := hf x h1 h2
    rw [hy] at h3
    cases h3

/-- C57: the defining equation of the loop, which determines the result for all bounds. -/
theorem C57_loop (f : ℤ → K) (t : K) (lo hi : ℤ) :
    let b := bisectFun (fun x => .ok (f x)) t
    b lo hi = if lo < hi then
        if f ((lo + hi) / 2) < t then b ((lo + hi) / 2 + 1) hi else b lo ((lo + hi) / 2)
      else .ok lo := by
  intro b
  exact bisectFun_loop _ t lo hi

/-- C57: the result for every function, monotone or not. -/
theorem C57_result (f : ℤ → Except Err K) (t : K) (lo hi v : ℤ) (hl : lo ≤ hi)
    (h : bisectFun f t lo hi = .ok v) :
    lo ≤ v ∧ v ≤ hi ∧ (v = lo ∨ ∃ x, f (v - 1) = .ok x ∧ x < t) ∧
      (v = hi ∨ ∃ x, f v = .ok x ∧ t ≤ x) := bisectFun_spec hl h

/-- C57: for a non-decreasing function the result separates small from large values. -/
theorem C57_monotone (f : ℤ → K) (t : K) (lo hi : ℤ) (hl : lo ≤ hi)
    (hf : ∀ x y, lo ≤ x → x ≤ y → y < hi → f x ≤ f y) :
    ∃ v, bisectFun (fun x => .ok (f x)) t lo hi = .ok v ∧ lo ≤ v ∧ v ≤ hi ∧
      (∀ x, lo ≤ x → x < v → f x < t) ∧ ∀ x, v ≤ x → x < hi → t ≤ f x := by
  obtain ⟨v, hv⟩ := C57_terminates (fun x => .ok (f x)) t lo hi fun x _ _ => ⟨_, rfl⟩
  obtain ⟨h1, h2, h3, h4⟩ := C57_result _ t lo hi v hl hv
  refine ⟨v, hv, h1, h2, fun x hx hxv => ?_, fun x hx hxh => ?_⟩
  · rcases h3 with h3 | ⟨y, hy, hyt⟩
    · omega
    · injection hy with hy
      subst hy
      exact lt_of_le_of_lt (hf x (v - 1) hx (by omega) (by omega)) hyt
  · rcases h4 with h4 | ⟨y, hy, hyt⟩
    · omega
    · injection hy with hy
      subst hy
      exact hyt.trans (hf v x h1 hx hxh)

example : (bisectFun (fun x => .ok (x : ℚ)) (7 / 2) 0 10).toOption = some 4 := by decide +kernel

/-! ### C58 -/

/-- All values have index 1 if the grid has no point beyond the second that is below them. -/
theorem satisfied_one_bin {values : List K} (hv : values ≠ []) {q : List K} (m : ℤ)
    (h : ∀ v ∈ values, searchLeft q v ≤ 1) :
    ((bincount (aleIdx q values)).drop 1).all (fun c => decide (m < c)) = true ↔
      m < values.length := by
  have hi : aleIdx q values = List.replicate values.length 1 := by
    rw [List.eq_replicate_iff]
    refine ⟨by simp [aleIdx], fun b hb => ?_⟩
    obtain ⟨v, hv, rfl⟩ := List.mem_map.1 hb
    have := h v hv
    split <;> omega
  have hn : 0 < values.length := List.length_pos_iff.2 hv
  have hne : aleIdx q values ≠ [] := by rw [hi]; simpa using hn.ne'
  rw [bincount_all hne]
  have hmax : (aleIdx q values).foldr max 0 = 1 := by
    apply foldr_max_eq
    · rw [hi]; simp [List.mem_replicate]; exact hv
    · intro a ha
      rw [hi] at ha
      rw [(List.mem_replicate.1 ha).2]
  rw [hmax, hi]
  constructor
  · intro H
    have := H 1 le_rfl le_rfl
    simpa using this
  · intro H k h1 h2
    obtain rfl : k = 1 := by omega
    simpa using H

theorem minimumSatisfied_nat {values : List K} (hv : values ≠ []) (m : ℤ) (n : Nat) :
    minimumSatisfied values m n = .ok
      (if ((bincount (aleIdx (uniqueL ((List.range n).map (gridPoint values n))) values)).drop 1).all
        (fun c => decide (m < c)) then 1 else 0) := by
  unfold minimumSatisfied
  rw [getQuantiles_nat hv]

theorem searchLeft_le_one {values : List K} (hv : values ≠ []) {n : Nat} (hn : n ≤ 2) {v : K}
    (hm : v ∈ values) : searchLeft (uniqueL ((List.range n).map (gridPoint values n))) v ≤ 1 := by
  have hlen : (uniqueL ((List.range n).map (gridPoint values n))).length ≤ n := by
    refine (List.Sublist.length_le (List.dedup_sublist _)).trans ?_
    simp
  rcases Nat.lt_or_ge n 2 with h | h
  · have : searchLeft (uniqueL ((List.range n).map (gridPoint values n))) v ≤ _ :=
      List.countP_le_length
    omega
  · have h2 : n = 2 := by omega
    have := searchLeft_lt (q := uniqueL ((List.range n).map (gridPoint values n))) (v := v)
      ⟨gridPoint values n (n - 1), by
        rw [mem_uniqueL]
        exact List.mem_map.2 ⟨n - 1, List.mem_range.2 (by omega), rfl⟩,
        (gridPoint_last hv h).2 v hm⟩
    omega

theorem notSatisfied_small {values : List K} (hv : values ≠ []) (m : ℤ) {n : Nat} (hn : n ≤ 2) :
    minimumNotSatisfied values m n = .ok (if m < values.length then 0 else 1) := by
  unfold minimumNotSatisfied
  rw [minimumSatisfied_nat hv]
  have := satisfied_one_bin (q := uniqueL ((List.range n).map (gridPoint values n))) hv m
    fun v hm => searchLeft_le_one hv hn hm
  by_cases h : m < (values.length : ℤ)
  · rw [if_pos (this.2 h), if_pos h]; simp [Except.map]
  · rw [if_neg (fun hc => h (this.1 hc)), if_neg h]; simp [Except.map]

/-- With at most `m` values no grid is accepted. -/
theorem notSatisfied_few {values : List K} (hv : values ≠ []) {m : ℤ}
    (hm : (values.length : ℤ) ≤ m) (n : Nat) : minimumNotSatisfied values m n = .ok 1 := by
  unfold minimumNotSatisfied
  rw [minimumSatisfied_nat hv, if_neg]
  · simp [Except.map]
  · set q := uniqueL ((List.range n).map (gridPoint values n))
    have hne : aleIdx q values ≠ [] := by simpa [aleIdx] using hv
    rw [bincount_all hne]
    intro H
    have h1 := foldr_max_mem hne
    have h2 : 0 < (aleIdx q values).foldr max 0 := by
      obtain ⟨v, _, h⟩ := List.mem_map.1 h1
      rw [← h]
      exact binOf_pos q v
    have h3 := H _ h2 le_rfl
    have h4 : (aleIdx q values).count ((aleIdx q values).foldr max 0) ≤ values.length := by
      refine List.count_le_length.trans ?_
      simp [aleIdx]
    omega

/-- What `adaptive_grid` does in all cases. -/
theorem adaptiveGrid_cases (values : List K) (m : ℤ) :
    ((values.length : ℤ) ≤ m ∨ values = [] → adaptiveGrid values m = .error .valueError) ∧
    (m < values.length → values ≠ [] → ∃ n : Nat, n + 1 ≤ values.length ∧
      (3 ≤ values.length → 2 ≤ n) ∧
      minimumSatisfied values m n = .ok 1 ∧
      adaptiveGrid values m = .ok (uniqueL ((List.range n).map (gridPoint values n)), (n : ℤ))) := by
  by_cases hv : values = []
  · subst hv
    refine ⟨fun _ => ?_, fun _ h => absurd rfl h⟩
    unfold adaptiveGrid
    rw [bisectFun_loop]
    simp [getQuantiles_neg]
  have hn : 0 < values.length := List.length_pos_iff.2 hv
  obtain ⟨v, hb⟩ := C57_terminates (minimumNotSatisfied values m) (1 / 2) 0 values.length (by
    intro x hx _
    obtain ⟨n, rfl⟩ := Int.eq_ofNat_of_zero_le hx
    unfold minimumNotSatisfied
    rw [minimumSatisfied_nat hv]
    exact ⟨_, rfl⟩)
  obtain ⟨h1, h2, h3, h4⟩ := C57_result _ _ _ _ v (by omega) hb
  constructor
  · rintro (hm | hm)
    · have : v = 0 := by
        rcases h3 with h3 | ⟨x, hx, hxt⟩
        · exact h3
        · obtain ⟨n, hn⟩ := Int.eq_ofNat_of_zero_le (show 0 ≤ v - 1 by
            by_contra hc
            have : v = 0 := by omega
            subst this
            unfold minimumNotSatisfied minimumSatisfied at hx
            rw [getQuantiles_neg _ (by omega)] at hx
            cases hx)
          rw [hn, notSatisfied_few hv hm] at hx
          injection hx with hx
          rw [← hx] at hxt
          exact absurd hxt (by norm_num)
      unfold adaptiveGrid
      rw [hb, this]
      simp [getQuantiles_neg]
    · exact absurd hm hv
  · intro hm _
    have hv3 : ∀ n : Nat, n ≤ 2 → (n : ℤ) < values.length → v ≠ n := by
      rintro n hn2 hlt rfl
      rcases h4 with h4 | ⟨x, hx, hxt⟩
      · omega
      · rw [notSatisfied_small hv m hn2, if_pos hm] at hx
        injection hx with hx
        rw [← hx] at hxt
        exact absurd hxt (by norm_num)
    have h0 : v ≠ 0 := fun h => hv3 0 (by omega) (by omega) (by simpa using h)
    obtain ⟨n, hn'⟩ := Int.eq_ofNat_of_zero_le (show 0 ≤ v - 1 by omega)
    have hn'' : v - 1 = (n : ℤ) := hn'
    refine ⟨n, by omega, ?_, ?_, ?_⟩
    · intro h3'
      have := hv3 1 (by omega) (by omega)
      have := hv3 2 (by omega) (by omega)
      push_cast at *
      omega
    · rcases h3 with h3 | ⟨x, hx, hxt⟩
      · exact absurd h3 h0
      · rw [hn''] at hx
        unfold minimumNotSatisfied at hx
        rw [minimumSatisfied_nat hv] at hx ⊢
        split at hx
        · rw [if_pos (by assumption)]
        · simp only [Except.map] at hx
          injection hx with hx
          rw [← hx] at hxt
          exact absurd hxt (by norm_num)
    · unfold adaptiveGrid
      rw [hb]
      simp only
      rw [hn'', getQuantiles_nat hv]

/-- The head and the last member of a strictly increasing list. -/
theorem strict_head {l : List K} (hl : l.Pairwise (· < ·)) {a : K} (ha : a ∈ l)
    (h : ∀ x ∈ l, a ≤ x) : l.head? = some a := by
  cases l with
  | nil => simp at ha
  | cons b l =>
    rw [List.pairwise_cons] at hl
    rcases List.mem_cons.1 ha with rfl | ha
    · rfl
    · exact absurd (hl.1 a ha) (not_lt.2 (h b (by simp)))

theorem strict_last {l : List K} (hl : l.Pairwise (· < ·)) {a : K} (ha : a ∈ l)
    (h : ∀ x ∈ l, x ≤ a) : l.getLast? = some a := by
  have hne := List.ne_nil_of_mem ha
  obtain ⟨i, hi, rfl⟩ := List.getElem_of_mem ha
  rw [List.getLast?_eq_getElem?]
  have : i = l.length - 1 := by
    by_contra hc
    have h1 := List.pairwise_iff_getElem.1 hl i (l.length - 1) hi (by omega) (by omega)
    exact absurd (h _ (List.getElem_mem (by omega : l.length - 1 < l.length))) (not_le.2 h1)
  rw [← this]
  exact List.getElem?_eq_getElem hi

/-- The grid of `n ≥ 2` quantiles. -/
structure GridSpec (values q : List K) : Prop where
  strict : q.Pairwise (· < ·)
  first : ∃ a, q.head? = some a ∧ a ∈ values ∧ ∀ v ∈ values, a ≤ v
  last : ∃ b, q.getLast? = some b ∧ b ∈ values ∧ ∀ v ∈ values, v ≤ b

theorem gridSpec {values : List K} (hv : values ≠ []) {n : Nat} (h2 : 2 ≤ n) :
    GridSpec values (uniqueL ((List.range n).map (gridPoint values n))) := by
  refine ⟨uniqueL_pairwise _, ⟨gridPoint values n 0, strict_head (uniqueL_pairwise _) ?_ ?_,
    gridPoint_first hv n⟩, ⟨gridPoint values n (n - 1), strict_last (uniqueL_pairwise _) ?_ ?_,
    gridPoint_last hv h2⟩⟩
  · rw [mem_uniqueL]; exact List.mem_map.2 ⟨0, List.mem_range.2 (by omega), rfl⟩
  · intro x hx
    obtain ⟨j, _, rfl⟩ := List.mem_map.1 (mem_uniqueL.1 hx)
    exact gridPoint_ge hv n j
  · rw [mem_uniqueL]; exact List.mem_map.2 ⟨n - 1, List.mem_range.2 (by omega), rfl⟩
  · intro x hx
    obtain ⟨j, _, rfl⟩ := List.mem_map.1 (mem_uniqueL.1 hx)
    exact gridPoint_le hv h2 j

theorem GridSpec.length {values q : List K} (h : GridSpec values q)
    (hc : ∃ a ∈ values, ∃ b ∈ values, a ≠ b) : 2 ≤ q.length := by
  obtain ⟨a, h1, h2, h3⟩ := h.first
  obtain ⟨b, h4, h5, h6⟩ := h.last
  by_contra hlt
  cases q with
  | nil => simp at h1
  | cons x q =>
    obtain rfl : q = [] := List.length_eq_zero_iff.1 (by rw [List.length_cons] at hlt; omega)
    simp only [List.head?_cons, Option.some.injEq, List.getLast?_singleton] at h1 h4
    obtain ⟨u, hu, v, hv, huv⟩ := hc
    subst h1 h4
    exact huv ((le_antisymm (h6 u hu) (h3 u hu)).trans (le_antisymm (h6 v hv) (h3 v hv)).symm)

theorem GridSpec.cover {values q : List K} (h : GridSpec values q) {v : K} (hv : v ∈ values) :
    ∃ x ∈ q, v ≤ x := by
  obtain ⟨b, h4, h5, h6⟩ := h.last
  exact ⟨b, List.mem_of_getLast? h4, h6 v hv⟩

/-- The count of an index is the number of values in the bin. -/
theorem GridSpec.count {values q : List K} (h : GridSpec values q) (h2 : 2 ≤ q.length) (k : Nat) :
    (aleIdx q values).count (k + 1) = values.countP fun v => decide (InBin q k v) := by
  rw [aleIdx_eq, List.count, List.countP_map]
  apply List.countP_congr
  intro v hv
  simp only [Function.comp_apply, beq_iff_eq, decide_eq_true_eq]
  exact binOf_eq_iff h.strict h2 (h.cover hv) k

/-- The largest index is the last bin. -/
theorem GridSpec.max {values q : List K} (h : GridSpec values q) (h2 : 2 ≤ q.length) :
    (aleIdx q values).foldr max 0 = q.length - 1 := by
  obtain ⟨b, h4, h5, h6⟩ := h.last
  apply foldr_max_eq
  · rw [aleIdx_eq]
    refine List.mem_map.2 ⟨b, h5, ?_⟩
    have := (binOf_eq_iff h.strict h2 (h.cover h5) (q.length - 2)).2 (by
      rw [List.getLast?_eq_getElem?] at h4
      obtain ⟨hl, h4⟩ := List.getElem?_eq_some_iff.1 h4
      refine ⟨by omega, ?_, ?_⟩
      · rw [List.getD_eq_getElem _ _ (by omega), ← h4]
        exact Or.inr (List.pairwise_iff_getElem.1 h.strict _ _ _ _ (by omega))
      · rw [show q.length - 2 + 1 = q.length - 1 by omega, List.getD_eq_getElem _ _ hl, h4])
    rw [this]; omega
  · intro a ha
    rw [aleIdx_eq] at ha
    obtain ⟨v, hv, rfl⟩ := List.mem_map.1 ha
    have := searchLeft_lt (h.cover hv)
    unfold binOf
    split <;> omega

/-- C58: with at least three values, and more than `min_bin_points` of
them, the grid increases strictly from the smallest to the largest value, and every interval
(open on the left, except for the first) contains more than `min_bin_points` values. The grid
consists of the distinct ones among `n` equally spaced quantiles. -/
theorem C58_adaptive_grid (values : List K) (m : ℤ) (h3 : 3 ≤ values.length)
    (hm : m < values.length) :
    ∃ q n, adaptiveGrid values m = .ok (q, n) ∧ 2 ≤ n ∧ n < values.length ∧
      q.Pairwise (· < ·) ∧
      (∃ a, q.head? = some a ∧ a ∈ values ∧ ∀ v ∈ values, a ≤ v) ∧
      (∃ b, q.getLast? = some b ∧ b ∈ values ∧ ∀ v ∈ values, v ≤ b) ∧
      (∀ x, x ∈ q ↔ ∃ j : Nat, (j : ℤ) < n ∧
        npQuantile virtLinear values ((j : K) / ((n : K) - 1)) = .ok x) ∧
      ∀ k, k + 1 < q.length → m < values.countP fun v =>
        decide ((k = 0 ∨ q.getD k 0 < v) ∧ v ≤ q.getD (k + 1) 0) := by
  have hv : values ≠ [] := by rintro rfl; simp at h3
  obtain ⟨n, h1, h2, hs, hg⟩ := (adaptiveGrid_cases values m).2 hm hv
  have h2 := h2 h3
  have hgs := gridSpec hv h2
  set q := uniqueL ((List.range n).map (gridPoint values n)) with hq
  refine ⟨_, _, hg, by omega, by omega, hgs.strict, hgs.first, hgs.last, ?_, fun k hk => ?_⟩
  · intro x
    rw [hq, mem_uniqueL, List.mem_map]
    have hcast : ((n : ℤ) : K) - 1 = ((n - 1 : Nat) : K) := by
      push_cast [Nat.cast_sub (by omega : 1 ≤ n)]; simp
    have hqv : ∀ j : Nat, j < n → npQuantile virtLinear values ((j : K) / ((n - 1 : Nat) : K)) =
        .ok (gridPoint values n j) := by
      intro j hj
      apply npQuantile_isOk _ _ _ hv
      · positivity
      · apply div_le_one_of_le₀ _ (by positivity)
        exact_mod_cast (by omega : j ≤ n - 1)
    rw [hcast]
    constructor
    · rintro ⟨j, hj, rfl⟩
      exact ⟨j, by simpa using hj, hqv j (by simpa using hj)⟩
    · rintro ⟨j, hj, h⟩
      refine ⟨j, by simpa using hj, ?_⟩
      rw [hqv j (by exact_mod_cast hj)] at h
      injection h
  · have hl : 2 ≤ q.length := by omega
    rw [minimumSatisfied_nat hv] at hs
    have hall : ((bincount (aleIdx q values)).drop 1).all (fun c => decide (m < c)) = true := by
      by_contra hc
      rw [if_neg hc] at hs
      cases hs
    rw [bincount_all (by simpa [aleIdx] using hv)] at hall
    have := hall (k + 1) (by omega) (by rw [hgs.max hl]; omega)
    rw [hgs.count hl] at this
    simpa [InBin, hk] using this

/-- C58: with at most `min_bin_points` values, or none, the call raises. -/
theorem C58_too_few_values (values : List K) (m : ℤ)
    (h : (values.length : ℤ) ≤ m ∨ values = []) :
    adaptiveGrid values m = .error .valueError := (adaptiveGrid_cases values m).1 h

/-- C58: with two values the grid is the smaller one, with one value it is empty. -/
theorem C58_one_or_two_values (a b : K) (m : ℤ) :
    (m < 1 → adaptiveGrid [a] m = .ok ([], 0)) ∧
    (m < 2 → adaptiveGrid [a, b] m = .ok ([min a b], 1)) := by
  have key : ∀ values : List K, values ≠ [] → values.length ≤ 2 → m < values.length →
      bisectFun (minimumNotSatisfied values m) (1 / 2) 0 values.length = .ok values.length := by
    intro values hv hl hm
    obtain ⟨v, hb⟩ := C57_terminates (minimumNotSatisfied values m) (1 / 2) 0 values.length (by
      intro x hx _
      obtain ⟨n, rfl⟩ := Int.eq_ofNat_of_zero_le hx
      unfold minimumNotSatisfied
      rw [minimumSatisfied_nat hv]
      exact ⟨_, rfl⟩)
    obtain ⟨h1, h2, h3, h4⟩ := C57_result _ _ _ _ v (by omega) hb
    rw [hb]
    rcases h4 with h4 | ⟨x, hx, hxt⟩
    · rw [h4]
    · obtain ⟨n, rfl⟩ := Int.eq_ofNat_of_zero_le h1
      rw [notSatisfied_small hv m (by omega), if_pos hm] at hx
      injection hx with hx
      rw [← hx] at hxt
      exact absurd hxt (by norm_num)
  constructor
  · intro hm
    unfold adaptiveGrid
    rw [key [a] (by simp) (by simp) (by simpa using hm)]
    simp only [List.length_singleton, Nat.cast_one, sub_self]
    rw [show (0 : ℤ) = ((0 : Nat) : ℤ) from rfl, getQuantiles_nat (by simp)]
    simp [uniqueL, sortL]
  · intro hm
    unfold adaptiveGrid
    rw [key [a, b] (by simp) (by simp) (by simpa using hm)]
    simp only [List.length_cons, List.length_nil]
    rw [show (((0 + 1 + 1 : Nat) : ℤ) - 1) = ((1 : Nat) : ℤ) by norm_num, getQuantiles_nat (by simp)]
    obtain ⟨h1, h2⟩ := gridPoint_first (values := [a, b]) (by simp) 1
    have : gridPoint [a, b] 1 0 = min a b := by
      apply le_antisymm
      · exact le_min (h2 a (by simp)) (h2 b (by simp))
      · rcases List.mem_cons.1 h1 with h | h
        · rw [h]; exact min_le_left _ _
        · rw [List.mem_singleton.1 h]; exact min_le_right _ _
    simp [uniqueL, sortL, this, List.range_succ]

/-- The hypotheses of C58 hold for twelve values with `min_bin_points = 2`; the grid has four bins
of three values each. -/
example : okAnd (adaptiveGrid ([1, 2, 3, 4, 5, 6, 7, 8, 9, 10, 11, 12] : List ℚ) 2)
    (fun r => r == ([1, 15 / 4, 13 / 2, 37 / 4, 12], 5)) = true := by decide +kernel

/-- Repeated values: five quantiles would leave a bin with too few values. -/
example : okAnd (adaptiveGrid ([1, 1, 1, 1, 5, 6, 7, 8, 8, 8, 11, 12] : List ℚ) 2)
    (fun r => r == ([1, 13 / 2, 12], 3)) = true := by decide +kernel

end Geo
