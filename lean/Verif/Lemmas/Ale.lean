import Verif.Model.Ale
import Mathlib.Tactic.Push
import Mathlib.Data.List.Dedup
/-
Facts about the pieces of the ALE model.
-/
set_option linter.unusedSectionVars false
namespace Geo
variable {K : Type} [Field K] [LinearOrder K] [IsStrictOrderedRing K] [FloorRing K]

/-! ### bisection -/

theorem bisectAux_fuel (f : ℤ → Except Err K) (t : K) (a b : Nat) (lo hi : ℤ)
    (ha : (hi - lo).toNat ≤ a) (hb : (hi - lo).toNat ≤ b) :
    bisectAux f t a lo hi = bisectAux f t b lo hi := by
  induction a generalizing b lo hi with
  | zero =>
    have : ¬ lo < hi := by omega
    cases b with
    | zero => rfl
    | succ b => simp [bisectAux, this]
  | succ a ih =>
    by_cases h : lo < hi
    · cases b with
      | zero => omega
      | succ b =>
        simp only [bisectAux, h, if_true]
        cases f ((lo + hi) / 2) with
        | error e => rfl
        | ok v =>
          simp only
          rw [ih b _ _ (by omega) (by omega), ih b _ _ (by omega) (by omega)]
    · cases b with
      | zero => simp [bisectAux, h]
      | succ b => simp [bisectAux, h]

/-- The function is the loop of the code: no iteration is cut off. -/
theorem bisectFun_loop (f : ℤ → Except Err K) (t : K) (lo hi : ℤ) :
    bisectFun f t lo hi =
      if lo < hi then
        match f ((lo + hi) / 2) with
        | .error e => .error e
        | .ok v => if v < t then bisectFun f t ((lo + hi) / 2 + 1) hi
            else bisectFun f t lo ((lo + hi) / 2)
      else .ok lo := by
  unfold bisectFun
  by_cases h : lo < hi
  · rw [bisectAux_fuel f t (hi - lo).toNat ((hi - lo).toNat - 1 + 1) lo hi le_rfl (by omega)]
    simp only [bisectAux, h, if_true]
    cases f ((lo + hi) / 2) with
    | error e => rfl
    | ok v =>
      simp only
      rw [bisectAux_fuel f t _ (hi - ((lo + hi) / 2 + 1)).toNat _ hi (by omega) le_rfl,
        bisectAux_fuel f t _ ((lo + hi) / 2 - lo).toNat lo _ (by omega) le_rfl]
  · have : (hi - lo).toNat = 0 := by omega
    rw [this]
    simp [bisectAux, h]

/-- Induction along the loop. -/
theorem bisect_induction {P : ℤ → ℤ → Prop}
    (step : ∀ lo hi, (lo < hi → P ((lo + hi) / 2 + 1) hi ∧ P lo ((lo + hi) / 2)) → P lo hi)
    (lo hi : ℤ) : P lo hi := by
  generalize hn : (hi - lo).toNat = n
  induction n using Nat.strong_induction_on generalizing lo hi with
  | _ n ih =>
    apply step
    intro h
    exact ⟨ih _ (by omega) _ _ rfl, ih _ (by omega) _ _ rfl⟩

theorem bisectFun_spec {f : ℤ → Except Err K} {t : K} {lo hi v : ℤ} (hl : lo ≤ hi)
    (h : bisectFun f t lo hi = .ok v) :
    lo ≤ v ∧ v ≤ hi ∧ (v = lo ∨ ∃ x, f (v - 1) = .ok x ∧ x < t) ∧
      (v = hi ∨ ∃ x, f v = .ok x ∧ t ≤ x) := by
  induction lo, hi using bisect_induction with
  | step lo hi ih =>
  rw [bisectFun_loop] at h
  by_cases hlt : lo < hi
  · rw [if_pos hlt] at h
    obtain ⟨i1, i2⟩ := ih hlt
    cases hf : f ((lo + hi) / 2) with
    | error e => rw [hf] at h; cases h
    | ok x =>
      rw [hf] at h
      simp only at h
      by_cases hx : x < t
      · rw [if_pos hx] at h
        obtain ⟨a, b, c, d⟩ := i1 (by omega) h
        refine ⟨by omega, b, Or.inr ?_, d⟩
        rcases c with c | c
        · refine ⟨x, ?_, hx⟩
          rw [c, show (lo + hi) / 2 + 1 - 1 = (lo + hi) / 2 by omega]
          exact hf
        · exact c
      · rw [if_neg hx] at h
        obtain ⟨a, b, c, d⟩ := i2 (by omega) h
        refine ⟨a, by omega, c, Or.inr ?_⟩
        rcases d with d | d
        · exact ⟨x, by rw [d]; exact hf, not_lt.1 hx⟩
        · exact d
  · rw [if_neg hlt] at h
    injection h with h
    subst h
    exact ⟨le_rfl, hl, Or.inl rfl, Or.inl (by omega)⟩

theorem bisectFun_error {f : ℤ → Except Err K} {t : K} {lo hi : ℤ} {e : Err}
    (h : bisectFun f t lo hi = .error e) : ∃ x, lo ≤ x ∧ x < hi ∧ f x = .error e := by
  induction lo, hi using bisect_induction with
  | step lo hi ih =>
  rw [bisectFun_loop] at h
  by_cases hlt : lo < hi
  · rw [if_pos hlt] at h
    obtain ⟨i1, i2⟩ := ih hlt
    cases hf : f ((lo + hi) / 2) with
    | error e' =>
      rw [hf] at h
      injection h with h
      exact ⟨(lo + hi) / 2, by omega, by omega, by rw [hf, h]⟩
    | ok x =>
      rw [hf] at h
      simp only at h
      by_cases hx : x < t
      · rw [if_pos hx] at h
        obtain ⟨y, a, b, c⟩ := i1 h
        exact ⟨y, by omega, b, c⟩
      · rw [if_neg hx] at h
        obtain ⟨y, a, b, c⟩ := i2 h
        exact ⟨y, a, by omega, c⟩
  · rw [if_neg hlt] at h
    cases h

/-! ### unique, searchsorted, bincount -/

section Unique
variable {α : Type} [LinearOrder α]

@[simp] theorem mem_uniqueL {l : List α} {x : α} : x ∈ uniqueL l ↔ x ∈ l := by simp [uniqueL]

theorem uniqueL_pairwise (l : List α) : (uniqueL l).Pairwise (· < ·) := by
  have h1 : (uniqueL l).Pairwise (· ≤ ·) := (sortL_pairwise l).sublist (List.dedup_sublist _)
  have h2 : (uniqueL l).Pairwise (· ≠ ·) := List.nodup_dedup _
  exact (h1.and h2).imp fun h => lt_of_le_of_ne h.1 h.2

/-- Two strictly increasing lists with the same members are equal. -/
theorem strict_ext {l l' : List α} (h : l.Pairwise (· < ·)) (h' : l'.Pairwise (· < ·))
    (hm : ∀ x, x ∈ l ↔ x ∈ l') : l = l' := by
  have hp : l.Perm l' := (List.perm_ext_iff_of_nodup (h.imp ne_of_lt) (h'.imp ne_of_lt)).2 hm
  exact hp.eq_of_pairwise (le := (· < ·)) (fun a b _ _ h1 h2 => absurd h2 (not_lt_of_gt h1)) h h'

end Unique

theorem lt_searchLeft_iff {q : List K} (hq : q.Pairwise (· < ·)) {v : K} {i : Nat}
    (hi : i < q.length) : i < searchLeft q v ↔ q[i] < v := by
  induction q generalizing i with
  | nil => simp at hi
  | cons a l ih =>
    rw [List.pairwise_cons] at hq
    unfold searchLeft at ih ⊢
    rw [List.countP_cons]
    by_cases ha : a < v
    · cases i with
      | zero => simp [ha]
      | succ i =>
        simp only [ha, decide_true, if_true, List.getElem_cons_succ]
        rw [← ih hq.2 (by simpa using hi)]
        omega
    · have h0 : l.countP (fun x => decide (x < v)) = 0 := by
        rw [List.countP_eq_zero]
        intro x hx
        simp only [decide_eq_true_eq, not_lt]
        exact (not_lt.1 ha).trans (hq.1 x hx).le
      rw [h0]
      simp only [ha, decide_false]
      cases i with
      | zero => simp [ha]
      | succ i =>
        simp only [List.getElem_cons_succ]
        have := hq.1 _ (List.getElem_mem (by simpa using hi : i < l.length))
        constructor
        · intro h; simp at h
        · intro h; exact absurd (this.trans h) ha

theorem searchLeft_lt {q : List K} {v : K} (h : ∃ x ∈ q, v ≤ x) : searchLeft q v < q.length := by
  obtain ⟨x, hx, hv⟩ := h
  unfold searchLeft
  rcases lt_or_eq_of_le (List.countP_le_length (p := fun x => decide (x < v)) (l := q)) with h | h
  · exact h
  · rw [List.countP_eq_length] at h
    exact absurd (h x hx) (by simpa using hv)

/-- The interval between grid points `k` and `k + 1`: open on the left, except for the first. -/
def InBin (q : List K) (k : Nat) (v : K) : Prop :=
  k + 1 < q.length ∧ (k = 0 ∨ q.getD k 0 < v) ∧ v ≤ q.getD (k + 1) 0

instance (q : List K) (k : Nat) (v : K) : Decidable (InBin q k v) := by
  unfold InBin; infer_instance

/-- The code's index of a value. -/
def binOf (q : List K) (v : K) : Nat := if searchLeft q v = 0 then 1 else searchLeft q v

theorem aleIdx_eq (q vals : List K) : aleIdx q vals = vals.map (binOf q) := rfl

theorem binOf_pos (q : List K) (v : K) : 0 < binOf q v := by
  unfold binOf; split <;> omega

/-- On a grid with at least two points that covers `v`, the index is the bin. -/
theorem binOf_eq_iff {q : List K} (hq : q.Pairwise (· < ·)) (h2 : 2 ≤ q.length) {v : K}
    (hv : ∃ x ∈ q, v ≤ x) (k : Nat) : binOf q v = k + 1 ↔ InBin q k v := by
  have hs := searchLeft_lt hv
  unfold InBin binOf
  constructor
  · intro h
    have hk : k + 1 < q.length := by split at h <;> omega
    refine ⟨hk, ?_, ?_⟩
    · rw [List.getD_eq_getElem _ _ (by omega)]
      by_cases h0 : k = 0
      · exact Or.inl h0
      · right
        rw [← lt_searchLeft_iff hq]
        split at h <;> omega
    · rw [List.getD_eq_getElem _ _ hk]
      by_contra hc
      rw [not_le, ← lt_searchLeft_iff hq] at hc
      split at h <;> omega
  · rintro ⟨hk, h1, h3⟩
    rw [List.getD_eq_getElem _ _ hk] at h3
    rw [List.getD_eq_getElem _ _ (by omega)] at h1
    have h4 : ¬ k + 1 < searchLeft q v := by
      rw [lt_searchLeft_iff hq hk]; exact not_lt.2 h3
    rcases h1 with rfl | h1
    · split <;> omega
    · rw [← lt_searchLeft_iff hq] at h1
      split <;> omega

theorem bincount_getD (idx : List Nat) (k : Nat) :
    (bincount idx).getD k 0 = idx.count k := by
  unfold bincount
  by_cases h : idx = []
  · simp [h]
  · rw [if_neg h]
    by_cases hk : k < idx.foldr max 0 + 1
    · rw [List.getD_eq_getElem _ _ (by simpa using hk)]
      simp
    · rw [List.getD_eq_default _ _ (by simpa using hk)]
      symm
      rw [List.count_eq_zero]
      intro hm
      have : ∀ (l : List Nat) (a : Nat), a ∈ l → a ≤ l.foldr max 0 := by
        intro l a
        induction l with
        | nil => simp
        | cons b l ih =>
          intro ha
          rcases List.mem_cons.1 ha with rfl | ha
          · exact le_max_left _ _
          · exact (ih ha).trans (le_max_right _ _)
      have := this _ _ hm
      omega

theorem foldr_max_mem {l : List Nat} (h : l ≠ []) : l.foldr max 0 ∈ l := by
  induction l with
  | nil => exact absurd rfl h
  | cons b l ih =>
    simp only [List.foldr_cons]
    rcases max_choice b (l.foldr max 0) with hm | hm
    · rw [hm]; simp
    · rw [hm]
      by_cases hl : l = []
      · subst hl
        simp at hm ⊢
        omega
      · exact List.mem_cons_of_mem _ (ih hl)

theorem le_foldr_max {l : List Nat} {a : Nat} (h : a ∈ l) : a ≤ l.foldr max 0 := by
  induction l with
  | nil => simp at h
  | cons b l ih =>
    rcases List.mem_cons.1 h with rfl | ha
    · exact le_max_left _ _
    · exact (ih ha).trans (le_max_right _ _)

theorem bincount_length {idx : List Nat} (h : idx ≠ []) :
    (bincount idx).length = idx.foldr max 0 + 1 := by
  simp [bincount, h]

/-- The test of `minimum_satisfied` on the counts. -/
theorem bincount_all {idx : List Nat} (h : idx ≠ []) (m : ℤ) :
    ((bincount idx).drop 1).all (fun c => decide (m < c)) = true ↔
      ∀ k, 1 ≤ k → k ≤ idx.foldr max 0 → m < idx.count k := by
  simp only [List.all_eq_true, decide_eq_true_eq]
  constructor
  · intro H k h1 h2
    have hl := bincount_length h
    have hk : k < (bincount idx).length := by omega
    have := H ((bincount idx)[k]) (by
      rw [List.mem_iff_getElem]
      exact ⟨k - 1, by simp; omega, by simp [show k - 1 + 1 = k by omega]⟩)
    rw [← bincount_getD idx k, List.getD_eq_getElem _ _ hk]
    exact this
  · intro H c hc
    obtain ⟨i, hi, rfl⟩ := List.getElem_of_mem hc
    have hl := bincount_length h
    simp only [List.length_drop] at hi
    rw [List.getElem_drop]
    have := H (1 + i) (by omega) (by omega)
    rw [← bincount_getD idx (1 + i), List.getD_eq_getElem _ _ (by omega)] at this
    exact this

theorem foldr_max_eq {l : List Nat} {n : Nat} (h : n ∈ l) (hle : ∀ a ∈ l, a ≤ n) :
    l.foldr max 0 = n :=
  le_antisymm (hle _ (foldr_max_mem (List.ne_nil_of_mem h))) (le_foldr_max h)

/-- The counts of all indices up to the largest add up to the number of entries. -/
theorem sum_bincount (idx : List Nat) : (bincount idx).sum = idx.length := by
  by_cases h : idx = []
  · subst h; simp [bincount]
  · have : ∀ (n : Nat) (l : List Nat), (∀ a ∈ l, a < n) →
        ((List.range n).map fun k => l.count k).sum = l.length := by
      intro n l hl
      induction l with
      | nil => simp
      | cons a l ih =>
        simp only [List.count_cons, List.length_cons]
        rw [List.sum_map_add, ih fun b hb => hl b (by simp [hb])]
        congr 1
        have ha := hl a (by simp)
        have : ∀ n, a < n → ((List.range n).map fun k => if (a == k) = true then 1 else 0).sum = 1 := by
          intro n
          induction n with
          | zero => omega
          | succ n ih2 =>
            intro hn
            rw [List.range_succ, List.map_append, List.sum_append]
            by_cases hc : a < n
            · rw [ih2 hc]
              simp; omega
            · have : a = n := by omega
              subst this
              have : ((List.range a).map fun k => if (a == k) = true then 1 else 0).sum = 0 := by
                apply List.sum_eq_zero
                intro x hx
                obtain ⟨k, hk, rfl⟩ := List.mem_map.1 hx
                have := List.mem_range.1 hk
                simp; omega
              rw [this]; simp
        exact this n ha
    unfold bincount
    rw [if_neg h]
    exact this _ _ fun a ha => Nat.lt_succ_of_le (le_foldr_max ha)

/-! ### quantile grids -/

/-- The `j`-th of `n` quantiles at equal distances. -/
def gridPoint (values : List K) (n j : Nat) : K :=
  quantileVal virtLinear values ((j : K) / ((n - 1 : Nat) : K))

theorem getQuantiles_neg (values : List K) {n : ℤ} (h : n < 0) :
    getQuantiles values n = .error .valueError := by
  simp [getQuantiles, gridFractions, h]

theorem getQuantiles_nat {values : List K} (hv : values ≠ []) (n : Nat) :
    getQuantiles values n = .ok ((List.range n).map (gridPoint values n)) := by
  unfold getQuantiles gridFractions
  rw [if_neg (by omega)]
  simp only [Int.toNat_natCast]
  rw [mapE_of_forall (g := quantileVal virtLinear values), List.map_map]
  · rfl
  · intro a ha
    obtain ⟨k, hk, rfl⟩ := List.mem_map.1 ha
    have hk := List.mem_range.1 hk
    apply npQuantile_isOk _ _ _ hv
    · positivity
    · apply div_le_one_of_le₀ _ (by positivity)
      exact_mod_cast (by omega : k ≤ n - 1)

theorem gridPoint_first {values : List K} (hv : values ≠ []) (n : Nat) :
    gridPoint values n 0 ∈ values ∧ ∀ v ∈ values, gridPoint values n 0 ≤ v := by
  have hn : 0 < values.length := List.length_pos_iff.2 hv
  have hs : 0 < (sortL values).length := by simpa using hn
  have : gridPoint values n 0 = (sortL values)[0] := by
    unfold gridPoint quantileVal virtLinear
    rw [show ((values.length : K) - 1) * (((0 : Nat) : K) / ((n - 1 : Nat) : K)) = ((0 : Nat) : K) by
      simp, lerp_nat hn, List.getD_eq_getElem _ _ hs]
  rw [this]
  refine ⟨mem_sortL.1 (List.getElem_mem hs), fun v hv => ?_⟩
  obtain ⟨i, hi, rfl⟩ := List.getElem_of_mem (mem_sortL.2 hv)
  exact sorted_getElem_le (sortL_pairwise _) (Nat.zero_le _) hi

theorem gridPoint_last {values : List K} (hv : values ≠ []) {n : Nat} (h2 : 2 ≤ n) :
    gridPoint values n (n - 1) ∈ values ∧ ∀ v ∈ values, v ≤ gridPoint values n (n - 1) := by
  have hn : 0 < values.length := List.length_pos_iff.2 hv
  have hs : values.length - 1 < (sortL values).length := by simp; omega
  have : gridPoint values n (n - 1) = (sortL values)[values.length - 1] := by
    unfold gridPoint quantileVal virtLinear
    rw [show ((values.length : K) - 1) * (((n - 1 : Nat) : K) / ((n - 1 : Nat) : K)) =
        ((values.length - 1 : Nat) : K) by
      rw [div_self (by
        have : 0 < n - 1 := by omega
        exact_mod_cast this.ne'), mul_one]
      push_cast [Nat.cast_sub hn]
      simp, lerp_nat (by omega), List.getD_eq_getElem _ _ hs]
  rw [this]
  refine ⟨mem_sortL.1 (List.getElem_mem hs), fun v hv => ?_⟩
  obtain ⟨i, hi, rfl⟩ := List.getElem_of_mem (mem_sortL.2 hv)
  exact sorted_getElem_le (sortL_pairwise _) (by simp at hi; omega) hs

theorem gridPoint_ge {values : List K} (hv : values ≠ []) (n j : Nat) :
    gridPoint values n 0 ≤ gridPoint values n j := by
  obtain ⟨a, ha, b, hb, h1, h2, h3, h4⟩ := quantileVal_between virtLinear
    ((j : K) / ((n - 1 : Nat) : K)) (List.length_pos_iff.2 hv)
  exact ((gridPoint_first hv n).2 a ha).trans h1

theorem gridPoint_le {values : List K} (hv : values ≠ []) {n : Nat} (h2 : 2 ≤ n) (j : Nat) :
    gridPoint values n j ≤ gridPoint values n (n - 1) := by
  obtain ⟨a, ha, b, hb, h1, h2', h3, h4⟩ := quantileVal_between virtLinear
    ((j : K) / ((n - 1 : Nat) : K)) (List.length_pos_iff.2 hv)
  exact h2'.trans ((gridPoint_last hv h2).2 b hb)

end Geo
