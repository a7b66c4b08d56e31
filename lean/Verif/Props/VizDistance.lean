import Verif.Model.Viz
import Verif.Lemmas.Ale
import Verif.Lemmas.Moran
import Verif.Props.WeightMatrixArgs
import Mathlib.Order.Bounds.Basic
/-
The distance between partial dependence lines: C68.
-/
set_option linter.unusedSectionVars false
namespace Geo
variable {K : Type} [Field K] [LinearOrder K] [IsStrictOrderedRing K] [FloorRing K]
open Finset

/-! ### Two lines -/

/-- The start of the common range. -/
def lineStart (a b : Line K) : K := max (a.1.headD 0) (b.1.headD 0)
/-- The end of the common range. -/
def lineEnd (a b : Line K) : K := min (a.1.getLastD 0) (b.1.getLastD 0)

/-- A line: x values in increasing order, as many y values. -/
structure Line.Ok (a : Line K) : Prop where
  ne : a.1 ≠ []
  sorted : a.1.Pairwise (· < ·)
  len : a.1.length = a.2.length

theorem overlapRange_ok {a b : Line K} (ha : a.1 ≠ []) (hb : b.1 ≠ []) :
    overlapRange a.1 b.1 = .ok (lineStart a b, lineEnd a b) := by
  obtain ⟨xa, ya⟩ := a
  obtain ⟨xb, yb⟩ := b
  simp only at ha hb
  obtain ⟨x, xs, rfl⟩ := List.exists_cons_of_ne_nil ha
  obtain ⟨z, zs, rfl⟩ := List.exists_cons_of_ne_nil hb
  simp only [overlapRange, List.head?_cons, List.getLast?_cons, lineStart, lineEnd, List.headD_cons,
    List.getLastD_eq_getLast?, Option.getD_some]

/-- The points on which two lines are compared. -/
def commonX (a b : Line K) : List K := mergeX a.1 b.1 (lineStart a b) (lineEnd a b)

theorem mem_commonX {a b : Line K} {x : K} :
    x ∈ commonX a b ↔ (x ∈ a.1 ∨ x ∈ b.1) ∧ lineStart a b ≤ x ∧ x ≤ lineEnd a b := by
  simp [commonX, mergeX]

theorem commonX_pairwise (a b : Line K) : (commonX a b).Pairwise (· < ·) :=
  (uniqueL_pairwise _).filter _

theorem commonX_two {a b : Line K} (ha : a.1 ≠ []) (hb : b.1 ≠ [])
    (h : lineStart a b < lineEnd a b) : 2 ≤ (commonX a b).length := by
  have h1 : lineStart a b ∈ commonX a b := by
    rw [mem_commonX]
    refine ⟨?_, le_rfl, h.le⟩
    obtain ⟨xa, ya⟩ := a
    obtain ⟨xb, yb⟩ := b
    simp only at ha hb
    obtain ⟨x, xs, rfl⟩ := List.exists_cons_of_ne_nil ha
    obtain ⟨z, zs, rfl⟩ := List.exists_cons_of_ne_nil hb
    simp only [lineStart, List.headD_cons]
    rcases max_choice x z with h | h <;> rw [h] <;> simp
  have h2 : lineEnd a b ∈ commonX a b := by
    rw [mem_commonX]
    refine ⟨?_, h.le, le_rfl⟩
    have e1 : a.1.getLastD 0 ∈ a.1 := by
      rw [List.getLastD_eq_getLast?, List.getLast?_eq_some_getLast ha]
      simp
    have e2 : b.1.getLastD 0 ∈ b.1 := by
      rw [List.getLastD_eq_getLast?, List.getLast?_eq_some_getLast hb]
      simp
    unfold lineEnd
    rcases min_choice (a.1.getLastD 0) (b.1.getLastD 0) with h | h <;> rw [h]
    · exact .inl e1
    · exact .inr e2
  match hl : commonX a b with
  | [] => rw [hl] at h1; cases h1
  | [x] =>
    rw [hl, List.mem_singleton] at h1 h2
    rw [h1, h2] at h
    exact absurd h (lt_irrefl _)
  | x :: y :: l => simp

theorem getD_lt {xs : List K} (h : xs.Pairwise (· < ·)) {i j : Nat} (hij : i < j)
    (hj : j < xs.length) : xs.getD i 0 < xs.getD j 0 := by
  have hi : i < xs.length := by omega
  simp only [List.getD_eq_getElem?_getD, List.getElem?_eq_getElem hi, List.getElem?_eq_getElem hj,
    Option.getD_some]
  exact List.pairwise_iff_getElem.1 h i j hi hj hij

theorem intervalWeight_pos {xs : List K} (h : xs.Pairwise (· < ·)) (h2 : 2 ≤ xs.length) {k : Nat}
    (hk : k < xs.length) : 0 < intervalWeight xs k := by
  unfold intervalWeight
  split
  · exact mul_pos (sub_pos.2 (getD_lt h (by omega) hk)) two_pos
  · split
    · exact mul_pos (sub_pos.2 (getD_lt h (by omega) (by omega))) two_pos
    · exact sub_pos.2 (getD_lt h (by omega) (by omega))

/-- The total weight of the points. -/
def totalWeight (xs : List K) : K := ∑ k ∈ range xs.length, intervalWeight xs k

theorem totalWeight_pos {xs : List K} (h : xs.Pairwise (· < ·)) (h2 : 2 ≤ xs.length) :
    0 < totalWeight xs :=
  Finset.sum_pos (fun k hk => intervalWeight_pos h h2 (by simpa using hk)) ⟨0, by simp; omega⟩

/-- The difference of two lines at point `k` of `xs`. -/
def lineDiff (a b : Line K) (xs : List K) (k : Nat) : K :=
  interp1 a.1 a.2 (xs.getD k 0) - interp1 b.1 b.2 (xs.getD k 0)

/-- The mean difference over the points. -/
def meanDiff (a b : Line K) (xs : List K) : K :=
  (∑ k ∈ range xs.length, lineDiff a b xs k) / (xs.length : K)

theorem zipWith_sub_map (xs : List K) (f g : K → K) :
    List.zipWith (· - ·) (xs.map f) (xs.map g) =
      (List.range xs.length).map fun k => f (xs.getD k 0) - g (xs.getD k 0) := by
  apply List.ext_getElem (by simp)
  intro i h1 h2
  have h3 : i < xs.length := by simpa using h2
  simp [List.getElem?_eq_getElem h3]

theorem overlapDistance_ok {a b : Line K} (ha : a.1.length = a.2.length)
    (hb : b.1.length = b.2.length) {xs : List K} (h : xs.Pairwise (· < ·)) (h2 : 2 ≤ xs.length) :
    overlapDistance a b xs = .ok ((∑ k ∈ range xs.length,
      (lineDiff a b xs k - meanDiff a b xs) ^ 2 * intervalWeight xs k) / totalWeight xs) := by
  have ht := totalWeight_pos h h2
  have hs : ((List.range xs.length).map (intervalWeight xs)).sum = totalWeight xs :=
    sum_map_range _ _
  have hn : (normalWeights xs).sum = 1 := by
    unfold normalWeights
    rw [hs, List.map_map, sum_map_range]
    simp only [Function.comp]
    rw [← Finset.sum_div]
    exact div_self ht.ne'
  unfold overlapDistance interpE
  rw [if_neg (by simpa using ha), if_neg (by simpa using hb)]
  simp only
  unfold npAverage
  rw [if_neg (by rw [hn]; exact one_ne_zero), hn, div_one]
  congr 1
  unfold pointwise normalWeights
  rw [zipWith_sub_map, hs, List.map_map, List.map_map, sum_map_range]
  have hz : ∀ (n : Nat) (f g : Nat → K),
      (List.zipWith (· * ·) ((List.range n).map f) ((List.range n).map g)).sum =
        ∑ i ∈ range n, f i * g i := by
    intro n f g
    rw [← sum_map_range]
    congr 1
    apply List.ext_getElem (by simp)
    intro i h1 h2
    simp
  rw [hz, Finset.sum_div]
  refine Finset.sum_congr rfl fun k _ => ?_
  simp only [Function.comp, meanDiff, lineDiff]
  rw [mul_div_assoc]
  congr 2
  ring

theorem lineDistance_ok {a b : Line K} (ha : a.Ok) (hb : b.Ok) :
    lineDistance a b = .ok (if lineEnd a b ≤ lineStart a b then none
      else some ((∑ k ∈ range (commonX a b).length,
        (lineDiff a b (commonX a b) k - meanDiff a b (commonX a b)) ^ 2 *
          intervalWeight (commonX a b) k) / totalWeight (commonX a b))) := by
  unfold lineDistance
  rw [overlapRange_ok ha.ne hb.ne]
  simp only
  split
  · rfl
  · rename_i h
    have h2 := commonX_two ha.ne hb.ne (not_le.1 h)
    have := overlapDistance_ok ha.len hb.len (commonX_pairwise a b) h2
    unfold commonX at this
    rw [this]
    rfl

theorem lineStart_comm (a b : Line K) : lineStart a b = lineStart b a := max_comm _ _
theorem lineEnd_comm (a b : Line K) : lineEnd a b = lineEnd b a := min_comm _ _

theorem commonX_comm (a b : Line K) : commonX a b = commonX b a := by
  unfold commonX mergeX uniqueL
  rw [lineStart_comm, lineEnd_comm, sortL_eq_of_perm List.perm_append_comm]

/-- The distance of two lines does not depend on their order. -/
theorem lineDistance_comm {a b : Line K} (ha : a.Ok) (hb : b.Ok) :
    lineDistance a b = lineDistance b a := by
  rw [lineDistance_ok ha hb, lineDistance_ok hb ha, lineStart_comm a b, lineEnd_comm a b,
    commonX_comm a b]
  congr 3
  have h1 : ∀ xs k, lineDiff a b xs k = -lineDiff b a xs k := fun xs k => by
    unfold lineDiff; ring
  have h2 : ∀ xs, meanDiff a b xs = -meanDiff b a xs := fun xs => by
    unfold meanDiff
    simp only [h1, Finset.sum_neg_distrib, neg_div]
  congr 1
  refine Finset.sum_congr rfl fun k _ => ?_
  rw [h1, h2]
  ring

/-! ### The matrix -/

theorem maxOf_isGreatest {l : List K} (h : l ≠ []) : IsGreatest {x | x ∈ l} (maxOf l) := by
  have key : ∀ (l : List K) (d : K), (l.foldr max d = d ∨ l.foldr max d ∈ l) ∧
      ∀ x ∈ l, x ≤ l.foldr max d := by
    intro l d
    induction l with
    | nil => simp
    | cons a l ih =>
      simp only [List.foldr_cons, List.mem_cons]
      refine ⟨?_, ?_⟩
      · rcases max_choice a (l.foldr max d) with h | h <;> rw [h]
        · exact .inr (.inl rfl)
        · rcases ih.1 with h | h
          · exact .inl h
          · exact .inr (.inr h)
      · rintro x (rfl | hx)
        · exact le_max_left _ _
        · exact (ih.2 x hx).trans (le_max_right _ _)
  obtain ⟨a, l, rfl⟩ := List.exists_cons_of_ne_nil h
  obtain ⟨h1, h2⟩ := key (a :: l) a
  refine ⟨?_, fun x hx => h2 x hx⟩
  rcases h1 with h1 | h1
  · show maxOf (a :: l) ∈ a :: l
    unfold maxOf
    simp only [List.headD_cons]
    rw [h1]
    simp
  · exact h1

theorem mapE_exists {α β : Type} {f : α → Except Err β} {l : List α}
    (h : ∀ a ∈ l, ∃ b, f a = .ok b) : ∃ r, mapE f l = .ok r := by
  induction l with
  | nil => exact ⟨[], rfl⟩
  | cons a l ih =>
    obtain ⟨b, hb⟩ := h a (by simp)
    obtain ⟨r, hr⟩ := ih fun x hx => h x (by simp [hx])
    exact ⟨b :: r, by simp [mapE, hb, hr]⟩

/-- `e i j` is the distance of lines `i` and `j`, for `i ≤ j`. -/
def PairDistances (lines : List (Line K)) (e : Nat → Nat → Option K) : Prop :=
  ∀ i j, i ≤ j → j < lines.length →
    lineDistance (lines.getD i ([], [])) (lines.getD j ([], [])) = .ok (e i j)

/-- The finite numbers among the entries of the triangle and the zeros below it. -/
def FiniteValues (n : Nat) (e : Nat → Nat → Option K) : Set K :=
  {v | (2 ≤ n ∧ v = 0) ∨ ∃ i j, i ≤ j ∧ j < n ∧ e i j = some v}

/-- The entry the function returns for a pair, given the largest finite number. -/
def filledEntry (e : Nat → Nat → Option K) (big : K) (i j : Nat) : K :=
  if i < j then (e i j).getD (big * 2)
  else if j < i then (e j i).getD (big * 2)
  else (e i i).getD (big * 2) + (e i i).getD (big * 2)

theorem distanceRows_get {lines : List (Line K)} {rows : List (List (Option K))}
    (h : mapE (distanceRow lines) (List.range lines.length) = .ok rows) :
    rows.length = lines.length ∧ ∀ i j, i ≤ j → j < lines.length →
      lineDistance (lines.getD i ([], [])) (lines.getD j ([], [])) =
        .ok (upperEntry rows i j) := by
  have hl := mapE_length h
  rw [List.length_range] at hl
  refine ⟨hl, fun i j hij hj => ?_⟩
  have h1 := mapE_get h (i := i) (by simp; omega)
  simp only [List.getElem_range] at h1
  have hi' : i < rows.length := by omega
  have h2 := mapE_get h1 (i := j - i) (by simp; omega)
  have hl2 := mapE_length h1
  rw [List.length_drop] at hl2
  have e1 : lines.getD j ([], []) = (lines.drop i)[j - i]'(by simp; omega) := by
    simp only [List.getElem_drop]
    have : i + (j - i) = j := by omega
    simp [List.getElem?_eq_getElem hj, this]
  rw [e1, h2]
  congr 1
  unfold upperEntry
  rw [if_neg (by omega)]
  have hj2 : j - i < rows[i].length := by omega
  simp [List.getElem?_eq_getElem hi', List.getElem?_eq_getElem hj2]

theorem mem_finiteEntries {rows : List (List (Option K))} {v : K} :
    v ∈ finiteEntries rows ↔ v ∈ FiniteValues rows.length fun i j => upperEntry rows i j := by
  unfold finiteEntries FiniteValues
  simp only [List.mem_flatMap, List.mem_range, List.mem_filterMap, Set.mem_ofPred_eq]
  constructor
  · rintro ⟨i, hi, j, hj, h⟩
    by_cases hij : i ≤ j
    · exact .inr ⟨i, j, hij, hj, h⟩
    · left
      refine ⟨by omega, ?_⟩
      unfold upperEntry at h
      rw [if_pos (by omega)] at h
      exact (Option.some.inj h).symm
  · rintro (⟨h2, rfl⟩ | ⟨i, j, hij, hj, h⟩)
    · exact ⟨1, by omega, 0, by omega, by simp [upperEntry]⟩
    · exact ⟨i, by omega, j, hj, h⟩

theorem FiniteValues_congr {n : Nat} {e e' : Nat → Nat → Option K}
    (h : ∀ i j, i ≤ j → j < n → e i j = e' i j) : FiniteValues n e = FiniteValues n e' := by
  ext v
  unfold FiniteValues
  simp only [Set.mem_ofPred_eq]
  constructor
  · rintro (h' | ⟨i, j, h1, h2, h3⟩)
    · exact .inl h'
    · exact .inr ⟨i, j, h1, h2, by rw [← h i j h1 h2]; exact h3⟩
  · rintro (h' | ⟨i, j, h1, h2, h3⟩)
    · exact .inl h'
    · exact .inr ⟨i, j, h1, h2, by rw [h i j h1 h2]; exact h3⟩

/-- The function in terms of the distances of the pairs. -/
theorem partialDistance_spec {lines : List (Line K)} {e : Nat → Nat → Option K}
    (he : PairDistances lines e) :
    (FiniteValues lines.length e = ∅ → partialDistance lines = .error .valueError) ∧
    ((FiniteValues lines.length e).Nonempty → ∃ M big, partialDistance lines = .ok M ∧
      IsGreatest (FiniteValues lines.length e) big ∧ M.r = lines.length ∧ M.c = lines.length ∧
      ∀ i < lines.length, ∀ j < lines.length, M.get i j = filledEntry e big i j) := by
  have hrows : ∃ rows, mapE (distanceRow lines) (List.range lines.length) = .ok rows := by
    refine mapE_exists fun i hi => ?_
    have hi : i < lines.length := by simpa using hi
    refine mapE_exists fun b hb => ?_
    obtain ⟨k, hk, rfl⟩ := List.getElem_of_mem hb
    have hk' : i + k < lines.length := by simp at hk; omega
    refine ⟨e i (i + k), ?_⟩
    rw [← he i (i + k) (by omega) hk']
    simp [List.getElem?_eq_getElem hk']
  obtain ⟨rows, hrows⟩ := hrows
  obtain ⟨hl, hg⟩ := distanceRows_get hrows
  have hee : ∀ i j, i ≤ j → j < lines.length → upperEntry rows i j = e i j := by
    intro i j h1 h2
    have := hg i j h1 h2
    rw [he i j h1 h2] at this
    exact (Except.ok.inj this).symm
  have hset : FiniteValues lines.length e = {x | x ∈ finiteEntries rows} := by
    ext v
    rw [Set.mem_ofPred_eq, mem_finiteEntries, hl, FiniteValues_congr hee]
  unfold partialDistance
  rw [hrows, hset]
  simp only
  constructor
  · intro h
    rw [if_pos]
    by_contra hne
    obtain ⟨v, hv⟩ := List.exists_mem_of_ne_nil _ hne
    exact (Set.eq_empty_iff_forall_notMem.1 h v) hv
  · rintro ⟨v, hv⟩
    have hne : finiteEntries rows ≠ [] := List.ne_nil_of_mem hv
    rw [if_neg hne]
    refine ⟨_, maxOf (finiteEntries rows), rfl, maxOf_isGreatest hne, rfl, rfl, ?_⟩
    intro i hi j hj
    simp only
    unfold filledEntry
    have low : ∀ i j, j < i → upperEntry rows i j = some 0 := fun i j h => by
      unfold upperEntry; rw [if_pos h]
    rcases lt_trichotomy i j with h | rfl | h
    · rw [if_pos h, low j i h, hee i j h.le hj]; simp
    · rw [if_neg (lt_irrefl _), if_neg (lt_irrefl _), hee i i le_rfl hi]
    · rw [if_neg (by omega), if_pos h, low i j h, hee j i h.le hi]; simp

/-- All lines have increasing x values and as many y values. -/
def LinesOk (lines : List (Line K)) : Prop := ∀ a ∈ lines, a.Ok

theorem LinesOk.get {lines : List (Line K)} (h : LinesOk lines) {i : Nat} (hi : i < lines.length) :
    (lines.getD i ([], [])).Ok := by
  apply h
  simp [List.getElem?_eq_getElem hi]

/-- The distance of two lines, `none` if their ranges do not overlap. -/
def specDistance (a b : Line K) : Option K :=
  if lineEnd a b ≤ lineStart a b then none
  else some ((∑ k ∈ range (commonX a b).length,
    (lineDiff a b (commonX a b) k - meanDiff a b (commonX a b)) ^ 2 *
      intervalWeight (commonX a b) k) / totalWeight (commonX a b))

theorem specDistance_comm {a b : Line K} (ha : a.Ok) (hb : b.Ok) :
    specDistance a b = specDistance b a := by
  have := lineDistance_comm ha hb
  rw [lineDistance_ok ha hb, lineDistance_ok hb ha] at this
  exact Except.ok.inj this

theorem specDistance_nonneg {a b : Line K} (ha : a.Ok) (hb : b.Ok) {v : K}
    (h : specDistance a b = some v) : 0 ≤ v := by
  unfold specDistance at h
  split at h
  · cases h
  rename_i hlt
  have h2 := commonX_two ha.ne hb.ne (not_le.1 hlt)
  injection h with h
  rw [← h]
  refine div_nonneg (Finset.sum_nonneg fun k hk => ?_) (totalWeight_pos (commonX_pairwise a b) h2).le
  exact mul_nonneg (sq_nonneg _)
    (intervalWeight_pos (commonX_pairwise a b) h2 (by simpa using hk)).le

theorem specDistance_zero_iff {a b : Line K} (ha : a.Ok) (hb : b.Ok) :
    specDistance a b = some 0 ↔ lineStart a b < lineEnd a b ∧
      ∃ c, ∀ x ∈ commonX a b, interp1 a.1 a.2 x = interp1 b.1 b.2 x + c := by
  unfold specDistance
  split
  · rename_i h
    simp [not_lt.2 h]
  rename_i hlt
  rw [not_le] at hlt
  have h2 := commonX_two ha.ne hb.ne hlt
  have hp := commonX_pairwise a b
  have ht := totalWeight_pos hp h2
  have hx : ∀ {xs : List K} {k : Nat}, k < xs.length → xs.getD k 0 ∈ xs := by
    intro xs k hk
    simp [List.getElem?_eq_getElem hk]
  simp only [Option.some.injEq, hlt, true_and]
  rw [div_eq_zero_iff, or_iff_left ht.ne', Finset.sum_eq_zero_iff_of_nonneg fun k hk =>
    mul_nonneg (sq_nonneg _) (intervalWeight_pos hp h2 (by simpa using hk)).le]
  constructor
  · intro h
    refine ⟨meanDiff a b (commonX a b), fun x hx => ?_⟩
    obtain ⟨k, hk, rfl⟩ := List.getElem_of_mem hx
    have := h k (by simpa using hk)
    rw [mul_eq_zero, or_iff_left (intervalWeight_pos hp h2 hk).ne'] at this
    have h0 := pow_eq_zero_iff (two_ne_zero) |>.1 this
    unfold lineDiff at h0
    simp only [List.getD_eq_getElem?_getD, List.getElem?_eq_getElem hk, Option.getD_some] at h0
    rw [← sub_eq_zero, ← h0]
    ring
  · rintro ⟨c, hc⟩ k hk
    have hd : ∀ k < (commonX a b).length, lineDiff a b (commonX a b) k = c := by
      intro k hk
      unfold lineDiff
      rw [hc _ (hx hk)]
      ring
    have hm : meanDiff a b (commonX a b) = c := by
      unfold meanDiff
      rw [Finset.sum_congr rfl fun k hk => hd k (by simpa using hk), Finset.sum_const,
        card_range, nsmul_eq_mul, mul_comm, mul_div_assoc, div_self, mul_one]
      have : 0 < (commonX a b).length := by omega
      exact_mod_cast this.ne'
    rw [hm, hd k (by simpa using hk), sub_self]
    ring

/-- The distances of the pairs of lines. -/
theorem pairDistances_spec {lines : List (Line K)} (h : LinesOk lines) :
    PairDistances lines fun i j =>
      specDistance (lines.getD i ([], [])) (lines.getD j ([], [])) := by
  intro i j hij hj
  rw [lineDistance_ok (h.get (by omega)) (h.get hj)]
  rfl

/-- The finite distances among all pairs of lines, a line with itself included, and zero if there
are at least two lines. -/
def finiteDistances (lines : List (Line K)) : Set K :=
  FiniteValues lines.length fun i j =>
    specDistance (lines.getD i ([], [])) (lines.getD j ([], []))

theorem partialDistance_lines {lines : List (Line K)} (hok : LinesOk lines) {M : Mat K}
    (h : partialDistance lines = .ok M) :
    M.r = lines.length ∧ M.c = lines.length ∧ ∃ big, IsGreatest (finiteDistances lines) big ∧
      0 ≤ big ∧
      ∀ i < lines.length, ∀ j < lines.length, M.get i j = filledEntry (fun i j =>
        specDistance (lines.getD i ([], [])) (lines.getD j ([], []))) big i j := by
  have hs := partialDistance_spec (pairDistances_spec hok)
  rcases Set.eq_empty_or_nonempty (finiteDistances lines) with h0 | h0
  · rw [hs.1 h0] at h; cases h
  · obtain ⟨M', big, h1, h2, h3, h4, h5⟩ := hs.2 h0
    rw [h1] at h
    injection h with h
    subst h
    refine ⟨h3, h4, big, h2, ?_, h5⟩
    rcases h2.1 with ⟨-, h⟩ | ⟨i, j, hij, hj, h⟩
    · exact h.ge
    · exact specDistance_nonneg (hok.get (by omega)) (hok.get hj) h

/-- C68: the result is symmetric, non-negative and has one row and column per line. -/
theorem C68_symmetric (lines : List (Line K)) (hok : LinesOk lines) (M : Mat K)
    (h : partialDistance lines = .ok M) :
    M.r = lines.length ∧ M.c = lines.length ∧
    ∀ i < lines.length, ∀ j < lines.length, M.get i j = M.get j i ∧ 0 ≤ M.get i j := by
  obtain ⟨h1, h2, big, hb, h0, hM⟩ := partialDistance_lines hok h
  refine ⟨h1, h2, fun i hi j hj => ?_⟩
  have hfill : ∀ i j, i < lines.length → j < lines.length →
      0 ≤ (specDistance (lines.getD i ([], [])) (lines.getD j ([], []))).getD (big * 2) := by
    intro i j hi hj
    cases hs : specDistance (lines.getD i ([], [])) (lines.getD j ([], [])) with
    | none => exact mul_nonneg h0 zero_le_two
    | some v => exact specDistance_nonneg (hok.get hi) (hok.get hj) hs
  rw [hM i hi j hj, hM j hj i hi]
  unfold filledEntry
  rcases lt_trichotomy i j with h | rfl | h
  · rw [if_pos h, if_neg (by omega), if_pos h]
    exact ⟨rfl, hfill i j hi hj⟩
  · simp only [lt_irrefl, if_false]
    exact ⟨trivial, add_nonneg (hfill i i hi hi) (hfill i i hi hi)⟩
  · rw [if_neg (by omega), if_pos h, if_pos h]
    exact ⟨rfl, hfill j i hj hi⟩

/-- C68: for two different lines whose ranges overlap, the entry is the weighted mean of the
squared difference of the two lines from their mean difference, over the x values of both lines in
the common range; it is zero exactly when the lines differ by a constant there. -/
theorem C68_overlap (lines : List (Line K)) (hok : LinesOk lines) (M : Mat K)
    (h : partialDistance lines = .ok M) (i j : Nat) (hi : i < lines.length) (hj : j < lines.length)
    (hij : i ≠ j)
    (ho : lineStart (lines.getD i ([], [])) (lines.getD j ([], [])) <
      lineEnd (lines.getD i ([], [])) (lines.getD j ([], []))) :
    let a := lines.getD i ([], [])
    let b := lines.getD j ([], [])
    let xs := commonX a b
    M.get i j = (∑ k ∈ range xs.length, (lineDiff a b xs k - meanDiff a b xs) ^ 2 *
      intervalWeight xs k) / ∑ k ∈ range xs.length, intervalWeight xs k ∧
    (M.get i j = 0 ↔ ∃ c, ∀ x, (x ∈ a.1 ∨ x ∈ b.1) → lineStart a b ≤ x → x ≤ lineEnd a b →
      interp1 a.1 a.2 x = interp1 b.1 b.2 x + c) := by
  obtain ⟨h1, h2, big, hb, h0, hM⟩ := partialDistance_lines hok h
  intro a b xs
  have hs : specDistance a b = some (M.get i j) := by
    have hs1 : ∃ v, specDistance a b = some v := by
      unfold specDistance
      rw [if_neg (not_le.2 ho)]
      exact ⟨_, rfl⟩
    obtain ⟨v, hv⟩ := hs1
    rw [hM i hi j hj]
    unfold filledEntry
    rcases lt_or_gt_of_ne hij with h | h
    · rw [if_pos h]
      show specDistance a b = some ((specDistance a b).getD (big * 2))
      rw [hv]; rfl
    · rw [if_neg (by omega), if_pos h]
      show specDistance a b = some ((specDistance b a).getD (big * 2))
      rw [specDistance_comm (hok.get hj) (hok.get hi)]
      show specDistance a b = some ((specDistance a b).getD (big * 2))
      rw [hv]; rfl
  constructor
  · have : specDistance a b = some ((∑ k ∈ range (commonX a b).length,
        (lineDiff a b (commonX a b) k - meanDiff a b (commonX a b)) ^ 2 *
          intervalWeight (commonX a b) k) / totalWeight (commonX a b)) := by
      unfold specDistance
      rw [if_neg (not_le.2 ho)]
    rw [hs] at this
    exact Option.some.inj this
  · have hz := specDistance_zero_iff (hok.get hi) (hok.get hj)
    have hz : specDistance a b = some 0 ↔ lineStart a b < lineEnd a b ∧
      ∃ c, ∀ x ∈ commonX a b, interp1 a.1 a.2 x = interp1 b.1 b.2 x + c := hz
    rw [hs, Option.some.injEq] at hz
    rw [hz, and_iff_right ho]
    simp only [mem_commonX, and_imp]

/-- C68: the diagonal is zero for every line that covers a range. For a line with a single point
the function sees no overlap of the line with itself: its diagonal entry is four times the largest
finite distance. -/
theorem C68_diagonal (lines : List (Line K)) (hok : LinesOk lines) (M : Mat K)
    (h : partialDistance lines = .ok M) :
    ∃ big, IsGreatest (finiteDistances lines) big ∧ ∀ i < lines.length,
      (2 ≤ (lines.getD i ([], [])).1.length → M.get i i = 0) ∧
      ((lines.getD i ([], [])).1.length = 1 → M.get i i = 4 * big) := by
  obtain ⟨h1, h2, big, hb, h0, hM⟩ := partialDistance_lines hok h
  refine ⟨big, hb, fun i hi => ?_⟩
  rw [hM i hi i hi]
  unfold filledEntry
  simp only [lt_irrefl, if_false]
  have ho := hok.get hi
  generalize lines.getD i ([], []) = a at ho
  constructor
  · intro h2
    have hz : specDistance a a = some 0 := by
      rw [specDistance_zero_iff ho ho]
      refine ⟨?_, 0, fun x _ => by rw [add_zero]⟩
      have hne : a.1.length ≠ 0 := by omega
      have := getD_lt ho.sorted (i := 0) (j := a.1.length - 1) (by omega) (by omega)
      unfold lineStart lineEnd
      rw [max_self, min_self]
      simp only [List.headD_eq_head?_getD, List.head?_eq_getElem?, List.getLastD_eq_getLast?,
        List.getLast?_eq_getElem?]
      exact this
    rw [hz]
    simp
  · intro h1
    obtain ⟨x, hx⟩ := List.length_eq_one_iff.1 h1
    have : specDistance a a = none := by
      unfold specDistance
      rw [if_pos]
      simp [lineStart, lineEnd, hx]
    rw [this]
    simp only [Option.getD_none]
    ring

/-- C68: pairs of lines whose ranges do not overlap get twice the largest finite distance. If no
two lines overlap, that largest distance is zero, and so is every distance between different
lines. -/
theorem C68_no_overlap (lines : List (Line K)) (hok : LinesOk lines) (M : Mat K)
    (h : partialDistance lines = .ok M) :
    (∃ big, IsGreatest (finiteDistances lines) big ∧ ∀ i < lines.length, ∀ j < lines.length,
      i ≠ j → lineEnd (lines.getD i ([], [])) (lines.getD j ([], [])) ≤
        lineStart (lines.getD i ([], [])) (lines.getD j ([], [])) → M.get i j = 2 * big) ∧
    ((∀ i < lines.length, ∀ j < lines.length, i ≠ j →
      lineEnd (lines.getD i ([], [])) (lines.getD j ([], [])) ≤
        lineStart (lines.getD i ([], [])) (lines.getD j ([], []))) →
      ∀ i < lines.length, ∀ j < lines.length, M.get i j = 0) := by
  obtain ⟨h1, h2, big, hb, h0, hM⟩ := partialDistance_lines hok h
  have key : ∀ i < lines.length, ∀ j < lines.length,
      i ≠ j → lineEnd (lines.getD i ([], [])) (lines.getD j ([], [])) ≤
        lineStart (lines.getD i ([], [])) (lines.getD j ([], [])) → M.get i j = 2 * big := by
    intro i hi j hj hij hle
    rw [hM i hi j hj]
    unfold filledEntry
    rcases lt_or_gt_of_ne hij with h | h
    · rw [if_pos h]
      have : specDistance (lines.getD i ([], [])) (lines.getD j ([], [])) = none := by
        unfold specDistance; rw [if_pos hle]
      show (specDistance (lines.getD i ([], [])) (lines.getD j ([], []))).getD (big * 2) = 2 * big
      rw [this]
      exact mul_comm _ _
    · rw [if_neg (by omega), if_pos h]
      show (specDistance (lines.getD j ([], [])) (lines.getD i ([], []))).getD (big * 2) = 2 * big
      rw [specDistance_comm (hok.get hj) (hok.get hi)]
      have : specDistance (lines.getD i ([], [])) (lines.getD j ([], [])) = none := by
        unfold specDistance; rw [if_pos hle]
      rw [this]
      exact mul_comm _ _
  refine ⟨⟨big, hb, key⟩, fun hall => ?_⟩
  have hself : ∀ i < lines.length, ∀ v,
      specDistance (lines.getD i ([], [])) (lines.getD i ([], [])) = some v → v = 0 := by
    intro i hi v hv
    have ho := hok.get hi
    generalize lines.getD i ([], []) = a at ho hv
    have hlt : lineStart a a < lineEnd a a := by
      by_contra hn
      unfold specDistance at hv
      rw [if_pos (not_lt.1 hn)] at hv
      cases hv
    have hz : specDistance a a = some 0 :=
      (specDistance_zero_iff ho ho).2 ⟨hlt, 0, fun x _ => by rw [add_zero]⟩
    rw [hz] at hv
    exact (Option.some.inj hv).symm
  have hbig : big = 0 := by
    rcases hb.1 with ⟨-, hb0⟩ | ⟨i, j, hij, hj, he⟩
    · exact hb0
    · by_cases heq : i = j
      · subst heq
        exact hself i hj big he
      · have := hall i (by omega) j hj heq
        have hn : specDistance (lines.getD i ([], [])) (lines.getD j ([], [])) = none := by
          unfold specDistance; rw [if_pos this]
        have he : specDistance (lines.getD i ([], [])) (lines.getD j ([], [])) = some big := he
        rw [hn] at he
        cases he
  intro i hi j hj
  by_cases hij : i = j
  · subst hij
    rw [hM i hi i hi]
    unfold filledEntry
    simp only [lt_irrefl, if_false]
    cases hs : specDistance (lines.getD i ([], [])) (lines.getD i ([], [])) with
    | none => simp [hbig]
    | some v => rw [hself i hi v hs]; simp
  · rw [key i hi j hj hij (hall i hi j hj hij), hbig, mul_zero]

/-- C68: the call succeeds for at least two lines, and for one line that covers a range; it raises
`ValueError` without lines and for a single line with a single point. -/
theorem C68_succeeds (lines : List (Line K)) (hok : LinesOk lines) :
    (2 ≤ lines.length ∨ (lines.length = 1 ∧ 2 ≤ (lines.getD 0 ([], [])).1.length) →
      ∃ M, partialDistance lines = .ok M) ∧
    (lines = [] ∨ (lines.length = 1 ∧ (lines.getD 0 ([], [])).1.length = 1) →
      partialDistance lines = .error .valueError) := by
  have hs := partialDistance_spec (pairDistances_spec hok)
  constructor
  · rintro (h | ⟨h, h2⟩)
    · obtain ⟨M, big, hM, -⟩ := hs.2 ⟨0, .inl ⟨h, rfl⟩⟩
      exact ⟨M, hM⟩
    · have ho := hok.get (i := 0) (by omega)
      have : ∃ v, specDistance (lines.getD 0 ([], [])) (lines.getD 0 ([], [])) = some v := by
        generalize lines.getD 0 ([], []) = a at ho h2
        have := getD_lt ho.sorted (i := 0) (j := a.1.length - 1) (by omega) (by omega)
        unfold specDistance
        rw [if_neg]
        · exact ⟨_, rfl⟩
        · rw [not_le]
          unfold lineStart lineEnd
          rw [max_self, min_self]
          simp only [List.headD_eq_head?_getD, List.head?_eq_getElem?, List.getLastD_eq_getLast?,
            List.getLast?_eq_getElem?]
          exact this
      obtain ⟨v, hv⟩ := this
      obtain ⟨M, big, hM, -⟩ := hs.2 ⟨v, .inr ⟨0, 0, le_rfl, by omega, hv⟩⟩
      exact ⟨M, hM⟩
  · intro h
    apply hs.1
    rw [Set.eq_empty_iff_forall_notMem]
    rintro v (⟨h2, -⟩ | ⟨i, j, hij, hj, he⟩)
    · rcases h with rfl | ⟨h, -⟩
      · simp at h2
      · omega
    · rcases h with rfl | ⟨h, h1⟩
      · simp at hj
      · have hi0 : i = 0 := by omega
        have hj0 : j = 0 := by omega
        subst hi0 hj0
        obtain ⟨x, hx⟩ := List.length_eq_one_iff.1 h1
        have hn : specDistance (lines.getD 0 ([], [])) (lines.getD 0 ([], [])) = none := by
          unfold specDistance
          rw [if_pos]
          unfold lineStart lineEnd
          rw [max_self, min_self, hx]
          exact le_rfl
        have he : specDistance (lines.getD 0 ([], [])) (lines.getD 0 ([], [])) = some v := he
        rw [hn] at he
        cases he

/-! ### Shifts, scale and order -/

/-- Move a line vertically. -/
def shiftLine (c : K) (a : Line K) : Line K := (a.1, a.2.map (· + c))

theorem interp1_shift (xs ys : List K) (c v : K) (hl : xs.length = ys.length) (hne : xs ≠ []) :
    interp1 xs (ys.map (· + c)) v = interp1 xs ys v + c := by
  have hpos : 0 < xs.length := List.length_pos_iff.2 hne
  have hg : ∀ k < xs.length, (ys.map (· + c)).getD k 0 = ys.getD k 0 + c := by
    intro k hk
    have hk' : k < ys.length := by omega
    simp [List.getElem?_eq_getElem hk']
  have hc : xs.countP (fun x => decide (x ≤ v)) ≤ xs.length := List.countP_le_length
  unfold interp1
  simp only
  split
  · rw [hg 0 hpos]
  · split
    · rename_i h1 h2
      rw [hg _ (by omega)]
    · rename_i h1 h2
      rw [hg _ (by omega), hg _ (by omega)]
      ring

theorem specDistance_shift (a b : Line K) (ha : a.Ok) (hb : b.Ok) (c d : K) :
    specDistance (shiftLine c a) (shiftLine d b) = specDistance a b := by
  have hx : commonX (shiftLine c a) (shiftLine d b) = commonX a b := rfl
  have hd : ∀ xs k, lineDiff (shiftLine c a) (shiftLine d b) xs k =
      lineDiff a b xs k + (c - d) := by
    intro xs k
    unfold lineDiff shiftLine
    simp only
    rw [interp1_shift _ _ _ _ ha.len ha.ne, interp1_shift _ _ _ _ hb.len hb.ne]
    ring
  unfold specDistance
  rw [hx]
  have e1 : lineEnd (shiftLine c a) (shiftLine d b) = lineEnd a b := rfl
  have e2 : lineStart (shiftLine c a) (shiftLine d b) = lineStart a b := rfl
  rw [e1, e2]
  split
  · rfl
  rename_i hlt
  have h2 := commonX_two ha.ne hb.ne (not_le.1 hlt)
  have hn : ((commonX a b).length : K) ≠ 0 := by
    have : (commonX a b).length ≠ 0 := by omega
    exact_mod_cast this
  have hm : meanDiff (shiftLine c a) (shiftLine d b) (commonX a b) =
      meanDiff a b (commonX a b) + (c - d) := by
    unfold meanDiff
    simp only [hd]
    rw [Finset.sum_add_distrib, Finset.sum_const, card_range, nsmul_eq_mul, add_div,
      mul_div_assoc, mul_comm ((commonX a b).length : K), div_mul_cancel₀ _ hn]
  congr 2
  refine Finset.sum_congr rfl fun k _ => ?_
  rw [hd, hm]
  ring

theorem partialDistance_congr {lines lines' : List (Line K)} (hl : lines'.length = lines.length)
    {e : Nat → Nat → Option K} (h : PairDistances lines e) (h' : PairDistances lines' e) :
    (∃ M, partialDistance lines = .ok M) → ∃ M M', partialDistance lines = .ok M ∧
      partialDistance lines' = .ok M' ∧ Mat.Same M M' := by
  rintro ⟨M, hM⟩
  have s1 := partialDistance_spec h
  have s2 := partialDistance_spec h'
  rw [hl] at s2
  rcases Set.eq_empty_or_nonempty (FiniteValues lines.length e) with h0 | h0
  · rw [s1.1 h0] at hM; cases hM
  · obtain ⟨M1, b1, e1, g1, r1, c1, v1⟩ := s1.2 h0
    obtain ⟨M2, b2, e2, g2, r2, c2, v2⟩ := s2.2 h0
    have hb : b1 = b2 := g1.unique g2
    subst hb
    refine ⟨M1, M2, e1, e2, by rw [r1, r2], by rw [c1, c2], fun i hi j hj => ?_⟩
    rw [v1 i (by omega) j (by omega), v2 i (by omega) j (by omega)]

theorem shiftLine_ok {a : Line K} (h : a.Ok) (c : K) : (shiftLine c a).Ok :=
  ⟨h.ne, h.sorted, by simp [shiftLine, h.len]⟩

/-- C68: moving every line vertically by its own amount changes no distance. -/
theorem C68_shift (lines : List (Line K)) (hok : LinesOk lines) (c : Nat → K) (M : Mat K)
    (h : partialDistance lines = .ok M) :
    ∃ M', partialDistance (lines.mapIdx fun i a => shiftLine (c i) a) = .ok M' ∧
      ∀ i < lines.length, ∀ j < lines.length, M'.get i j = M.get i j := by
  have hget : ∀ i < lines.length, (lines.mapIdx fun i a => shiftLine (c i) a).getD i ([], []) =
      shiftLine (c i) (lines.getD i ([], [])) := by
    intro i hi
    simp [List.getElem?_eq_getElem hi]
  have h' : PairDistances (lines.mapIdx fun i a => shiftLine (c i) a) fun i j =>
      specDistance (lines.getD i ([], [])) (lines.getD j ([], [])) := by
    intro i j hij hj
    rw [List.length_mapIdx] at hj
    rw [hget i (by omega), hget j hj,
      lineDistance_ok (shiftLine_ok (hok.get (by omega)) _) (shiftLine_ok (hok.get hj) _)]
    have := specDistance_shift _ _ (hok.get (i := i) (by omega)) (hok.get hj) (c i) (c j)
    unfold specDistance at this ⊢
    rw [this]
  obtain ⟨M1, M2, e1, e2, hs⟩ := partialDistance_congr (by simp) (pairDistances_spec hok) h' ⟨M, h⟩
  rw [e1] at h
  injection h with h
  subst h
  have hr := (partialDistance_lines hok e1)
  refine ⟨M2, e2, fun i hi j hj => ?_⟩
  exact (hs.2.2 i (by rw [hr.1]; exact hi) j (by rw [hr.2.1]; exact hj)).symm

/-- C68: the order of the lines is irrelevant: reordering them reorders rows and columns. -/
theorem C68_reorder (lines : List (Line K)) (hok : LinesOk lines) (σ : Nat → Nat)
    (hσ : PermBelow σ lines.length) (M : Mat K) (h : partialDistance lines = .ok M) :
    ∃ M', partialDistance ((List.range lines.length).map fun i => lines.getD (σ i) ([], [])) =
        .ok M' ∧
      ∀ i < lines.length, ∀ j < lines.length, M'.get i j = M.get (σ i) (σ j) := by
  obtain ⟨h1, h2, big, hb, h0, hM⟩ := partialDistance_lines hok h
  have hlen : ((List.range lines.length).map fun i => lines.getD (σ i) ([], [])).length =
      lines.length := by simp
  have hget : ∀ i < lines.length,
      ((List.range lines.length).map fun i => lines.getD (σ i) ([], [])).getD i ([], []) =
        lines.getD (σ i) ([], []) := by
    intro i hi
    simp [List.getElem?_range hi]
  have hok' : LinesOk ((List.range lines.length).map fun i => lines.getD (σ i) ([], [])) := by
    intro a ha
    obtain ⟨i, hi, rfl⟩ := List.mem_map.1 ha
    exact hok.get (hσ.1 i (by simpa using hi))
  have hs := partialDistance_spec (pairDistances_spec hok')
  rw [hlen] at hs
  have hset : FiniteValues lines.length (fun i j => specDistance
      (((List.range lines.length).map fun i => lines.getD (σ i) ([], [])).getD i ([], []))
      (((List.range lines.length).map fun i => lines.getD (σ i) ([], [])).getD j ([], []))) =
      finiteDistances lines := by
    have surj : ∀ k < lines.length, ∃ i < lines.length, σ i = k := by
      intro k hk
      have := (hσ.range_perm.mem_iff (a := k)).2 (by simpa using hk)
      simpa using this
    ext v
    unfold finiteDistances FiniteValues
    simp only [Set.mem_ofPred_eq]
    refine or_congr Iff.rfl ?_
    constructor
    · rintro ⟨i, j, hij, hj, he⟩
      rw [hget i (by omega), hget j hj] at he
      have hi' := hσ.1 i (by omega)
      have hj' := hσ.1 j hj
      rcases le_total (σ i) (σ j) with hle | hle
      · exact ⟨σ i, σ j, hle, hj', he⟩
      · refine ⟨σ j, σ i, hle, hi', ?_⟩
        rw [specDistance_comm (hok.get hj') (hok.get hi')]
        exact he
    · rintro ⟨i, j, hij, hj, he⟩
      obtain ⟨a, ha, rfl⟩ := surj i (by omega)
      obtain ⟨b, hb, rfl⟩ := surj j hj
      rcases le_total a b with hle | hle
      · exact ⟨a, b, hle, hb, by rw [hget a ha, hget b hb]; exact he⟩
      · refine ⟨b, a, hle, ha, ?_⟩
        rw [hget a ha, hget b hb, specDistance_comm (hok.get (hσ.1 b hb)) (hok.get (hσ.1 a ha))]
        exact he
  rw [hset] at hs
  obtain ⟨M', big', e1, g, r, c, v⟩ := hs.2 ⟨big, hb.1⟩
  have : big' = big := g.unique hb
  subst this
  refine ⟨M', e1, fun i hi j hj => ?_⟩
  have hi' := hσ.1 i hi
  have hj' := hσ.1 j hj
  rw [v i hi j hj, hM _ hi' _ hj']
  unfold filledEntry
  beta_reduce
  rw [hget i hi, hget j hj]
  by_cases hij : i = j
  · subst hij
    simp
  · have hne : σ i ≠ σ j := fun h => hij (hσ.2 i hi j hj h)
    have hc := specDistance_comm (hok.get hi') (hok.get hj')
    rcases lt_or_gt_of_ne hij with h | h <;> rcases lt_or_gt_of_ne hne with h' | h'
    · rw [if_pos h, if_pos h']
    · rw [if_pos h, if_neg (by omega), if_pos h', hc]
    · rw [if_neg (by omega), if_pos h, if_pos h', hc]
    · rw [if_neg (by omega), if_pos h, if_neg (by omega), if_pos h']

/-- Multiply the y values of a line. -/
def scaleLine (c : K) (a : Line K) : Line K := (a.1, a.2.map (c * ·))

theorem interp1_scale (xs ys : List K) (c v : K) :
    interp1 xs (ys.map (c * ·)) v = c * interp1 xs ys v := by
  have hg : ∀ k, (ys.map (c * ·)).getD k 0 = c * ys.getD k 0 := by
    intro k
    rcases lt_or_ge k ys.length with hk | hk
    · simp [List.getElem?_eq_getElem hk]
    · simp [List.getElem?_eq_none hk]
  unfold interp1
  simp only [hg]
  split_ifs <;> ring

theorem specDistance_scale (a b : Line K) (c : K) :
    specDistance (scaleLine c a) (scaleLine c b) = (specDistance a b).map (c ^ 2 * ·) := by
  have hd : ∀ xs k, lineDiff (scaleLine c a) (scaleLine c b) xs k = c * lineDiff a b xs k := by
    intro xs k
    unfold lineDiff scaleLine
    simp only [interp1_scale]
    ring
  have hm : ∀ xs, meanDiff (scaleLine c a) (scaleLine c b) xs = c * meanDiff a b xs := by
    intro xs
    unfold meanDiff
    simp only [hd]
    rw [← Finset.mul_sum, mul_div_assoc]
  unfold specDistance
  have hx : commonX (scaleLine c a) (scaleLine c b) = commonX a b := rfl
  have e1 : lineEnd (scaleLine c a) (scaleLine c b) = lineEnd a b := rfl
  have e2 : lineStart (scaleLine c a) (scaleLine c b) = lineStart a b := rfl
  rw [hx, e1, e2]
  split
  · rfl
  · simp only [Option.map_some, hd, hm, Option.some.injEq]
    rw [← mul_div_assoc, Finset.mul_sum]
    congr 1
    refine Finset.sum_congr rfl fun k _ => ?_
    ring

theorem scaleLine_ok {a : Line K} (h : a.Ok) (c : K) : (scaleLine c a).Ok :=
  ⟨h.ne, h.sorted, by simp [scaleLine, h.len]⟩

/-- C68: multiplying all y values by a common factor multiplies every distance by its square. -/
theorem C68_scale (lines : List (Line K)) (hok : LinesOk lines) (c : K) (M : Mat K)
    (h : partialDistance lines = .ok M) :
    ∃ M', partialDistance (lines.map (scaleLine c)) = .ok M' ∧
      ∀ i < lines.length, ∀ j < lines.length, M'.get i j = c ^ 2 * M.get i j := by
  obtain ⟨h1, h2, big, hb, h0, hM⟩ := partialDistance_lines hok h
  have hget : ∀ i < lines.length, (lines.map (scaleLine c)).getD i ([], []) =
      scaleLine c (lines.getD i ([], [])) := by
    intro i hi
    simp [List.getElem?_eq_getElem hi]
  have h' : PairDistances (lines.map (scaleLine c)) fun i j =>
      (specDistance (lines.getD i ([], [])) (lines.getD j ([], []))).map (c ^ 2 * ·) := by
    intro i j hij hj
    rw [List.length_map] at hj
    rw [hget i (by omega), hget j hj,
      lineDistance_ok (scaleLine_ok (hok.get (by omega)) _) (scaleLine_ok (hok.get hj) _)]
    have := specDistance_scale (lines.getD i ([], [])) (lines.getD j ([], [])) c
    beta_reduce
    rw [← this]
    rfl
  have hs := partialDistance_spec h'
  rw [List.length_map] at hs
  have hg : IsGreatest (FiniteValues lines.length fun i j =>
      (specDistance (lines.getD i ([], [])) (lines.getD j ([], []))).map (c ^ 2 * ·))
      (c ^ 2 * big) := by
    constructor
    · rcases hb.1 with ⟨hn, hz⟩ | ⟨i, j, hij, hj, he⟩
      · exact .inl ⟨hn, by rw [hz, mul_zero]⟩
      · refine .inr ⟨i, j, hij, hj, ?_⟩
        beta_reduce at he ⊢
        rw [he]
        rfl
    · rintro v (⟨hn, rfl⟩ | ⟨i, j, hij, hj, he⟩)
      · exact mul_nonneg (sq_nonneg _) h0
      · beta_reduce at he
        cases hv : specDistance (lines.getD i ([], [])) (lines.getD j ([], [])) with
        | none => rw [hv] at he; cases he
        | some w =>
          rw [hv] at he
          injection he with he
          rw [← he]
          exact mul_le_mul_of_nonneg_left (hb.2 (.inr ⟨i, j, hij, hj, hv⟩)) (sq_nonneg c)
  obtain ⟨M', big', e1, g, r, cc, v⟩ := hs.2 ⟨_, hg.1⟩
  have hbb : big' = c ^ 2 * big := g.unique hg
  subst hbb
  refine ⟨M', e1, fun i hi j hj => ?_⟩
  rw [v i hi j hj, hM i hi j hj]
  have hf : ∀ o : Option K, (o.map (c ^ 2 * ·)).getD (c ^ 2 * big * 2) =
      c ^ 2 * o.getD (big * 2) := by
    intro o
    cases o with
    | none => simp [mul_assoc]
    | some w => rfl
  unfold filledEntry
  simp only [hf]
  split_ifs <;> ring

/-- C68: each feature gets the matrix of its own lines, in the order of the features. -/
theorem C68_features (features : List (List (Line K))) (Ms : List (Mat K)) :
    featuresPartialDistance features = .ok Ms ↔
      List.Forall₂ (fun lines M => partialDistance lines = .ok M) features Ms :=
  mapE_ok_iff

/-- Lines that overlap, do not overlap and have a single point. -/
def exLines : List (Line ℚ) :=
  [([0, 1, 2], [0, 1, 0]), ([0, 2], [5, 5]), ([1, 3], [7, 9]), ([10, 11], [0, 1]), ([4], [2])]

/-- The hypotheses of C68 hold. Lines 0 and 1 have distance 2/9; lines 0 and 3 do not overlap; the
diagonal entry of the line with one point is not zero. If no two lines overlap all distances are
zero. -/
example :
    (∀ a ∈ exLines, a.1 ≠ [] ∧ a.1.Pairwise (· < ·) ∧ a.1.length = a.2.length) ∧
    okAnd (partialDistance exLines) (fun M => M.get 0 1 == 2 / 9 && M.get 0 2 == 1 &&
      M.get 0 3 == 2 && M.get 3 0 == 2 && M.get 1 1 == 0 && M.get 4 4 == 4) = true ∧
    okAnd (partialDistance [([0, 1], [0, 9]), ([2, 3], [0, (1 : ℚ)])])
      (fun M => M.get 0 1 == 0) = true ∧
    (match partialDistance [([(1 : ℚ)], [2])] with
      | .error .valueError => true
      | _ => false) = true := by
  decide +kernel

end Geo
