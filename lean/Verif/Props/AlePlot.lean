import Verif.Model.AlePlot
import Verif.Props.Ale
import Verif.Props.VizDistance
import Verif.Props.Viz
import Mathlib.Tactic.FieldSimp
/-
The figure of an ALE curve: C131.
-/
set_option linter.unusedSectionVars false
namespace Geo
variable {K : Type} [Field K] [LinearOrder K] [IsStrictOrderedRing K] [FloorRing K]

/-- C131: the bar of a value, for any increasing edges and any first guess that is off by at most
one bar, as a rounded guess is: the value lies at or right of the bar's left edge and left of its
right edge, which counts in for the last bar only; no other bar has that property. -/
theorem C131_bin (edge : Nat → K) (n g : Nat) (x : K) (hn : 1 ≤ n)
    (hinc : ∀ i j, i < j → j ≤ n → edge i < edge j) (h0 : edge 0 ≤ x) (h1 : x ≤ edge n)
    (hg : g ≤ n) (hlo : edge (g - 1) ≤ x) (hhi : g + 2 ≤ n → x < edge (g + 2)) :
    histBin edge n g x < n ∧ edge (histBin edge n g x) ≤ x ∧
    (x < edge (histBin edge n g x + 1) ∨
      histBin edge n g x + 1 = n ∧ x = edge n) ∧
    ∀ k < n, edge k ≤ x → (x < edge (k + 1) ∨ k + 1 = n ∧ x = edge n) → k = histBin edge n g x := by
  have main : histBin edge n g x < n ∧ edge (histBin edge n g x) ≤ x ∧
      (x < edge (histBin edge n g x + 1) ∨ histBin edge n g x + 1 = n ∧ x = edge n) := by
    have last : ∀ k, k + 1 = n → x < edge (k + 1) ∨ k + 1 = n ∧ x = edge n := by
      intro k hk
      rcases h1.lt_or_eq with h | h
      · exact Or.inl (hk ▸ h)
      · exact Or.inr ⟨hk, h⟩
    have e1 : ∃ g1, (if g = n then g - 1 else g) = g1 ∧ g1 < n ∧ edge (g1 - 1) ≤ x ∧
        (g1 + 2 ≤ n → x < edge (g1 + 2)) := by
      by_cases h : g = n
      · refine ⟨n - 1, by rw [if_pos h, h], by omega, ?_, by omega⟩
        rcases Nat.lt_or_ge 1 n with h2 | h2
        · refine le_trans (le_of_lt (hinc (n - 1 - 1) (n - 1) (by omega) (by omega))) ?_
          rw [← h]; exact hlo
        · have : n - 1 - 1 = 0 := by omega
          rw [this]; exact h0
      · exact ⟨g, if_neg h, by omega, hlo, hhi⟩
    obtain ⟨g1, eg1, hg1, hlo1, hhi1⟩ := e1
    unfold histBin
    simp only [eg1]
    by_cases hx : x < edge g1
    · rw [if_pos hx]
      have hpos : g1 ≠ 0 := fun h => absurd h0 (by rw [h] at hx; exact not_le.2 hx)
      have hs : g1 - 1 + 1 = g1 := by omega
      rw [if_neg (by rw [hs]; exact fun h => absurd h.1 (not_le.2 hx)), hs]
      exact ⟨by omega, hlo1, Or.inl hx⟩
    · rw [if_neg hx]
      by_cases hy : edge (g1 + 1) ≤ x ∧ g1 ≠ n - 1
      · rw [if_pos hy]
        refine ⟨by omega, hy.1, ?_⟩
        exact Or.inl (hhi1 (by omega))
      · rw [if_neg hy]
        refine ⟨hg1, not_lt.1 hx, ?_⟩
        by_cases hl : g1 + 1 = n
        · exact last g1 hl
        · exact Or.inl (not_le.1 fun h => hy ⟨h, by omega⟩)
  refine ⟨main.1, main.2.1, main.2.2, ?_⟩
  generalize histBin edge n g x = b at main
  obtain ⟨hb, hb1, hb2⟩ := main
  intro k hk hk1 hk2
  by_contra hne
  have step : ∀ i j, i < j → j < n → edge j ≤ x → ¬(x < edge (i + 1) ∨ i + 1 = n ∧ x = edge n) := by
    intro i j hij hj hjx h
    rcases h with h | ⟨h, -⟩
    · rcases Nat.lt_or_ge (i + 1) j with h2 | h2
      · exact absurd (lt_of_lt_of_le (hinc _ _ h2 (by omega)) hjx) (not_lt.2 h.le)
      · have : i + 1 = j := by omega
        rw [this] at h
        exact absurd hjx (not_le.2 h)
    · omega
  rcases Nat.lt_or_ge k b with h | h
  · exact step k b h hb hb1 hk2
  · exact step b k (by omega) hk hk1 hb2

theorem sum_countP_range (n : Nat) (b : K → Nat) (xs : List K) (h : ∀ x ∈ xs, b x < n) :
    ((List.range n).map fun k => xs.countP fun x => decide (b x = k)).sum = xs.length := by
  induction xs with
  | nil => simp
  | cons a l ih =>
    have ih := ih fun x hx => h x (by simp [hx])
    have ha := h a (by simp)
    simp only [List.countP_cons, List.length_cons]
    rw [List.sum_map_add, ih]
    congr 1
    simp only [decide_eq_true_eq]
    have e : ((List.range n).map fun k => if b a = k then 1 else 0).sum =
        ∑ k ∈ Finset.range n, if b a = k then 1 else 0 := rfl
    rw [e, Finset.sum_ite_eq, if_pos (Finset.mem_range.2 ha)]

theorem histRange_lt (xs : List K) : (histRange xs).1 < (histRange xs).2 := by
  unfold histRange
  split
  · simp
  · rename_i h
    have hne : xs ≠ [] := fun h' => h (by simp [h'])
    split
    · rename_i he
      rw [he]; linarith
    · rename_i he
      exact lt_of_le_of_ne ((minOf_isLeast hne).2 (maxOf_isGreatest hne).1) he

theorem histRange_mem (xs : List K) (x : K) (h : x ∈ xs) :
    (histRange xs).1 ≤ x ∧ x ≤ (histRange xs).2 := by
  have hne : xs ≠ [] := List.ne_nil_of_mem h
  have h1 := (minOf_isLeast hne).2 h
  have h2 := (maxOf_isGreatest hne).2 h
  unfold histRange
  rw [if_neg (by simpa using hne)]
  split
  · constructor <;> simp only <;> linarith
  · exact ⟨h1, h2⟩

theorem histEdge_lt {lo hi : K} (h : lo < hi) {n i j : Nat} (hn : 1 ≤ n) (hij : i < j) :
    histEdge lo hi n i < histEdge lo hi n j := by
  have hn' : (0 : K) < n := by exact_mod_cast hn
  have hij' : (i : K) < j := by exact_mod_cast hij
  unfold histEdge
  have := mul_lt_mul_of_pos_left hij' (sub_pos.2 h)
  have := div_lt_div_of_pos_right this hn'
  linarith

/-- The exact guess is the right bar, the right end apart. -/
theorem histGuess_spec {lo hi x : K} (h : lo < hi) {n : Nat} (hn : 1 ≤ n) (h0 : lo ≤ x)
    (h1 : x ≤ hi) : histGuess lo hi n x ≤ n ∧
      histEdge lo hi n (histGuess lo hi n x) ≤ x ∧ x < histEdge lo hi n (histGuess lo hi n x + 1) := by
  have hn' : (0 : K) < n := by exact_mod_cast hn
  have hd := sub_pos.2 h
  have hnn : 0 ≤ (x - lo) * (n / (hi - lo)) :=
    mul_nonneg (sub_nonneg.2 h0) (div_nonneg hn'.le hd.le)
  have ex : x = lo + (hi - lo) * ((x - lo) * (n / (hi - lo))) / n := by
    field_simp
    ring
  have e1 := Nat.floor_le hnn
  have e2 := Nat.lt_floor_add_one ((x - lo) * (n / (hi - lo)))
  unfold histGuess histEdge
  refine ⟨?_, ?_, ?_⟩
  · have : (x - lo) * (n / (hi - lo)) ≤ n := by
      rw [mul_div_assoc', div_le_iff₀ hd, mul_comm]
      exact mul_le_mul_of_nonneg_left (by linarith) hn'.le
    have h3 : (⌊(x - lo) * (n / (hi - lo))⌋₊ : K) ≤ n := le_trans e1 this
    exact_mod_cast h3
  · rw [add_comm, ← le_sub_iff_add_le, div_le_iff₀ hn', mul_comm]
    have := mul_le_mul_of_nonneg_right e1 hd.le
    refine le_trans this (le_of_eq ?_)
    field_simp
  · rw [add_comm, ← sub_lt_iff_lt_add, lt_div_iff₀ hn', mul_comm (hi - lo)]
    push_cast
    have := mul_lt_mul_of_pos_right e2 hd
    refine lt_of_eq_of_lt ?_ this
    field_simp

/-- C131: what `plot_ale` draws: the line through the given points, in their order; ten bars of
equal width over the range of the values, whose edges increase; the height of bar `k` is the number
of values from its left edge to before its right edge, the right end of the range included in the
last; the heights add up to the number of values. It fails only for coordinates that differ in
number. -/
theorem C131_figure (fvals ale xs : List K) :
    (fvals.length ≠ ale.length → plotAle fvals ale xs = .error .valueError) ∧
    (fvals.length = ale.length → ∃ fig, plotAle fvals ale xs = .ok fig ∧
      fig.line.map Prod.fst = fvals ∧ fig.line.map Prod.snd = ale ∧
      fig.edges.length = 11 ∧ fig.edges.Pairwise (· < ·) ∧ fig.heights.length = 10 ∧
      fig.heights.sum = xs.length ∧
      (∀ k < 10, fig.edges.getD (k + 1) 0 - fig.edges.getD k 0 =
        (fig.edges.getD 10 0 - fig.edges.getD 0 0) / 10) ∧
      (∀ x ∈ xs, fig.edges.getD 0 0 ≤ x ∧ x ≤ fig.edges.getD 10 0) ∧
      (∀ a ∈ xs, ∀ b ∈ xs, a ≠ b → fig.edges.getD 0 0 ∈ xs ∧ fig.edges.getD 10 0 ∈ xs) ∧
      (∀ a ∈ xs, (∀ b ∈ xs, b = a) → fig.edges.getD 0 0 = a - 1 / 2 ∧
        fig.edges.getD 10 0 = a + 1 / 2 ∧ fig.heights.getD 5 0 = xs.length) ∧
      ∀ k < 10, fig.heights.getD k 0 = xs.countP fun x => decide (fig.edges.getD k 0 ≤ x ∧
        (x < fig.edges.getD (k + 1) 0 ∨ k = 9 ∧ x = fig.edges.getD 10 0))) := by
  refine ⟨fun h => by simp [plotAle, h], fun h => ?_⟩
  have hlt := histRange_lt xs
  have hmem := histRange_mem xs
  have hr := fun (hne : xs ≠ []) => show histRange xs = if minOf xs = maxOf xs then
    (minOf xs - 1 / 2, maxOf xs + 1 / 2) else (minOf xs, maxOf xs) from by
      unfold histRange; rw [if_neg (by simpa using hne)]
  generalize hlo : (histRange xs).1 = lo at *
  generalize hhi : (histRange xs).2 = hi at *
  have hedge : ∀ k < 11, ((List.range 11).map (histEdge lo hi 10)).getD k 0 = histEdge lo hi 10 k := by
    intro k hk
    simp [List.getElem?_range hk]
  have h0 : histEdge lo hi 10 0 = lo := by simp [histEdge]
  have h10 : histEdge lo hi 10 10 = hi := by simp [histEdge]
  have hbin : ∀ x ∈ xs, ∀ k < 10, histBin (histEdge lo hi 10) 10 (histGuess lo hi 10 x) x = k ↔
      histEdge lo hi 10 k ≤ x ∧ (x < histEdge lo hi 10 (k + 1) ∨ k = 9 ∧ x = histEdge lo hi 10 10) := by
    intro x hx k hk
    obtain ⟨g1, g2, g3⟩ := histGuess_spec hlt (n := 10) (by norm_num) (hmem x hx).1 (hmem x hx).2
    have mono : ∀ i j, i ≤ j → histEdge lo hi 10 i ≤ histEdge lo hi 10 j := fun i j hij => by
      rcases hij.lt_or_eq with h | h
      · exact (histEdge_lt hlt (by norm_num) h).le
      · rw [h]
    obtain ⟨b1, b2, b3, b4⟩ := C131_bin (histEdge lo hi 10) 10 (histGuess lo hi 10 x) x (by norm_num)
      (fun i j hij _ => histEdge_lt hlt (by norm_num) hij) (by rw [h0]; exact (hmem x hx).1)
      (by rw [h10]; exact (hmem x hx).2) g1 (le_trans (mono _ _ (by omega)) g2)
      (fun _ => lt_of_lt_of_le g3 (mono _ _ (by omega)))
    constructor
    · rintro rfl
      refine ⟨b2, b3.imp id fun h => ⟨by omega, h.2⟩⟩
    · rintro ⟨c1, c2⟩
      exact (b4 k hk c1 (c2.imp id fun h => ⟨by omega, h.2⟩)).symm
  have hlast : ∀ x ∈ xs, histBin (histEdge lo hi 10) 10 (histGuess lo hi 10 x) x < 10 := by
    intro x hx
    obtain ⟨g1, g2, g3⟩ := histGuess_spec hlt (n := 10) (by norm_num) (hmem x hx).1 (hmem x hx).2
    have mono : ∀ i j, i ≤ j → histEdge lo hi 10 i ≤ histEdge lo hi 10 j := fun i j hij => by
      rcases hij.lt_or_eq with h | h
      · exact (histEdge_lt hlt (by norm_num) h).le
      · rw [h]
    exact (C131_bin (histEdge lo hi 10) 10 (histGuess lo hi 10 x) x (by norm_num)
      (fun i j hij _ => histEdge_lt hlt (by norm_num) hij) (by rw [h0]; exact (hmem x hx).1)
      (by rw [h10]; exact (hmem x hx).2) g1 (le_trans (mono _ _ (by omega)) g2)
      (fun _ => lt_of_lt_of_le g3 (mono _ _ (by omega)))).1
  have hheight : ∀ k < 10, (histCounts (histEdge lo hi 10) (histGuess lo hi 10) 10 xs).getD k 0 =
      xs.countP fun x => decide (histEdge lo hi 10 k ≤ x ∧
        (x < histEdge lo hi 10 (k + 1) ∨ k = 9 ∧ x = histEdge lo hi 10 10)) := by
    intro k hk
    simp only [histCounts, List.getD_eq_getElem?_getD, List.getElem?_map, List.getElem?_range hk,
      Option.map_some, Option.getD_some]
    apply List.countP_congr
    intro x hx
    simp only [decide_eq_true_eq]
    exact hbin x hx k hk
  refine ⟨⟨fvals.zip ale, (List.range 11).map (histEdge lo hi 10),
    histCounts (histEdge lo hi 10) (histGuess lo hi 10) 10 xs⟩, by simp [plotAle, h, hlo, hhi],
    ?_, ?_, by simp, ?_, by simp [histCounts], ?_, ?_, ?_, ?_, ?_, ?_⟩
  · exact List.map_fst_zip h.le
  · exact List.map_snd_zip h.ge
  · rw [List.pairwise_map]
    exact (List.pairwise_lt_range).imp fun hij => histEdge_lt hlt (by norm_num) hij
  · exact sum_countP_range 10 _ xs hlast
  · intro k hk
    simp only [hedge _ (show k + 1 < 11 by omega), hedge _ (show k < 11 by omega),
      hedge _ (show 10 < 11 by omega), hedge _ (show 0 < 11 by omega), histEdge]
    push_cast
    ring
  · intro x hx
    simp only [hedge _ (show 10 < 11 by omega), hedge _ (show 0 < 11 by omega), h0, h10]
    exact hmem x hx
  · intro a ha b hb hab
    simp only [hedge _ (show 10 < 11 by omega), hedge _ (show 0 < 11 by omega), h0, h10]
    have hne : xs ≠ [] := List.ne_nil_of_mem ha
    have hmm : minOf xs ≠ maxOf xs := by
      intro he
      have a1 := (minOf_isLeast hne).2 ha
      have a2 := (maxOf_isGreatest hne).2 ha
      have b1 := (minOf_isLeast hne).2 hb
      have b2 := (maxOf_isGreatest hne).2 hb
      exact hab (le_antisymm (by linarith) (by linarith))
    have := hr hne
    rw [if_neg hmm] at this
    rw [← hlo, ← hhi, this]
    exact ⟨(minOf_isLeast hne).1, (maxOf_isGreatest hne).1⟩
  · intro a ha hall
    simp only [hedge _ (show 10 < 11 by omega), hedge _ (show 0 < 11 by omega), h0, h10]
    have hne : xs ≠ [] := List.ne_nil_of_mem ha
    have e1 := hall _ (minOf_isLeast hne).1
    have e2 := hall _ (maxOf_isGreatest hne).1
    have := hr hne
    rw [if_pos (by rw [e1, e2]), e1, e2] at this
    have f1 : lo = a - 1 / 2 := by rw [← hlo, this]
    have f2 : hi = a + 1 / 2 := by rw [← hhi, this]
    refine ⟨f1, f2, ?_⟩
    rw [hheight 5 (by norm_num), List.countP_eq_length]
    intro x hx
    rw [hall x hx, decide_eq_true_eq, f1, f2]
    constructor
    · simp only [histEdge]; push_cast; linarith
    · left; simp only [histEdge]; push_cast; linarith
  · intro k hk
    simp only [hedge _ (show k + 1 < 11 by omega), hedge _ (show k < 11 by omega),
      hedge _ (show 10 < 11 by omega)]
    exact hheight k hk

/-- Eleven values, two in the last bar; a guess one bar too high is corrected; all values equal. -/
example :
    (plotAle [0, 10] [1, 3] ((List.range 11).map fun k : Nat => (k : ℚ))).toOption.map
      (fun f => (f.line, f.heights)) =
      some ([(0, 1), (10, 3)], [1, 1, 1, 1, 1, 1, 1, 1, 1, 2]) ∧
    histBin (histEdge (0 : ℚ) 10 10) 10 4 (7 / 2) = 3 ∧
    histBin (histEdge (0 : ℚ) 10 10) 10 2 3 = 3 ∧
    (plotAle [0] [1] [(3 : ℚ), 3]).toOption.map (fun f => f.heights) =
      some [0, 0, 0, 0, 0, 2, 0, 0, 0, 0] := by
  refine ⟨?_, ?_, ?_, ?_⟩ <;> decide +kernel

end Geo
