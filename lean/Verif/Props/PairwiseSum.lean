import Verif.Model.PairwiseSum
import Verif.Props.RoundedPd
import Mathlib.Algebra.Order.Group.Multiset
import Mathlib.Tactic.Abel
set_option linter.unusedSectionVars false
/-
C185: the order in which numpy adds up.
-/
namespace Geo
section
variable {K : Type} [Field K] [LinearOrder K] [IsStrictOrderedRing K] {a : Arith K}

theorem thenEach_leaves (l : List (Num K)) (t : SumTree K) : (thenEach t l).leaves = t.leaves ++ l := by
  induction l generalizing t with
  | nil => simp [thenEach]
  | cons x l ih =>
    have := ih (.node t (.leaf x))
    simp only [thenEach, List.foldl_cons] at this ⊢
    rw [this]
    simp [SumTree.leaves]

theorem thenEach_below {ws vs : List (Num K)} (h : List.Forall₂ Num.le ws vs) {t t' : SumTree K} (ht : t.Below t') :
    (thenEach t ws).Below (thenEach t' vs) := by
  induction h generalizing t t' with
  | nil => exact ht
  | cons h _ ih => exact ih (.node _ _ _ _ ht (.leaf _ _ h))

theorem thenEach_depth (l : List (Num K)) (t : SumTree K) : (thenEach t l).depth ≤ t.depth + l.length := by
  induction l generalizing t with
  | nil => simp [thenEach]
  | cons x l ih =>
    have := ih (.node t (.leaf x))
    simp only [thenEach, List.foldl_cons, SumTree.depth, List.length_cons] at this ⊢
    omega

theorem unrolled_leaves (l : List (Num K)) (r0 r1 r2 r3 r4 r5 r6 r7 : SumTree K) :
    ((unrolled r0 r1 r2 r3 r4 r5 r6 r7 l).leaves : Multiset (Num K)) =
      (r0.leaves : Multiset (Num K)) + r1.leaves + r2.leaves + r3.leaves + r4.leaves + r5.leaves + r6.leaves +
        r7.leaves + l := by
  fun_induction unrolled r0 r1 r2 r3 r4 r5 r6 r7 l with
  | case1 r0 r1 r2 r3 r4 r5 r6 r7 a0 a1 a2 a3 a4 a5 a6 a7 l ih =>
    rw [ih]
    have e : ∀ (r : SumTree K) (x : Num K), ((SumTree.node r (.leaf x)).leaves : Multiset (Num K)) = r.leaves + {x} := by
      intro r x
      rw [SumTree.leaves, SumTree.leaves, ← Multiset.coe_add]
      rfl
    have c : ∀ (x : Num K) (l : List (Num K)), ((x :: l : List (Num K)) : Multiset (Num K)) = {x} + l := by
      intro x l
      rw [Multiset.singleton_add]
      rfl
    simp only [e, c]
    abel
  | case2 r0 r1 r2 r3 r4 r5 r6 r7 l h =>
    rw [thenEach_leaves]
    simp only [SumTree.leaves, ← Multiset.coe_add]
    abel

theorem unrolled_below (ws vs : List (Num K)) (h : List.Forall₂ Num.le ws vs)
    (r0 r1 r2 r3 r4 r5 r6 r7 s0 s1 s2 s3 s4 s5 s6 s7 : SumTree K) (h0 : r0.Below s0) (h1 : r1.Below s1)
    (h2 : r2.Below s2) (h3 : r3.Below s3) (h4 : r4.Below s4) (h5 : r5.Below s5) (h6 : r6.Below s6) (h7 : r7.Below s7) :
    (unrolled r0 r1 r2 r3 r4 r5 r6 r7 ws).Below (unrolled s0 s1 s2 s3 s4 s5 s6 s7 vs) := by
  fun_induction unrolled r0 r1 r2 r3 r4 r5 r6 r7 ws generalizing vs s0 s1 s2 s3 s4 s5 s6 s7 with
  | case1 r0 r1 r2 r3 r4 r5 r6 r7 a0 a1 a2 a3 a4 a5 a6 a7 l ih =>
    cases h with | cons g0 h
    cases h with | cons g1 h
    cases h with | cons g2 h
    cases h with | cons g3 h
    cases h with | cons g4 h
    cases h with | cons g5 h
    cases h with | cons g6 h
    cases h with | cons g7 h
    exact ih _ h _ _ _ _ _ _ _ _ (.node _ _ _ _ h0 (.leaf _ _ g0)) (.node _ _ _ _ h1 (.leaf _ _ g1))
      (.node _ _ _ _ h2 (.leaf _ _ g2)) (.node _ _ _ _ h3 (.leaf _ _ g3)) (.node _ _ _ _ h4 (.leaf _ _ g4))
      (.node _ _ _ _ h5 (.leaf _ _ g5)) (.node _ _ _ _ h6 (.leaf _ _ g6)) (.node _ _ _ _ h7 (.leaf _ _ g7))
  | case2 r0 r1 r2 r3 r4 r5 r6 r7 l hl =>
    have hlt : ∀ a0 a1 a2 a3 a4 a5 a6 a7 l, vs = a0 :: a1 :: a2 :: a3 :: a4 :: a5 :: a6 :: a7 :: l → False := by
      rintro a0 a1 a2 a3 a4 a5 a6 a7 l' rfl
      cases h with | cons g0 h
      cases h with | cons g1 h
      cases h with | cons g2 h
      cases h with | cons g3 h
      cases h with | cons g4 h
      cases h with | cons g5 h
      cases h with | cons g6 h
      cases h with | cons g7 h
      exact hl _ _ _ _ _ _ _ _ _ rfl
    rw [unrolled.eq_2 _ _ _ _ _ _ _ _ _ hlt]
    exact thenEach_below h (.node _ _ _ _ (.node _ _ _ _ (.node _ _ _ _ h0 h1) (.node _ _ _ _ h2 h3))
      (.node _ _ _ _ (.node _ _ _ _ h4 h5) (.node _ _ _ _ h6 h7)))

theorem unrolled_depth (l : List (Num K)) (r0 r1 r2 r3 r4 r5 r6 r7 : SumTree K) (d : Nat)
    (h0 : r0.depth ≤ d) (h1 : r1.depth ≤ d) (h2 : r2.depth ≤ d) (h3 : r3.depth ≤ d) (h4 : r4.depth ≤ d)
    (h5 : r5.depth ≤ d) (h6 : r6.depth ≤ d) (h7 : r7.depth ≤ d) :
    (unrolled r0 r1 r2 r3 r4 r5 r6 r7 l).depth ≤ d + l.length / 8 + 3 + l.length % 8 := by
  fun_induction unrolled r0 r1 r2 r3 r4 r5 r6 r7 l generalizing d with
  | case1 r0 r1 r2 r3 r4 r5 r6 r7 a0 a1 a2 a3 a4 a5 a6 a7 l ih =>
    have := ih (d + 1) (by simp [SumTree.depth, h0]) (by simp [SumTree.depth, h1]) (by simp [SumTree.depth, h2])
      (by simp [SumTree.depth, h3]) (by simp [SumTree.depth, h4]) (by simp [SumTree.depth, h5])
      (by simp [SumTree.depth, h6]) (by simp [SumTree.depth, h7])
    simp only [List.length_cons]
    omega
  | case2 r0 r1 r2 r3 r4 r5 r6 r7 l h =>
    refine (thenEach_depth _ _).trans ?_
    have hlt : l.length < 8 := by
      match l, h with
      | a0 :: a1 :: a2 :: a3 :: a4 :: a5 :: a6 :: a7 :: l, h => exact (h _ _ _ _ _ _ _ _ _ rfl).elim
      | [], _ => simp
      | [_], _ => simp
      | [_, _], _ => simp
      | [_, _, _], _ => simp
      | [_, _, _, _], _ => simp
      | [_, _, _, _, _], _ => simp
      | [_, _, _, _, _, _], _ => simp
      | [_, _, _, _, _, _, _], _ => simp
    simp only [SumTree.depth]
    omega

theorem short_list {α : Type} (l : List α)
    (h : ∀ (a0 a1 a2 a3 a4 a5 a6 a7 : α) (l' : List α), l = a0 :: a1 :: a2 :: a3 :: a4 :: a5 :: a6 :: a7 :: l' → False) :
    l.length < 8 := by
  match l, h with
  | a0 :: a1 :: a2 :: a3 :: a4 :: a5 :: a6 :: a7 :: l, h => exact (h _ _ _ _ _ _ _ _ _ rfl).elim
  | [], _ => simp
  | [_], _ => simp
  | [_, _], _ => simp
  | [_, _, _], _ => simp
  | [_, _, _, _], _ => simp
  | [_, _, _, _, _], _ => simp
  | [_, _, _, _, _, _], _ => simp
  | [_, _, _, _, _, _, _], _ => simp

/-- C185: fewer than eight numbers are added one after the other. -/
theorem sumBlock_short (l : List (Num K)) (h : l.length < 8) : sumBlock l = leftTree l := by
  unfold sumBlock
  split
  · simp only [List.length_cons] at h
    omega
  · rfl
  · rfl

theorem sumBlock_leaves (l : List (Num K)) (hl : l ≠ []) : ((sumBlock l).leaves : Multiset (Num K)) = l := by
  unfold sumBlock
  split
  · rename_i a0 a1 a2 a3 a4 a5 a6 a7 l
    rw [unrolled_leaves]
    have c : ∀ (x : Num K) (l : List (Num K)), ((x :: l : List (Num K)) : Multiset (Num K)) = {x} + l := by
      intro x l
      rw [Multiset.singleton_add]
      rfl
    simp only [SumTree.leaves, c]
    simp only [Multiset.coe_nil]
    abel
  · exact absurd rfl hl
  · rw [thenEach_leaves]
    rfl

theorem sumBlock_below (ws vs : List (Num K)) (h : List.Forall₂ Num.le ws vs) (hne : ws ≠ []) :
    (sumBlock ws).Below (sumBlock vs) := by
  by_cases h8 : ws.length < 8
  · rw [sumBlock_short ws h8, sumBlock_short vs (h.length_eq ▸ h8)]
    exact leftTree_brackets _ _ hne h
  · match ws, h8, h with
    | _ :: _ :: _ :: _ :: _ :: _ :: _ :: _ :: _, _,
        .cons g0 (.cons g1 (.cons g2 (.cons g3 (.cons g4 (.cons g5 (.cons g6 (.cons g7 h'))))))) =>
      exact unrolled_below _ _ h' _ _ _ _ _ _ _ _ _ _ _ _ _ _ _ _ (.leaf _ _ g0) (.leaf _ _ g1) (.leaf _ _ g2)
        (.leaf _ _ g3) (.leaf _ _ g4) (.leaf _ _ g5) (.leaf _ _ g6) (.leaf _ _ g7)
    | [], h, _ => simp at h
    | [_], h, _ => simp at h
    | [_, _], h, _ => simp at h
    | [_, _, _], h, _ => simp at h
    | [_, _, _, _], h, _ => simp at h
    | [_, _, _, _, _], h, _ => simp at h
    | [_, _, _, _, _, _], h, _ => simp at h
    | [_, _, _, _, _, _, _], h, _ => simp at h

theorem sumBlock_depth (l : List (Num K)) (h : l.length ≤ 128) : (sumBlock l).depth ≤ 25 := by
  unfold sumBlock
  split
  · rename_i a0 a1 a2 a3 a4 a5 a6 a7 l
    refine (unrolled_depth _ _ _ _ _ _ _ _ _ 0 ?_ ?_ ?_ ?_ ?_ ?_ ?_ ?_).trans ?_
    · exact le_rfl
    · exact le_rfl
    · exact le_rfl
    · exact le_rfl
    · exact le_rfl
    · exact le_rfl
    · exact le_rfl
    · exact le_rfl
    · simp only [List.length_cons] at h
      omega
  · simp [SumTree.depth]
  · rename_i x l hs
    have := short_list (x :: l) (fun a0 a1 a2 a3 a4 a5 a6 a7 l' e => by
      cases e
      exact hs _ _ _ _ _ _ _ _ rfl)
    refine (thenEach_depth _ _).trans ?_
    simp only [List.length_cons] at this
    simp only [SumTree.depth]
    omega

theorem splitAt8_spec (n : Nat) (h : 128 < n) : 0 < splitAt8 n ∧ splitAt8 n ≤ n / 2 ∧ n ≤ 2 * splitAt8 n + 15 := by
  unfold splitAt8
  omega

theorem pairwiseFuel_leaves (k : Nat) (l : List (Num K)) (hl : l ≠ []) :
    ((pairwiseFuel k l).leaves : Multiset (Num K)) = l := by
  induction k generalizing l with
  | zero => exact sumBlock_leaves l hl
  | succ k ih =>
    rw [pairwiseFuel]
    split_ifs with h
    · exact sumBlock_leaves l hl
    · have hs := splitAt8_spec l.length (by omega)
      have h1 : l.take (splitAt8 l.length) ≠ [] := by
        intro e
        have := congrArg List.length e
        simp only [List.length_take, List.length_nil] at this
        omega
      have h2 : l.drop (splitAt8 l.length) ≠ [] := by
        intro e
        have := congrArg List.length e
        simp only [List.length_drop, List.length_nil] at this
        omega
      rw [SumTree.leaves, ← Multiset.coe_add, ih _ h1, ih _ h2, Multiset.coe_add, List.take_append_drop]

theorem pairwiseFuel_below (k : Nat) (ws vs : List (Num K)) (h : List.Forall₂ Num.le ws vs) (hne : ws ≠ []) :
    (pairwiseFuel k ws).Below (pairwiseFuel k vs) := by
  induction k generalizing ws vs with
  | zero => exact sumBlock_below ws vs h hne
  | succ k ih =>
    rw [pairwiseFuel, pairwiseFuel, ← h.length_eq]
    split_ifs with hl
    · exact sumBlock_below ws vs h hne
    · have hs := splitAt8_spec ws.length (by omega)
      refine .node _ _ _ _ (ih _ _ (List.forall₂_take _ h) ?_) (ih _ _ (List.forall₂_drop _ h) ?_)
      · intro e
        have := congrArg List.length e
        simp only [List.length_take, List.length_nil] at this
        omega
      · intro e
        have := congrArg List.length e
        simp only [List.length_drop, List.length_nil] at this
        omega

theorem pairwiseFuel_depth (k : Nat) (l : List (Num K)) (hk : l.length ≤ k) (d : Nat) (hd : l.length ≤ 15 + 113 * 2 ^ d) :
    (pairwiseFuel k l).depth ≤ 25 + d := by
  induction k generalizing l d with
  | zero => exact (sumBlock_depth l (by omega)).trans (by omega)
  | succ k ih =>
    rw [pairwiseFuel]
    split_ifs with hl
    · exact (sumBlock_depth l hl).trans (by omega)
    · have hs := splitAt8_spec l.length (by omega)
      cases d with
      | zero => simp at hd; omega
      | succ d =>
        rw [pow_succ] at hd
        have h1 := ih (l.take (splitAt8 l.length)) (by rw [List.length_take]; omega) d
          (by rw [List.length_take]; omega)
        have h2 := ih (l.drop (splitAt8 l.length)) (by rw [List.length_drop]; omega) d
          (by rw [List.length_drop]; omega)
        rw [SumTree.depth]
        omega

theorem pairwiseFuel_enough (k m : Nat) (l : List (Num K)) (hk : l.length ≤ k) (hm : l.length ≤ m) :
    pairwiseFuel k l = pairwiseFuel m l := by
  induction k generalizing l m with
  | zero =>
    cases m with
    | zero => rfl
    | succ m => rw [pairwiseFuel, pairwiseFuel, if_pos (by omega)]
  | succ k ih =>
    cases m with
    | zero => rw [pairwiseFuel, pairwiseFuel, if_pos (by omega)]
    | succ m =>
      rw [pairwiseFuel, pairwiseFuel]
      split_ifs with hl
      · rfl
      · have hs := splitAt8_spec l.length (by omega)
        rw [ih m _ (by rw [List.length_take]; omega) (by rw [List.length_take]; omega),
          ih m _ (by rw [List.length_drop]; omega) (by rw [List.length_drop]; omega)]

/-- C185: the order of `np.sum`: fewer than eight numbers one after the other, and more than 128 by splitting at half the
length, rounded down to a multiple of eight. -/
theorem C185_recursion (l : List (Num K)) :
    (l.length < 8 → pairwiseTree l = leftTree l) ∧
    (128 < l.length → pairwiseTree l =
      .node (pairwiseTree (l.take (8 * (l.length / 16)))) (pairwiseTree (l.drop (8 * (l.length / 16))))) := by
  refine ⟨fun h => ?_, fun h => ?_⟩
  · rw [← sumBlock_short l h, pairwiseTree]
    cases hk : l.length with
    | zero => rfl
    | succ k => rw [pairwiseFuel, if_pos (by omega)]
  · have e : 8 * (l.length / 16) = splitAt8 l.length := by
      unfold splitAt8
      omega
    have hs := splitAt8_spec l.length h
    rw [e, pairwiseTree]
    obtain ⟨k, hk⟩ : ∃ k, l.length = k + 1 := ⟨l.length - 1, by omega⟩
    rw [hk, pairwiseFuel, if_neg (by omega), pairwiseTree, pairwiseTree]
    congr 1
    · rw [← hk]
      exact pairwiseFuel_enough _ _ _ (by rw [List.length_take]; omega) le_rfl
    · rw [← hk]
      exact pairwiseFuel_enough _ _ _ (by rw [List.length_drop]; omega) le_rfl

/-- C185: every number is added exactly once, and the brackets depend on the number of summands only, so that the
theorems on rounded scores, curves, importances and weighted predictions hold for `np.sum`. -/
theorem C185_all : SumsAll (pairwiseTree : List (Num K) → SumTree K) ∧
    SameBrackets (pairwiseTree : List (Num K) → SumTree K) := by
  refine ⟨fun ws h => Multiset.coe_eq_coe.1 (pairwiseFuel_leaves _ ws h), fun ws vs hne h => ?_⟩
  unfold pairwiseTree
  rw [← h.length_eq]
  exact pairwiseFuel_below _ ws vs h hne

theorem thenEach_opp (l : List (Num K)) {t t' : SumTree K} (ht : t.Opp t') :
    (thenEach t l).Opp (thenEach t' (l.map Num.neg)) := by
  induction l generalizing t t' with
  | nil => exact ht
  | cons x l ih => exact ih (.node _ _ _ _ ht (.leaf x))

theorem unrolled_opp (ws : List (Num K)) (r0 r1 r2 r3 r4 r5 r6 r7 s0 s1 s2 s3 s4 s5 s6 s7 : SumTree K)
    (h0 : r0.Opp s0) (h1 : r1.Opp s1) (h2 : r2.Opp s2) (h3 : r3.Opp s3) (h4 : r4.Opp s4) (h5 : r5.Opp s5)
    (h6 : r6.Opp s6) (h7 : r7.Opp s7) :
    (unrolled r0 r1 r2 r3 r4 r5 r6 r7 ws).Opp (unrolled s0 s1 s2 s3 s4 s5 s6 s7 (ws.map Num.neg)) := by
  fun_induction unrolled r0 r1 r2 r3 r4 r5 r6 r7 ws generalizing s0 s1 s2 s3 s4 s5 s6 s7 with
  | case1 r0 r1 r2 r3 r4 r5 r6 r7 a0 a1 a2 a3 a4 a5 a6 a7 l ih =>
    exact ih _ _ _ _ _ _ _ _ (.node _ _ _ _ h0 (.leaf _)) (.node _ _ _ _ h1 (.leaf _)) (.node _ _ _ _ h2 (.leaf _))
      (.node _ _ _ _ h3 (.leaf _)) (.node _ _ _ _ h4 (.leaf _)) (.node _ _ _ _ h5 (.leaf _))
      (.node _ _ _ _ h6 (.leaf _)) (.node _ _ _ _ h7 (.leaf _))
  | case2 r0 r1 r2 r3 r4 r5 r6 r7 l hl =>
    rw [unrolled.eq_2]
    · exact thenEach_opp l (.node _ _ _ _ (.node _ _ _ _ (.node _ _ _ _ h0 h1) (.node _ _ _ _ h2 h3))
        (.node _ _ _ _ (.node _ _ _ _ h4 h5) (.node _ _ _ _ h6 h7)))
    · intro a0 a1 a2 a3 a4 a5 a6 a7 l' e
      have h8 := short_list l hl
      have := congrArg List.length e
      simp only [List.length_map, List.length_cons] at this
      omega

theorem sumBlock_opp (ws : List (Num K)) (hne : ws ≠ []) : (sumBlock ws).Opp (sumBlock (ws.map Num.neg)) := by
  by_cases h8 : ws.length < 8
  · rw [sumBlock_short ws h8, sumBlock_short _ (by simpa using h8)]
    exact leftTree_signBlind ws hne
  · match ws, h8 with
    | _ :: _ :: _ :: _ :: _ :: _ :: _ :: _ :: l, _ =>
      exact unrolled_opp l _ _ _ _ _ _ _ _ _ _ _ _ _ _ _ _ (.leaf _) (.leaf _) (.leaf _) (.leaf _) (.leaf _)
        (.leaf _) (.leaf _) (.leaf _)
    | [], h => simp at h
    | [_], h => simp at h
    | [_, _], h => simp at h
    | [_, _, _], h => simp at h
    | [_, _, _, _], h => simp at h
    | [_, _, _, _, _], h => simp at h
    | [_, _, _, _, _, _], h => simp at h
    | [_, _, _, _, _, _, _], h => simp at h

theorem pairwiseFuel_opp (k : Nat) (ws : List (Num K)) (hne : ws ≠ []) :
    (pairwiseFuel k ws).Opp (pairwiseFuel k (ws.map Num.neg)) := by
  induction k generalizing ws with
  | zero => exact sumBlock_opp ws hne
  | succ k ih =>
    rw [pairwiseFuel, pairwiseFuel, List.length_map]
    split_ifs with hl
    · exact sumBlock_opp ws hne
    · have hs := splitAt8_spec ws.length (by omega)
      rw [← List.map_take, ← List.map_drop]
      refine .node _ _ _ _ (ih _ ?_) (ih _ ?_)
      · intro e
        have := congrArg List.length e
        simp only [List.length_take, List.length_nil] at this
        omega
      · intro e
        have := congrArg List.length e
        simp only [List.length_drop, List.length_nil] at this
        omega

/-- C185: the order does not look at the signs, so that Moran statistics do not change in the last digit either when the
variable is negated. -/
theorem C185_sign_blind : SignBlind (pairwiseTree : List (Num K) → SumTree K) := by
  intro ws hne
  unfold pairwiseTree
  rw [List.length_map]
  exact pairwiseFuel_opp _ ws hne

/-- C185: no number goes through more than 25 additions, plus one for every doubling of the length beyond 128. -/
theorem C185_depth (l : List (Num K)) (k : Nat) (h : l.length ≤ 15 + 113 * 2 ^ k) : (pairwiseTree l).depth ≤ 25 + k :=
  pairwiseFuel_depth _ l le_rfl k h

/-- C185: the error of a weighted prediction grows with the logarithm of the number of observations only: for up to
`15 + 113 * 2 ^ k` of them it is as after `26 + k` roundings of each summand. -/
theorem C185_error (ha : a.Ok) {ε η M : K} (hA : a.SignedAccurate ε η M) (k : Nat) (ws ps : List K)
    (hk : ws.length ≤ 15 + 113 * 2 ^ k) (hl : ws.length = ps.length) (hn : ws ≠ [])
    (hM : (1 + ε) ^ (25 + k) * ((1 + ε) * (List.zipWith (fun w p => |w * p|) ws ps).sum + ws.length * η) ≤ M) :
    ∃ v, predictEntryR a pairwiseTree (ws.map Num.fin) (ps.map Num.fin) = .fin v ∧
      |v - (List.zipWith (· * ·) ws ps).sum| ≤
        ((1 + ε) ^ (26 + k) - 1) * (List.zipWith (fun w p => |w * p|) ws ps).sum +
          (1 + ε) ^ (25 + k) * (ws.length * η) := by
  have := C128_error ha hA pairwiseTree C185_all.1 (25 + k) ws ps
    (fun l h => C185_depth l k (h ▸ hk)) hl hn hM
  rwa [show 25 + k + 1 = 26 + k by omega] at this

theorem thenEach_value (l : List (Num K)) (t : SumTree K) :
    (thenEach t l).value a = l.foldl (fun s x => Num.rnd a.op (.add s x)) (t.value a) := by
  induction l generalizing t with
  | nil => rfl
  | cons x l ih => exact ih (.node t (.leaf x))

theorem leftTree_fold (l : List (Num K)) (hl : ∀ x ∈ l, x.IsFl a) :
    (leftTree l).value a = l.foldl (fun s x => Num.rnd a.op (.add s x)) (.fin 0) := by
  cases l with
  | nil => rfl
  | cons x l =>
    refine (thenEach_value l (.leaf x)).trans ?_
    rw [List.foldl_cons]
    congr 1
    cases x with
    | fin v =>
      have := hl (.fin v) (by simp) v rfl
      simp only [SumTree.value, Num.add, Num.rnd, zero_add]
      exact this.symm
    | pinf => rfl
    | ninf => rfl
    | nan => rfl

/-- C185: with fewer than eight training observations, those without weight do not change a prediction at all: leaving
them out gives the same float. -/
theorem C185_few (ha : a.Ok) (qs : List (K × K)) (h8 : qs.length < 8) :
    predictEntryR a pairwiseTree (qs.map fun q => Num.fin q.1) (qs.map fun q => Num.fin q.2) =
      predictEntryR a pairwiseTree ((qs.filter fun q => decide (q.1 ≠ 0)).map fun q => Num.fin q.1)
        ((qs.filter fun q => decide (q.1 ≠ 0)).map fun q => Num.fin q.2) := by
  have hz : ∀ qs : List (K × K), qs.length < 8 →
      predictEntryR a pairwiseTree (qs.map fun q => Num.fin q.1) (qs.map fun q => Num.fin q.2) =
        qs.foldl (fun s q => Num.rnd a.op (.add s (Num.rnd a.op (.mul (.fin q.1) (.fin q.2))))) (.fin 0) := by
    intro qs h
    have e : List.zipWith (fun w p => Num.rnd a.op (.mul w p)) (qs.map fun q => Num.fin q.1)
        (qs.map fun q => Num.fin q.2) = qs.map fun q => Num.rnd a.op (.mul (.fin q.1) (.fin q.2)) := by
      rw [List.zipWith_map, List.zipWith_self]
    unfold predictEntryR
    rw [e, (C185_recursion _).1 (by simpa using h), leftTree_fold, List.foldl_map]
    intro x hx
    obtain ⟨q, -, rfl⟩ := List.mem_map.1 hx
    exact rnd_isFl ha _
  rw [hz qs h8, hz _ (lt_of_le_of_lt (List.length_filter_le _ _) h8)]
  have key : ∀ (qs : List (K × K)) (s : Num K), s.IsFl a →
      qs.foldl (fun s q => Num.rnd a.op (.add s (Num.rnd a.op (.mul (.fin q.1) (.fin q.2))))) s =
        (qs.filter fun q => decide (q.1 ≠ 0)).foldl
          (fun s q => Num.rnd a.op (.add s (Num.rnd a.op (.mul (.fin q.1) (.fin q.2))))) s := by
    intro qs
    induction qs with
    | nil => intro s _; rfl
    | cons q qs ih =>
      intro s hs
      by_cases h0 : q.1 = 0
      · rw [List.filter_cons_of_neg (by simp [h0]), List.foldl_cons, ← ih s hs]
        congr 1
        have : Num.rnd a.op (.mul (.fin q.1) (.fin q.2)) = .fin 0 := by
          simp only [Num.mul, Num.rnd, h0, zero_mul]
          exact ha.op.zero
        rw [this]
        cases s with
        | fin v =>
          simp only [Num.add, Num.rnd, add_zero]
          exact hs v rfl
        | pinf => rfl
        | ninf => rfl
        | nan => rfl
      · rw [List.filter_cons_of_pos (by simp [h0]), List.foldl_cons, List.foldl_cons, ih _ (rnd_isFl ha _)]
  refine key qs (.fin 0) fun x hx => ?_
  cases hx
  exact ha.op.zero

end

section
variable {K : Type} [Field K] [LinearOrder K] [IsStrictOrderedRing K] [FloorRing K]

/-- C185: in double precision with numpy's order, from distances to prediction: for up to `15 + 113 * 2 ^ k` training
observations a prediction by weight leaves the range of the local predictions, which are of size at most `B`, by at most
`(5 k + 131) 2⁻⁵³ B` and an underflow. For a million observations `k` is 14 and the factor about `2.3 * 10⁻¹⁴`. -/
theorem C185_range (env : Env K) (he : env.Ok)
    (hf : ∀ x ≤ 0, (double.arith : Arith K).Float (env.exp x)) (lazy : Bool)
    (dims : List (RowDim K)) (hd : ∀ t ∈ dims, t.Ok) (n : Nat) (n0 : 0 < n) (k : Nat) (hk : k ≤ 190)
    (hn : n ≤ 15 + 113 * 2 ^ k)
    (ps : List K) (hp : ps.length = n) (lo hi B : K) (hr : ∀ p ∈ ps, lo ≤ p ∧ p ≤ hi)
    (hB : ∀ p ∈ ps, |p| ≤ B) (hloB : |lo| ≤ B) (hhiB : |hi| ≤ B) (B1000 : B ≤ 2 ^ 900) :
    ∃ (row : List K) (v : K), weightRowR env double.arith lazy dims n pairwiseTree = .ok (row.map Num.fin) ∧
      predictEntryR double.arith pairwiseTree (row.map Num.fin) (ps.map Num.fin) = .fin v ∧
      ((∃ w ∈ row, w ≠ 0) →
        lo - ((5 * k + 131) / 2 ^ 53 * B + 1 / 2 ^ 800) ≤ v ∧
        v ≤ hi + ((5 * k + 131) / 2 ^ 53 * B + 1 / 2 ^ 800)) ∧
      ((∀ w ∈ row, w = 0) → v = 0) := by
  have hpow : 2 ^ k ≤ 2 ^ 190 := Nat.pow_le_pow_right (by norm_num) hk
  have hd' : ∀ ws : List (Num K), ws.length = n → (pairwiseTree ws).depth ≤ 25 + k :=
    fun ws h => C185_depth ws k (h ▸ hn)
  have h200 : n ≤ 2 ^ 200 := by
    refine hn.trans ((Nat.add_le_add_left (Nat.mul_le_mul_left 113 hpow) 15).trans ?_)
    norm_num
  have h50 : 25 + k ≤ 2 ^ 50 := (Nat.add_le_add_left hk 25).trans (by norm_num)
  have h := C128_range env he hf lazy dims hd n n0 h200 pairwiseTree pairwiseTree C185_all.1 C185_all.1 (25 + k) hd' hd'
    h50 ps hp lo hi B hr hB hloB hhiB B1000
  have e : (5 * ((25 + k : ℕ) : K) + 6) = 5 * k + 131 := by
    push_cast
    ring
  rw [e] at h
  exact h

end

/-- C185: with eight, an observation without weight can change a prediction, although it contributes nothing: seven
observations that predict 1 with weight 0.1 give 0.7, and with an eighth observation out of reach one unit in the last
place more. -/
theorem C185_out_of_reach :
    predictEntryR double.arith pairwiseTree (List.replicate 7 (.fin tenth)) (List.replicate 7 (.fin 1)) =
      .fin (double.round (7 / 10)) ∧
    predictEntryR double.arith pairwiseTree (List.replicate 7 (.fin tenth) ++ [.fin 0]) (List.replicate 8 (.fin 1)) =
      .fin (double.round (7 / 10) + 1 / 2 ^ 53) := by
  decide +kernel

/-- C185: `np.sum` of more than 128 numbers: 200 times 0.1 is added up to exactly 20, one after the other to more. -/
theorem C185_long :
    (pairwiseTree (List.replicate 200 (.fin tenth))).value double.arith = .fin 20 ∧
    (pairwiseTree (List.replicate 200 (.fin tenth))).depth = 16 ∧
    (leftTree (List.replicate 200 (.fin tenth))).depth = 199 ∧
    (leftTree (List.replicate 200 (.fin tenth))).value double.arith ≠ .fin 20 := by
  decide +kernel

/-- The hypotheses of `C185_few` and `C185_depth` hold, with observations out of reach. -/
example : [(tenth, (1 : ℚ)), (0, 5), (1 / 2, -1)].length < 8 ∧
    predictEntryR double.arith pairwiseTree [.fin tenth, .fin 0, .fin (1 / 2)] [.fin 1, .fin 5, .fin (-1)] =
      predictEntryR double.arith pairwiseTree [.fin tenth, .fin (1 / 2)] [.fin 1, .fin (-1)] ∧
    (10 : ℕ) ^ 6 ≤ 15 + 113 * 2 ^ 14 :=
  ⟨by decide, by decide +kernel, by decide⟩

end Geo
