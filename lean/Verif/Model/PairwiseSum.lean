import Verif.Model.Rounded
/-
Model of the order in which numpy adds up a contiguous row of numbers (`pairwise_sum` in numpy 1.24), as used by
`np.sum`, `np.mean` and `np.average` on rows of floats.
-/
namespace Geo
variable {K : Type}

/-- One number after the other, after a first sum: the loop for what is left over after the last group of eight, used by
the sums at `weight_matrix.py:196`, `weight_model.py:425`. -/
def thenEach (t : SumTree K) (l : List (Num K)) : SumTree K := l.foldl (fun t y => .node t (.leaf y)) t

/-- Eight running sums, each taking every eighth number; at the end they are added in pairs and the numbers left over
one after the other (sums of 8 to 128 numbers, `weight_matrix.py:196`, `weight_model.py:425`). -/
def unrolled (r0 r1 r2 r3 r4 r5 r6 r7 : SumTree K) : List (Num K) → SumTree K
  | a0 :: a1 :: a2 :: a3 :: a4 :: a5 :: a6 :: a7 :: l =>
    unrolled (.node r0 (.leaf a0)) (.node r1 (.leaf a1)) (.node r2 (.leaf a2)) (.node r3 (.leaf a3))
      (.node r4 (.leaf a4)) (.node r5 (.leaf a5)) (.node r6 (.leaf a6)) (.node r7 (.leaf a7)) l
  | l => thenEach (.node (.node (.node r0 r1) (.node r2 r3)) (.node (.node r4 r5) (.node r6 r7))) l

/-- Up to 128 numbers: fewer than eight one after the other, more with eight running sums (`weight_matrix.py:196`,
`weight_model.py:425`). -/
def sumBlock [Zero K] : List (Num K) → SumTree K
  | a0 :: a1 :: a2 :: a3 :: a4 :: a5 :: a6 :: a7 :: l =>
    unrolled (.leaf a0) (.leaf a1) (.leaf a2) (.leaf a3) (.leaf a4) (.leaf a5) (.leaf a6) (.leaf a7) l
  | [] => .leaf (.fin 0)
  | x :: l => thenEach (.leaf x) l

/-- Where a long row is split: half of it, rounded down to a multiple of eight (`weight_matrix.py:196`,
`weight_model.py:425`). -/
def splitAt8 (n : Nat) : Nat := n / 2 - n / 2 % 8

/-- The whole sum; the first argument bounds the number of splits (`weight_matrix.py:196`, `weight_model.py:425`). -/
def pairwiseFuel [Zero K] : Nat → List (Num K) → SumTree K
  | 0, l => sumBlock l
  | k + 1, l =>
    if l.length ≤ 128 then sumBlock l
    else .node (pairwiseFuel k (l.take (splitAt8 l.length))) (pairwiseFuel k (l.drop (splitAt8 l.length)))

/-- The order of `np.sum` of a contiguous row. Every split shortens the row, so that as many splits as there are numbers
are enough (`weight_matrix.py:196`, `weight_model.py:425`). -/
def pairwiseTree [Zero K] (l : List (Num K)) : SumTree K := pairwiseFuel l.length l

end Geo
