import Verif.Model.Viz
/-
Model of `plot_ale` (`georegression/visualize/ale.py:9-27`): the line and the bars. Colours, labels
and grids of the figure are not modelled.
-/
set_option linter.unusedSectionVars false
namespace Geo
variable {K : Type} [Field K] [LinearOrder K] [IsStrictOrderedRing K] [FloorRing K]

/-- The range of the bars (`visualize/ale.py:20`, numpy's `_get_outer_edges`): smallest and largest
value, half a unit to both sides if they are equal, `(0, 1)` without values. -/
def histRange (xs : List K) : K × K :=
  if xs.length = 0 then (0, 1)
  else if minOf xs = maxOf xs then (minOf xs - 1 / 2, maxOf xs + 1 / 2)
  else (minOf xs, maxOf xs)

/-- `np.linspace(first, last, n + 1)`, the edges of `n` bars (`visualize/ale.py:20`). -/
def histEdge (lo hi : K) (n k : Nat) : K := lo + (hi - lo) * k / n

/-- The bar of a value in numpy's `histogram` (`visualize/ale.py:20`): a first guess `g`, with the
right end moved into the last bar, is lowered by one if the value is left of the bar, then raised
by one if it is at or right of the next edge and the bar is not the last. -/
def histBin (edge : Nat → K) (n g : Nat) (x : K) : Nat :=
  let g1 := if g = n then g - 1 else g
  let g2 := if x < edge g1 then g1 - 1 else g1
  if edge (g2 + 1) ≤ x ∧ g2 ≠ n - 1 then g2 + 1 else g2

/-- The guess: `((x - first) * (n / (last - first))).astype(int)` (`visualize/ale.py:20`). -/
def histGuess (lo hi : K) (n : Nat) (x : K) : Nat := ⌊(x - lo) * (n / (hi - lo))⌋₊

/-- `np.bincount(indices, minlength=n)`, the heights of the bars (`visualize/ale.py:20`). -/
def histCounts (edge : Nat → K) (guess : K → Nat) (n : Nat) (xs : List K) : List Nat :=
  (List.range n).map fun k => xs.countP fun x => decide (histBin edge n (guess x) x = k)

/-- What `plot_ale` draws (`visualize/ale.py:12-20`). -/
structure AleFigure (K : Type) where
  line : List (K × K)
  edges : List K
  heights : List Nat

/-- `plot_ale` (`visualize/ale.py:9-27`), in exact arithmetic: `ValueError` from matplotlib if the
line's coordinates differ in number; ten bars. -/
def plotAle (fvals ale xs : List K) : Except Err (AleFigure K) :=
  if fvals.length ≠ ale.length then .error .valueError
  else .ok
    { line := fvals.zip ale
      edges := (List.range 11).map (histEdge (histRange xs).1 (histRange xs).2 10)
      heights := histCounts (histEdge (histRange xs).1 (histRange xs).2 10)
        (histGuess (histRange xs).1 (histRange xs).2 10) 10 xs }

end Geo
