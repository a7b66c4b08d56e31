import Verif.Basic.Par
import Verif.Model.Stacking
/-
The `prange` loop of `stacking_numba` (`stacking_model.py:530-636`) as a program of atomic steps on
shared memory. The CSR arrays, the targets and `alpha` are only read, so they are parameters;
everything that the loop body allocates is private to the iteration; the four result lists are
shared.
-/
namespace Geo
namespace Par
variable {K : Type} [Field K] [LinearOrder K] {GC GB : Type}

/-- The four result lists of `stacking_numba` (`stacking_model.py:546-549`). -/
inductive NumbaList
  | coef | intercept | predict | score
  deriving DecidableEq

/-- An element of one of these lists; `empty` is what the lists are created with
(`stacking_model.py:546-549`). -/
inductive NumbaCell (K GC GB : Type)
  | empty
  | coef (c : GC)
  | intercept (b : GB)
  | num (x : K)

/-- The local variables of an iteration (`stacking_model.py:568-630`): `X_fit_T`, `current_column`,
the result of `ridge_cholesky`, `X_predict`, and the two halves of the scan for the own index
(`available_iter_i`, and whether the loop has been left by `break`). -/
structure StackLocal (K GC GB : Type) where
  table : Nat → Nat → K
  col : Nat
  est : Option (GC × GB)
  query : Nat → K
  pos : Nat
  found : Bool

/-- Local variables before the loop body: `np.zeros` for the tables (`stacking_model.py:568`,
`612`). -/
def StackLocal.init : StackLocal K GC GB := ⟨fun _ _ => 0, 0, none, fun _ => 0, 0, false⟩

/-- `current_column = 0` (`stacking_model.py:579`). -/
def fillStart : Act (NumbaList × Nat) (NumbaCell K GC GB) (StackLocal K GC GB) :=
  fun l m => ({ l with col := 0 }, m)

/-- One pass of the inner loop (`stacking_model.py:580-589`), for the stored index `e.1` with value
`e.2`. A write beyond the last column is not modelled as an error (numba does not check bounds);
`numba_writes_in_bounds` shows that it does not happen. -/
def fillStep (nb : List Nat) (r : Nat) (e : Nat × K) :
    Act (NumbaList × Nat) (NumbaCell K GC GB) (StackLocal K GC GB) :=
  fun l m =>
    if e.1 ∈ nb then
      ({ l with
        table := Function.update l.table r (Function.update (l.table r) l.col e.2)
        col := l.col + 1 }, m)
    else (l, m)

/-- The table as the list of rows of `X_fit_T.T` (`stacking_model.py:605`). -/
def StackLocal.rows (l : StackLocal K GC GB) (m n : Nat) : List (List K) :=
  (List.range m).map fun t => (List.range n).map fun r => l.table r t

/-- `ridge_cholesky(X_fit_T.T, y_fit, alpha, weight_fit)` (`stacking_model.py:591-605`). A failure
leaves `est` empty: nothing is stored afterwards. -/
def solveStep (M : Learner K (GC × GB)) (m n : Nat) (ys ws : List K) :
    Act (NumbaList × Nat) (NumbaCell K GC GB) (StackLocal K GC GB) :=
  fun l s => ({ l with est := (M.fit 0 (l.rows m n) ys ws).toOption }, s)

/-- `score_fit_list[i] = score_fit` (`stacking_model.py:607-610`). -/
def storeScore (M : Learner K (GC × GB)) (m n : Nat) (ys : List K) (i : Nat) :
    Act (NumbaList × Nat) (NumbaCell K GC GB) (StackLocal K GC GB) :=
  fun l s => (l, match l.est with
    | some g => Function.update s (.score, i) (.num (numbaR2 ys ((l.rows m n).map (M.predict g))))
    | none => s)

/-- Beginning of the scan of a row for the own index (`stacking_model.py:621`). -/
def scanStart : Act (NumbaList × Nat) (NumbaCell K GC GB) (StackLocal K GC GB) :=
  fun l m => ({ l with found := false }, m)

/-- One pass of the scan (`stacking_model.py:621-623`): position `e.2` holds the index `e.1`. -/
def scanStep (i : Nat) (e : Nat × Nat) :
    Act (NumbaList × Nat) (NumbaCell K GC GB) (StackLocal K GC GB) :=
  fun l m => if l.found then (l, m) else ({ l with pos := e.2, found := e.1 == i }, m)

/-- `X_predict[r] = X_meta_T_data[... + available_iter_i]` (`stacking_model.py:625-628`). -/
def scanTake (data : List K) (r : Nat) :
    Act (NumbaList × Nat) (NumbaCell K GC GB) (StackLocal K GC GB) :=
  fun l m => ({ l with query := Function.update l.query r (data.getD l.pos 0) }, m)

/-- `coef_list[i] = coef.T` (`stacking_model.py:632`). -/
def storeCoef (i : Nat) : Act (NumbaList × Nat) (NumbaCell K GC GB) (StackLocal K GC GB) :=
  fun l s => (l, match l.est with
    | some g => Function.update s (.coef, i) (.coef g.1)
    | none => s)

/-- `intercept_list[i] = intercept` (`stacking_model.py:633`). -/
def storeIntercept (i : Nat) : Act (NumbaList × Nat) (NumbaCell K GC GB) (StackLocal K GC GB) :=
  fun l s => (l, match l.est with
    | some g => Function.update s (.intercept, i) (.intercept g.2)
    | none => s)

/-- `y_predict_list[i] = np.dot(X_predict, coef) + intercept` (`stacking_model.py:630`, `634`). -/
def storePredict (M : Learner K (GC × GB)) (n i : Nat) :
    Act (NumbaList × Nat) (NumbaCell K GC GB) (StackLocal K GC GB) :=
  fun l s => (l, match l.est with
    | some g => Function.update s (.predict, i) (.num (M.predict g ((List.range n).map l.query)))
    | none => s)

/-- Filling row `r` of `X_fit_T` (`stacking_model.py:573-589`). -/
def fillActs (Xm : Csr K) (nb : List Nat) (e : Nat × Nat) :
    List (Act (NumbaList × Nat) (NumbaCell K GC GB) (StackLocal K GC GB)) :=
  fillStart :: ((Xm.rowIdx e.1).zip (Xm.rowData e.1)).map (fillStep nb e.2)

/-- Filling element `r` of `X_predict` (`stacking_model.py:613-628`). -/
def queryActs (Xm : Csr K) (i : Nat) (e : Nat × Nat) :
    List (Act (NumbaList × Nat) (NumbaCell K GC GB) (StackLocal K GC GB)) :=
  scanStart :: (Xm.rowIdx e.1).zipIdx.map (scanStep i) ++ [scanTake (Xm.rowData e.1) e.2]

/-- Iteration `i` of `stacking_numba` (`stacking_model.py:551-634`). -/
def stackingActs (M : Learner K (GC × GB)) (Xm : Csr K) (nm : Csr Bool) (A : Csr K) (Sm : Csr Nat)
    (y : Nat → K) (i : Nat) :
    List (Act (NumbaList × Nat) (NumbaCell K GC GB) (StackLocal K GC GB)) :=
  let nb := (nm.rowIdx i).filter fun k => k != i
  let sample := Sm.rowIdx i
  let ws := (((A.rowIdx i).zip (A.rowData i)).filter fun e => e.1 != i).map Prod.snd
  sample.zipIdx.flatMap (fillActs Xm nb) ++
    [solveStep M nb.length sample.length (nb.map y) ws,
      storeScore M nb.length sample.length (nb.map y) i] ++
    sample.zipIdx.flatMap (queryActs Xm i) ++
    [storeCoef i, storeIntercept i, storePredict M sample.length i]

end Par

/-- What `fit` reads from the result lists for location `i` (`stacking_model.py:657-679`): the
prediction, the estimator put together from coefficients and intercept, the score. -/
def readNumba {K F GC GB : Type} (base : List F) (Sm : Csr Nat)
    (mem : Par.NumbaList × Nat → Par.NumbaCell K GC GB) (i : Nat) :
    Option (MetaOut K F (GC × GB)) :=
  match mem (.predict, i), mem (.coef, i), mem (.intercept, i), mem (.score, i) with
  | .num p, .coef c, .intercept b, .num sc =>
    some ⟨p, .stacked (c, b) ((Sm.rowIdx i).filterMap fun j => base[j]?), some sc⟩
  | _, _, _, _ => none

end Geo
