import Verif.Model.RoundedAle
/-
Model of `global_ALE` in floating point, with the parts it shares with `weighted_ale` taken from
`Verif.Model.RoundedAle`.
-/
namespace Geo
variable {K F : Type} [Field K] [LinearOrder K]

/-- `df.groupby(1).apply(lambda x: np.average(x[0])).values` (`weight_model.py:736`): the rounded sum over the
rounded number of members. The differences (`weight_model.py:729`) are rounded. -/
def groupMeansR (a : Arith K) (shape : List (Num K) → SumTree K) (idx : List Nat) (ps : List (K × K)) :
    List (Num K) :=
  (uniqueL idx).map fun k => Num.rnd a.op (.div
    (sumR a shape ((members idx k).map fun i =>
      Num.rnd a.op (.sub (.fin (ps.getD i (0, 0)).2) (.fin (ps.getD i (0, 0)).1))))
    (.fin (((members idx k).length : Nat) : K)))

/-- The averaging part of `global_ALE` (`weight_model.py:728-755`), which always centres. -/
def globalFinishR (a : Arith K) (shape : List (Num K) → SumTree K) (idx : List Nat) (ps : List (K × K)) :
    Except Err (List (Num K)) :=
  if ps.length ≠ idx.length then .error .valueError
  else aleFinishR a shape true (.fin 0) (bincount idx) (accumulateR a (groupMeansR a shape idx ps))

/-- `global_ALE` (`weight_model.py:701-755`) with features and arithmetic of the format `fmt`. -/
def globalAleR {C : Type} [IsStrictOrderedRing K] [FloorRing K] (fmt : Fmt) (shape : List (Num K) → SumTree K)
    (L : Learner K F) (st : WMState K F C) (feature : Nat) : Except Err (List K × List (Num K)) :=
  match st.X, st.estimators with
  | some X, some es =>
    if X.c ≤ feature then .error .indexError
    else
      match adaptiveGridR fmt (X.col feature) 1 with
      | .error e => .error e
      | .ok (q, _) =>
        match mapE (fun i => pyGet q (i - 1)) (aleIdx q (X.col feature)) with
        | .error e => .error e
        | .ok lows =>
          match mapE (fun i => pyGet q i) (aleIdx q (X.col feature)) with
          | .error e => .error e
          | .ok highs =>
            match mapE (fun i => globalPair L X feature lows highs i (es.getD i none))
                (List.range es.length) with
            | .error e => .error e
            | .ok ps => (globalFinishR fmt.arith shape (aleIdx q (X.col feature)) ps).map fun ale => (q, ale)
  | _, _ => .error .typeError

end Geo
