import Verif.Model.WeightModel
/-
Model of `WeightModel.importance_score_global` and `WeightModel.interaction_score_global`
(`georegression/weight_model.py:502-624`).
-/
namespace Geo
variable {K : Type} [Field K] [LinearOrder K] [FloorRing K] {F C S : Type}

/-- numpy's global generator: `np.random.permutation` and `np.random.shuffle` rearrange `n` items
by a list of positions (`weight_model.py:524`, `593-595`). -/
structure PRng (S : Type) where
  perm : S → Nat → List Nat × S

/-- `k` permutations of `n` items, drawn one after the other (`weight_model.py:523-524`). -/
def drawPerms (g : PRng S) (n : Nat) : Nat → S → List (List Nat) × S
  | 0, s => ([], s)
  | k + 1, s =>
    ((g.perm s n).1 :: (drawPerms g n k (g.perm s n).2).1, (drawPerms g n k (g.perm s n).2).2)

/-- What the two methods read from the object (`weight_model.py:520-548`, `578-607`). -/
structure FittedParts (K F : Type) where
  X : Mat K
  y : List K
  score : K
  ests : List (Option F)

/-- Reading the attributes. Simplifications: the attributes are read at once, so that a missing
one (`TypeError` from `None`) is noticed before random numbers are drawn; attributes of two
different fits (see C42) count as missing (`weight_model.py:520-548`, `578-607`). -/
def fittedParts (st : WMState K F C) : Except Err (FittedParts K F) :=
  match st.N, st.nFeatures, st.X, st.y, st.estimators, st.score with
  | some N, some nf, some X, some y, some es, some sc =>
    if N = X.r ∧ nf = X.c ∧ y.length = N then .ok ⟨X, y, sc, es⟩ else .error .typeError
  | _, _, _, _, _, _ => .error .typeError

/-- Entry `[a, f, r]` of the tiled input of location `i` after the loop over the features
(`weight_model.py:530-536`). The permutation of feature `f` and repeat `r` is number
`f * R + r` in the order in which `np.apply_along_axis` draws them (`weight_model.py:523-524`). -/
def tiledEntry (X : Mat K) (perms : List (List Nat)) (R i a f r : Nat) : K :=
  if a = f then X.get ((perms.getD (f * R + r) []).getD i 0) f else X.get i a

/-- The input of estimator `i`: flattened and transposed, one row per pair of feature and repeat
(`weight_model.py:539`). -/
def permBatch (X : Mat K) (perms : List (List Nat)) (R i : Nat) : List (List K) :=
  (List.range (X.c * R)).map fun k =>
    (List.range X.c).map fun a => tiledEntry X perms R i a (k / R) (k % R)

/-- The predictions of estimator `i`, flat (`weight_model.py:527-528`, `542`): `IndexError` if the
list of estimators is too short. -/
def permPredict (L : Learner K F) (d : FittedParts K F) (perms : List (List Nat)) (R i : Nat) :
    Except Err (List K) := do
  let e ← pyGet d.ests i
  let f ← cachedOne e
  .ok ((permBatch d.X perms R i).map (L.predict f))

/-- `score_decrease[f, r]` (`weight_model.py:544-548`): the predictions are reshaped to features
and repeats. -/
def permDecrease (d : FittedParts K F) (R : Nat) (table : List (List K)) (f r : Nat) :
    Except Err K :=
  (skR2 d.y (table.map fun row => row.getD (f * R + r) 0)).map fun sc => d.score - sc

/-- All score decreases, one row per feature (`weight_model.py:527-548`). -/
def permDecreases (L : Learner K F) (d : FittedParts K F) (perms : List (List Nat)) (R : Nat) :
    Except Err (List (List K)) := do
  let table ← mapE (permPredict L d perms R) (List.range d.X.r)
  mapE (fun f => mapE (permDecrease d R table f) (List.range R)) (List.range d.X.c)

/-- `np.concatenate([old, new], axis=1)`, or `new` if there is no old array
(`weight_model.py:551-556`). -/
def appendTrials (old : Option (List (List K))) (new : List (List K)) :
    Except Err (List (List K)) :=
  match old with
  | none => .ok new
  | some old =>
    if old.length = new.length then .ok (List.zipWith (· ++ ·) old new) else .error .valueError

/-- `np.average` of a row (`weight_model.py:558`, `578`). -/
def meanL (l : List K) : K := l.sum / (l.length : K)

/-- What a call leaves behind (`weight_model.py:551-559`, `618-624`). -/
structure CallOut (R K F C S : Type) where
  result : Except Err R
  state : WMState K F C
  rng : S

/-- `importance_score_global` (`weight_model.py:502-559`). `np.apply_along_axis` raises
`ValueError` for zero repeats; a negative number is rejected in the same way by `np.empty` and is
not modelled. -/
def importanceGlobal (L : Learner K F) (g : PRng S) (p : WMParams K C) (st : WMState K F C) (s : S)
    (R : Nat) : CallOut (List K) K F C S :=
  if !p.cacheData || !p.cacheEstimator then ⟨.error .exception, st, s⟩
  else
    match fittedParts st with
    | .error e => ⟨.error e, st, s⟩
    | .ok d =>
      if R = 0 then ⟨.error .valueError, st, s⟩
      else
        match permDecreases L d (drawPerms g d.X.r (d.X.c * R) s).1 R with
        | .error e => ⟨.error e, st, (drawPerms g d.X.r (d.X.c * R) s).2⟩
        | .ok dec =>
          match appendTrials st.permDecrease dec with
          | .error e => ⟨.error e, st, (drawPerms g d.X.r (d.X.c * R) s).2⟩
          | .ok all => ⟨.ok (all.map meanL), { st with permDecrease := some all },
              (drawPerms g d.X.r (d.X.c * R) s).2⟩

/-! ### Interaction -/

/-- `np.random.shuffle` of a list (`weight_model.py:593-595`). -/
def shuffleList (g : PRng S) (s : S) (l : List Nat) : List Nat × S :=
  ((g.perm s l.length).1.map fun k => l.getD k 0, (g.perm s l.length).2)

/-- Row `i` of `X_permuted` (`weight_model.py:590-596`): columns `a` and `b` taken from the rows
given by the two index lists. -/
def pairRow (X : Mat K) (a b : Nat) (ia ib : List Nat) (i : Nat) : List K :=
  (List.range X.c).map fun k =>
    if k = b then X.get (ib.getD i 0) k else if k = a then X.get (ia.getD i 0) k else X.get i k

/-- Prediction of one stored estimator at one row (`weight_model.py:599-603`). -/
def zipPredict (L : Learner K F) (e : Option F × List K) : Except Err K :=
  (cachedOne e.1).map fun f => L.predict f e.2

/-- The score decrease of one repeat (`weight_model.py:599-607`): estimators and rows are zipped,
so the shorter sequence decides. -/
def pairDecrease (L : Learner K F) (d : FittedParts K F) (a b : Nat) (ia ib : List Nat) :
    Except Err K := do
  let ps ← mapE (zipPredict L) (d.ests.zip ((List.range d.X.r).map (pairRow d.X a b ia ib)))
  let sc ← skR2 d.y ps
  .ok (d.score - sc)

/-- The repeats of one pair of features (`weight_model.py:588-608`): the same index array is
shuffled twice. -/
def pairRepeats (L : Learner K F) (g : PRng S) (d : FittedParts K F) (a b : Nat) :
    Nat → S → Except Err (List K) × S
  | 0, s => (.ok [], s)
  | r + 1, s =>
    let one := shuffleList g s (List.range d.X.r)
    let two := shuffleList g one.2 one.1
    match pairDecrease L d a b one.1 two.1 with
    | .error e => (.error e, two.2)
    | .ok v =>
      match pairRepeats L g d a b r two.2 with
      | (.error e, s) => (.error e, s)
      | (.ok vs, s) => (.ok (v :: vs), s)

/-- The pairs of features, in the order of the two loops (`weight_model.py:582-583`). -/
def featurePairs (n : Nat) : List (Nat × Nat) :=
  (List.range n).flatMap fun a => ((List.range n).filter fun b => a < b).map fun b => (a, b)

/-- The loops over the pairs (`weight_model.py:582-615`). -/
def pairLoop (L : Learner K F) (g : PRng S) (d : FittedParts K F) (R : Nat) :
    List (Nat × Nat) → S → Except Err (List ((Nat × Nat) × List K)) × S
  | [], s => (.ok [], s)
  | ab :: rest, s =>
    match pairRepeats L g d ab.1 ab.2 R s with
    | (.error e, s) => (.error e, s)
    | (.ok vs, s) =>
      match pairLoop L g d R rest s with
      | (.error e, s) => (.error e, s)
      | (.ok l, s) => (.ok ((ab, vs) :: l), s)

/-- `interaction_matrix[a, b, r]` after the loops (`weight_model.py:581`, `610-615`): `np.empty`
leaves whatever the memory holds (`junk`); only the entries with `a < b` are assigned. -/
def pairMatrix (n R : Nat) (junk : Nat → Nat → Nat → K) (single : List K)
    (l : List ((Nat × Nat) × List K)) : Arr3 K :=
  ⟨n, n, R, fun a b r =>
    match l.lookup (a, b) with
    | some vs => vs.getD r 0 - single.getD a 0 - single.getD b 0
    | none => junk a b r⟩

/-- `M + M.T` for a three-dimensional array (`weight_model.py:617`): `.T` reverses all axes, and
the axes are broadcast. -/
def addTranspose (M : Arr3 K) : Except Err (Arr3 K) :=
  match bcast M.a M.c, bcast M.b M.b, bcast M.c M.a with
  | .ok a, .ok b, .ok c => .ok ⟨a, b, c, fun i j k =>
      M.get (if M.a = 1 then 0 else i) j (if M.c = 1 then 0 else k) +
        M.get (if M.a = 1 then 0 else k) j (if M.c = 1 then 0 else i)⟩
  | _, _, _ => .error .valueError

/-- `np.concatenate([old, new], axis=2)`, or `new` (`weight_model.py:618-621`). -/
def appendArr3 (old : Option (Arr3 K)) (new : Arr3 K) : Except Err (Arr3 K) :=
  match old with
  | none => .ok new
  | some o =>
    if o.a = new.a ∧ o.b = new.b then
      .ok ⟨o.a, o.b, o.c + new.c, fun i j k => if k < o.c then o.get i j k else new.get i j (k - o.c)⟩
    else .error .valueError

/-- `np.average(M, axis=2)` (`weight_model.py:623`). -/
def meanArr3 (M : Arr3 K) : Mat K :=
  ⟨M.a, M.b, fun i j => meanL ((List.range M.c).map (M.get i j))⟩

/-- `interaction_score_global` after the single-feature scores are known
(`weight_model.py:578-624`). -/
def interactionWith (L : Learner K F) (g : PRng S) (junk : Nat → Nat → Nat → K)
    (st : WMState K F C) (s : S) (R : Nat) (single : List K) : CallOut (Mat K) K F C S :=
  match fittedParts st with
  | .error e => ⟨.error e, st, s⟩
  | .ok d =>
    match pairLoop L g d R (featurePairs d.X.c) s with
    | (.error e, s) => ⟨.error e, st, s⟩
    | (.ok l, s) =>
      match addTranspose (pairMatrix d.X.c R junk single l) with
      | .error e => ⟨.error e, st, s⟩
      | .ok M =>
        match appendArr3 st.interaction M with
        | .error e => ⟨.error e, st, s⟩
        | .ok all => ⟨.ok (meanArr3 all), { st with interaction := some all }, s⟩

/-- `interaction_score_global` (`weight_model.py:560-624`). Without stored single-feature scores
`importance_score_global()` is called, with five repeats. -/
def interactionGlobal (L : Learner K F) (g : PRng S) (junk : Nat → Nat → Nat → K)
    (p : WMParams K C) (st : WMState K F C) (s : S) (R : Nat) : CallOut (Mat K) K F C S :=
  if !p.cacheData || !p.cacheEstimator then ⟨.error .exception, st, s⟩
  else
    match st.permDecrease with
    | some dec => interactionWith L g junk st s R (dec.map meanL)
    | none =>
      match importanceGlobal L g p st s 5 with
      | ⟨.error e, st, s⟩ => ⟨.error e, st, s⟩
      | ⟨.ok single, st, s⟩ => interactionWith L g junk st s R single

end Geo
