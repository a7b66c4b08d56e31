import Verif.Model.Randomised
/-
The experiments of `georegression/simulation` that fit models and write what they found: the
repeated fits of `simulation_for_STST_variation.py`, the comparison `fit_models` and the parameter
search `test_models` of `simulation_for_fitting.py` (copied in `simulation_for_robust.py` and
`simulation_for_data_size.py`). Printing is left out; the clock is an arbitrary list of numbers.
-/
namespace Geo
variable {K : Type} [Field K] [LinearOrder K] [FloorRing K] {F G C S : Type}

/-! ### Records -/

/-- A value in a record: a number, `nan`, a truth value or a text
(`simulation_for_fitting.py:919-923`). -/
inductive JVal (K : Type)
  | num (x : K)
  | nan
  | flag (b : Bool)
  | text (t : String)

/-- A Python dictionary with text keys, in order of insertion (`simulation_for_fitting.py:41`). -/
abbrev Record (K : Type) := List (String × JVal K)

/-- `d[k] = v`: a new key goes to the end, an old one keeps its place
(`simulation_for_fitting.py:55-57`). -/
def Record.put (d : Record K) (k : String) (v : JVal K) : Record K :=
  if d.any fun e => e.1 == k then d.map fun e => if e.1 == k then (k, v) else e else d ++ [(k, v)]

/-- `d[k]` (`simulation_for_fitting.py:886-888`). -/
def Record.find (d : Record K) (k : String) : Option (JVal K) := d.lookup k

/-- A sequence of assignments (`simulation_for_fitting.py:55-57`,
`simulation_for_STST_variation.py:59-66`). -/
def Record.puts (d : Record K) (l : List (String × JVal K)) : Record K :=
  l.foldl (fun d e => d.put e.1 e.2) d

/-- `{**result, **info}` (`simulation_for_fitting.py:123`). -/
def Record.merge (result info : Record K) : Record K := result.puts info

/-- The score of a model as a value: `nan` for a single location (`simulation_for_fitting.py:55`). -/
def scoreVal : Option K → JVal K
  | some x => .num x
  | none => .nan

/-- The files: the lines of each, in order (`simulation_for_fitting.py:124-125`). -/
abbrev Lines (K : Type) := String → List (Record K)

/-- `open(path, "a")` and one `write` per line (`simulation_for_fitting.py:124-125`, `868-883`). -/
def Lines.append (fs : Lines K) (path : String) (l : List (Record K)) : Lines K :=
  fun q => if q = path then fs q ++ l else fs q

/-! ### Repeated fits -/

/-- Repeated fits of one object: base score and stacking score of each
(`simulation_for_STST_variation.py:49-61`). -/
def repeatFits (fit : SState K F G C → S → SOut Unit K F G C S) :
    Nat → SState K F G C → S → Except Err (List (Option K × Option K)) × S
  | 0, _, s => (.ok [], s)
  | n + 1, st, s =>
    let o := fit st s
    match o.result with
    | .error e => (.error e, o.rng)
    | .ok () =>
      match repeatFits fit n o.state o.rng with
      | (.error e, s') => (.error e, s')
      | (.ok l, s') => (.ok ((o.state.wm.score, o.state.stackScore) :: l), s')

/-- The scores as numbers, if none is `nan` (`simulation_for_STST_variation.py:63-66`). -/
def numbers : List (Option K) → Option (List K)
  | [] => some []
  | some x :: l => (numbers l).map (x :: ·)
  | none :: _ => none

/-- `np.mean` (`simulation_for_STST_variation.py:63`). -/
def scoreMean (l : List K) : K := l.sum / l.length

/-- `np.var`, the square of `np.std` (`simulation_for_STST_variation.py:64`). -/
def scoreVar (l : List K) : K := (l.map fun x => (x - scoreMean l) ^ 2).sum / l.length

/-- `np.max` (`simulation_for_STST_variation.py:65`). -/
def scoreMax (l : List K) : K := l.foldl max (l.headD 0)

/-- `np.min` (`simulation_for_STST_variation.py:66`). -/
def scoreMin (l : List K) : K := l.foldl min (l.headD 0)

/-- A statistic of the scores; `nan` as soon as one score is
(`simulation_for_STST_variation.py:63-66`). -/
def statVal (f : List K → K) (l : List (Option K)) : JVal K :=
  match numbers l with
  | some xs => .num (f xs)
  | none => .nan

/-- The assignments of one block of repeats (`simulation_for_STST_variation.py:59-66`, `87-94`):
two scores per repeat, one time that is overwritten, and the statistics. `root` is the square
root in `np.std`. -/
def blockEntries (root : K → K) (label : String) (scores : List (Option K × Option K))
    (times : List K) : List (String × JVal K) :=
  (scores.zipIdx.flatMap fun e => [
    (label ++ "_Base_" ++ toString e.2, scoreVal e.1.1),
    (label ++ "_" ++ toString e.2, scoreVal e.1.2),
    (label ++ "_Time", .num (times.getD e.2 0))]) ++
  [(label ++ "_Mean", statVal scoreMean (scores.map Prod.snd)),
   (label ++ "_Std", statVal (fun l => root (scoreVar l)) (scores.map Prod.snd)),
   (label ++ "_Max", statVal scoreMax (scores.map Prod.snd)),
   (label ++ "_Min", statVal scoreMin (scores.map Prod.snd))]

/-- `fit_models` of `simulation_for_STST_variation.py:21-100`: ten fits of one model and ten of
another; `fit` and `fitExtra` are their `fit` methods on the given data. -/
def variation {F' G' : Type} (fit : SState K F G C → S → SOut Unit K F G C S)
    (fitExtra : SState K F' G' C → S → SOut Unit K F' G' C S) (root : K → K) (t t' : List K)
    (info : Record K) (s : S) (fs : Lines K) : Except Err (Record K) × S × Lines K :=
  match repeatFits fit 10 {} s with
  | (.error e, s) => (.error e, s, fs)
  | (.ok l, s) =>
    match repeatFits fitExtra 10 {} s with
    | (.error e, s) => (.error e, s, fs)
    | (.ok l', s) =>
      let result := Record.merge (Record.puts (Record.puts [] (blockEntries root "Stacking" l t))
        (blockEntries root "Stacking_Extra" l' t')) info
      (.ok result, s, fs.append "simulation_variation.jsonl" [result])

/-! ### The comparison of models -/

/-- `np.concatenate([X, points], axis=1)` (`simulation_for_fitting.py:36`): the coordinates as
further features; `ValueError` for different numbers of rows. -/
def besideCols (X P : Mat K) : Except Err (Mat K) :=
  if X.r ≠ P.r then .error .valueError
  else .ok ⟨X.r, X.c + P.c, fun i j => if j < X.c then X.get i j else P.get i (j - X.c)⟩

/-- One model of `fit_models`: what its fit yields, under the names of the record
(`simulation_for_fitting.py:43-57`, `75-87`). -/
structure Contest (K S : Type) where
  names : List String
  timeName : String
  fit : S → Except Err (List (Option K)) × S

/-- The fits in order, with the record so far (`simulation_for_fitting.py:43-121`). A fit that
fails ends everything. -/
def contests : List (Contest K S) → List K → Record K → S → Except Err (Record K) × S
  | [], _, d, s => (.ok d, s)
  | c :: cs, times, d, s =>
    match c.fit s with
    | (.error e, s) => (.error e, s)
    | (.ok scores, s) =>
      contests cs times.tail
        (d.puts ((c.names.zip (scores.map scoreVal)) ++ [(c.timeName, .num (times.headD 0))])) s

/-- `fit_models` (`simulation_for_fitting.py:21-127`, `simulation_for_data_size.py:21-134`): the
record is extended by `info`, written to the end of the file and returned. -/
def fitModels (cs : List (Contest K S)) (times : List K) (info : Record K) (path : String) (s : S)
    (fs : Lines K) : Except Err (Record K) × S × Lines K :=
  match contests cs times [] s with
  | (.error e, s) => (.error e, s, fs)
  | (.ok d, s) => (.ok (d.merge info), s, fs.append path [d.merge info])

/-- The models of `simulation_for_fitting.py:43-121`: names of the scores and of the time. -/
def contestNames : List (List String × String) :=
  [(["Stacking_Base", "Stacking"], "Stacking_Time"),
   (["Stacking_Extra_Base", "Stacking_Extra"], "Stacking_Extra_Time"),
   (["GRF"], "GRF_Time"), (["GWR"], "GWR_Time"), (["RF"], "RF_Time"), (["LR"], "LR_Time")]

/-- The names in `simulation_for_data_size.py:57-128`: one of them has an underscore too many. -/
def dataSizeNames : List (List String × String) :=
  [(["Stacking_Base", "Stacking"], "Stacking_Time"),
   (["Stacking_Extra_Base", "Stacking_Extra_"], "Stacking_Extra_Time"),
   (["GRF"], "GRF_Time"), (["GWR"], "GWR_Time"), (["RF"], "RF_Time"), (["LR"], "LR_Time")]

/-! ### The parameter search -/

/-- One trial of a search: whether the coordinates are features too, and the parameters under
their names (`simulation_for_fitting.py:905-924`, `938-971`). -/
structure Trial (K : Type) where
  plus : Bool
  params : List (String × K)

/-- The trials of `test_GRF` and `test_GWR` in order (`simulation_for_fitting.py:905-906`). -/
def countTrials (counts : List K) : List (Trial K) :=
  [true, false].flatMap fun plus => counts.map fun n => ⟨plus, [("neighbour_count", n)]⟩

/-- The trials of `test_stacking` in order (`simulation_for_fitting.py:938-940`). -/
def rateTrials (counts rates : List K) : List (Trial K) :=
  [true, false].flatMap fun plus => counts.flatMap fun n =>
    rates.map fun r => ⟨plus, [("neighbour_count", n), ("leave_out_rate", r)]⟩

/-- The record of one trial (`simulation_for_fitting.py:918-924`, `963-971`). -/
def trialRecord (names : List String) (t : Trial K) (scores : List (Option K)) : Record K :=
  Record.puts [] (names.zip (scores.map scoreVal) ++ t.params.map (fun e => (e.1, .num e.2)) ++
    [("use_x_plus", .flag t.plus)])

/-- The loop of one search (`simulation_for_fitting.py:905-926`): every trial fits a new model. -/
def search (names : List String) (fit : S → Trial K → Except Err (List (Option K)) × S) :
    S → List (Trial K) → Except Err (List (Record K)) × S
  | s, [] => (.ok [], s)
  | s, t :: ts =>
    match fit s t with
    | (.error e, s) => (.error e, s)
    | (.ok scores, s) =>
      match search names fit s ts with
      | (.error e, s) => (.error e, s)
      | (.ok l, s) => (.ok (trialRecord names t scores :: l), s)

/-- The score a record is judged by: `x[key]` (`simulation_for_fitting.py:886-888`). A missing key or
a text does not occur. -/
def Record.score (d : Record K) (key : String) : Option K :=
  match d.find key with
  | some (.num x) => some x
  | _ => none

/-- `x[key] > y[key]`; a comparison with `nan` is false (`simulation_for_fitting.py:886-888`). -/
def better (key : String) (a b : Record K) : Bool :=
  match a.score key, b.score key with
  | some x, some y => decide (y < x)
  | _, _ => false

/-- `max(l, key=...)` (`simulation_for_fitting.py:886-888`): the first record that no later one
beats; `ValueError` for an empty list. -/
def bestOf (key : String) : List (Record K) → Except Err (Record K)
  | [] => .error .valueError
  | a :: l => .ok (l.foldl (fun best d => if better key d best then d else best) a)

/-- The remarks added to every record (`simulation_for_fitting.py:869-883`). The dictionaries
themselves change, so the best records show them too. -/
def remarked (count : K) (func coef : String) (d : Record K) : Record K :=
  d.puts [("count", .num count), ("func", .text func), ("coef", .text coef)]

/-- The last part of `test_models` (`simulation_for_fitting.py:885-894`): the best records, after
everything else was written. -/
def writeBest (stacking grf gwr : List (Record K)) (fs : Lines K) : Except Err Unit × Lines K :=
  match bestOf "Stacking" stacking, bestOf "GRF" grf, bestOf "GWR" gwr with
  | .ok a, .ok b, .ok c => (.ok (), fs.append "simulation_param_best.jsonl" [a, b, c])
  | _, _, _ => (.error .valueError, fs)

/-- `test_models` (`simulation_for_fitting.py:850-894`): three searches, then all records are written,
then the best of each. -/
def testModels (fitStacking fitGrf fitGwr : S → Trial K → Except Err (List (Option K)) × S)
    (stackingCounts rates grfCounts gwrCounts : List K) (count : K) (func coef : String) (s : S)
    (fs : Lines K) : Except Err Unit × S × Lines K :=
  match search ["Stacking_Base", "Stacking"] fitStacking s (rateTrials stackingCounts rates) with
  | (.error e, s) => (.error e, s, fs)
  | (.ok a, s) =>
    match search ["GRF"] fitGrf s (countTrials grfCounts) with
    | (.error e, s) => (.error e, s, fs)
    | (.ok b, s) =>
      match search ["GWR"] fitGwr s (countTrials gwrCounts) with
      | (.error e, s) => (.error e, s, fs)
      | (.ok c, s) =>
        let mark := List.map (remarked count func coef)
        let out := writeBest (mark a) (mark b) (mark c)
          (fs.append "simulation_params.jsonl" (mark a ++ mark b ++ mark c))
        (out.1, s, out.2)

/-- One trial of `test_GWR` (`simulation_for_fitting.py:977`, `986-1003`) with the fit method of
`WeightModel`: a new object, fitted on the features with or without the coordinates. `weights` gives
the weights of the points for a neighbour count. -/
def gwrTrial (L : Learner K F) (rng : Rng S) (weights : K → Mat K → Mat K → Except Err (Mat K))
    (cpu : Nat) (X : Mat K) (y : List K) (points : Mat K) (s : S) (t : Trial K) :
    Except Err (List (Option K)) × S :=
  match besideCols X points with
  | .error e => (.error e, s)
  | .ok Xplus =>
    let p : WMParams K (Mat K) :=
      { cpu := cpu, weights := weights (((t.params.lookup "neighbour_count").getD 0)) }
    let o := wmFit L rng p {} s (if t.plus then Xplus else X) y (some points) none
    match o.result with
    | .error e => (.error e, o.rng)
    | .ok () => (.ok [o.state.score], o.rng)

end Geo
