import Verif.Model.WeightModel
import Mathlib.Logic.Function.Basic
/-
Regressors as objects. `Model/WeightModel.lean` treats a regressor as a function from data to a fitted
regressor. In the program regressors are Python objects: `clone` makes a new one, `fit` changes the
object it is called on and may use what an earlier fit left there (`warm_start`), lists hold references,
and joblib runs tasks in this process or on copies in worker processes. Here `WeightModel.fit`,
`predict_by_fit` and `predict_by_weight` are modelled with that memory. Objects nobody refers to any
longer are kept. With joblib's threading backend tasks work on the objects of this process at the same time;
their steps alternate in any way.
-/
namespace Geo
variable {K : Type} [Field K] [LinearOrder K] [FloorRing K] {C S O V : Type}

/-- The objects in memory: their addresses are `0 .. next - 1` (`weight_model.py:369`, `461`). -/
structure Heap (O : Type) where
  next : Nat
  get : Nat → O

/-- A class of regressors: the state of a clone of an object in state `o`, the steps by which `fit` changes
the object (each may raise), and what `predict` returns (`weight_model.py:31-35`, `369`). -/
structure Regressor (K O : Type) where
  fresh : O → O
  steps : O → List (List K) → List K → List K → List (O → Except Err Unit × O)
  predict : O → List K → K

/-- Steps one after the other; the first exception ends them (`weight_model.py:31`). -/
def runSteps : List (O → Except Err Unit × O) → O → Except Err Unit × O
  | [], o => (.ok (), o)
  | f :: l, o =>
    match f o with
    | (.error e, o) => (.error e, o)
    | (.ok (), o) => runSteps l o

/-- `fit` called on an object (`weight_model.py:31`): what it does to the object, also when it raises. -/
def Regressor.fit (R : Regressor K O) (o : O) (rows : List (List K)) (ys ws : List K) :
    Except Err Unit × O :=
  runSteps (R.steps o rows ys ws) o

/-- A new object (`weight_model.py:369`). -/
def Heap.alloc (h : Heap O) (o : O) : Nat × Heap O := (h.next, ⟨h.next + 1, Function.update h.get h.next o⟩)

/-- `[clone(self.local_estimator) for _ in range(n)]` (`weight_model.py:369`, `461`). -/
def cloneMany (R : Regressor K O) (reg : Nat) : Nat → Heap O → List Nat × Heap O
  | 0, h => ([], h)
  | n + 1, h =>
    let a := h.alloc (R.fresh (h.get reg))
    let b := cloneMany R reg n a.2
    (a.1 :: b.1, b.2)

/-- The arguments of one call of `fit_local_estimator` (`weight_model.py:86-90`, `105-109`, `141-145`,
`162-166`): the object, rows, targets, weights, and what the object is asked for once it is fitted
(`weight_model.py:33-35`). -/
structure Job (K O V : Type) where
  est : Nat
  rows : List (List K)
  ys : List K
  ws : List K
  read : O → Except Err V

/-- The arguments at one location of the dense branches (`weight_model.py:86-90`, `101-109`). -/
def denseJob (R : Regressor K O) (X : Mat K) (y : Nat → K) (Xp W : Mat K) (est i : Nat) :
    Except Err (Job K O K) :=
  if W.c ≠ X.r then .error .indexError
  else
    let idx := nonzeroIdx W.c (W.get i)
    .ok ⟨est, idx.map X.row, idx.map y, idx.map (W.get i), fun o => .ok (R.predict o (Xp.row i))⟩

/-- The arguments at one location of the sparse branches (`weight_model.py:133-145`, `154-166`). -/
def sparseJob (R : Regressor K O) (X : Mat K) (y : Nat → K) (Xp : Mat K) (A : Csr K) (est i : Nat) :
    Except Err (Job K O K) :=
  let idx := A.ne0.rowIdx i
  if idx.any fun k => decide (X.r ≤ k) then .error .indexError
  else .ok ⟨est, idx.map X.row, idx.map y, A.rowData i, fun o => .ok (R.predict o (Xp.row i))⟩

/-- The arguments at location `i`, with `estimator_list[i]` (`weight_model.py:100-109`, `132-145`,
`153-166`). -/
def locJob (R : Regressor K O) (X : Mat K) (y : Nat → K) (Xp : Mat K) (W : WMat K) (ests : List Nat)
    (i : Nat) : Except Err (Job K O K) :=
  atIndex ests.length W.r Xp.r i (match W with
    | .dense W => denseJob R X y Xp W (ests.getD i 0) i
    | .sparse A => sparseJob R X y Xp A (ests.getD i 0) i)

/-- `fit_local_estimator` (`weight_model.py:21-40`): the object is fitted in place, predicts, and is
returned. -/
def runJob (R : Regressor K O) (j : Job K O V) (h : Heap O) : Except Err (V × Nat) × Heap O :=
  let r := R.fit (h.get j.est) j.rows j.ys j.ws
  let h := { h with get := Function.update h.get j.est r.2 }
  match r.1 with
  | .error e => (.error e, h)
  | .ok () =>
    match j.read (h.get j.est) with
    | .error e => (.error e, h)
    | .ok v => (.ok (v, j.est), h)

/-- The loop of `batch_wrapper`, or joblib's loop over tasks in this process (`weight_model.py:97-113`,
`150-170`): the first exception ends it. -/
def seqJobs (R : Regressor K O) : List (Except Err (Job K O V)) → Heap O →
    Except Err (List (V × Nat)) × Heap O
  | [], h => (.ok [], h)
  | .error e :: _, h => (.error e, h)
  | .ok j :: l, h =>
    match runJob R j h with
    | (.error e, h) => (.error e, h)
    | (.ok a, h) =>
      match seqJobs R l h with
      | (.error e, h) => (.error e, h)
      | (.ok as, h) => (.ok (a :: as), h)

/-- A batch in a worker process (`weight_model.py:116-118`, `174-176`): it works on a copy of the objects
and sends back the predictions and the objects. -/
def workerBatch (R : Regressor K O) (h : Heap O) (tasks : List (Except Err (Job K O V))) :
    Except Err (List (V × O)) :=
  match seqJobs R tasks h with
  | (.error e, _) => .error e
  | (.ok l, h) => .ok (l.map fun a => (a.1, h.get a.2))

/-- What arrives from the workers becomes new objects (`weight_model.py:122-124`, `180-182`). -/
def receive : List (V × O) → Heap O → List (V × Nat) × Heap O
  | [], h => ([], h)
  | (v, o) :: l, h =>
    let a := h.alloc o
    let b := receive l a.2
    ((v, a.1) :: b.1, b.2)

/-- A batch in a thread (`weight_model.py:97-113`, `150-170`): the tasks left, the task at work with the
steps left of its fit, what was returned so far, and the exception that ended it. -/
structure Thread (K O V : Type) where
  todo : List (Except Err (Job K O V))
  cur : Option (Job K O V × List (O → Except Err Unit × O))
  out : List (V × Nat)
  failed : Option Err

/-- The next step of a batch in a thread (`weight_model.py:31-35`, `100-113`): the next task begins, or the
next step of its fit is done, or the fitted object is read. -/
def Thread.step (R : Regressor K O) (t : Thread K O V) (h : Heap O) : Thread K O V × Heap O :=
  match t.failed with
  | some _ => (t, h)
  | none =>
    match t.cur with
    | none =>
      match t.todo with
      | [] => (t, h)
      | .error e :: l => ({ t with todo := l, failed := some e }, h)
      | .ok j :: l => ({ t with todo := l, cur := some (j, R.steps (h.get j.est) j.rows j.ys j.ws) }, h)
    | some (j, []) =>
      match j.read (h.get j.est) with
      | .error e => ({ t with failed := some e }, h)
      | .ok v => ({ t with cur := none, out := t.out ++ [(v, j.est)] }, h)
    | some (j, f :: fs) =>
      match f (h.get j.est) with
      | (.error e, o) => ({ t with failed := some e }, { h with get := Function.update h.get j.est o })
      | (.ok (), o) => ({ t with cur := some (j, fs) }, { h with get := Function.update h.get j.est o })

/-- Threads taking turns (`weight_model.py:116-118`, `174-176`): every number in `schedule` lets the batch
with that number do a step. -/
def runThreads (R : Regressor K O) : List Nat → List (Thread K O V) → Heap O →
    List (Thread K O V) × Heap O
  | [], ts, h => (ts, h)
  | i :: sched, ts, h =>
    match ts[i]? with
    | none => runThreads R sched ts h
    | some t => runThreads R sched (ts.set i (t.step R h).1) (t.step R h).2

/-- A batch in a thread runs to its end (`weight_model.py:97-113`). -/
def Thread.finish (R : Regressor K O) (t : Thread K O V) (h : Heap O) :
    Except Err (List (V × Nat)) × Heap O :=
  match t.failed with
  | some e => (.error e, h)
  | none =>
    match t.cur with
    | none => let r := seqJobs R t.todo h; (r.1.map fun l => t.out ++ l, r.2)
    | some (j, fs) =>
      let q := runSteps fs (h.get j.est)
      let h := { h with get := Function.update h.get j.est q.2 }
      match q.1 with
      | .error e => (.error e, h)
      | .ok () =>
        match j.read (h.get j.est) with
        | .error e => (.error e, h)
        | .ok v => let r := seqJobs R t.todo h; (r.1.map fun l => t.out ++ (v, j.est) :: l, r.2)

/-- joblib waits for the batches in their order and raises the exception of the first that failed
(`weight_model.py:116-118`, `174-176`). -/
def collect (R : Regressor K O) : List (Thread K O V) → Heap O → Except Err (List (V × Nat)) × Heap O
  | [], h => (.ok [], h)
  | t :: ts, h =>
    match t.finish R h with
    | (.error e, h) => (.error e, h)
    | (.ok l, h) =>
      match collect R ts h with
      | (.error e, h) => (.error e, h)
      | (.ok l', h) => (.ok (l ++ l'), h)

/-- How joblib runs the batches (`weight_model.py:85-95`, `116-118`): in this process one after the other,
on copies in worker processes, or in threads of this process. Any execution with threads is a schedule;
what a schedule leaves undone is done afterwards. -/
inductive Backend
  | serial
  | processes
  | threads (schedule : List Nat)

/-- `Parallel(...)` over batches (`weight_model.py:85-95`, `116-124`, `147-148`, `174-182`). In threads, too,
the arguments of a task are evaluated when it begins. -/
def runBatches (R : Regressor K O) (backend : Backend) (batches : List (List (Except Err (Job K O V))))
    (h : Heap O) : Except Err (List (V × Nat)) × Heap O :=
  match backend with
  | .processes =>
    match mapE (workerBatch R h) batches with
    | .error e => (.error e, h)
    | .ok bs => (.ok (receive bs.flatten h).1, (receive bs.flatten h).2)
  | .serial => seqJobs R batches.flatten h
  | .threads schedule =>
    let r := runThreads R schedule (batches.map fun b => ⟨b, none, [], none⟩) h
    collect R r.1 r.2

/-- The `n_patches` branches (`weight_model.py:96-124`, `149-182`). -/
def patchesObj (R : Regressor K O) (backend : Backend) (task : Nat → Except Err (Job K O V)) (idx : List Nat)
    (n : ℤ) (h : Heap O) : Except Err (List (V × Nat)) × Heap O :=
  if n ≤ 0 then (.error .valueError, h)
  else runBatches R backend ((arraySplit idx n.toNat).map (List.map task)) h

/-- The `n_jobs` branches (`weight_model.py:84-95`, `130-148`). -/
def jobsObj (R : Regressor K O) (backend : Backend) (X : Mat K) (y : Nat → K) (Xp : Mat K) (W : WMat K)
    (ests idx : List Nat) (h : Heap O) : Except Err (List (K × Nat)) × Heap O :=
  let tasks := match W with
    | .dense D => (List.range (zipCount idx.length ests.length D.r Xp.r)).map fun k =>
        denseJob R X y Xp D (ests.getD k 0) k
    | .sparse _ => idx.map (locJob R X y Xp W ests)
  let r := runBatches R backend (tasks.map fun t => [t]) h
  (r.1.bind unzipNonempty, r.2)

/-- `_fit` (`weight_model.py:43-191`) on the objects `ests`. -/
def fitAllObj (R : Regressor K O) (backend : Backend) (X : Mat K) (y : Nat → K) (Xp : Option (Mat K))
    (W : WMat K) (ests : List Nat) (idx : Option (List Nat)) (nJobs nPatches : Option ℤ) (cpu : Nat)
    (h : Heap O) : Except Err (List (K × Nat)) × Heap O :=
  let idx := idx.getD (List.range W.r)
  let Xp := Xp.getD X
  match nJobs, nPatches with
  | some _, some _ => (.error .valueError, h)
  | some j, none => if j = 0 then (.error .valueError, h) else jobsObj R backend X y Xp W ests idx h
  | none, some n => patchesObj R backend (locJob R X y Xp W ests) idx n h
  | none, none => patchesObj R backend (locJob R X y Xp W ests) idx cpu h

/-- `WeightModel.fit` from the weight matrix on (`weight_model.py:347-384`). `reg` is the regressor the
model was made with; the model's attributes hold addresses. -/
def fitWithObj (R : Regressor K O) (backend : Backend) (reg : Nat) (rng : Rng S) (p : WMParams K C)
    (st : WMState K Nat C) (s : S) (X : Mat K) (y : List K) (given : Bool) (W0 : WMat K) (h : Heap O) :
    FitOut K Nat C S × Heap O :=
  let W := leaveOut p W0
  let caller := if given then some W else none
  let st := { st with weightMatrix := some W, neighbourMatrix := some W.gt0 }
  match sampleLocations rng s p.sampleRate X.r with
  | (.error e, s) => (⟨.error e, st, caller, s⟩, h)
  | (.ok idx, s) =>
    let ys := idx.map fun i => y.getD i 0
    let st := { st with localIndices := some idx, ySample := some ys }
    let c := cloneMany R reg X.r h
    match fitAllObj R backend X (fun i => y.getD i 0) none W c.1 (some idx) p.nJobs p.storedPatches p.cpu
        c.2 with
    | (.error e, h) => (⟨.error e, st, caller, s⟩, h)
    | (.ok res, h) => (⟨(stateEnd p st ys res).1, (stateEnd p st ys res).2, caller, s⟩, h)

/-- `WeightModel.fit` (`weight_model.py:314-384`). -/
def wmFitObj (R : Regressor K O) (backend : Backend) (reg : Nat) (rng : Rng S) (p : WMParams K C)
    (st : WMState K Nat C) (s : S) (X : Mat K) (y : List K) (coords : Option C) (W : Option (WMat K))
    (h : Heap O) : FitOut K Nat C S × Heap O :=
  if checkXy X y then
    match chosenWeights p coords W with
    | .error e => (⟨.error e, stateBegin p st X y coords W, W, s⟩, h)
    | .ok W0 => fitWithObj R backend reg rng p (stateBegin p st X y coords W) s X y W.isSome W0 h
  else (⟨.error .valueError, st, W, s⟩, h)

/-- `WeightModel.predict_by_fit` (`weight_model.py:427-467`). -/
def predictByFitObj (R : Regressor K O) (backend : Backend) (reg : Nat) (p : WMParams K C)
    (st : WMState K Nat C) (X : Mat K) (coords : Option C) (W : Option (Mat K)) (h : Heap O) :
    Except Err (List K) × Heap O :=
  if !p.cacheData then (.error .exception, h)
  else
    match (do
      guard coords W
      let W ← predictFitWeights p coords st.coords W
      let D ← cachedData st
      .ok (W, D) : Except Err (Mat K × Mat K × List K)) with
    | .error e => (.error e, h)
    | .ok (W, Xt, yt) =>
      let c := cloneMany R reg X.r h
      let r := fitAllObj R backend Xt (fun i => yt.getD i 0) (some X) (.dense W) c.1 none none none p.cpu c.2
      (r.1.map fun l => l.map Prod.fst, r.2)

/-- A reference to an object predicts what the object predicts (`weight_model.py:412`). -/
def Regressor.reader (R : Regressor K O) (h : Heap O) : Learner K Nat where
  fit := fun _ _ _ _ => .error .exception
  predict := fun a x => R.predict (h.get a) x

/-- `WeightModel.predict_by_weight` (`weight_model.py:386-425`) with the objects `local_estimator_list`
refers to. -/
def predictByWeightObj (R : Regressor K O) (p : WMParams K C) (st : WMState K Nat C) (X : Mat K)
    (coords : Option C) (W : Option (Mat K)) (h : Heap O) : Except Err (List K) :=
  predictByWeight (R.reader h) p st X coords W

end Geo
