import Verif.Model.Distance
import Verif.Props.WeightMatrixArgs
set_option linter.unusedSectionVars false
/-
Properties C19, C20, C22 and C74: distance computation and `weight_matrix_from_points`.
-/
namespace Geo
variable {K : Type} [Field K] [LinearOrder K] [IsStrictOrderedRing K] [FloorRing K]

theorem distanceMatrix_none_cases (lib : Lib K) (fs : Disk K) (src : Mat K)
    (metric : Option String) (useDask : Bool) :
    (∃ e fs', distanceMatrix lib fs src none metric useDask false {} = (.error e, fs')) ∨
      ∃ l fs', distanceMatrix lib fs src none metric useDask false {} = (.ok ⟨false, .d1 l, none⟩, fs') := by
  unfold distanceMatrix daskDistance eagerDistance cachedStore columnsDiffer
  cases useDask with
  | true =>
    cases h : lib.dask metric with
    | none => left; exact ⟨.valueError, fs, by simp⟩
    | some f => left; exact ⟨.axisError, fs, by simp⟩
  | false =>
    by_cases hg : metric = some "great-circle"
    · by_cases h2 : src.c = 2
      · by_cases h0 : src.r = 0
        · right; exact ⟨[], fs, by simp [hg, h2, h0]⟩
        · left; exact ⟨_, _, by simp [hg, h2, h0]; exact ⟨rfl, rfl⟩⟩
      · left; exact ⟨_, _, by simp [hg, h2]; exact ⟨rfl, rfl⟩⟩
    · cases h : lib.scipy metric {} with
      | none => left; exact ⟨.valueError, fs, by simp [hg]⟩
      | some f => right; exact ⟨pdistVec f src, fs, by simp [hg]⟩

/-- C19, negation: without target points the function raises for every input. -/
theorem C19_omitted_targets_always_raise (lib : Lib K) (env : Env K) (fs : Disk K)
    (src : List (Mat K)) (measure : Param (Option String)) (p : WParams K)
    (distanceArgs : DistArgs K) :
    ∃ e, (weightMatrixFromPoints lib env fs src none measure p distanceArgs).1 = .error e := by
  unfold weightMatrixFromPoints distanceMatrices
  simp only [Option.getD_none]
  cases src with
  | nil =>
    simp only [distanceLoop, weightFromDists, allD2]
    exact ⟨.exception, by simp [weightMatrixFromDistance]⟩
  | cons s src =>
    simp only [List.length_cons, List.replicate_succ]
    cases measure.expand (src.length + 1) with
    | nil => simp [distanceLoop]
    | cons m ms =>
      simp only [distanceLoop]
      rcases distanceMatrix_none_cases lib fs s m distanceArgs.truthy with ⟨e, fs', h⟩ | ⟨l, fs', h⟩
      · rw [h]; exact ⟨e, rfl⟩
      · rw [h]
        simp only
        rcases distanceLoop lib distanceArgs.truthy false fs' src (List.replicate src.length none) ms
          (List.replicate src.length {}) with ⟨_ | ds, fs''⟩
        · exact ⟨_, rfl⟩
        · exact ⟨.axisError, by simp [weightFromDists, allD2]⟩

theorem distanceLoop_congr (lib lib' : Lib K) (hd : lib'.dask = lib.dask) (hg : lib'.great = lib.great)
    (hs : ∀ m, lib'.scipy m {} = lib.scipy m {}) (useDask : Bool) (srcs : List (Mat K)) :
    ∀ (n : Nat) (fs : Disk K) (tgts : List (Option (Mat K))) (ms : List (Option String)),
      distanceLoop lib' useDask false fs srcs tgts ms (List.replicate n {}) =
        distanceLoop lib useDask false fs srcs tgts ms (List.replicate n {}) := by
  induction srcs with
  | nil => intros; simp [distanceLoop]
  | cons s srcs ih =>
    intro n fs tgts ms
    cases tgts with
    | nil => cases n <;> simp [distanceLoop]
    | cons t tgts =>
      cases ms with
      | nil => cases n <;> simp [distanceLoop]
      | cons m ms =>
        cases n with
        | zero => simp [distanceLoop]
        | succ n =>
          have h1 : distanceMatrix lib' fs s t m useDask false {} =
              distanceMatrix lib fs s t m useDask false {} := by
            simp only [distanceMatrix, daskDistance, eagerDistance, hd, hg, hs]
          simp only [List.replicate_succ, distanceLoop, h1, ih]

/-- C20, negation: whatever `distance_args` is given, the result is the same for two metric
libraries that differ arbitrarily in how they treat keyword arguments. So no keyword argument
ever reaches the metric. -/
theorem C20_distance_args_never_reach_metric (lib lib' : Lib K) (hd : lib'.dask = lib.dask)
    (hg : lib'.great = lib.great) (hs : ∀ m, lib'.scipy m {} = lib.scipy m {})
    (env : Env K) (fs : Disk K) (src : List (Mat K)) (tgt : Option (List (Mat K)))
    (measure : Param (Option String)) (p : WParams K) (distanceArgs : DistArgs K) :
    weightMatrixFromPoints lib' env fs src tgt measure p distanceArgs =
      weightMatrixFromPoints lib env fs src tgt measure p distanceArgs := by
  unfold weightMatrixFromPoints distanceMatrices
  simp only [Option.getD_none]
  cases tgt with
  | none => simp only [distanceLoop_congr lib lib' hd hg hs]
  | some tgts => simp only [distanceLoop_congr lib lib' hd hg hs]

/-- C20: the only thing that matters about `distance_args` is whether it is empty, and a
non-empty one switches to the dask backend. -/
theorem C20_only_emptiness_matters (lib : Lib K) (env : Env K) (fs : Disk K)
    (src : List (Mat K)) (tgt : Option (List (Mat K))) (measure : Param (Option String))
    (p : WParams K) (d d' : List (String × K)) (hd : d ≠ []) (hd' : d' ≠ []) :
    weightMatrixFromPoints lib env fs src tgt measure p (some (.scalar d)) =
        weightMatrixFromPoints lib env fs src tgt measure p (some (.scalar d')) ∧
      weightMatrixFromPoints lib env fs src tgt measure p (some (.scalar [])) =
        weightMatrixFromPoints lib env fs src tgt measure p none := by
  have h1 : DistArgs.truthy (some (.scalar d)) = DistArgs.truthy (some (.scalar d')) := by
    cases d with
    | nil => exact absurd rfl hd
    | cons a d =>
      cases d' with
      | nil => exact absurd rfl hd'
      | cons a' d' => rfl
  refine ⟨?_, rfl⟩
  unfold weightMatrixFromPoints
  rw [h1]

/-- Squared Euclidean distance, the Manhattan distance and a library with both. -/
def sqDist (a b : List ℚ) : ℚ := (List.zipWith (fun x y => (x - y) ^ 2) a b).sum
def exLib : Lib ℚ where
  scipy m kw := match m with
    | some "sqeuclidean" => if kw.rest.isEmpty then some sqDist else none
    | some "scaled" => some fun a b => ((kw.rest.map (·.2)).head?.getD 1) * sqDist a b
    | _ => none
  dask m := if m = some "sqeuclidean" then some sqDist else none
  great := sqDist

/-- The hypotheses of C20 are met by two different libraries. -/
example : let lib' : Lib ℚ := { exLib with
      scipy := fun m kw => if kw.rest.isEmpty && kw.filepath.isNone && !kw.overwrite then exLib.scipy m {} else none }
    lib'.dask = exLib.dask ∧ lib'.great = exLib.great ∧ (∀ m, lib'.scipy m {} = exLib.scipy m {}) ∧
      (lib'.scipy (some "scaled") { rest := [("p", 2)] }).isSome = false ∧
      (exLib.scipy (some "scaled") { rest := [("p", 2)] }).isSome = true := by
  refine ⟨rfl, rfl, fun m => by simp, rfl, rfl⟩

/-- What C22 asks of one source/target pair. -/
def GoodPair (lib : Lib K) (src tgt : Mat K) (metric : Option String) : Prop :=
  src.c = tgt.c ∧
    (metric = some "great-circle" → src.c = 2) ∧
    (metric ≠ some "great-circle" → (lib.scipy metric {}).isSome)

/-- The distance function a metric name stands for (without keyword arguments). -/
def metricFun (lib : Lib K) (metric : Option String) : List K → List K → K :=
  if metric = some "great-circle" then lib.great else (lib.scipy metric {}).getD fun _ _ => 0

theorem distanceMatrix_eager_cases (lib : Lib K) (fs : Disk K) (src tgt : Mat K)
    (metric : Option String) (hr : 0 < src.r) :
    (GoodPair lib src tgt metric ∧ distanceMatrix lib fs src (some tgt) metric false false {} =
        (.ok ⟨false, .d2 (cdistMat (metricFun lib metric) src tgt), none⟩, fs)) ∨
      (¬ GoodPair lib src tgt metric ∧
        ∃ e, distanceMatrix lib fs src (some tgt) metric false false {} = (.error e, fs)) := by
  unfold distanceMatrix columnsDiffer GoodPair
  by_cases hc : src.c = tgt.c
  · by_cases hg : metric = some "great-circle"
    · by_cases h2 : src.c = 2
      · left
        have h3 : tgt.c = 2 := hc ▸ h2
        simp [hg, h2, h3, eagerDistance, hr.ne', metricFun]
      · right
        refine ⟨fun h => h2 (h.2.1 hg), .exception, ?_⟩
        have h3 : tgt.c ≠ 2 := hc ▸ h2
        simp [hg, hc, h3, eagerDistance]
    · cases h : lib.scipy metric {} with
      | none =>
        right
        refine ⟨fun h' => by simpa using h'.2.2 hg, .valueError, ?_⟩
        simp [hg, hc, h, eagerDistance]
      | some f =>
        left
        refine ⟨⟨hc, fun h' => absurd h' hg, fun _ => rfl⟩, ?_⟩
        simp [hg, hc, h, eagerDistance, metricFun]
  · right
    refine ⟨fun h => hc h.1, .exception, ?_⟩
    simp [hc]

/-- Coordinates, targets and metric names of the dimensions, if there are equally many. -/
def dims : List (Mat K) → List (Mat K) → List (Option String) → List (Mat K × Mat K × Option String)
  | s :: ss, t :: ts, m :: ms => (s, t, m) :: dims ss ts ms
  | _, _, _ => []

theorem distanceLoop_eager (lib : Lib K) (fs : Disk K) (src : List (Mat K)) :
    ∀ (tgt : List (Mat K)) (ms : List (Option String)), tgt.length = src.length →
      src.length ≤ ms.length → (∀ s ∈ src, 0 < s.r) →
      ((∀ d ∈ dims src tgt ms, GoodPair lib d.1 d.2.1 d.2.2) ∧
        distanceLoop lib false false fs src (tgt.map some) ms (List.replicate src.length {}) =
          (.ok ((dims src tgt ms).map fun d =>
            ⟨false, .d2 (cdistMat (metricFun lib d.2.2) d.1 d.2.1), none⟩), fs)) ∨
      ((∃ d ∈ dims src tgt ms, ¬ GoodPair lib d.1 d.2.1 d.2.2) ∧
        ∃ e, distanceLoop lib false false fs src (tgt.map some) ms (List.replicate src.length {}) =
          (.error e, fs)) := by
  induction src with
  | nil =>
    intro tgt ms ht hm hr
    left
    simp [dims, distanceLoop]
  | cons s src ih =>
    intro tgt ms ht hm hr
    cases tgt with
    | nil => simp at ht
    | cons t tgt =>
      cases ms with
      | nil => simp at hm
      | cons m ms =>
        simp only [List.length_cons, List.map_cons, List.replicate_succ, distanceLoop, dims,
          List.forall_mem_cons, List.exists_mem_cons_iff]
        rcases distanceMatrix_eager_cases lib fs s t m (hr s (by simp)) with ⟨hG, h⟩ | ⟨hG, e, h⟩
        · rw [h]
          simp only
          rcases ih tgt ms (by simpa using ht) (by simpa using hm) (fun x hx => hr x (by simp [hx]))
            with ⟨hGs, h'⟩ | ⟨hGs, e, h'⟩
          · left; rw [h']; exact ⟨⟨hG, hGs⟩, rfl⟩
          · right; rw [h']; exact ⟨.inr hGs, e, rfl⟩
        · right
          rw [h]
          exact ⟨.inl hG, e, rfl⟩

/-- C22: on the eager path with non-empty source arrays and enough metric names, a call with
targets either returns one distance matrix per dimension, with sources in rows and targets in
columns, or raises; it raises exactly when the numbers of arrays differ, or some pair has
different numbers of columns, or `great-circle` is used with other than two columns, or the
metric is unknown. -/
theorem C22_validation (lib : Lib K) (fs : Disk K) (src tgt : List (Mat K))
    (metrics : Param (Option String)) (hm : src.length ≤ (metrics.expand src.length).length)
    (hr : ∀ s ∈ src, 0 < s.r) :
    ((src.length = tgt.length ∧
        ∀ d ∈ dims src tgt (metrics.expand src.length), GoodPair lib d.1 d.2.1 d.2.2) →
      distanceMatrices lib fs src (some tgt) metrics false false none {} =
        (.ok ((dims src tgt (metrics.expand src.length)).map fun d =>
          ⟨false, .d2 (cdistMat (metricFun lib d.2.2) d.1 d.2.1), none⟩), fs)) ∧
    (¬ (src.length = tgt.length ∧
        ∀ d ∈ dims src tgt (metrics.expand src.length), GoodPair lib d.1 d.2.1 d.2.2) →
      ∃ e, distanceMatrices lib fs src (some tgt) metrics false false none {} = (.error e, fs)) := by
  unfold distanceMatrices
  simp only [Option.getD_none]
  by_cases hl : src.length = tgt.length
  · simp only [hl, ne_eq, not_true_eq_false, if_false, true_and]
    rw [← hl]
    rcases distanceLoop_eager lib fs src tgt (metrics.expand src.length) hl.symm hm hr with
      ⟨hG, h⟩ | ⟨hG, e, h⟩
    · exact ⟨fun _ => h, fun h' => absurd hG h'⟩
    · refine ⟨fun h' => ?_, fun _ => ⟨e, h⟩⟩
      obtain ⟨d, hd, hn⟩ := hG
      exact absurd (h' d hd) hn
  · simp [hl]

theorem dims_length (src tgt : List (Mat K)) (ms : List (Option String))
    (ht : src.length = tgt.length) (hm : src.length ≤ ms.length) :
    (dims src tgt ms).length = src.length := by
  induction src generalizing tgt ms with
  | nil => simp [dims]
  | cons s src ih =>
    cases tgt with
    | nil => simp at ht
    | cons t tgt =>
      cases ms with
      | nil => simp at hm
      | cons m ms => simp [dims, ih tgt ms (by simpa using ht) (by simpa using hm)]

example : ∀ d ∈ dims [⟨2, 2, fun i j => (i + j : ℚ)⟩, ⟨2, 1, fun i _ => (i : ℚ)⟩]
    [⟨3, 2, fun i j => (i * j : ℚ)⟩, ⟨3, 1, fun i _ => (i : ℚ)⟩]
    [some "great-circle", some "sqeuclidean"], GoodPair exLib d.1 d.2.1 d.2.2 := by
  intro d hd
  simp only [dims, List.mem_cons, List.not_mem_nil, or_false] at hd
  rcases hd with rfl | rfl <;> simp [GoodPair, exLib]

/-- C74, negation: with a `filepath` whose store exists and without `overwrite`, the stored
array is returned whatever the points and the metric are. -/
theorem C74_existing_store_returned_for_any_points (lib : Lib K) (fs : Disk K) (src tgt : Mat K)
    (metric : Option String) (cacheSort : Bool) (kw : Kwargs K) (a : DArr K)
    (hc : src.c = tgt.c) (hf : kw.filepath.isSome) (ho : kw.overwrite = false)
    (he : fs (zarrPath kw) = some a) :
    distanceMatrix lib fs src (some tgt) metric true cacheSort kw = (.ok ⟨true, a, none⟩, fs) := by
  simp [distanceMatrix, columnsDiffer, hc, daskDistance, cachedStore, hf, ho, he]

/-- C74: computing (no usable store) returns the distances of the given points and leaves
exactly them in the store, so that a second call with the same points gives the same array;
but the pair with the sorted distances is not restored. -/
theorem C74_store_round_trip (lib : Lib K) (fs : Disk K) (src tgt : Mat K)
    (metric : Option String) (kw : Kwargs K) (f : List K → List K → K)
    (hc : src.c = tgt.c) (hm : lib.dask metric = some f) (hn : cachedStore fs kw = none)
    (hf : kw.filepath.isSome) :
    ∃ fs', distanceMatrix lib fs src (some tgt) metric true false kw =
        (.ok ⟨true, .d2 (cdistMat f src tgt), none⟩, fs') ∧
      (∀ cs, distanceMatrix lib fs' src (some tgt) metric true cs { kw with overwrite := false } =
        (.ok ⟨true, .d2 (cdistMat f src tgt), none⟩, fs')) ∧
      ∀ q, q ≠ zarrPath kw → fs' q = fs q := by
  refine ⟨fs.write (zarrPath kw) (.d2 (cdistMat f src tgt)), ?_, ?_, ?_⟩
  · simp [distanceMatrix, columnsDiffer, hc, daskDistance, hn, hm]
  · intro cs
    have hz : zarrPath { kw with overwrite := false } = zarrPath kw := rfl
    simp [distanceMatrix, columnsDiffer, hc, daskDistance, cachedStore, hf, hz, Disk.write]
  · intro q hq
    simp [Disk.write, hq]

example : cachedStore (fun _ => none : Disk ℚ) { filepath := some "a.zarr" } = none := by
  simp [cachedStore]

end Geo
