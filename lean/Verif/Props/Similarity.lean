import Verif.Props.CoordinateUnits
import Verif.Props.WeightModelPredict
import Verif.Props.GreatCircle
set_option linter.unusedSectionVars false
/-
Moving, turning or rescaling the coordinates.
-/
namespace Geo
variable {K : Type} [Field K] [LinearOrder K] [IsStrictOrderedRing K] [FloorRing K]

/-- Every point of an array moved by `T`. -/
def mapRows (T : List K → List K) (A : Mat K) : Mat K :=
  ⟨A.r, A.c, fun i j => (T (A.row i)).getD j 0⟩

/-- The points of every dimension moved by the map for that dimension. -/
def moveAll : List (List K → List K) → List (Mat K) → List (Mat K)
  | T :: Ts, A :: l => mapRows T A :: moveAll Ts l
  | _, l => l

theorem moveAll_length (Ts : List (List K → List K)) (l : List (Mat K)) :
    (moveAll Ts l).length = l.length := by
  induction Ts generalizing l with
  | nil => rfl
  | cons T Ts ih => cases l <;> simp [moveAll, ih]

theorem moveAll_eq {Ts : List (List K → List K)} {l : List (Mat K)} (h : Ts.length = l.length) :
    moveAll Ts l = List.zipWith mapRows Ts l := by
  induction Ts generalizing l with
  | nil => cases l <;> simp_all [moveAll]
  | cons T Ts ih =>
    cases l with
    | nil => simp at h
    | cons A l => simp [moveAll, ih (by simpa using h)]

/-- The distance function that is applied for a metric name. -/
def usedMetric (lib : Lib K) (lazy : Bool) (m : Option String) : Option (List K → List K → K) :=
  if lazy then lib.dask m
  else if m = some "great-circle" then some lib.great
  else lib.scipy m {}

/-- `T` keeps the number of coordinates and multiplies all distances between points with `n`
coordinates by `c`. -/
structure Similar (f : Option (List K → List K → K)) (n : Nat) (T : List K → List K) (c : K) :
    Prop where
  pos : 0 < c
  length : ∀ a, a.length = n → (T a).length = n
  dist : ∀ g, f = some g → ∀ a b, a.length = n → b.length = n → g (T a) (T b) = c * g a b

theorem mapRows_row {T : List K → List K} {A : Mat K}
    (h : ∀ a, a.length = A.c → (T a).length = A.c) (i : Nat) : (mapRows T A).row i = T (A.row i) := by
  have hl := h (A.row i) (by simp [Mat.row])
  apply List.ext_getElem
  · simp [Mat.row, mapRows] at hl ⊢; omega
  · intro j h1 h2
    simp only [Mat.row, mapRows, List.getElem_map, List.getElem_range]
    simp only [Mat.row] at h2
    simp [List.getD_eq_getElem?_getD, h2]

theorem cdistMat_similar {f : List K → List K → K} {T : List K → List K} {c : K} {A B : Mat K}
    (h : Similar (some f) A.c T c) (hc : A.c = B.c) :
    cdistMat f (mapRows T A) (mapRows T B) = scaleMat c (cdistMat f A B) := by
  have hA := mapRows_row h.length
  have hB := mapRows_row (T := T) (A := B) (hc ▸ h.length)
  simp only [cdistMat, scaleMat, Mat.map, hA, hB]
  simp only [mapRows, Mat.mk.injEq, true_and]
  funext i j
  exact h.dist f rfl _ _ (by simp [Mat.row]) (by simp [Mat.row, hc])

/-- The same kind of result, in another unit. -/
inductive DistScaled (c : K) : DistOut K → DistOut K → Prop
  | d1 {z l l' s s'} : DistScaled c ⟨z, .d1 l, s⟩ ⟨z, .d1 l', s'⟩
  | d2 {z m s s'} : DistScaled c ⟨z, .d2 m, s⟩ ⟨z, .d2 (scaleMat c m), s'⟩

/-- The same failure, or results in other units. -/
def DistsScaled (cs : List K) : Except Err (List (DistOut K)) → Except Err (List (DistOut K)) → Prop
  | .ok a, .ok b => List.Forall₂ (fun cd d' => DistScaled cd.1 cd.2 d') (cs.zip a) b ∧
      a.length = cs.length
  | .error e, .error e' => e = e'
  | _, _ => False

def DistScaledE (c : K) : Except Err (DistOut K) → Except Err (DistOut K) → Prop
  | .ok a, .ok b => DistScaled c a b
  | .error e, .error e' => e = e'
  | _, _ => False

theorem distanceMatrix_similar (lib : Lib K) (fs fs' : Disk K) (src : Mat K) (tgt : Option (Mat K))
    (m : Option String) (lazy : Bool) {T : List K → List K} {c : K}
    (h : Similar (usedMetric lib lazy m) src.c T c) :
    DistScaledE c (distanceMatrix lib fs src tgt m lazy false {}).1
      (distanceMatrix lib fs' (mapRows T src) (tgt.map (mapRows T)) m lazy false {}).1 := by
  have hcol : columnsDiffer (mapRows T src) (tgt.map (mapRows T)) = columnsDiffer src tgt := by
    cases tgt <;> rfl
  unfold distanceMatrix
  rw [hcol]
  cases hd : columnsDiffer src tgt with
  | true => rfl
  | false =>
  have hc : ∀ t, tgt = some t → src.c = t.c := by
    rintro t rfl
    simpa [columnsDiffer] using hd
  simp only [Bool.false_eq_true, if_false]
  cases lazy with
  | true =>
    simp only [if_true]
    unfold daskDistance
    simp only [cachedStore, Option.isSome_none, Bool.false_and, Bool.false_eq_true, if_false]
    simp only [usedMetric, if_true] at h
    cases hf : lib.dask m with
    | none => rfl
    | some f =>
      rw [hf] at h
      cases tgt with
      | none => rfl
      | some t =>
        simp only [Option.map_some, cdistMat_similar h (hc t rfl)]
        exact .d2
  | false =>
    simp only [Bool.false_eq_true, if_false]
    simp only [usedMetric, Bool.false_eq_true, if_false] at h
    unfold eagerDistance
    split
    · rename_i hg
      rw [if_pos hg] at h
      simp only [show (mapRows T src).c = src.c from rfl, show (mapRows T src).r = src.r from rfl]
      split
      · rfl
      · split
        · exact .d1
        · cases tgt with
          | none => rfl
          | some t =>
            simp only [Option.map_some, cdistMat_similar h (hc t rfl)]
            exact .d2
    · rename_i hg
      rw [if_neg hg] at h
      cases hf : lib.scipy m {} with
      | none => rfl
      | some f =>
        rw [hf] at h
        cases tgt with
        | none => exact .d1
        | some t =>
          simp only [Option.map_some, cdistMat_similar h (hc t rfl)]
          exact .d2

/-- A transformation for every dimension. -/
inductive AllSimilar (lib : Lib K) (lazy : Bool) :
    List (Mat K) → List (Option String) → List (List K → List K) → List K → Prop
  | nil {ms} : AllSimilar lib lazy [] ms [] []
  | cons {s src m ms T Ts c cs} : Similar (usedMetric lib lazy m) s.c T c →
      AllSimilar lib lazy src ms Ts cs →
      AllSimilar lib lazy (s :: src) (m :: ms) (T :: Ts) (c :: cs)

theorem AllSimilar.lengths {lib : Lib K} {lazy : Bool} {src : List (Mat K)} {ms : List (Option String)}
    {Ts : List (List K → List K)} {cs : List K} (h : AllSimilar lib lazy src ms Ts cs) :
    Ts.length = src.length ∧ cs.length = src.length ∧ ∀ c ∈ cs, 0 < c := by
  induction h with
  | nil => simp
  | cons h _ ih =>
    refine ⟨by simp [ih.1], by simp [ih.2.1], ?_⟩
    intro c hc
    rcases List.mem_cons.1 hc with rfl | hc
    · exact h.pos
    · exact ih.2.2 c hc

theorem distanceLoop_similar (lib : Lib K) (lazy : Bool) {src : List (Mat K)}
    {ms : List (Option String)} {Ts : List (List K → List K)} {cs : List K}
    (h : AllSimilar lib lazy src ms Ts cs) (fs fs' : Disk K) (tgt : List (Option (Mat K)))
    (kws : List (Kwargs K)) (hk : ∀ k ∈ kws, k = {}) :
    DistsScaled cs (distanceLoop lib lazy false fs src tgt ms kws).1
      (distanceLoop lib lazy false fs' (List.zipWith mapRows Ts src)
        (List.zipWith (fun T t => t.map (mapRows T)) Ts tgt) ms kws).1 := by
  induction h generalizing fs fs' tgt kws with
  | nil => exact ⟨.nil, rfl⟩
  | @cons s src m ms T Ts c cs h hs ih =>
    cases tgt with
    | nil => rfl
    | cons t tgt =>
      cases kws with
      | nil => rfl
      | cons kw kws =>
        obtain rfl := hk kw (by simp)
        have h1 := distanceMatrix_similar lib fs fs' s t m lazy h
        simp only [List.zipWith_cons_cons, distanceLoop]
        rcases e1 : distanceMatrix lib fs s t m lazy false {} with ⟨r1, fs1⟩
        rcases e2 : distanceMatrix lib fs' (mapRows T s) (t.map (mapRows T)) m lazy false {} with
          ⟨r2, fs2⟩
        rw [e1, e2] at h1
        cases r1 with
        | error e =>
          cases r2 with
          | error e' => exact h1
          | ok d' => exact h1.elim
        | ok d =>
          cases r2 with
          | error e' => exact h1.elim
          | ok d' =>
            have h2 := ih fs1 fs2 tgt kws fun k hk' => hk k (by simp [hk'])
            rcases e3 : distanceLoop lib lazy false fs1 src tgt ms kws with ⟨r3, fs3⟩
            rcases e4 : distanceLoop lib lazy false fs2 (List.zipWith mapRows Ts src)
              (List.zipWith (fun T t => t.map (mapRows T)) Ts tgt) ms kws with ⟨r4, fs4⟩
            rw [e3, e4] at h2
            simp only [e3, e4]
            cases r3 with
            | error e =>
              cases r4 with
              | error e' => exact h2
              | ok d' => exact h2.elim
            | ok ds =>
              cases r4 with
              | error e' => exact h2.elim
              | ok ds' => exact ⟨.cons h1 h2.1, by simp [h2.2]⟩

theorem allD2_scaled : ∀ {cs : List K} {a b : List (DistOut K)},
    List.Forall₂ (fun cd d' => DistScaled cd.1 cd.2 d') (cs.zip a) b → a.length = cs.length →
    allD2 b = (allD2 a).map (List.zipWith scaleMat cs)
  | [], [], _, h, _ => by cases h; rfl
  | [], _ :: _, _, _, hl => by simp at hl
  | _ :: _, [], _, _, hl => by simp at hl
  | c :: cs, d :: a, b, h, hl => by
    rw [List.zip_cons_cons] at h
    obtain ⟨d', b, h1, h2, rfl⟩ := List.forall₂_cons_left_iff.1 h
    have ih := allD2_scaled h2 (by simpa using hl)
    cases h1 with
    | d1 => rfl
    | d2 =>
      simp only [allD2, ih]
      cases allD2 a <;> rfl

theorem allD2_length : ∀ {a : List (DistOut K)} {Ds : List (Mat K)}, allD2 a = some Ds →
    Ds.length = a.length
  | [], _, h => by cases h; rfl
  | ⟨_, .d1 _, _⟩ :: _, _, h => by cases h
  | ⟨_, .d2 m, _⟩ :: a, Ds, h => by
    simp only [allD2] at h
    cases ha : allD2 a with
    | none => rw [ha] at h; cases h
    | some Ds' =>
      rw [ha] at h
      cases h
      simp [allD2_length ha]

/-- C94: move the points of every dimension by a map that multiplies all distances of that dimension
by a factor (a shift, a rotation, a reflection, a change of unit), and multiply fixed bandwidths by
that factor. `weight_matrix_from_points` returns the same weights or raises the same exception:
with or without targets, for any metric for which the map has this property, with numpy or dask. -/
theorem C94_similarity (lib : Lib K) (env : Env K) (fs fs' : Disk K) (src : List (Mat K))
    (tgt : Option (List (Mat K))) (measure : Param (Option String)) (p : WParams K)
    (args : DistArgs K) (Ts : List (List K → List K)) (cs : List K)
    (h : AllSimilar lib args.truthy src (measure.expand src.length) Ts cs) :
    (weightMatrixFromPoints lib env fs' (moveAll Ts src)
      (tgt.map (moveAll Ts)) measure
      { p with bandwidth := scaleParam (· * ·) cs p.bandwidth } args).1 =
      (weightMatrixFromPoints lib env fs src tgt measure p args).1 := by
  obtain ⟨hT, hcs, hpos⟩ := h.lengths
  have hl := moveAll_length Ts src
  have hkw : ∀ k ∈ List.replicate src.length ({} : Kwargs K), k = {} := fun k hk =>
    List.eq_of_mem_replicate hk
  have hd : DistsScaled cs
      (distanceMatrices lib fs src tgt measure args.truthy false none {}).1
      (distanceMatrices lib fs' (moveAll Ts src) (tgt.map (moveAll Ts))
        measure args.truthy false none {}).1 := by
    unfold distanceMatrices
    simp only [hl, Option.getD_none]
    rw [moveAll_eq hT]
    cases tgt with
    | none =>
      have := distanceLoop_similar lib _ h fs fs' (List.replicate src.length none) _ hkw
      have e : List.zipWith (fun T (t : Option (Mat K)) => t.map (mapRows T)) Ts
          (List.replicate src.length none) = List.replicate src.length none := by
        apply List.ext_getElem
        · simp [hT]
        · intro i h1 h2
          simp
      rw [e] at this
      exact this
    | some t =>
      simp only [Option.map_some, moveAll_length]
      by_cases ht : src.length = t.length
      · rw [if_neg (not_not.2 ht), if_neg (not_not.2 ht), moveAll_eq (hT.trans ht)]
        have := distanceLoop_similar lib _ h fs fs' (t.map some) _ hkw
        have e : List.zipWith (fun T (t : Option (Mat K)) => t.map (mapRows T)) Ts (t.map some) =
            (List.zipWith mapRows Ts t).map some := by
          rw [List.map_zipWith, List.zipWith_map_right]
          rfl
        rw [e] at this
        exact this
      · rw [if_pos ht, if_pos ht]
        rfl
  unfold weightMatrixFromPoints
  rcases e1 : distanceMatrices lib fs src tgt measure args.truthy false none {} with ⟨r1, f1⟩
  rcases e2 : distanceMatrices lib fs' (moveAll Ts src)
    (tgt.map (moveAll Ts)) measure args.truthy false none {} with ⟨r2, f2⟩
  rw [e1, e2] at hd
  cases r1 with
  | error e =>
    cases r2 with
    | error e' => cases hd; rfl
    | ok d' => exact hd.elim
  | ok ds =>
    cases r2 with
    | error e' => exact hd.elim
    | ok ds' =>
      simp only
      unfold weightFromDists
      rw [allD2_scaled hd.1 hd.2]
      cases ha : allD2 ds with
      | none => rfl
      | some Ds =>
        have hDs : cs.length = Ds.length := by rw [allD2_length ha, hd.2]
        exact C93_dimension_units env _ Ds { p with sorted := .scalar none } cs hDs hpos

theorem pointSource_similar (lib : Lib K) (env : Env K) (fs fs' : Disk K) (src tgt : List (Mat K))
    (measure : Param (Option String)) (q : WParams K) (Ts : List (List K → List K)) (cs : List K)
    (h : AllSimilar lib false src (measure.expand src.length) Ts cs) :
    pointSource lib env fs' measure { q with bandwidth := scaleParam (· * ·) cs q.bandwidth }
      (moveAll Ts src) (moveAll Ts tgt) = pointSource lib env fs measure q src tgt := by
  have := C94_similarity lib env fs fs' src (some tgt) measure q none Ts cs h
  unfold pointSource
  simp only [Option.map_some] at this
  rw [this]

variable {F S : Type}

/-- C94: end to end: a model fitted on the moved coordinates (with converted bandwidths) has the same
outcome, weights, estimators, local predictions and score; only the coordinates it keeps differ. -/
theorem C94_fit (L : Learner K F) (rng : Rng S) (lib : Lib K) (env : Env K) (fs : Disk K)
    (measure : Param (Option String)) (q : WParams K) (p : WMParams K (List (Mat K)))
    (hp : p.weights = pointSource lib env fs measure q) (st : WMState K F (List (Mat K))) (s : S)
    (X : Mat K) (y : List K) (pts : List (Mat K)) (Ts : List (List K → List K)) (cs : List K)
    (h : AllSimilar lib false pts (measure.expand pts.length) Ts cs) :
    let q' := { q with bandwidth := scaleParam (· * ·) cs q.bandwidth }
    let p' := { p with weights := pointSource lib env fs measure q' }
    let o := wmFit L rng p st s X y (some pts) none
    let o' := wmFit L rng p' st s X y (some (moveAll Ts pts)) none
    o'.result = o.result ∧ o'.caller = o.caller ∧ o'.rng = o.rng ∧
    o.state = { o'.state with coords := o.state.coords } ∧
    (o.result = .ok () → p.cacheData = true →
      o.state.coords = some pts ∧ o'.state.coords = some (moveAll Ts pts)) := by
  intro q' p' o o'
  have hw : p'.weights (moveAll Ts pts) (moveAll Ts pts) = p.weights pts pts := by
    rw [hp]
    exact pointSource_similar lib env fs fs pts pts measure q Ts cs h
  simp only [o, o', wmFit]
  by_cases hck : checkXy X y = true
  swap
  · rw [if_neg hck, if_neg hck]
    exact ⟨rfl, rfl, rfl, rfl, nofun⟩
  rw [if_pos hck, if_pos hck]
  simp only [chosenWeights, hw]
  have hb : stateBegin p st X y (some pts) none =
      { stateBegin p' st X y (some (moveAll Ts pts)) none with
        coords := (stateBegin p st X y (some pts) none).coords } := by
    unfold stateBegin
    simp only [Option.isNone_some, Bool.false_and, Bool.false_eq_true, if_false,
      show p'.cacheData = p.cacheData from rfl]
    split <;> rfl
  have hc : p.cacheData = true → (stateBegin p st X y (some pts) none).coords = some pts ∧
      (stateBegin p' st X y (some (moveAll Ts pts)) none).coords = some (moveAll Ts pts) := by
    intro hc
    unfold stateBegin
    simp [hc, show p'.cacheData = p.cacheData from rfl]
  cases hW : p.weights pts pts with
  | error e => exact ⟨rfl, rfl, rfl, hb, nofun⟩
  | ok W =>
    simp only [Except.map, Option.isSome_none]
    unfold fitWith
    simp only [show leaveOut p' = leaveOut p from rfl, show p'.sampleRate = p.sampleRate from rfl,
      show p'.nJobs = p.nJobs from rfl, show p'.storedPatches = p.storedPatches from rfl,
      show p'.cpu = p.cpu from rfl]
    generalize stateBegin p st X y (some pts) none = a at hb hc ⊢
    generalize stateBegin p' st X y (some (moveAll Ts pts)) none = b at hb hc ⊢
    obtain ⟨co, rfl⟩ : ∃ co, a = { b with coords := co } := ⟨_, hb⟩
    clear hb
    rcases sampleLocations rng s p.sampleRate X.r with ⟨r, s'⟩
    cases r with
    | error e => exact ⟨rfl, rfl, rfl, rfl, nofun⟩
    | ok idx =>
      simp only
      cases fitAll L X (fun i => y.getD i 0) none (leaveOut p (.dense W)) X.r (some idx) p.nJobs
        p.storedPatches p.cpu with
      | error e => exact ⟨rfl, rfl, rfl, rfl, nofun⟩
      | ok res =>
        simp only [stateEnd, show p'.cacheEstimator = p.cacheEstimator from rfl]
        cases skR2 (List.map (fun i => y.getD i 0) idx) (res.map Prod.fst) with
        | error e => exact ⟨rfl, trivial, trivial, rfl, nofun⟩
        | ok sc => exact ⟨rfl, trivial, trivial, rfl, fun _ => hc⟩

/-- C94: and it makes the same predictions for new points moved in the same way, by both methods. -/
theorem C94_predict (L : Learner K F) (rng : Rng S) (lib : Lib K) (env : Env K) (fs : Disk K)
    (measure : Param (Option String)) (q : WParams K) (p : WMParams K (List (Mat K)))
    (hp : p.weights = pointSource lib env fs measure q) (st : WMState K F (List (Mat K))) (s : S)
    (X : Mat K) (y : List K) (pts : List (Mat K)) (Ts : List (List K → List K)) (cs : List K)
    (h : AllSimilar lib false pts (measure.expand pts.length) Ts cs)
    (hok : (wmFit L rng p st s X y (some pts) none).result = .ok ())
    (Xn : Mat K) (new : List (Mat K))
    (hn : AllSimilar lib false new (measure.expand new.length) Ts cs) :
    let q' := { q with bandwidth := scaleParam (· * ·) cs q.bandwidth }
    let p' := { p with weights := pointSource lib env fs measure q' }
    let o := wmFit L rng p st s X y (some pts) none
    let o' := wmFit L rng p' st s X y (some (moveAll Ts pts)) none
    predictByWeight L p' o'.state Xn (some (moveAll Ts new)) none =
      predictByWeight L p o.state Xn (some new) none ∧
    predictByFit L p' o'.state Xn (some (moveAll Ts new)) none =
      predictByFit L p o.state Xn (some new) none := by
  intro q' p' o o'
  obtain ⟨-, -, -, hst, hco⟩ := C94_fit L rng lib env fs measure q p hp st s X y pts Ts cs h
  have hst : o.state = { o'.state with coords := o.state.coords } := hst
  cases hcd : p.cacheData with
  | false =>
    constructor
    · simp [predictByWeight, show p'.cacheData = false from hcd, hcd]
    · simp [predictByFit, show p'.cacheData = false from hcd, hcd]
  | true =>
    obtain ⟨h1, h2⟩ := hco hok hcd
    have h1 : o.state.coords = some pts := h1
    have h2 : o'.state.coords = some (moveAll Ts pts) := h2
    have hw1 : p'.weights (moveAll Ts new) (moveAll Ts pts) = p.weights new pts := by
      rw [hp]; exact pointSource_similar lib env fs fs new pts measure q Ts cs hn
    have hw2 : p'.weights (moveAll Ts pts) (moveAll Ts new) = p.weights pts new := by
      rw [hp]; exact pointSource_similar lib env fs fs pts new measure q Ts cs h
    have e1 : o'.state.estimators = o.state.estimators := by rw [hst]
    have e2 : o'.state.X = o.state.X := by rw [hst]
    have e3 : o'.state.y = o.state.y := by rw [hst]
    constructor
    · unfold predictByWeight
      simp only [show p'.cacheData = p.cacheData from rfl,
        show p'.cacheEstimator = p.cacheEstimator from rfl, guard, storedEstimators, e1,
        predictWeights, h1, h2, hw1]
    · unfold predictByFit
      simp only [show p'.cacheData = p.cacheData from rfl, guard, cachedData, e2, e3,
        predictFitWeights, h1, h2, hw2, show p'.cpu = p.cpu from rfl]

/-! ### The hypotheses are met -/

/-- A quarter turn in the plane, three times larger and shifted. -/
def quarterTurn : List ℚ → List ℚ
  | [x, y] => [1 - 3 * y, 2 + 3 * x]
  | a => a

theorem quarterTurn_similar : Similar (some sqDist) 2 quarterTurn 9 where
  pos := by norm_num
  length a ha := by
    match a, ha with
    | [x, y], _ => rfl
  dist g hg a b ha hb := by
    cases hg
    match a, b, ha, hb with
    | [x, y], [z, w], _, _ =>
      simp only [sqDist, quarterTurn, List.zipWith_cons_cons, List.zipWith_nil_right, List.sum_cons,
        List.sum_nil]
      ring

/-- Scaling every coordinate and shifting it, for points with any number of coordinates. -/
theorem scaleShift_similar (n : Nat) (c t : ℚ) (hc : c ≠ 0) :
    Similar (some sqDist) n (List.map fun x => c * x + t) (c ^ 2) where
  pos := by positivity
  length a ha := by simpa using ha
  dist g hg a b ha hb := by
    cases hg
    clear ha hb
    induction a generalizing b with
    | nil => simp [sqDist]
    | cons x a ih =>
      cases b with
      | nil => simp [sqDist]
      | cons y b =>
        have := ih b
        simp only [sqDist, List.map_cons, List.zipWith_cons_cons, List.sum_cons] at this ⊢
        rw [this]
        ring

/-- On the sphere: turning the globe, that is, adding the same angle to every longitude. -/
theorem globe_similar (φ : ℝ) :
    Similar (some fun a b : List ℝ => greatCircle (a.getD 0 0, a.getD 1 0) (b.getD 0 0, b.getD 1 0)) 2
      (fun a => [a.getD 0 0 + φ, a.getD 1 0]) 1 where
  pos := one_pos
  length _ _ := rfl
  dist g hg a b _ _ := by
    cases hg
    simpa using C21_rotation (a.getD 0 0, a.getD 1 0) (b.getD 0 0, b.getD 1 0) φ

def turnSpace : Mat ℚ := ⟨4, 2, fun i j => (i + j) * i⟩
def turnTime : Mat ℚ := ⟨4, 1, fun i _ => 2 * i⟩

/-- Space turned, time in another unit; the bandwidth is converted, the weights are the same
(C94_similarity), and they are not trivial. -/
example : AllSimilar exLib false [turnSpace, turnTime] [some "sqeuclidean", some "sqeuclidean"]
      [quarterTurn, List.map fun x => 1 / 2 * x + 7] [9, (1 / 2) ^ 2] ∧
    okAnd (pointSource exLib ratEnv (fun _ => none) (.scalar (some "sqeuclidean"))
      { kernel := .scalar "bisquare", bandwidth := .scalar (some 20) } [turnSpace, turnTime]
      [turnSpace, turnTime]) (fun W => decide (0 < W.get 0 1 ∧ W.get 0 1 < W.get 0 0 ∧
        W.get 0 3 = 0)) = true := by
  have e : usedMetric exLib false (some "sqeuclidean") = some sqDist := by
    simp [usedMetric, exLib]
  have h1 : Similar (usedMetric exLib false (some "sqeuclidean")) turnSpace.c quarterTurn 9 := by
    rw [e]; exact quarterTurn_similar
  have h2 : Similar (usedMetric exLib false (some "sqeuclidean")) turnTime.c
      (List.map fun x => 1 / 2 * x + 7) ((1 / 2) ^ 2) := by
    rw [e]; exact scaleShift_similar _ _ _ (by norm_num)
  exact ⟨.cons h1 (.cons h2 .nil), by decide +kernel⟩

end Geo
