import Verif.Props.DistancePoints
import Mathlib.Logic.Equiv.Basic
set_option linter.unusedSectionVars false
/-
C105: points at the same coordinates get the same weights.
-/
namespace Geo
variable {K : Type} [Field K] [LinearOrder K] [IsStrictOrderedRing K] [FloorRing K]

/-- Changing the points of every dimension without changing the distances changes nothing. -/
theorem distanceLoop_points_congr (lib : Lib K) (ud : Bool) (g h : Mat K → Mat K)
    (src : List (Mat K)) : ∀ (tgt : List (Mat K)) (ms : List (Option String)) (n : Nat)
    (fs : Disk K),
    (∀ s ∈ src, ∀ t ∈ tgt, ∀ m ∈ ms, ∀ fs, distanceMatrix lib fs (g s) (some (h t)) m ud false {} =
      distanceMatrix lib fs s (some t) m ud false {}) →
    distanceLoop lib ud false fs (src.map g) ((tgt.map h).map some) ms (List.replicate n {}) =
      distanceLoop lib ud false fs src (tgt.map some) ms (List.replicate n {}) := by
  induction src with
  | nil => intro tgt ms n fs _; rfl
  | cons s src ih =>
    intro tgt ms n fs H
    cases tgt with
    | nil => rfl
    | cons t tgt =>
      cases ms with
      | nil => rfl
      | cons m ms =>
        cases n with
        | zero => rfl
        | succ n =>
          simp only [List.map_cons, List.replicate_succ, distanceLoop]
          rw [H s (by simp) t (by simp) m (by simp) fs]
          have ih' := ih tgt ms n
          rcases distanceMatrix lib fs s (some t) m ud false {} with ⟨r, f⟩
          cases r with
          | error e => rfl
          | ok d =>
            simp only
            rw [ih' f fun s hs t ht m hm => H s (by simp [hs]) t (by simp [ht]) m (by simp [hm])]

theorem weightMatrixFromPoints_congr (lib : Lib K) (env : Env K) (fs : Disk K)
    (src tgt : List (Mat K)) (measure : Param (Option String)) (p : WParams K) (args : DistArgs K)
    (g h : Mat K → Mat K)
    (H : ∀ s ∈ src, ∀ t ∈ tgt, ∀ m ∈ measure.expand src.length, ∀ fs,
      distanceMatrix lib fs (g s) (some (h t)) m args.truthy false {} =
      distanceMatrix lib fs s (some t) m args.truthy false {}) :
    weightMatrixFromPoints lib env fs (src.map g) (some (tgt.map h)) measure p args =
      weightMatrixFromPoints lib env fs src (some tgt) measure p args := by
  unfold weightMatrixFromPoints distanceMatrices
  simp only [Option.getD_none, List.length_map]
  rw [distanceLoop_points_congr lib _ g h src tgt _ _ fs H]

theorem swap_below {j j' c : Nat} (hj : j < c) (hj' : j' < c) : PermBelow (Equiv.swap j j') c := by
  refine ⟨fun k hk => ?_, fun k _ l _ e => (Equiv.swap j j').injective e⟩
  rcases eq_or_ne k j with rfl | h1
  · rwa [Equiv.swap_apply_left]
  · rcases eq_or_ne k j' with rfl | h2
    · rwa [Equiv.swap_apply_right]
    · rwa [Equiv.swap_apply_of_ne_of_ne h1 h2]

/-- The distances only see the rows. -/
theorem distanceMatrix_rows (lib : Lib K) (fs : Disk K) (s t s' t' : Mat K) (m : Option String)
    (ud cs : Bool) (kw : Kwargs K) (hr : s'.r = s.r) (hc : s'.c = s.c) (hs : ∀ i, s'.row i = s.row i)
    (hr' : t'.r = t.r) (hc' : t'.c = t.c) (ht : ∀ i, t'.row i = t.row i) :
    distanceMatrix lib fs s' (some t') m ud cs kw = distanceMatrix lib fs s (some t) m ud cs kw := by
  have hd : ∀ f : List K → List K → K, cdistMat f s' t' = cdistMat f s t := fun f => by
    unfold cdistMat
    rw [hr, hr']
    simp only [hs, ht]
  unfold distanceMatrix daskDistance eagerDistance columnsDiffer
  simp only [hc, hc', hr]
  cases lib.dask m <;> cases lib.scipy m kw <;> simp only [hd]

theorem selRows_same_rows {t : Mat K} {j j' : Nat} (h : t.row j = t.row j') (n : Nat) (i : Nat) :
    (selRows (Equiv.swap j j') n t).row i = t.row i := by
  rw [selRows_row]
  rcases eq_or_ne i j with rfl | h1
  · rw [Equiv.swap_apply_left, h]
  · rcases eq_or_ne i j' with rfl | h2
    · rw [Equiv.swap_apply_right, h]
    · rw [Equiv.swap_apply_of_ne_of_ne h1 h2]

/-- C105: two target points with the same coordinates in every dimension get the same weight from
every source, for every metric, kernel, bandwidth, backend and library. -/
theorem C105_same_targets (lib : Lib K) (env : Env K) (fs : Disk K) (src tgt : List (Mat K))
    (measure : Param (Option String)) (p : WParams K) (args : DistArgs K) (j j' : Nat)
    (hj : ∀ t ∈ tgt, j < t.r ∧ j' < t.r) (h : ∀ t ∈ tgt, t.row j = t.row j')
    (W : Mat (Num K))
    (hW : (weightMatrixFromPoints lib env fs src (some tgt) measure p args).1 = .ok W) (i : Nat) :
    W.get i j = W.get i j' := by
  have h1 := C17_target_points lib env fs src tgt measure p args (Equiv.swap j j')
    fun t ht => swap_below (hj t ht).1 (hj t ht).2
  have h2 := weightMatrixFromPoints_congr lib env fs src tgt measure p args id
    (permPoints (Equiv.swap j j')) fun s _ t ht m _ fs =>
      distanceMatrix_rows lib fs s t s _ m _ _ _ rfl rfl (fun _ => rfl) rfl rfl
        (selRows_same_rows (h t ht) t.r)
  rw [List.map_id] at h2
  rw [h2, hW] at h1
  have h3 : W = permCols (Equiv.swap j j') W := Except.ok.inj h1
  have h4 := congrArg (fun M : Mat (Num K) => M.get i j) h3
  simp only [permCols, Equiv.swap_apply_left] at h4
  exact h4

/-- C105: two source points with the same coordinates in every dimension get the same row of
weights. -/
theorem C105_same_sources (lib : Lib K) (env : Env K) (fs : Disk K) (src tgt : List (Mat K))
    (measure : Param (Option String)) (p : WParams K) (r c j j' : Nat)
    (hr : ∀ s ∈ src, s.r = r) (hc : ∀ t ∈ tgt, t.r = c) (hj : j < r) (hj' : j' < r)
    (h : ∀ s ∈ src, s.row j = s.row j') (W : Mat (Num K))
    (hW : (weightMatrixFromPoints lib env fs src (some tgt) measure p none).1 = .ok W) :
    W.row j = W.row j' := by
  have hr0 : 0 < r := by omega
  have h1 := C18_source_points lib env fs src tgt measure p r c r hr0 hr0 hr hc (Equiv.swap j j')
    fun i hi => (swap_below hj hj').1 i hi
  have h2 := weightMatrixFromPoints_congr lib env fs src tgt measure p none
    (selRows (Equiv.swap j j') r) id fun s hs t ht m _ fs =>
      distanceMatrix_rows lib fs s t _ t m _ _ _ (hr s hs).symm rfl
        (selRows_same_rows (h s hs) r) rfl rfl (fun _ => rfl)
  rw [List.map_id] at h2
  rw [h2, hW] at h1
  have h3 : W = selRows (Equiv.swap j j') r W := Except.ok.inj h1
  rw [h3, selRows_row, Equiv.swap_apply_left]
  conv_rhs => rw [← h3]

/-- four points in the plane, the second and the last at the same place -/
def exPlaces : Mat ℚ := ⟨4, 2, fun i j => [[0, 0], [1, 2], [3, 1], [1, 2]].getD i [] |>.getD j 0⟩

/-- The hypotheses are met, by a call that succeeds with weights that differ otherwise. -/
example : (∀ t ∈ [exPlaces], 1 < t.r ∧ 3 < t.r) ∧ (∀ t ∈ [exPlaces], t.row 1 = t.row 3) ∧
    okAnd (weightMatrixFromPoints exLib ratEnv (fun _ => none) [exPlaces] (some [exPlaces])
      (.scalar (some "sqeuclidean"))
      { kernel := .scalar "bisquare", bandwidth := .scalar (some 20) } none).1
      (fun W => decide ((W.get 0 1).toK = (W.get 0 3).toK ∧ (W.get 0 1).toK < (W.get 0 0).toK ∧
        (W.get 0 2).toK < (W.get 0 1).toK ∧ 0 < (W.get 0 2).toK)) = true := by
  decide +kernel

end Geo
