import Verif.Props.Floats
import Verif.Props.Coincident
import Verif.Props.Similarity
set_option linter.unusedSectionVars false
/-
C106: the eager branch of `_distance_matrix` sees coordinates and distances in single precision.
-/
namespace Geo
variable {K : Type} [Field K] [LinearOrder K] [IsStrictOrderedRing K] [FloorRing K]

theorem castMat_row (c : K → K) (M : Mat K) (i : Nat) : (castMat c M).row i = (M.row i).map c := by
  simp [castMat, Mat.row]

theorem pdistVec_cast (c : K → K) (f : List K → List K → K) (src : Mat K) :
    (pdistVec f (castMat c src)).map c = pdistVec (fun a b => c (f (a.map c) (b.map c))) src := by
  unfold pdistVec
  simp only [castMat_row, List.map_flatMap, List.map_map]
  rfl

/-- C106: the casts are the same as other metrics: the program with casts is the program without,
run with a library whose metrics round their arguments and their result. So whatever is proved of
the weights for all libraries holds with the casts. -/
theorem C106_casts_are_a_library (c : K → K) (lib : Lib K) (fs : Disk K) (src : Mat K)
    (tgt : Option (Mat K)) (metric : Option String) (useDask cacheSort : Bool) (kw : Kwargs K) :
    distanceMatrixCast c lib fs src tgt metric useDask cacheSort kw =
      distanceMatrix (lib.cast c) fs src tgt metric useDask cacheSort kw := by
  unfold distanceMatrixCast distanceMatrix
  split
  · rfl
  split
  · rfl
  congr 1
  unfold eagerDistanceCast eagerDistance Lib.cast
  split
  · split
    · rfl
    · split
      · rfl
      · cases tgt <;> rfl
  · dsimp only
    cases lib.scipy metric kw with
    | none => cases tgt <;> rfl
    | some f =>
      cases tgt with
      | none => simp only [Option.map_some, castArr, pdistVec_cast]
      | some t =>
        simp only [Option.map_some, castArr]
        congr 3
        unfold cdistMat
        simp only [castMat_row]
        rfl

/-- The program: `weight_matrix_from_points` with numpy's single precision casts. -/
abbrev Lib.inSingle (lib : Lib K) : Lib K := lib.cast single.round

/-- C106: rounding the coordinates to single precision beforehand changes nothing, unless
`distance_args` is used (dask) or a dimension is measured on the sphere. -/
theorem C106_only_single_precision_matters (lib : Lib K) (env : Env K) (fs : Disk K)
    (src tgt : List (Mat K)) (measure : Param (Option String)) (p : WParams K)
    (hm : ∀ m ∈ measure.expand src.length, m ≠ some "great-circle") :
    weightMatrixFromPoints lib.inSingle env fs (src.map (castMat single.round))
        (some (tgt.map (castMat single.round))) measure p none =
      weightMatrixFromPoints lib.inSingle env fs src (some tgt) measure p none := by
  refine weightMatrixFromPoints_congr _ env fs src tgt measure p none _ _ fun s hs t ht m hmm fs => ?_
  have hm' := hm m hmm
  have e : ∀ l : List K, (l.map single.round).map single.round = l.map single.round := fun l => by
    rw [List.map_map]
    exact List.map_congr_left fun x _ => single.round_round x
  unfold distanceMatrix eagerDistance columnsDiffer
  simp only [DistArgs.truthy, Bool.false_eq_true, if_false, hm', Lib.inSingle, Lib.cast]
  have hc : (castMat (single.round (K := K)) s).c = s.c := rfl
  have hc' : (castMat (single.round (K := K)) t).c = t.c := rfl
  rw [hc, hc']
  cases lib.scipy m {} with
  | none => rfl
  | some f =>
    have : cdistMat (fun a b => single.round (f (a.map single.round) (b.map single.round)))
        (castMat single.round s) (castMat single.round t) =
        cdistMat (fun a b => single.round (f (a.map single.round) (b.map single.round))) s t := by
      unfold cdistMat
      simp only [castMat_row, e]
      rfl
    simp only [Option.map_some, this]

/-- C106: two target points whose coordinates agree in single precision get the same weights. -/
theorem C106_indistinguishable (lib : Lib K) (env : Env K) (fs : Disk K)
    (src tgt : List (Mat K)) (measure : Param (Option String)) (p : WParams K)
    (hm : ∀ m ∈ measure.expand src.length, m ≠ some "great-circle") (j j' : Nat)
    (hj : ∀ t ∈ tgt, j < t.r ∧ j' < t.r)
    (h : ∀ t ∈ tgt, (t.row j).map single.round = (t.row j').map single.round)
    (W : Mat (Num K))
    (hW : (weightMatrixFromPoints lib.inSingle env fs src (some tgt) measure p none).1 = .ok W)
    (i : Nat) : W.get i j = W.get i j' := by
  rw [← C106_only_single_precision_matters lib env fs src tgt measure p hm] at hW
  refine C105_same_targets lib.inSingle env fs _ _ measure p none j j' ?_ ?_ W hW i
  · intro t' ht'
    obtain ⟨t, ht, rfl⟩ := List.mem_map.1 ht'
    exact hj t ht
  · intro t' ht'
    obtain ⟨t, ht, rfl⟩ := List.mem_map.1 ht'
    rw [castMat_row, castMat_row]
    exact h t ht

/-- C106: the resolution. Between `2^k` and `2^(k+1)` the coordinates kept are the multiples of
`2^(k-23)`; every coordinate is moved to a nearest one, by at most a part in `2^24` of its
size. -/
theorem C106_resolution (x : K) (k : ℤ) (hk : -126 ≤ k) (h1 : 2 ^ k ≤ |x|) (h2 : |x| < 2 ^ (k + 1)) :
    (∃ m : ℤ, single.round x = m * 2 ^ (k - 23)) ∧
    (∀ m : ℤ, |m * 2 ^ (k - 23) - x| < 2 ^ (k - 24) → single.round x = m * 2 ^ (k - 23)) ∧
    |single.round x - x| ≤ 2 ^ (-24 : ℤ) * |x| := by
  have hu : single.ulp x = 2 ^ (k - 23) := single.ulp_binade hk h1 h2
  refine ⟨⟨nearestEven (x / single.ulp x), by rw [← hu]; rfl⟩, fun m hm => ?_, ?_⟩
  · have hn := single.round_nearest_mul x m
    rw [hu] at hn
    have e : (2 : K) ^ (k - 23) = 2 * 2 ^ (k - 24) := by
      rw [show k - 23 = 1 + (k - 24) by ring, zpow_add₀ (by norm_num : (2 : K) ≠ 0), zpow_one]
    set n := nearestEven (x / single.ulp x)
    have hr : single.round x = n * 2 ^ (k - 23) := by rw [← hu]; rfl
    have hpos := Fmt.two_zpow_pos (K := K) (k - 24)
    rw [hr] at hn ⊢
    have hd : |(n : K) * 2 ^ (k - 23) - m * 2 ^ (k - 23)| < 2 ^ (k - 23) := by
      calc _ ≤ |(n : K) * 2 ^ (k - 23) - x| + |x - m * 2 ^ (k - 23)| := abs_sub_le _ _ _
        _ < 2 ^ (k - 23) := by rw [abs_sub_comm x]; linarith
    rw [← sub_mul, abs_mul, abs_of_pos (Fmt.two_zpow_pos (K := K) (k - 23))] at hd
    have h3 : |(n : K) - m| < 1 := by
      by_contra hc
      push Not at hc
      have := mul_le_mul_of_nonneg_right hc (Fmt.two_zpow_pos (K := K) (k - 23)).le
      linarith
    have h4 : |n - m| < 1 := by exact_mod_cast h3
    rw [sub_eq_zero.1 (Int.abs_lt_one_iff.1 h4)]
  · refine single.round_relative (le_trans ?_ h1)
    exact zpow_le_zpow_right₀ (by norm_num) hk

/-- C106: what survives exactly: integers up to `2^24`, and in general integers of at most 24 bits
times a power of two. -/
theorem C106_exact (m e : ℤ) (hm : |m| ≤ 2 ^ 24) (he : -149 ≤ e) :
    single.round ((m : K) * 2 ^ e) = m * 2 ^ e :=
  single.round_float _ (single.isFloat_mul m e hm he)

/-- C106: the order of distances is kept, but different distances can become equal. -/
theorem C106_order (x y : K) (h : x ≤ y) : single.round x ≤ single.round y := single.round_mono h

/-! ### Witnesses -/

/-- three times, in seconds since 1970: the second 50 s, the third 1000 s after the first -/
def exStamps : Mat ℚ := ⟨3, 1, fun i _ => 1700000000 + [0, 50, 1000].getD i 0⟩

def stampParams : WParams ℚ := { kernel := .scalar "bisquare", bandwidth := .scalar (some 2000000) }

/-- C106: with times in seconds since 1970 the resolution is 128 s: two events 50 s apart get the
same weight from everywhere; without the casts, or with dask, they do not. -/
theorem C106_timestamps :
    single.round (1700000050 : ℚ) = 1700000000 ∧
    okAnd (weightMatrixFromPoints exLib.inSingle ratEnv (fun _ => none) [exStamps]
      (some [exStamps]) (.scalar (some "sqeuclidean")) stampParams none).1
      (fun W => (List.range 3).all fun i => (W.get i 0).toK == (W.get i 1).toK) = true ∧
    okAnd (weightMatrixFromPoints exLib.inSingle ratEnv (fun _ => none) [exStamps]
      (some [exStamps]) (.scalar (some "sqeuclidean")) stampParams (some (.scalar [("w", 1)]))).1
      (fun W => (List.range 3).all fun i => (W.get i 0).toK != (W.get i 1).toK) = true := by
  decide +kernel

/-- The hypotheses of C106_indistinguishable are met by the first two of them. -/
example : (∀ t ∈ [exStamps], 0 < t.r ∧ 1 < t.r) ∧
    (∀ t ∈ [exStamps], (t.row 0).map single.round = (t.row 1).map single.round) ∧
    exStamps.row 0 ≠ exStamps.row 1 ∧
    (∀ m ∈ (Param.scalar (some "sqeuclidean")).expand 1, m ≠ some "great-circle") := by
  decide +kernel

/-- the points 0, 1 and 3 on a line, and the same moved by 2^24 -/
def exNear : Mat ℚ := ⟨3, 1, fun i _ => [0, 1, 3].getD i 0⟩
def exFar : Mat ℚ := ⟨3, 1, fun i _ => 2 ^ 24 + [0, 1, 3].getD i 0⟩

def nearParams : WParams ℚ := { kernel := .scalar "bisquare", bandwidth := .scalar (some 16) }

/-- C106: moving all points changes the weights once the coordinates are large (C94 is about exact
arithmetic). -/
theorem C106_translation :
    okAnd (weightMatrixFromPoints exLib.inSingle ratEnv (fun _ => none) [exNear]
      (some [exNear]) (.scalar (some "sqeuclidean")) nearParams none).1
      (fun W => decide ((W.get 0 1).toK < (W.get 0 0).toK)) = true ∧
    okAnd (weightMatrixFromPoints exLib.inSingle ratEnv (fun _ => none) [exFar]
      (some [exFar]) (.scalar (some "sqeuclidean")) nearParams none).1
      (fun W => decide ((W.get 0 1).toK = (W.get 0 0).toK)) = true := by
  decide +kernel

end Geo
