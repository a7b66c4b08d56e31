import Mathlib.Tactic.Ring
import Mathlib.Tactic.Linarith
import Verif.Props.DistancePoints

namespace Geo
set_option linter.unusedSectionVars false
variable {K : Type} [Field K] [LinearOrder K] [IsStrictOrderedRing K] [FloorRing K]

theorem filter_lt_range (n i : Nat) :
    ((List.range n).filter fun j => i < j) = List.range' (i + 1) (n - 1 - i) := by
  induction n with
  | zero => simp
  | succ n ih =>
    rw [List.range_succ, List.filter_append, ih]
    by_cases h : i < n
    · have : n + 1 - 1 - i = (n - 1 - i) + 1 := by omega
      rw [this, List.range'_concat]
      have e : i + 1 + 1 * (n - 1 - i) = n := by omega
      rw [e]
      simp [h]
    · have : n + 1 - 1 - i = n - 1 - i := by omega
      rw [this]
      simp [h]

/-- The rows before row `i` of the condensed vector. -/
theorem condensed_offset (g : Nat → Nat → K) (n i : Nat) (hi : i ≤ n) :
    2 * ((List.range i).flatMap fun a => (List.range' (a + 1) (n - 1 - a)).map (g a)).length +
      i * (i + 1) = 2 * (n * i) := by
  induction i with
  | zero => simp
  | succ i ih =>
    have h := ih (by omega)
    rw [List.range_succ, List.flatMap_append, List.length_append, mul_add]
    simp only [List.flatMap_cons, List.flatMap_nil, List.append_nil, List.length_map,
      List.length_range']
    obtain ⟨m, rfl⟩ : ∃ m, n = i + 1 + m := ⟨n - (i + 1), by omega⟩
    have e : i + 1 + m - 1 - i = m := by omega
    rw [e]
    nlinarith

theorem pdistVec_eq (f : List K → List K → K) (src : Mat K) :
    pdistVec f src = (List.range src.r).flatMap fun a =>
      (List.range' (a + 1) (src.r - 1 - a)).map fun b => f (src.row a) (src.row b) := by
  unfold pdistVec
  simp only [filter_lt_range]

theorem pdistVec_length (f : List K → List K → K) (src : Mat K) :
    2 * (pdistVec f src).length + src.r = src.r * src.r := by
  have h := condensed_offset (fun a b => f (src.row a) (src.row b)) src.r src.r le_rfl
  rw [pdistVec_eq]
  nlinarith

theorem pdistVec_get (f : List K → List K → K) (src : Mat K) (i j : Nat) (hij : i < j)
    (hj : j < src.r) :
    (pdistVec f src)[src.r * i + j - (i + 2) * (i + 1) / 2]? =
      some (f (src.row i) (src.row j)) := by
  rw [pdistVec_eq]
  obtain ⟨m, hm⟩ : ∃ m, src.r = i + 1 + m := ⟨src.r - (i + 1), by omega⟩
  have hoff := condensed_offset (fun a b => f (src.row a) (src.row b)) src.r i (by omega)
  have hsplit : List.range src.r = List.range i ++ i :: List.range' (i + 1) m := by
    rw [List.range_eq_range', List.range_eq_range', hm, ← List.range'_append_1,
      ← List.range'_append_1]
    simp
  rw [hsplit, List.flatMap_append, List.flatMap_cons]
  generalize hA : (List.range i).flatMap (fun a =>
    (List.range' (a + 1) (src.r - 1 - a)).map fun b => f (src.row a) (src.row b)) = A at hoff ⊢
  have hidx : src.r * i + j - (i + 2) * (i + 1) / 2 = A.length + (j - i - 1) := by
    have e : (i + 2) * (i + 1) = i * (i + 1) + 2 * (i + 1) := by ring
    have : (i + 2) * (i + 1) / 2 = i * (i + 1) / 2 + (i + 1) := by
      rw [e]; omega
    have h2 : 2 ∣ i * (i + 1) := (Nat.even_mul_succ_self i).two_dvd
    omega
  rw [hidx, List.getElem?_append_right (by omega), Nat.add_sub_cancel_left,
    List.getElem?_append_left (by simp; omega), List.getElem?_map,
    List.getElem?_range' (by omega)]
  simp only [Option.map_some]
  congr 3
  omega

/-- C123: without targets and without dask the distances among the sources are returned as a vector
with one entry for each pair, the pair `i < j` at the place scipy documents for it. Nothing is
stored. -/
theorem C123_condensed (lib : Lib K) (fs : Disk K) (src : Mat K) (metric : Option String)
    (cacheSort : Bool) (kw : Kwargs K) (f : List K → List K → K)
    (hm : metric ≠ some "great-circle") (hf : lib.scipy metric kw = some f) :
    ∃ v, distanceMatrix lib fs src none metric false cacheSort kw =
        (.ok ⟨false, .d1 v, none⟩, fs) ∧
      v.length = src.r * (src.r - 1) / 2 ∧
      ∀ i j, i < j → j < src.r →
        v[src.r * i + j - (i + 2) * (i + 1) / 2]? = some (f (src.row i) (src.row j)) := by
  refine ⟨pdistVec f src, ?_, ?_, pdistVec_get f src⟩
  · simp [distanceMatrix, columnsDiffer, eagerDistance, hm, hf]
  · have h := pdistVec_length f src
    rw [Nat.mul_sub_one]
    omega

theorem replaceChars_length {pat rep : List Char} (h0 : pat ≠ []) (h : pat.length ≤ rep.length) (k : Nat)
    (l : List Char) : l.length ≤ (replaceChars pat rep k l).length + k := by
  induction l generalizing k with
  | nil => simp
  | cons c l ih =>
    cases k with
    | succ k => have := ih k; simp only [replaceChars, List.length_cons]; omega
    | zero =>
      rw [replaceChars]
      split
      · rename_i hp
        have := ih (pat.length - 1)
        rw [List.length_append, List.length_cons]
        have := List.length_pos_iff.2 h0
        omega
      · have := ih 0
        simp only [List.length_cons]; omega

theorem replaceChars_longer {pat rep : List Char} (h0 : pat ≠ []) (h : pat.length < rep.length)
    (l : List Char) (hl : pat <:+ l) : l.length < (replaceChars pat rep 0 l).length := by
  induction l with
  | nil => exact absurd (List.suffix_nil.1 hl) h0
  | cons c l ih =>
    rw [replaceChars]
    split
    · have := replaceChars_length h0 h.le (pat.length - 1) l
      have := List.length_pos_iff.2 h0
      rw [List.length_append, List.length_cons]
      omega
    · rename_i hp
      rcases List.suffix_cons_iff.1 hl with rfl | hl
      · exact absurd (List.isPrefixOf_iff_prefix.2 List.prefix_rfl) hp
      · simpa using ih hl

theorem sortedPath_ne (kw : Kwargs K) : sortedPath (zarrPath kw) ≠ zarrPath kw := by
  have hs : ".zarr".toList <:+ (zarrPath kw).toList := by
    unfold zarrPath
    simp only
    split
    · rename_i h; exact List.isSuffixOf_iff_suffix.1 h
    · rw [String.toList_append]; exact List.suffix_append _ _
  intro h
  have hl := replaceChars_longer (rep := "_sorted.zarr".toList) (by decide) (by decide) _ hs
  have he : (sortedPath (zarrPath kw)).toList = (zarrPath kw).toList := by rw [h]
  rw [sortedPath, String.toList_ofList] at he
  rw [he] at hl
  exact lt_irrefl _ hl

/-- C123: with `cache_sort` a computation returns the distances and a copy in which every row is
the same distances in ascending order, and leaves both in their stores and all other files alone.
The two stores never have the same name. -/
theorem C123_sorted (lib : Lib K) (fs : Disk K) (src tgt : Mat K) (metric : Option String)
    (kw : Kwargs K) (f : List K → List K → K) (hc : src.c = tgt.c)
    (hm : lib.dask metric = some f)
    (hn : kw.overwrite = true ∨ fs (zarrPath kw) = none ∨ kw.filepath = none) :
    ∃ (D' : Mat K) (fs' : Disk K), distanceMatrix lib fs src (some tgt) metric true true kw =
        (.ok ⟨true, .d2 ⟨src.r, tgt.r, fun i j => f (src.row i) (tgt.row j)⟩, some (.d2 D')⟩, fs') ∧
      D'.r = src.r ∧ D'.c = tgt.r ∧
      (∀ i, (D'.row i).Perm ((List.range tgt.r).map fun j => f (src.row i) (tgt.row j)) ∧
        (D'.row i).Pairwise (· ≤ ·)) ∧
      fs' (zarrPath kw) = some (.d2 ⟨src.r, tgt.r, fun i j => f (src.row i) (tgt.row j)⟩) ∧
      fs' (sortedPath (zarrPath kw)) = some (.d2 D') ∧
      ∀ q, q ≠ zarrPath kw → q ≠ sortedPath (zarrPath kw) → fs' q = fs q := by
  have hp := sortedPath_ne kw
  have hn : cachedStore fs kw = none := by
    unfold cachedStore
    rcases hn with h | h | h <;> simp [h]
  have hrow : ∀ i, (sortRows (cdistMat f src tgt)).row i = sortL ((cdistMat f src tgt).row i) := by
    intro i
    have hl : (sortL ((cdistMat f src tgt).row i)).length = (cdistMat f src tgt).c := by
      simp [Mat.row]
    apply List.ext_getElem
    · rw [hl]; simp [Mat.row, sortRows]
    · intro k h1 h2
      simp only [Mat.row, sortRows, List.getElem_map, List.getElem_range]
      exact List.getD_eq_getElem _ _ h2
  refine ⟨sortRows (cdistMat f src tgt), (fs.write (zarrPath kw) (.d2 (cdistMat f src tgt))).write
    (sortedPath (zarrPath kw)) (.d2 (sortRows (cdistMat f src tgt))), ?_, rfl,
    rfl, fun i => ?_, ?_, ?_, ?_⟩
  · simp [distanceMatrix, columnsDiffer, hc, daskDistance, hn, hm, cdistMat]
  · rw [hrow]
    exact ⟨sortL_perm _, sortL_pairwise _⟩
  · simp [Disk.write, cdistMat, hp.symm]
  · simp [Disk.write]
  · intro q h1 h2
    simp [Disk.write, h1, h2]

/-- C123: the condensed vector of three points on a line. -/
example : pdistVec (fun a b => |a.headD 0 - b.headD 0|) ⟨3, 1, fun i _ => ((i * i : ℕ) : ℚ)⟩ =
    [1, 4, 3] := by
  decide +kernel

/-- C123: the names of the two stores. -/
example : zarrPath ({ filepath := some "a" } : Kwargs ℚ) = "a.zarr" ∧
    zarrPath ({ filepath := some "a.zarr" } : Kwargs ℚ) = "a.zarr" ∧
    sortedPath "a.zarr" = "a_sorted.zarr" ∧
    sortedPath "x.zarr/y.zarr" = "x_sorted.zarr/y_sorted.zarr" := by
  decide +kernel

/-- C20: a list of dictionaries counts as given when it has a member, even an empty dictionary, and
then does what any non-empty dictionary does; an empty list does what no argument does. -/
theorem C20_lists (lib : Lib K) (env : Env K) (fs : Disk K) (src : List (Mat K))
    (tgt : Option (List (Mat K))) (measure : Param (Option String)) (p : WParams K)
    (d : List (String × K)) (ds : List (List (String × K))) (a : String × K)
    (l : List (String × K)) :
    weightMatrixFromPoints lib env fs src tgt measure p (some (.list (d :: ds))) =
        weightMatrixFromPoints lib env fs src tgt measure p (some (.scalar (a :: l))) ∧
      weightMatrixFromPoints lib env fs src tgt measure p (some (.list [])) =
        weightMatrixFromPoints lib env fs src tgt measure p none :=
  ⟨rfl, rfl⟩

end Geo
