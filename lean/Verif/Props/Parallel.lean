import Verif.Model.Parallel
import Verif.Lemmas.Csr
import Verif.Lemmas.Shrink
import Verif.Props.Shrink
set_option linter.unusedSectionVars false
/-
Property C25: the results of the parallel loops do not depend on the schedule.
-/
namespace Geo
open Par

namespace Par
variable {A V L : Type}

theorem runAlone_map_loc {ι : Type} (f : ι → Act A V L) (g : L → ι → L)
    (hf : ∀ k l m, f k l m = (g l k, m)) (ks : List ι) (l : L) (m : Mem A V) :
    runAlone (ks.map f) l m = (ks.foldl g l, m) := by
  induction ks generalizing l with
  | nil => rfl
  | cons k ks ih =>
    show runAlone (ks.map f) (f k l m).1 (f k l m).2 = _
    rw [hf, ih]
    rfl

theorem runAlone_map_mem {ι : Type} (f : ι → Act A V L) (g : Mem A V → ι → Mem A V) (l : L)
    (hf : ∀ k m, f k l m = (l, g m k)) (ks : List ι) (m : Mem A V) :
    runAlone (ks.map f) l m = (l, ks.foldl g m) := by
  induction ks generalizing m with
  | nil => rfl
  | cons k ks ih =>
    show runAlone (ks.map f) (f k l m).1 (f k l m).2 = _
    rw [hf, ih]
    rfl

theorem inside_loc {own : A → Prop} {a : Act A V L} (g : L → L) (h : ∀ l m, a l m = (g l, m)) :
    Inside own a where
  frame l m x _ := by rw [h]
  dep l m m' hm := by rw [h, h]; exact ⟨rfl, hm⟩

theorem foldl_update {ι : Type} [DecidableEq A] (addr : ι → A) (v : ι → V) (ks : List ι)
    (hnd : ks.Pairwise fun a b => addr a ≠ addr b) (m : Mem A V) (k : ι) (hk : k ∈ ks) :
    ks.foldl (fun m k => Function.update m (addr k) (v k)) m (addr k) = v k := by
  induction ks generalizing m with
  | nil => cases hk
  | cons a ks ih =>
    rw [List.pairwise_cons] at hnd
    rw [List.foldl_cons]
    rcases List.mem_cons.1 hk with rfl | hk
    · clear ih hk
      have : ∀ (ks : List ι) (m : Mem A V), (∀ b ∈ ks, addr k ≠ addr b) →
          ks.foldl (fun m k => Function.update m (addr k) (v k)) m (addr k) = m (addr k) := by
        intro ks
        induction ks with
        | nil => intros; rfl
        | cons b ks ih =>
          intro m h
          rw [List.foldl_cons, ih _ fun c hc => h c (by simp [hc]),
            Function.update_of_ne (h b (by simp))]
      rw [this ks _ hnd.1, Function.update_self]
    · exact ih hnd.2 _ hk

end Par

/-- Start of the loop. -/
def Par.start {A V L : Type} (acts : Nat → List (Act A V L)) (l0 : L) (m0 : Mem A V) :
    State A V L := ⟨m0, fun _ => l0, acts⟩

/-! ### Second-order neighbours -/

theorem sumLoop (A : Mat Bool) (ks : List Nat) (l : Nat → Nat) (m : Mem (Nat × Nat) Bool) :
    ∃ l', runAlone (ks.flatMap fun k => (List.range A.c).map (sumStep A k)) l m = (l', m) ∧
      ∀ j < A.c, l' j = l j + (ks.map fun k => if A.get k j then 1 else 0).sum := by
  induction ks generalizing l with
  | nil => exact ⟨l, rfl, by simp⟩
  | cons k ks ih =>
    have h1 := runAlone_map_loc (sumStep A k)
      (fun l j => Function.update l j (l j + if A.get k j then 1 else 0)) (fun _ _ _ => rfl)
      (List.range A.c) l m
    have h2 : ∀ n (l : Nat → Nat) j, (List.range n).foldl
        (fun l j => Function.update l j (l j + if A.get k j then 1 else 0)) l j =
        if j < n then l j + (if A.get k j then 1 else 0) else l j := by
      intro n l j
      induction n with
      | zero => simp
      | succ n ih =>
        rw [List.range_succ, List.foldl_append, List.foldl_cons, List.foldl_nil]
        by_cases hj : j = n
        · subst hj
          rw [Function.update_self, ih]; simp
        · rw [Function.update_of_ne hj, ih]
          have : j < n + 1 ↔ j < n := by omega
          simp [this]
    obtain ⟨l', h3, h4⟩ := ih ((List.range A.c).foldl
      (fun l j => Function.update l j (l j + if A.get k j then 1 else 0)) l)
    refine ⟨l', ?_, fun j hj => ?_⟩
    · rw [List.flatMap_cons, runAlone_append, h1]
      exact h3
    · rw [h4 j hj, h2, if_pos hj, List.map_cons, List.sum_cons]
      omega

/-- C25: every complete execution of the parallel loop over the rows, in any order and with any
interleaving of element accesses, and whatever the uninitialised result array contained, stores
exactly the matrix of the sequential definition. -/
theorem C25_second_order_dense (A leaveOut : Mat Bool) (m0 : Mem (Nat × Nat) Bool)
    (sched : List Nat)
    (hdone : ((Par.start (secondOrderActs A leaveOut) (fun _ => 0) m0).run sched).Done A.c) :
    ∀ i < A.c, ∀ j < A.c,
      ((Par.start (secondOrderActs A leaveOut) (fun _ => 0) m0).run sched).mem (i, j) =
        (secondOrderDense A leaveOut).get i j := by
  intro i hi j hj
  have hin : ∀ i, ∀ a ∈ secondOrderActs A leaveOut i, Inside (fun x => x.1 = i) a := by
    intro i a ha
    simp only [secondOrderActs, List.mem_append, List.mem_flatMap, List.mem_map] at ha
    rcases ha with ⟨k, -, j, -, rfl⟩ | ⟨j, -, rfl⟩
    · exact inside_loc _ fun l m => rfl
    · refine ⟨fun l m x hx => ?_, fun l m m' hm => ⟨rfl, fun x hx => ?_⟩⟩
      · exact Function.update_of_ne (by rintro rfl; exact hx rfl) _ _
      · simp only [storeBool, Function.update_apply]
        rw [hm x hx]
  have h := (schedule_result (own := fun (i : Nat) (x : Nat × Nat) => x.1 = i) (acts := secondOrderActs A leaveOut)
    (l0 := fun _ _ => 0) (m0 := m0) A.c (fun i j x h1 h2 => h1.symm.trans h2) hin sched hdone).1
      i hi (i, j) rfl
  refine h.trans ?_
  unfold secondOrderActs
  rw [runAlone_append]
  obtain ⟨l', h1, h2⟩ := sumLoop A ((List.range A.r).filter fun k => leaveOut.get i k)
    (fun _ => 0) m0
  rw [h1]
  rw [runAlone_map_mem (storeBool i) (fun m j => Function.update m (i, j) (decide (l' j ≠ 0))) l'
    (fun _ _ => rfl)]
  simp only
  rw [foldl_update (fun j => (i, j)) (fun j => decide (l' j ≠ 0)) (List.range A.c) _ m0 j
    (by simpa using hj), h2 j hj]
  · simp only [Nat.zero_add]; rfl
  · exact (List.nodup_range (n := A.c)).imp fun h h' => h (Prod.ext_iff.1 h').2

/-- C25, sparse arrays: the lists of indices stored by the parallel loop. -/
theorem C25_second_order_sparse {α β : Type} (A : Csr α) (L : Csr β) (m0 : Mem Nat (List Nat))
    (sched : List Nat)
    (hdone : ((Par.start (secondOrderSparseActs A L (A.indptr.length - 1))
      (List.replicate (A.indptr.length - 1) false) m0).run sched).Done (A.indptr.length - 1)) :
    (List.range (A.indptr.length - 1)).map
      ((Par.start (secondOrderSparseActs A L (A.indptr.length - 1))
        (List.replicate (A.indptr.length - 1) false) m0).run sched).mem = secondOrderRows A L := by
  generalize hN : A.indptr.length - 1 = N at *
  unfold secondOrderRows
  rw [hN]
  apply List.map_congr_left
  intro i hi
  have hi : i < N := by simpa using hi
  have hin : ∀ i, ∀ a ∈ secondOrderSparseActs A L N i, Inside (fun x => x = i) a := by
    intro i a ha
    simp only [secondOrderSparseActs, List.mem_append, List.mem_flatMap, List.mem_map,
      List.mem_singleton] at ha
    rcases ha with ⟨k, -, j, -, rfl⟩ | rfl
    · exact inside_loc _ fun l m => rfl
    · refine ⟨fun l m x hx => ?_, fun l m m' hm => ⟨rfl, fun x hx => ?_⟩⟩
      · exact Function.update_of_ne hx _ _
      · simp only [storeRow, Function.update_apply]
        rw [hm x hx]
  have h := (schedule_result (own := fun i x => x = i) (acts := secondOrderSparseActs A L N)
    (l0 := fun _ => List.replicate N false) (m0 := m0) N (fun i j x h1 h2 => h1.symm.trans h2) hin
      sched hdone).1 i hi i rfl
  refine h.trans ?_
  unfold secondOrderSparseActs
  rw [runAlone_append]
  have hmark : ∀ (ks : List Nat) (l : List Bool) (m : Mem Nat (List Nat)),
      runAlone (ks.flatMap fun k => (A.rowIdx k).map markStep) l m =
        (ks.foldl (fun u k => (A.rowIdx k).foldl (fun u j => u.set j true) u) l, m) := by
    intro ks
    induction ks with
    | nil => intros; rfl
    | cons k ks ih =>
      intro l m
      rw [List.flatMap_cons, runAlone_append,
        runAlone_map_loc markStep (fun u j => u.set j true) (fun _ _ _ => rfl)]
      exact ih _ _
  rw [hmark]
  show Function.update m0 i _ i = _
  rw [Function.update_self]
  rfl

/-! ### Shrinking -/
variable {K : Type} [Field K] [LinearOrder K] [IsStrictOrderedRing K] [FloorRing K]

theorem writeLoop (i : Nat) (l : ShrinkLocal K) (n : Nat) (m : Mem (Nat × Nat) K) (j : Nat) :
    ((List.range n).foldl (fun m k => (writeStep i k l m).2) m) (i, j) =
      ((l.out.take n).foldl (fun g p => Function.update g p.1 p.2) fun j => m (i, j)) j := by
  induction n generalizing j with
  | zero => rfl
  | succ n ih =>
    rw [List.range_succ, List.foldl_append, List.foldl_cons, List.foldl_nil]
    rw [List.take_add_one]
    generalize (List.range n).foldl (fun m k => (writeStep i k l m).2) m = m' at ih
    unfold writeStep
    cases h : l.out[n]? with
    | none => simpa using ih j
    | some p =>
      simp only [Option.toList_some, List.foldl_append, List.foldl_cons, List.foldl_nil]
      by_cases hj : j = p.1
      · subst hj; simp
      · rw [Function.update_of_ne hj, Function.update_of_ne]
        · exact ih j
        · intro h'; exact hj (Prod.ext_iff.1 h').2

/-- C25: every complete execution of the parallel loop that shrinks the rows of an array leaves
in it exactly what the sequential definition computes, and touches nothing else. -/
theorem C25_shrink_dense (W W' : Mat K) (q : K) (hW' : shrinkDense W q = .ok W')
    (sched : List Nat)
    (hdone : ((Par.start (shrinkActs q W.c) ⟨[], []⟩ fun x => W.get x.1 x.2).run sched).Done W.r) :
    ∀ i < W.r, ∀ j < W.c,
      ((Par.start (shrinkActs q W.c) ⟨[], []⟩ fun x => W.get x.1 x.2).run sched).mem (i, j) =
        W'.get i j := by
  intro i hi j hj
  have hin : ∀ i, ∀ a ∈ shrinkActs q W.c i, Inside (fun x : Nat × Nat => x.1 = i) a := by
    intro i a ha
    simp only [shrinkActs, List.mem_append, List.mem_map, List.mem_singleton] at ha
    rcases ha with (⟨j, -, rfl⟩ | rfl) | ⟨k, -, rfl⟩
    · refine ⟨fun l m x hx => rfl, fun l m m' hm => ⟨?_, hm⟩⟩
      simp only [readStep]
      rw [hm (i, j) rfl]
    · exact inside_loc _ fun l m => rfl
    · refine ⟨fun l m x hx => ?_, fun l m m' hm => ⟨rfl, fun x hx => ?_⟩⟩
      · unfold writeStep
        cases l.out[k]? with
        | none => rfl
        | some p => exact Function.update_of_ne (by rintro rfl; exact hx rfl) _ _
      · unfold writeStep
        cases l.out[k]? with
        | none => exact hm x hx
        | some p => simp only [Function.update_apply]; rw [hm x hx]
  have h := (schedule_result (own := fun (i : Nat) (x : Nat × Nat) => x.1 = i) (acts := shrinkActs q W.c)
    (l0 := fun _ => ⟨[], []⟩) (m0 := fun x => W.get x.1 x.2) W.r
    (fun i j x h1 h2 => h1.symm.trans h2) hin sched hdone).1 i hi (i, j) rfl
  refine h.trans ?_
  have hW'' : W'.get i j = shrinkRow q W.c (W.get i) j := by
    unfold shrinkDense at hW'
    split at hW'
    · cases hW'
    · injection hW' with hW'; rw [← hW']
  rw [hW'']
  unfold shrinkActs
  rw [runAlone_append, runAlone_append]
  have hread : ∀ (ks : List Nat) (l : ShrinkLocal K) (m : Mem (Nat × Nat) K),
      runAlone (ks.map (readStep i)) l m = (⟨l.seen ++ ks.map fun j => m (i, j), l.out⟩, m) := by
    intro ks
    induction ks with
    | nil => intro l m; simp [runAlone]
    | cons k ks ih =>
      intro l m
      show runAlone (ks.map (readStep i)) (readStep i k l m).1 (readStep i k l m).2 = _
      rw [ih]
      simp [readStep]
  rw [hread]
  simp only [List.nil_append]
  generalize hl : (runAlone [computeStep q]
    (⟨(List.range W.c).map fun j => W.get i j, []⟩ : ShrinkLocal K) fun x => W.get x.1 x.2) = lm
  have hl2 : lm.2 = fun x => W.get x.1 x.2 := by rw [← hl]; rfl
  have hseen : ∀ k, ((List.range W.c).map fun j => W.get i j).getD k 0 =
      if k < W.c then W.get i k else 0 := by
    intro k
    by_cases hk : k < W.c
    · simp [List.getD, hk]
    · simp [List.getD, hk]
  have hl1 : lm.1.out = (nonzeroIdx W.c (W.get i)).zip
      (shrinkValues q ((nonzeroIdx W.c (W.get i)).map (W.get i))) := by
    rw [← hl]
    simp only [runAlone, List.foldl_cons, List.foldl_nil, computeStep, List.length_map,
      List.length_range]
    have hidx : ((List.range W.c).filter fun j =>
        decide (((List.range W.c).map fun j => W.get i j).getD j 0 ≠ 0)) =
        nonzeroIdx W.c (W.get i) := by
      unfold nonzeroIdx
      apply List.filter_congr
      intro k hk
      rw [hseen, if_pos (by simpa using hk)]
    rw [hidx]
    congr 2
    apply List.map_congr_left
    intro k hk
    rw [hseen, if_pos (mem_nonzeroIdx.1 hk).1]
  rw [hl2]
  rw [runAlone_map_mem (writeStep i) (fun m k => (writeStep i k lm.1 m).2) lm.1 (fun _ _ => rfl)]
  simp only
  rw [writeLoop, hl1]
  unfold shrinkRow scatter
  rw [List.take_of_length_le]
  rw [List.length_zip]
  refine (Nat.min_le_left _ _).trans ?_
  unfold nonzeroIdx
  exact (List.length_filter_le _ _).trans (by simp)

theorem maskLoop (l : List K × K) (ps : List Nat) (hnd : ps.Nodup) (m : Mem Nat K) (x : Nat) :
    (ps.foldl (fun m p => (maskStep p l m).2) m) x = if x ∈ ps ∧ m x < l.2 then 0 else m x := by
  induction ps generalizing m with
  | nil => simp
  | cons p ps ih =>
    rw [List.nodup_cons] at hnd
    rw [List.foldl_cons, ih hnd.2]
    unfold maskStep
    by_cases hx : x = p
    · subst hx
      by_cases hlt : m x < l.2 <;> simp [hnd.1, hlt]
    · by_cases hlt : m p < l.2 <;> simp [hx, hlt]

theorem copyLoop (ps : List Nat) (l : List K × K) (m : Mem Nat K) :
    ps.foldl (fun m p => (copyStep p l m).2) m = m := by
  induction ps generalizing m with
  | nil => rfl
  | cons p ps ih =>
    rw [List.foldl_cons]
    simp only [copyStep, Function.update_eq_self] at ih ⊢
    exact ih m

theorem mem_positions {ptr : Nat → Nat} {i x : Nat} :
    x ∈ positions ptr i ↔ ptr i ≤ x ∧ x < ptr (i + 1) := by
  simp only [positions, List.mem_range'_1]
  omega

theorem map_positions {data : List K} {ptr : Nat → Nat} {i : Nat} (h : ptr (i + 1) ≤ data.length) :
    (positions ptr i).map (fun p => data.getD p 0) = slice data (ptr i) (ptr (i + 1)) := by
  apply List.ext_getElem?
  intro k
  rw [slice_getElem?, List.getElem?_map, positions]
  by_cases hk : k < ptr (i + 1) - ptr i
  · have h' : ptr i + k < data.length := by omega
    rw [List.getElem?_range' hk]
    simp [hk, List.getD, h']
  · rw [List.getElem?_eq_none (by simpa using Nat.le_of_not_lt hk)]
    simp [hk]

/-- C25, sparse arrays: the loops over the slices of the shared data array. -/
theorem C25_shrink_sparse (A : Csr K) (q : K) (h : A.Canonical) (sched : List Nat)
    (hdone : ((Par.start (fun i => if i < A.r then shrinkSparseActs q A.ptr i else []) ([], 0)
      fun p => A.data.getD p 0).run sched).Done A.r) :
    (List.range A.data.length).map
      ((Par.start (fun i => if i < A.r then shrinkSparseActs q A.ptr i else []) ([], 0)
        fun p => A.data.getD p 0).run sched).mem = shrinkData A q := by
  have hin : ∀ i, ∀ a ∈ (if i < A.r then shrinkSparseActs q A.ptr i else []),
      Inside (fun x : Nat => i < A.r ∧ A.ptr i ≤ x ∧ x < A.ptr (i + 1)) a := by
    intro i a ha
    by_cases hi : i < A.r
    · rw [if_pos hi] at ha
      simp only [shrinkSparseActs, List.mem_append, List.mem_map, List.mem_singleton,
        mem_positions] at ha
      rcases ha with ((⟨p, hp, rfl⟩ | rfl) | ⟨p, hp, rfl⟩) | ⟨p, hp, rfl⟩
      · refine ⟨fun l m x hx => rfl, fun l m m' hm => ⟨?_, hm⟩⟩
        simp only [readData]
        rw [hm p ⟨hi, hp⟩]
      · exact inside_loc _ fun l m => rfl
      · refine ⟨fun l m x hx => ?_, fun l m m' hm => ⟨rfl, fun x hx => ?_⟩⟩
        · have hne : x ≠ p := by rintro rfl; exact hx ⟨hi, hp⟩
          simp only [maskStep]
          split
          · exact Function.update_of_ne hne _ _
          · rfl
        · simp only [maskStep, hm p ⟨hi, hp⟩]
          split
          · simp only [Function.update_apply]; rw [hm x hx]
          · exact hm x hx
      · refine ⟨fun l m x hx => ?_, fun l m m' hm => ⟨rfl, fun x hx => ?_⟩⟩
        · simp [copyStep]
        · simp only [copyStep, Function.update_eq_self]; exact hm x hx
    · rw [if_neg hi] at ha; cases ha
  have hdisj : ∀ i j x, (i < A.r ∧ A.ptr i ≤ x ∧ x < A.ptr (i + 1)) →
      (j < A.r ∧ A.ptr j ≤ x ∧ x < A.ptr (j + 1)) → i = j := by
    intro i j x ⟨hi, hi1, hi2⟩ ⟨hj, hj1, hj2⟩
    rcases Nat.lt_trichotomy i j with hij | hij | hij
    · have := h.ptr_mono (show i + 1 ≤ j by omega) hj.le; omega
    · exact hij
    · have := h.ptr_mono (show j + 1 ≤ i by omega) hi.le; omega
  have hres := (schedule_result
    (own := fun i x => i < A.r ∧ A.ptr i ≤ x ∧ x < A.ptr (i + 1))
    (acts := fun i => if i < A.r then shrinkSparseActs q A.ptr i else [])
    (l0 := fun _ => (([], 0) : List K × K)) (m0 := fun p => A.data.getD p 0) A.r hdisj hin sched
    hdone).1
  -- every position belongs to a row
  have hcover : ∀ x < A.data.length, ∃ i < A.r, A.ptr i ≤ x ∧ x < A.ptr (i + 1) := by
    intro x hx
    have : ∀ n ≤ A.r, x < A.ptr n → ∃ i < n, A.ptr i ≤ x ∧ x < A.ptr (i + 1) := by
      intro n
      induction n with
      | zero => intro _ hx'; rw [h.first] at hx'; omega
      | succ n ih =>
        intro hn hx'
        by_cases hc : x < A.ptr n
        · obtain ⟨i, hi, h1⟩ := ih (by omega) hc
          exact ⟨i, by omega, h1⟩
        · exact ⟨n, by omega, by omega, hx'⟩
    exact this A.r le_rfl (by rw [h.last, ← h.dataLen]; exact hx)
  apply List.ext_getElem
  · rw [List.length_map, List.length_range, shrinkData_length A q h, h.dataLen]
  · intro x hx1 hx2
    have hx : x < A.data.length := by simpa using hx1
    rw [List.getElem_map, List.getElem_range]
    obtain ⟨i, hi, hxi⟩ := hcover x hx
    refine (hres i hi x ⟨hi, hxi⟩).trans ?_
    rw [if_pos hi]
    unfold shrinkSparseActs
    rw [runAlone_append, runAlone_append, runAlone_append]
    have hread : ∀ (ks : List Nat) (l : List K × K) (m : Mem Nat K),
        runAlone (ks.map readData) l m = ((l.1 ++ ks.map m, l.2), m) := by
      intro ks
      induction ks with
      | nil => intro l m; simp [runAlone]
      | cons k ks ih =>
        intro l m
        show runAlone (ks.map readData) (readData k l m).1 (readData k l m).2 = _
        rw [ih]
        simp [readData]
    have hle : A.ptr (i + 1) ≤ A.data.length := by rw [h.dataLen]; exact h.ptr_le hi
    rw [hread]
    simp only [List.nil_append, map_positions hle]
    rw [show runAlone [quantileStep q] (slice A.data (A.ptr i) (A.ptr (i + 1)), (0 : K))
      (fun p => A.data.getD p 0) = ((A.rowData i, quantileVal virtLinear (A.rowData i) q),
        fun p => A.data.getD p 0) from rfl]
    simp only
    rw [runAlone_map_mem maskStep (fun m p => (maskStep p
      (A.rowData i, quantileVal virtLinear (A.rowData i) q) m).2) _ (fun k m => rfl)]
    simp only
    rw [runAlone_map_mem copyStep (fun m p => (copyStep p
      (A.rowData i, quantileVal virtLinear (A.rowData i) q) m).2) _ (fun k m => rfl)]
    simp only
    rw [copyLoop, maskLoop _ _ (by unfold positions; exact List.nodup_range')]
    simp only [mem_positions, hxi, true_and]
    have hr := shrinkData_rowData A q h hi
    have hg : (Csr.rowData { A with data := shrinkData A q } i)[x - A.ptr i]? =
        (shrinkValues q (A.rowData i))[x - A.ptr i]? := by rw [hr]
    have e1 : (Csr.rowData { A with data := shrinkData A q } i)[x - A.ptr i]? =
        (shrinkData A q)[x]? := by
      show (slice (shrinkData A q) (A.ptr i) (A.ptr (i + 1)))[x - A.ptr i]? = _
      rw [slice_getElem?, if_pos (by omega)]
      congr 1; omega
    have e2 : (A.rowData i)[x - A.ptr i]? = A.data[x]? := by
      show (slice A.data (A.ptr i) (A.ptr (i + 1)))[x - A.ptr i]? = _
      rw [slice_getElem?, if_pos (by omega)]
      congr 1; omega
    rw [e1, shrinkValues, List.getElem?_map, e2, List.getElem?_eq_getElem hx2,
      List.getElem?_eq_getElem hx] at hg
    simp only [Option.map_some, Option.some.injEq] at hg
    rw [hg]
    simp [List.getD, hx]

/-- Complete schedules exist for every start: the theorems above are not vacuous. -/
theorem C25_complete_schedule_exists {A V L : Type} (acts : Nat → List (Act A V L)) (l0 : L)
    (m0 : Mem A V) (n : Nat) : ∃ sched, ((Par.start acts l0 m0).run sched).Done n :=
  exists_sequential _ n

/-- The interleaved schedule 0,1,0,1,… on the example: both rows progress in turn. -/
example : exCsr.Canonical ∧ ((Par.start
    (fun i => if i < exCsr.r then shrinkSparseActs (1 / 2 : ℚ) exCsr.ptr i else []) ([], 0)
      fun p => exCsr.data.getD p 0).run ((List.range 20).map (· % 2))).Done 2 := by
  refine ⟨exCsr_canonical, fun i hi => ?_⟩
  match i, hi with
  | 0, _ => rfl
  | 1, _ => rfl

end Geo
