import Verif.Props.StackingSpec
import Verif.Props.StackingRidge
import Verif.Props.StackingExamples
/-
C138: when a stacking fit goes through.
-/
set_option linter.unusedSectionVars false
namespace Geo
variable {K : Type} [Field K] [LinearOrder K] [IsStrictOrderedRing K] [FloorRing K]
  {F G C S : Type}

/-- A regressor that takes every table with at least one row, at least one column, as many targets
and weights as rows, and positive weights. -/
def TakesTables (M : Learner K G) : Prop :=
  ∀ (rows : List (List K)) (ys ws : List K) (n : Nat), rows ≠ [] → 0 < n →
    (∀ r ∈ rows, r.length = n) → ys.length = rows.length → ws.length = rows.length →
    (∀ w ∈ ws, 0 < w) → ∃ g, M.fit 0 rows ys ws = .ok g

theorem metaLoop_goes {α : Type} (choose : S → Nat → Except Err (List Nat) × S)
    (sel : Nat → List Nat) (solve : List Nat → Nat → Except Err α)
    (hc : ∀ s i, choose s i = (.ok (sel i), s)) (s : S) (l : List Nat)
    (h : ∀ i ∈ l, ∃ a, solve (sel i) i = .ok a) :
    ∃ out, metaLoop choose solve s l = (.ok out, s) ∧ out.length = l.length := by
  induction l with
  | nil => exact ⟨[], rfl, rfl⟩
  | cons i l ih =>
    obtain ⟨a, ha⟩ := h i (by simp)
    obtain ⟨out, h1, h2⟩ := ih fun j hj => h j (by simp [hj])
    refine ⟨a :: out, ?_, by simp [h2]⟩
    simp only [metaLoop, hc, ha, h1]

theorem mapE_goes {α β : Type} {f : α → Except Err β} {l : List α}
    (h : ∀ a ∈ l, ∃ b, f a = .ok b) : ∃ bs, mapE f l = .ok bs := by
  induction l with
  | nil => exact ⟨[], rfl⟩
  | cons a l ih =>
    obtain ⟨b, hb⟩ := h a (by simp)
    obtain ⟨bs, hbs⟩ := ih fun c hc => h c (by simp [hc])
    exact ⟨b :: bs, by simp [mapE, hb, hbs]⟩

theorem r2Column_goes {ys ps : List K} (h : ys.length = ps.length) (h0 : ps.length ≠ 0) :
    ∃ v, r2Column ys ps = .ok v := by
  unfold r2Column
  rw [if_neg (by tauto)]
  by_cases h1 : ps.length = 1
  · rw [if_pos h1]; exact ⟨_, rfl⟩
  · rw [if_neg h1]
    unfold skR2
    rw [if_neg h1, if_neg (by tauto)]
    exact ⟨_, rfl⟩

theorem stackFinish_goes {cache : Bool} {st : SState K F G C} {caller : Option (WMat K)} {s s' : S}
    {ys : List K} {res : List (BaseOut K F)} {out : List (MetaOut K F G)}
    {metaRun : List (BaseOut K F) → Except Err (List (MetaOut K F G)) × S}
    (hm : metaRun res = (.ok out, s')) (h1 : ys.length = res.length) (h2 : ys.length = out.length)
    (h0 : ys.length ≠ 0) :
    (stackFinish cache st caller s ys (.ok res) metaRun).result = .ok () := by
  obtain ⟨v, hv⟩ := r2Column_goes (ys := ys) (ps := res.map BaseOut.pred) (by simpa using h1)
    (by rw [List.length_map]; omega)
  obtain ⟨v', hv'⟩ := r2Column_goes (ys := ys) (ps := out.map MetaOut.pred) (by simpa using h2)
    (by rw [List.length_map]; omega)
  simp only [stackFinish, stackBase, hv, hm, stackEnd, hv']

/-- C138: when a stacking fit on an ndarray goes through. Let the weights, the drawn selection of
left-out neighbours and the shrunk weights be given, the arguments be admissible
(`neighbour_leave_out_rate` set, `n_patches` positive, no `sample_local_rate`,
no `estimator_sample_rate`, no numba), and the meta regressor take every non-empty table. Then the
fit succeeds if and only if data and weights fit together, the base regressor takes the training set
of every location, and every location has a neighbour, other than itself, whose (shrunk) weight is
positive. -/
theorem C138_dense_fit (L : Learner K F) (M Mn : Learner K G) (hM : TakesTables M) (rng : Rng S)
    (p : SParams K C) (st : SState K F G C) (s : S) (X : Mat K) (y : List K) (coords : Option C)
    (W : Option (WMat K)) (hest : p.estimatorRate = none) (hsr : p.sampleRate = none)
    (hnb : p.useNumba = false) (n : ℤ) (hn : p.storedPatches = some n) (hn0 : 0 < n)
    (D : Mat K) (hD : chosenWeights p.toWMParams coords W = .ok (.dense D)) (rate : K)
    (hrate : p.leaveOutRate = some rate) (Sm : Mat Bool)
    (hSm : (sampleNeighbourDense rng s D rate p.leaveOutShrink).result = .ok Sm) (W1 : Mat K)
    (hW1 : shrinkMetaDense p.metaShrink D = .ok W1) :
    (stackFit L M Mn rng p st s X y coords W).result = .ok () ↔
      (X.r = y.length ∧ 0 < X.r ∧ 0 < X.c ∧ D.r = X.r ∧ D.c = X.r) ∧
      (∀ j < X.r, ∃ f,
        let T := (List.range X.r).filter fun k =>
          decide (D.get j k ≠ 0 ∧ Sm.get k j = false ∧ ¬ (p.leaveLocalOut = true ∧ k = j))
        L.fit j (T.map X.row) (T.map fun k => y.getD k 0) (T.map (D.get j)) = .ok f) ∧
      ∀ i < X.r, ∃ k < X.r, k ≠ i ∧ 0 < W1.get i k := by
  have hWd : SparseFine rng p W := by
    intro A hA
    subst hA
    cases coords <;> simp [chosenWeights] at hD
  have hT : ∀ j < X.r, ((List.range X.r).filter fun k => decide (D.get j k ≠ 0 ∧
        j ∉ (List.range X.r).filter (fun j => Sm.get k j) ∧ ¬ (p.leaveLocalOut = true ∧ k = j))) =
      (List.range X.r).filter fun k =>
        decide (D.get j k ≠ 0 ∧ Sm.get k j = false ∧ ¬ (p.leaveLocalOut = true ∧ k = j)) := by
    intro j hj
    refine List.filter_congr fun k _ => decide_eq_decide.2 ?_
    have : (j ∉ (List.range X.r).filter (fun j => Sm.get k j)) ↔ Sm.get k j = false := by
      simp [hj]
    rw [this]
  constructor
  · intro h
    obtain ⟨V0, rate', Sm', V1, fs, ps, es, q1, q2, q3, q4, -, -, -, q8⟩ :=
      C50_genuine_predictions L M Mn rng p st s X y coords W (.inl hest) hWd h
    obtain ⟨V0', rate'', hc, q1', q2', he⟩ := stackFit_ok h
    rw [hD] at q1 q1'
    cases q1
    cases q1'
    rw [hrate] at q2 q2'
    cases q2
    cases q2'
    change (sampleNeighbourDense rng s D rate p.leaveOutShrink).result = .ok Sm' at q3
    rw [hSm] at q3
    cases q3
    change shrinkMetaDense p.metaShrink D = .ok V1 at q4
    rw [hW1] at q4
    cases q4
    have hshape : D.r = X.r ∧ D.c = X.r := by
      rw [he, stackWith, hrate] at h
      simp only [stackDense] at h
      by_cases hd : D.r ≠ X.r ∨ D.c ≠ X.r
      · rw [if_pos hd] at h; cases h
      · push Not at hd; exact hd
    obtain ⟨c1, c2, c3⟩ := of_decide_eq_true hc
    refine ⟨⟨c1, c2, c3, hshape⟩, fun j hj => ?_, fun i hi => ?_⟩
    · obtain ⟨b, -, hb⟩ := q8.base j hj
      refine ⟨b, ?_⟩
      simp only at hb ⊢
      rw [← hT j hj]
      exact hb
    · obtain ⟨g, ⟨h1, -⟩, -⟩ := q8.fitted i hi
      obtain ⟨k, hk⟩ := List.exists_mem_of_ne_nil _ h1
      simp only [List.mem_filter, List.mem_range, decide_eq_true_eq] at hk
      exact ⟨k, hk.1, hk.2.2, hk.2.1⟩
  · rintro ⟨⟨c1, c2, c3, hr, hc⟩, hbase, hnbr⟩
    obtain ⟨hSr, hSc, hdiag⟩ := sampleDense_ok hSm
    obtain ⟨hW1r, hW1c⟩ := shrinkMetaDense_shape hW1
    have hck : checkXy X y = true := decide_eq_true ⟨c1, c2, c3⟩
    rw [stackFit, if_pos hck, hD]
    simp only [stackWith, hrate, stackDense]
    rw [if_neg (by push Not; exact ⟨hr, hc⟩)]
    have hcal := sampleDense_caller rng s D rate p.leaveOutShrink
    rcases hsm : sampleNeighbourDense rng s D rate p.leaveOutShrink with ⟨r, s₁, D₁⟩
    rw [hsm] at hSm hcal
    simp only at hSm hcal
    subst hSm hcal
    simp only [sampleLocations, hsr, hW1]
    have hsec : ∀ j < X.r, trueIdx (secondOrderDense (gt0 W1) Sm.transpose) j ≠ [] := by
      intro j hj h0
      obtain ⟨k, hk, -, hpos⟩ := hnbr j hj
      have : k ∈ trueIdx (secondOrderDense (gt0 W1) Sm.transpose) j := by
        rw [mem_trueIdx]
        refine ⟨?_, (C23_second_order_dense _ _ j k).2 ⟨j, ?_, hdiag j, ?_⟩⟩
        · show k < W1.c
          rw [hW1c, hc]; exact hk
        · show j < W1.r
          rw [hW1r, hr]; exact hj
        · simp [gt0, Mat.map, hpos]
      rw [h0] at this
      cases this
    have hfit : ∀ j ∈ List.range X.r, ∃ b, baseDense L X (fun i => y.getD i 0)
        (localDense p.leaveLocalOut D₁ Sm.transpose)
        (secondOrderDense (gt0 W1) Sm.transpose) j = .ok b := by
      intro j hj
      have hj := List.mem_range.1 hj
      obtain ⟨f, hf⟩ := hbase j hj
      have e1 : nonzeroIdx (localDense p.leaveLocalOut D₁ Sm.transpose).c
          ((localDense p.leaveLocalOut D₁ Sm.transpose).get j) =
          (List.range X.r).filter fun k =>
            decide (D₁.get j k ≠ 0 ∧ Sm.get k j = false ∧ ¬ (p.leaveLocalOut = true ∧ k = j)) := by
        show (List.range D₁.c).filter _ = _
        rw [hc]
        refine List.filter_congr fun k _ => decide_eq_decide.2 ?_
        rw [localDense_ne, Bool.not_eq_true]
      have e2 : ∀ k ∈ nonzeroIdx (localDense p.leaveLocalOut D₁ Sm.transpose).c
          ((localDense p.leaveLocalOut D₁ Sm.transpose).get j),
          (localDense p.leaveLocalOut D₁ Sm.transpose).get j k = D₁.get j k := by
        intro k hk
        have := (mem_nonzeroIdx.1 hk).2
        simp only [localDense] at this ⊢
        split
        · rename_i h; simp [h] at this
        · rfl
      unfold baseDense fitBase
      simp only
      rw [List.map_congr_left e2, e1, hf]
      simp only [Except.bind]
      rw [if_neg (hsec j hj)]
      exact ⟨_, rfl⟩
    obtain ⟨res, hres⟩ := mapE_goes hfit
    have hlen : res.length = X.r := by rw [mapE_length hres, List.length_range]
    have hrun : runBase (baseDense L X (fun i => y.getD i 0)
        (localDense p.leaveLocalOut D₁ Sm.transpose)
        (secondOrderDense (gt0 W1) Sm.transpose)) X.r p.storedPatches = .ok res := by
      rw [hn]
      show runPatches _ _ n = _
      rw [runPatches_eq _ _ hn0, hres]
    rw [hrun]
    have hmeta : ∃ out, metaStageDense M rng p X.r (fun i => y.getD i 0) W1 Sm.transpose
        (secondOrderDense (gt0 W1) Sm.transpose) s₁ res = (.ok out, s₁) ∧ out.length = X.r := by
      unfold metaStageDense
      rw [hnb]
      simp only [Bool.false_eq_true, if_false]
      obtain ⟨out, h1, h2⟩ := metaLoop_goes (chooseBases rng p.estimatorRate Sm.transpose)
        (fun i => trueIdx Sm.transpose.transpose i)
        (fun sample i => solveMeta M (res.map BaseOut.est) (problemDense (metaDense X.r
          (secondOrderDense (gt0 W1) Sm.transpose) res) (othersDense W1) W1 (fun i => y.getD i 0)
          sample i)) (fun s i => by simp [chooseBases, hest]) s₁ (List.range X.r) (by
          intro i hi
          have hi := List.mem_range.1 hi
          obtain ⟨k, hk, hki, hpos⟩ := hnbr i hi
          have hkm : k ∈ trueIdx (othersDense W1) i := by
            rw [mem_trueIdx]
            refine ⟨?_, ?_⟩
            · show k < W1.c
              rw [hW1c, hc]; exact hk
            · simp [othersDense, hpos, Ne.symm hki]
          have him : i ∈ trueIdx Sm.transpose.transpose i := by
            rw [mem_trueIdx]
            refine ⟨?_, hdiag i⟩
            show i < Sm.c
            rw [hSc, hc]; exact hi
          unfold solveMeta problemDense
          simp only [List.map_eq_nil_iff]
          rw [if_neg (by
            rintro (h | h)
            · rw [h] at hkm; cases hkm
            · rw [h] at him; cases him)]
          obtain ⟨g, hg⟩ := hM ((trueIdx (othersDense W1) i).map fun k =>
              (trueIdx Sm.transpose.transpose i).map fun j => (metaDense X.r
                (secondOrderDense (gt0 W1) Sm.transpose) res).get j k)
            ((trueIdx (othersDense W1) i).map fun i => y.getD i 0)
            ((trueIdx (othersDense W1) i).map (W1.get i))
            (trueIdx Sm.transpose.transpose i).length
            (by intro h; rw [List.map_eq_nil_iff.1 h] at hkm; cases hkm)
            (List.length_pos_of_mem him)
            (by intro r hr; obtain ⟨_, -, rfl⟩ := List.mem_map.1 hr; simp)
            (by simp) (by simp)
            (by
              intro w hw
              obtain ⟨k, hk, rfl⟩ := List.mem_map.1 hw
              have := (mem_trueIdx.1 hk).2
              simp only [othersDense, Bool.and_eq_true, decide_eq_true_eq] at this
              exact this.1)
          rw [hg]
          exact ⟨_, rfl⟩)
      exact ⟨out, h1, by simpa using h2⟩
    obtain ⟨out, hout, hol⟩ := hmeta
    exact stackFinish_goes hout (by simp [hlen]) (by simp [hol]) (by simp; omega)

/-- Where the second-order neighbours on a CSR array can be computed, and how many columns the
result gets. -/
theorem secondSparse_goes {A : Csr K} {lo : Csr Bool} {j k : Nat} (hj : j < A.r)
    (hk : k ∈ secondOrderRow A.gt0 lo A.r j) :
    ∃ second, secondSparse A lo = .ok second ∧ ∃ j' < A.r, second.c - 1 ∈ second.rowIdx j' := by
  have hlen : (secondOrderRows A.gt0 lo).length = A.r := by
    simp [secondOrderRows, Csr.gt0_indptr]
  have hmem : secondOrderRow A.gt0 lo A.r j ∈ secondOrderRows A.gt0 lo := by
    simp only [secondOrderRows, Csr.gt0_indptr, List.mem_map, List.mem_range]
    exact ⟨j, by omega, rfl⟩
  rcases csrInferred_cases (secondOrderRows A.gt0 lo) with ⟨h0, he⟩ | ⟨m, hmm, hle, he⟩
  · rw [h0 _ hmem] at hk
    cases hk
  · refine ⟨_, he, ?_⟩
    obtain ⟨r, hr, hm⟩ := List.mem_flatten.1 hmm
    obtain ⟨j', hj', rfl⟩ := List.mem_iff_getElem.1 hr
    refine ⟨j', by omega, ?_⟩
    rw [Csr.ofRows_rowIdx _ _ _ hj']
    exact hm

/-- C138: when a stacking fit on a CSR array goes through. Under the same conditions as for an
ndarray, and besides: without numba some location has a positive (shrunk) weight for the *last*
location; with numba no location has a negative (shrunk) weight for another one. -/
theorem C138_sparse_fit (L : Learner K F) (M Mn : Learner K G) (rng : Rng S) (hv : rng.Valid)
    (p : SParams K C) (hM : TakesTables (if p.useNumba then Mn else M)) (st : SState K F G C) (s : S)
    (X : Mat K) (y : List K) (coords : Option C) (hsr : p.sampleRate = none)
    (n : ℤ) (hn : p.storedPatches = some n) (hn0 : 0 < n) (A : Csr K) (hA : A.Canonical)
    (hz : A.NoZeros) (rate : K) (hrate : p.leaveOutRate = some rate) (h0 : 0 ≤ rate) (Sm : Csr Nat)
    (hSm : (sampleNeighbourSparse rng s A rate p.leaveOutShrink).result = .ok Sm) (A1 : Csr K)
    (hA1 : shrinkMetaSparse p.metaShrink A = .ok A1) :
    (stackFit L M Mn rng p st s X y coords (some (.sparse A))).result = .ok () ↔
      (X.r = y.length ∧ 0 < X.r ∧ 0 < X.c ∧ A.r = X.r ∧ A.c = X.r) ∧
      (∀ j < X.r, ∃ f,
        let T := (List.range X.r).filter fun k =>
          decide (A.dense.get j k ≠ 0 ∧ j ∉ Sm.rowIdx k ∧ ¬ (p.leaveLocalOut = true ∧ k = j))
        L.fit j (T.map X.row) (T.map fun k => y.getD k 0) (T.map (A.dense.get j)) = .ok f) ∧
      (∀ i < X.r, ∃ k < X.r, k ≠ i ∧ 0 < A1.dense.get i k) ∧
      if p.useNumba = true then ∀ i < X.r, ∀ k < X.r, k ≠ i → 0 ≤ A1.dense.get i k
      else ∃ i < X.r, 0 < A1.dense.get i (X.r - 1) := by
  obtain ⟨hc1, hz1, W', hW', hsame⟩ := shrinkMetaSparse_dense hA hz hA1
  have hA1r : A1.r = A.r := shrinkMetaSparse_r hA1
  have hA1c : A1.c = A.c := hsame.2.1.trans (shrinkMetaDense_shape hW').2
  constructor
  · intro h
    obtain ⟨V0, rate', hc, q1, q2, he⟩ := stackFit_ok h
    cases coords <;> (simp only [chosenWeights, Except.ok.injEq] at q1; subst q1)
    all_goals
      rw [hrate] at q2
      cases q2
      rw [he, stackWith, hrate] at h
      simp only at h
      obtain ⟨Sm', A1', second, idx, res, out, _, _, _, hrun, -⟩ := stackSparse_ok h
      have e := hrun.sample
      rw [hSm] at e
      cases e
      have e := hrun.shrunk
      rw [hA1] at e
      cases e
      have hspec := hrun.spec hv h0 hA hz
      obtain ⟨c1, c2, c3⟩ := of_decide_eq_true hc
      have hb : SparseBase L rng p s X y rate A Sm A1 second res := ⟨hrun.rows, hrun.cols,
        hrun.sample, hrun.shrunk, hrun.second_, hrun.base, hv, h0, hA, hz⟩
      refine ⟨⟨c1, c2, c3, hrun.rows, hrun.cols⟩, fun j hj => ?_, fun i hi => ?_, ?_⟩
      · obtain ⟨b, -, hb⟩ := hspec.base j hj
        exact ⟨b, hb⟩
      · obtain ⟨g, ⟨h1, -⟩, -⟩ := hspec.fitted i hi
        obtain ⟨k, hk⟩ := List.exists_mem_of_ne_nil _ h1
        simp only [List.mem_filter, List.mem_range, decide_eq_true_eq] at hk
        exact ⟨k, hk.1, hk.2.2, hk.2.1⟩
      · obtain ⟨-, hm⟩ := metaStageSparse_ok hrun.meta_
        cases hnum : p.useNumba with
        | true =>
          simp only [if_true]
          intro i hi k hk hki
          obtain ⟨o, -, hs⟩ := hm i hi
          rw [hnum, if_pos rfl, hb.problemN hi] at hs
          obtain ⟨-, hwl, -⟩ := solveNumba_ok hs
          have hw : (A1.rowIdx i).filter (fun k => k != i) = (othersSparse A1).rowIdx i := by
            refine (List.Sublist.eq_of_length ?_ ?_).symm
            · rw [hb.weightsN hi]; exact List.filter_sublist
            · simpa [specProblem] using hwl.symm
          by_contra hneg
          have hne : A1.entry i k ≠ 0 := fun h => hneg (le_of_eq h.symm)
          have hmem : k ∈ (A1.rowIdx i).filter (fun k => k != i) :=
            List.mem_filter.2 ⟨mem_rowIdx_of_entry_ne hne, by simpa using hki⟩
          rw [hw] at hmem
          exact hneg ((hb.others hi).2 k hmem).2.1.le
        | false =>
          simp only [Bool.false_eq_true, if_false]
          have hi : X.r - 1 < X.r := by omega
          obtain ⟨o, -, hs⟩ := hm (X.r - 1) hi
          rw [hnum, if_neg (by simp)] at hs
          obtain ⟨q, hq, -⟩ := hs
          rw [hb.problem hi] at hq
          split at hq
          · cases hq
          rename_i hc
          obtain ⟨m, hm1, hsr', hrow, hlt⟩ := secondSparse_ok hrun.second_
          obtain ⟨k, hk, -, hpos⟩ : ∃ k < X.r, k ≠ X.r - 1 ∧ 0 < A1.dense.get (X.r - 1) k := by
            obtain ⟨g, ⟨h1, -⟩, -⟩ := hspec.fitted (X.r - 1) hi
            obtain ⟨k, hk⟩ := List.exists_mem_of_ne_nil _ h1
            simp only [List.mem_filter, List.mem_range, decide_eq_true_eq] at hk
            exact ⟨k, hk.1, hk.2.2, hk.2.1⟩
          have hrA : A1.r = X.r := hA1r.trans hrun.rows
          have hst := (hb.stored hi (hb.sel hi).2.2.1 hpos).1
          rw [metaSparse_rowIdx, hrow _ (by omega)] at hst
          obtain ⟨second', h2, j', hj', hlast⟩ := secondSparse_goes (A := A1)
            (lo := Sm.transposePattern) (j := X.r - 1) (by omega) hst
          rw [hrun.second_] at h2
          cases h2
          rw [hrow j' hj', mem_secondOrderRow] at hlast
          have hcc : (metaSparse second res).c = second.c := rfl
          obtain ⟨hlt', i, hik, hi'⟩ := hlast
          have ec : second.c - 1 = X.r - 1 := by omega
          rw [ec] at hi'
          have hiA : i < A1.r := by
            obtain ⟨hSr, hself, hSc⟩ := sampleSparse_ok hSm
            have := ((mem_transposePattern (hSc j' (by omega) j' (hself j' (by omega)))).1 hik).1
            omega
          have := (hc1.mem_keep_rowIdx _ _ hiA).1 hi'
          exact ⟨i, by omega, of_decide_eq_true this.2⟩
  · rintro ⟨⟨c1, c2, c3, hr, hc⟩, hbase, hnbr, hcase⟩
    have hrA : A1.r = X.r := hA1r.trans hr
    have hcA : A1.c = X.r := hA1c.trans hc
    obtain ⟨hSr, hself, hSc⟩ := sampleSparse_ok hSm
    have hin : ∀ {i k}, i < X.r → 0 < A1.entry i k →
        k ∈ secondOrderRow A1.gt0 Sm.transposePattern A1.r i := by
      intro i k hi hpos
      have hmem := mem_rowIdx_of_entry_ne hpos.ne'
      rw [mem_secondOrderRow]
      refine ⟨by have := hc1.rowIdx_lt hmem; omega, i, ?_, ?_⟩
      · exact (mem_transposePattern (hSc i (by omega) i (hself i (by omega)))).2
          ⟨by omega, hself i (by omega)⟩
      · exact (hc1.mem_keep_rowIdx _ _ (by omega)).2 ⟨hmem, by simpa using hpos⟩
    obtain ⟨second, hsecond⟩ : ∃ second, secondSparse A1 Sm.transposePattern = .ok second := by
      obtain ⟨k, hk, -, hpos⟩ := hnbr 0 c2
      obtain ⟨second, h, -⟩ := secondSparse_goes (A := A1) (lo := Sm.transposePattern) (j := 0)
        (by omega) (hin c2 hpos)
      exact ⟨second, h⟩
    obtain ⟨m, hm1, hsr', hrow, hlt⟩ := secondSparse_ok hsecond
    have hfit : ∀ j ∈ List.range X.r, ∃ b, baseSparse L X (fun i => y.getD i 0)
        (localSparse p.leaveLocalOut A Sm.transposePattern) second j = .ok b := by
      intro j hj
      have hj := List.mem_range.1 hj
      obtain ⟨f, hf⟩ := hbase j hj
      obtain ⟨h1, h2⟩ := localSparse_row (lo := p.leaveLocalOut) hA
        (leaveOut := Sm.transposePattern) (j := j) (by omega)
      have hT : (List.range A.c).filter (fun k => decide (A.entry j k ≠ 0 ∧
            k ∉ Sm.transposePattern.rowIdx j ∧ ¬ (p.leaveLocalOut = true ∧ k = j))) =
          (List.range X.r).filter fun k => decide (A.dense.get j k ≠ 0 ∧ j ∉ Sm.rowIdx k ∧
            ¬ (p.leaveLocalOut = true ∧ k = j)) := by
        rw [hc]
        refine List.filter_congr fun k hk => decide_eq_decide.2 ?_
        rw [mem_transposePattern (hSc j (by omega) j (hself j (by omega)))]
        have : k < Sm.r := by have := List.mem_range.1 hk; omega
        simp only [this, true_and]
        rfl
      obtain ⟨k, -, -, hpos⟩ := hnbr j hj
      have hne : second.rowIdx j ≠ [] := by
        intro h0
        have := hin hj hpos
        rw [← hrow j (by omega), h0] at this
        cases this
      unfold baseSparse fitBase
      rw [h1, h2, hT]
      have hf' : L.fit j (((List.range X.r).filter fun k => decide (A.dense.get j k ≠ 0 ∧
          j ∉ Sm.rowIdx k ∧ ¬ (p.leaveLocalOut = true ∧ k = j))).map X.row)
          (((List.range X.r).filter fun k => decide (A.dense.get j k ≠ 0 ∧
          j ∉ Sm.rowIdx k ∧ ¬ (p.leaveLocalOut = true ∧ k = j))).map fun k => y.getD k 0)
          (((List.range X.r).filter fun k => decide (A.dense.get j k ≠ 0 ∧
          j ∉ Sm.rowIdx k ∧ ¬ (p.leaveLocalOut = true ∧ k = j))).map (A.entry j)) = .ok f := hf
      rw [hf']
      simp only [Except.bind]
      rw [if_neg hne]
      exact ⟨_, rfl⟩
    obtain ⟨res, hres⟩ := mapE_goes hfit
    have hlen : res.length = X.r := by rw [mapE_length hres, List.length_range]
    have hb : SparseBase L rng p s X y rate A Sm A1 second res := ⟨hr, hc, hSm, hA1, hsecond, hres,
      hv, h0, hA, hz⟩
    have hrows : ∀ i < X.r, (othersSparse A1).rowIdx i ≠ [] := by
      intro i hi h0
      obtain ⟨k, hk, hki, hpos⟩ := hnbr i hi
      have : k ∈ (othersSparse A1).rowIdx i := by
        rw [(hb.others hi).1]
        simpa using ⟨hk, hpos, hki⟩
      rw [h0] at this
      cases this
    have htake : ∀ i < X.r, ∃ g, (if p.useNumba then Mn else M).fit 0
        (((othersSparse A1).rowIdx i).map fun k => (Sm.rowIdx i).map fun j =>
          basePred L X (res.map BaseOut.est) j k) (((othersSparse A1).rowIdx i).map (yfun y))
        (((othersSparse A1).rowIdx i).map (A1.dense.get i)) = .ok g := by
      intro i hi
      refine hM _ _ _ (Sm.rowIdx i).length (by simpa using hrows i hi)
        (List.length_pos_of_mem (hself i (by omega))) ?_ (by simp) (by simp) ?_
      · intro r hr
        obtain ⟨_, -, rfl⟩ := List.mem_map.1 hr
        simp
      · intro w hw
        obtain ⟨k, hk, rfl⟩ := List.mem_map.1 hw
        exact ((hb.others hi).2 k hk).2.1
    have hmeta : ∃ out, metaStageSparse M Mn p X.r (fun i => y.getD i 0) A1 Sm second res =
        .ok out ∧ out.length = X.r := by
      unfold metaStageSparse
      simp only
      cases hnum : p.useNumba with
      | true =>
        rw [hnum] at hcase htake
        simp only [if_true] at hcase htake ⊢
        obtain ⟨out, hout⟩ := mapE_goes (l := List.range X.r) (f := fun i =>
            solveNumba Mn (res.map BaseOut.est) (problemNumba (metaSparse second res)
              (othersSparse A1) A1 Sm (fun i => y.getD i 0) i)) (by
          intro i hi
          have hi := List.mem_range.1 hi
          have hw : (A1.rowIdx i).filter (fun k => k != i) = (othersSparse A1).rowIdx i := by
            rw [hb.weightsN hi]
            refine (List.filter_eq_self.2 fun k hk => ?_).symm
            obtain ⟨hk1, hk2⟩ := List.mem_filter.1 hk
            refine decide_eq_true (lt_of_le_of_ne (hcase i hi k ?_ (by simpa using hk2)) ?_)
            · have := hc1.rowIdx_lt hk1; omega
            · obtain ⟨t, ht, rfl⟩ := List.getElem_of_mem hk1
              rw [hc1.entry_getElem (by omega) ht]
              exact (hz1 _ (mem_of_mem_slice (List.getElem_mem _))).symm
          have hp := hb.problemN hi
          unfold yfun at hp
          simp only [hp, hw]
          unfold solveNumba specProblem
          rw [if_neg (by simpa using hrows i hi)]
          obtain ⟨g, hg⟩ := htake i hi
          have hg' : Mn.fit 0 (((othersSparse A1).rowIdx i).map fun k => (Sm.rowIdx i).map fun j =>
            basePred L X (res.map BaseOut.est) j k)
            (((othersSparse A1).rowIdx i).map fun i => y.getD i 0)
            (((othersSparse A1).rowIdx i).map (A1.dense.get i)) = .ok g := hg
          simp only [hg']
          exact ⟨_, rfl⟩)
        exact ⟨out, hout, by rw [mapE_length hout, List.length_range]⟩
      | false =>
        rw [hnum] at hcase htake
        simp only [Bool.false_eq_true, if_false] at hcase htake ⊢
        obtain ⟨i0, hi0, hlast⟩ := hcase
        have hcN : X.r ≤ (metaSparse second res).c := by
          have := (hb.stored hi0 (hb.sel hi0).2.2.1 hlast).2.2
          omega
        obtain ⟨out, hout⟩ := mapE_goes (l := List.range X.r) (f := fun i =>
            (problemSparse (metaSparse second res) (othersSparse A1) A1 Sm
              (fun i => y.getD i 0) i).bind (solveMeta M (res.map BaseOut.est))) (by
          intro i hi
          have hi := List.mem_range.1 hi
          have hp := hb.problem hi
          unfold yfun at hp
          simp only [hp]
          rw [if_neg (by omega)]
          simp only [Except.bind]
          unfold solveMeta specProblem
          rw [if_neg (by
            simp only [List.map_eq_nil_iff]
            rintro (h | h)
            · exact hrows i hi h
            · have := hself i (by omega)
              rw [h] at this
              cases this)]
          obtain ⟨g, hg⟩ := htake i hi
          have hg' : M.fit 0 (((othersSparse A1).rowIdx i).map fun k => (Sm.rowIdx i).map fun j =>
            basePred L X (res.map BaseOut.est) j k)
            (((othersSparse A1).rowIdx i).map fun i => y.getD i 0)
            (((othersSparse A1).rowIdx i).map (A1.dense.get i)) = .ok g := hg
          simp only [hg']
          exact ⟨_, rfl⟩)
        exact ⟨out, hout, by rw [mapE_length hout, List.length_range]⟩
    obtain ⟨out, hout, hol⟩ := hmeta
    have hck : checkXy X y = true := decide_eq_true ⟨c1, c2, c3⟩
    have hD : chosenWeights p.toWMParams coords (some (.sparse A)) = .ok (.sparse A) := by
      cases coords <;> rfl
    rw [stackFit, if_pos hck, hD]
    simp only [stackWith, hrate, stackSparse]
    rw [if_neg (by push Not; exact ⟨hr, hc⟩)]
    have hcal := sampleSparse_caller rng s A rate p.leaveOutShrink
    rcases hsm : sampleNeighbourSparse rng s A rate p.leaveOutShrink with ⟨r, s₁, D₁⟩
    rw [hsm] at hSm hcal
    simp only at hSm hcal
    subst hSm hcal
    simp only [sampleLocations, hsr, hA1, hsecond]
    have hrun : runBase (baseSparse L X (fun i => y.getD i 0)
        (localSparse p.leaveLocalOut D₁ Sm.transposePattern) second) X.r p.storedPatches =
          .ok res := by
      rw [hn]
      show runPatches _ _ n = _
      rw [runPatches_eq _ _ hn0, hres]
    rw [hrun]
    exact stackFinish_goes (s' := s₁) (by rw [hout]) (by simp [hlen]) (by simp [hol])
      (by simp; omega)

theorem IsRidge.takes {alpha : ℝ} {M : Learner ℝ (List ℝ × ℝ)} (h : IsRidge alpha M) :
    TakesTables M := by
  intro rows ys ws n h1 h2 h3 h4 h5 h6
  obtain ⟨c, b, hg, -⟩ := h.fit rows ys ws n h1 h2 h3 h4 h5 h6
  exact ⟨_, hg⟩

/-! ### A fit in the real numbers -/

/-- Averages of the targets, in the real numbers. -/
noncomputable def realMean : Learner ℝ ℝ :=
  ⟨fun _ _ ys _ => .ok (ys.sum / (ys.length : ℝ)), fun f _ => f⟩

/-- Three locations that see each other, all with the same weight. -/
def realOnes : Mat ℝ := ⟨3, 3, fun _ _ => 1⟩

noncomputable def realP : SParams ℝ Unit := 
  { leaveOutRate := some (1 / 2), nPatches := some 1, weights := fun _ _ => .error .exception }

/-- A stacking fit with a ridge regression in the real numbers succeeds, for every penalty. -/
theorem realFit (alpha : ℝ) (ha : 0 < alpha) :
    (stackFit realMean (numbaRidge alpha) (numbaRidge alpha) rotRng realP {} 0
      ⟨3, 1, fun i _ => i⟩ [1, 5, 6] none (some (.dense realOnes))).result = .ok () := by
  obtain ⟨Sm, hSm, -⟩ := C30_sample_dense rotRng rotRng_valid 0 realOnes realOnes (1 / 2 : ℝ)
    (by norm_num) none rfl
  rw [C138_dense_fit realMean _ _ (numbaRidge_isRidge ha).takes rotRng realP {} 0 _ _ none _ rfl rfl
    rfl 1 rfl one_pos realOnes rfl (1 / 2) rfl Sm hSm realOnes rfl]
  refine ⟨⟨rfl, by decide, by decide, rfl, rfl⟩, fun j _ => ⟨_, rfl⟩, fun i hi => ?_⟩
  refine ⟨if i = 0 then 1 else 0, ?_, ?_, one_pos⟩
  · split <;> decide
  · split <;> omega

/-! ### The last location -/

/-- Sums of the targets as base and meta regressor. -/
def sumLearner : Learner ℚ ℚ := ⟨fun _ _ ys _ => .ok ys.sum, fun f x => f + x.sum⟩

/-- Four locations, all with positive weights for the first three and none for the last. -/
def lastA : Csr ℚ :=
  ⟨4, 4, [0, 3, 6, 9, 12], [0, 1, 2, 0, 1, 2, 0, 1, 2, 0, 1, 2], List.replicate 12 1⟩

/-- C138, the difference: when no location has a positive weight for the last one, the fit on the
ndarray and the fit with numba succeed, the fit on the same weights as a CSR array raises
`IndexError`. -/
theorem C138_last_location :
    (stackFit sumLearner sumLearner sumLearner rotRng seP ({} : SState ℚ ℚ ℚ Unit) 0 seX seY none
      (some (.dense lastA.dense))).result = .ok () ∧
    (stackFit sumLearner sumLearner sumLearner rotRng { seP with useNumba := true }
      ({} : SState ℚ ℚ ℚ Unit) 0 seX seY none (some (.sparse lastA))).result = .ok () ∧
    (stackFit sumLearner sumLearner sumLearner rotRng seP ({} : SState ℚ ℚ ℚ Unit) 0 seX seY none
      (some (.sparse lastA))).result = .error .indexError := by
  refine ⟨?_, ?_, ?_⟩ <;> decide +kernel

/-- The hypotheses of `C138_sparse_fit` are met. -/
example : TakesTables sumLearner ∧ rotRng.Valid ∧ seA.Canonical ∧ seA.NoZeros ∧
    seP.storedPatches = some 2 ∧
    (sampleNeighbourSparse rotRng 0 seA (1 / 4) none).result.isOk = true ∧
    (stackFit sumLearner sumLearner sumLearner rotRng seP ({} : SState ℚ ℚ ℚ Unit) 0 seX seY none
      (some (.sparse seA))).result = .ok () := by
  refine ⟨fun _ _ _ _ _ _ _ _ _ _ => ⟨_, rfl⟩, rotRng_valid, seA_canonical, ?_, ?_, ?_, ?_⟩
  · unfold Csr.NoZeros
    decide +kernel
  all_goals decide +kernel

end Geo
