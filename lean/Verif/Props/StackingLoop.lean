import Verif.Model.StackingLoop
import Verif.Props.Parallel
import Verif.Props.StackingSpec
import Verif.Props.StackingExamples
set_option linter.unusedSectionVars false
/-
Property C25 for the parallel loop of the stacking model: every complete schedule of the loop gives
the results of the sequential model, and the loop writes only inside its arrays.
-/
namespace Geo
open Par
variable {K : Type} [Field K] [LinearOrder K] [IsStrictOrderedRing K] [FloorRing K]
  {F GC GB : Type}

/-- The stored values of a row at indices in `nb`. -/
def hits (nb : List Nat) (es : List (Nat × K)) : List K :=
  (es.filter fun e => decide (e.1 ∈ nb)).map Prod.snd

/-- The inner loop writes the hits one after the other. -/
theorem fill_run (nb : List Nat) (r : Nat) (es : List (Nat × K)) (l : StackLocal K GC GB)
    (m : Mem (NumbaList × Nat) (NumbaCell K GC GB)) :
    ∃ l', runAlone (es.map (fillStep nb r)) l m = (l', m) ∧
      l'.col = l.col + (hits nb es).length ∧
      (∀ t, l'.table r t = if t < l.col then l.table r t else
        ((hits nb es)[t - l.col]?).getD (l.table r t)) ∧
      ∀ r', r' ≠ r → l'.table r' = l.table r' := by
  induction es generalizing l with
  | nil => exact ⟨l, rfl, by simp [hits], by intro t; simp [hits], fun _ _ => rfl⟩
  | cons e es ih =>
    by_cases he : e.1 ∈ nb
    · obtain ⟨l', h1, h2, h3, h4⟩ := ih { l with
        table := Function.update l.table r (Function.update (l.table r) l.col e.2)
        col := l.col + 1 }
      have hh : hits nb (e :: es) = e.2 :: hits nb es := by simp [hits, he]
      refine ⟨l', ?_, ?_, fun t => ?_, fun r' hr' => ?_⟩
      · rw [← h1, List.map_cons]
        show runAlone _ (fillStep nb r e l m).1 (fillStep nb r e l m).2 = _
        simp only [fillStep, if_pos he]
      · rw [h2, hh]; simp only [List.length_cons]; omega
      · rw [h3 t, hh]
        simp only [Function.update_self]
        rcases lt_trichotomy t l.col with h | h | h
        · rw [if_pos (by omega), if_pos h, Function.update_of_ne (by omega)]
        · subst h
          simp
        · rw [if_neg (by omega), if_neg (by omega), Function.update_of_ne (by omega),
            show t - l.col = (t - (l.col + 1)) + 1 by omega, List.getElem?_cons_succ]
      · rw [h4 r' hr']
        exact Function.update_of_ne hr' _ _
    · obtain ⟨l', h1, h2, h3, h4⟩ := ih l
      have hh : hits nb (e :: es) = hits nb es := by simp [hits, he]
      refine ⟨l', ?_, by rw [h2, hh], fun t => by rw [h3 t, hh], h4⟩
      rw [← h1, List.map_cons]
      show runAlone _ (fillStep nb r e l m).1 (fillStep nb r e l m).2 = _
      simp only [fillStep, if_neg he]

/-- A row of the table as the sequential model has it. -/
theorem numbaRow_getD (Xm : Csr K) (nb : List Nat) (j t : Nat) (ht : t < nb.length) :
    (numbaRow Xm nb j).getD t 0 =
      ((hits nb ((Xm.rowIdx j).zip (Xm.rowData j)))[t]?).getD 0 := by
  unfold numbaRow
  simp only
  rw [List.getD_eq_getElem?_getD, List.getElem?_take_of_lt ht]
  change ((hits nb _ ++ _)[t]?).getD 0 = _
  rw [List.getElem?_append]
  split
  · rfl
  · rename_i h
    rw [List.getElem?_eq_none (l := hits nb _) (by omega), List.getElem?_replicate]
    split <;> rfl

/-- The tables after the first part of an iteration. -/
theorem fill_all (Xm : Csr K) (nb : List Nat) (js : List Nat) (b : Nat) (l : StackLocal K GC GB)
    (hz : ∀ r, b ≤ r → ∀ t, l.table r t = 0)
    (m : Mem (NumbaList × Nat) (NumbaCell K GC GB)) :
    ∃ l', runAlone ((js.zipIdx b).flatMap (fillActs Xm nb)) l m = (l', m) ∧
      (∀ r, r < b → l'.table r = l.table r) ∧
      ∀ r (hr : r < js.length), ∀ t < nb.length,
        l'.table (b + r) t = (numbaRow Xm nb js[r]).getD t 0 := by
  induction js generalizing b l with
  | nil => exact ⟨l, rfl, fun _ _ => rfl, by intro r hr; simp at hr⟩
  | cons j js ih =>
    obtain ⟨l1, h1, h2, h3, h4⟩ := fill_run nb b ((Xm.rowIdx j).zip (Xm.rowData j))
      { l with col := 0 } m
    obtain ⟨l2, k1, k2, k3⟩ := ih (b + 1) l1 (by
      intro r hr t
      rw [h4 r (by omega)]
      exact hz r (by omega) t)
    refine ⟨l2, ?_, fun r hr => ?_, fun r hr t ht => ?_⟩
    · rw [List.zipIdx_cons, List.flatMap_cons, runAlone_append]
      have : runAlone (fillActs Xm nb (j, b)) l m = (l1, m) := h1
      rw [this]
      exact k1
    · rw [k2 r (by omega), h4 r (by omega)]
    · cases r with
      | zero =>
        rw [Nat.add_zero, k2 b (by omega), h3 t, if_neg (by simp)]
        simp only [List.getElem_cons_zero]
        rw [numbaRow_getD Xm nb j t ht, Nat.sub_zero, hz b le_rfl t]
      | succ r =>
        rw [show b + (r + 1) = b + 1 + r by omega]
        exact k3 r (by simpa using hr) t ht

/-- The scan for the own index. -/
theorem scan_run (i : Nat) (es : List Nat) (b : Nat) (l : StackLocal K GC GB)
    (m : Mem (NumbaList × Nat) (NumbaCell K GC GB)) :
    ∃ l', runAlone ((es.zipIdx b).map (scanStep i)) l m = (l', m) ∧ l'.est = l.est ∧
      l'.table = l.table ∧ l'.query = l.query ∧
      (l.found = true → l'.pos = l.pos) ∧
      (l.found = false → es ≠ [] → l'.pos = b + min (es.idxOf i) (es.length - 1)) := by
  induction es generalizing b l with
  | nil => exact ⟨l, rfl, rfl, rfl, rfl, fun _ => rfl, fun _ h => absurd rfl h⟩
  | cons e es ih =>
    cases hf : l.found with
    | true =>
      obtain ⟨l', h1, h2, h3, h4, h5, -⟩ := ih (b + 1) l
      refine ⟨l', ?_, h2, h3, h4, fun _ => h5 hf, fun h => by simp at h⟩
      rw [List.zipIdx_cons, List.map_cons, ← h1]
      show runAlone _ (scanStep i (e, b) l m).1 (scanStep i (e, b) l m).2 = _
      simp only [scanStep, hf, if_true]
    | false =>
      obtain ⟨l', h1, h2, h3, h4, h5, h6⟩ := ih (b + 1) { l with pos := b, found := e == i }
      refine ⟨l', ?_, h2, h3, h4, fun h => by simp at h, fun _ _ => ?_⟩
      · rw [List.zipIdx_cons, List.map_cons, ← h1]
        show runAlone _ (scanStep i (e, b) l m).1 (scanStep i (e, b) l m).2 = _
        simp only [scanStep, hf]
        rfl
      · by_cases he : e = i
        · subst he
          rw [h5 (by simp)]
          simp
        · have hb : (e == i) = false := by simpa using he
          rw [List.idxOf_cons_ne _ he]
          cases es with
          | nil =>
            have : l' = { l with pos := b, found := e == i } := by
              have := congrArg Prod.fst h1
              exact this.symm
            rw [this]
            simp
          | cons e' es' =>
            rw [h6 hb (by simp)]
            simp only [List.length_cons]
            omega

/-- The query row after the second part of an iteration. -/
theorem query_all (Xm : Csr K) (i : Nat) (js : List Nat) (b : Nat) (l : StackLocal K GC GB)
    (hne : ∀ j ∈ js, Xm.rowIdx j ≠ []) (m : Mem (NumbaList × Nat) (NumbaCell K GC GB)) :
    ∃ l', runAlone ((js.zipIdx b).flatMap (queryActs Xm i)) l m = (l', m) ∧ l'.est = l.est ∧
      (∀ r, r < b → l'.query r = l.query r) ∧
      ∀ r (hr : r < js.length), l'.query (b + r) = numbaQuery Xm i js[r] := by
  induction js generalizing b l with
  | nil => exact ⟨l, rfl, rfl, fun _ _ => rfl, by intro r hr; simp at hr⟩
  | cons j js ih =>
    obtain ⟨l1, h1, h2, h3, h4, -, h6⟩ := scan_run i (Xm.rowIdx j) 0 { l with found := false } m
    obtain ⟨l2, k1, k2, k3, k4⟩ := ih (b + 1)
      { l1 with query := Function.update l1.query b ((Xm.rowData j).getD l1.pos 0) }
      (fun j' hj' => hne j' (by simp [hj']))
    refine ⟨l2, ?_, ?_, fun r hr => ?_, fun r hr => ?_⟩
    · rw [List.zipIdx_cons, List.flatMap_cons, runAlone_append]
      have : runAlone (queryActs Xm i (j, b)) l m =
          ({ l1 with query := Function.update l1.query b ((Xm.rowData j).getD l1.pos 0) }, m) := by
        unfold queryActs
        rw [runAlone_append]
        have h0 : runAlone (scanStart :: (Xm.rowIdx j).zipIdx.map (scanStep i)) l m = (l1, m) := h1
        rw [h0]
        rfl
      rw [this]
      exact k1
    · rw [k2]; exact h2
    · rw [k3 r (by omega)]
      simp only
      rw [Function.update_of_ne (by omega), h4]
    · cases r with
      | zero =>
        rw [Nat.add_zero, k3 b (by omega)]
        simp only [Function.update_self, List.getElem_cons_zero]
        rw [h6 rfl (hne j (by simp)), Nat.zero_add]
        rfl
      | succ r =>
        rw [show b + (r + 1) = b + 1 + r by omega]
        exact k4 r (by simpa using hr)

/-- The steps of an iteration stay among the elements of index `i`. -/
theorem stackingActs_inside (M : Learner K (GC × GB)) (Xm : Csr K) (nm : Csr Bool) (A : Csr K)
    (Sm : Csr Nat) (y : Nat → K) (i : Nat) :
    ∀ a ∈ stackingActs M Xm nm A Sm y i, Inside (fun x => x.2 = i) a := by
  intro a ha
  have hst : ∀ (v : StackLocal K GC GB → Option (NumbaCell K GC GB)) (f : NumbaList),
      Inside (fun x : NumbaList × Nat => x.2 = i) (fun l s => (l, match v l with
        | some c => Function.update s (f, i) c
        | none => s) : Act (NumbaList × Nat) (NumbaCell K GC GB) (StackLocal K GC GB)) := by
    intro v f
    refine ⟨fun l m x hx => ?_, fun l m m' hm => ⟨rfl, fun x hx => ?_⟩⟩
    · simp only
      cases v l with
      | none => rfl
      | some c => exact Function.update_of_ne (by rintro rfl; exact hx rfl) _ _
    · simp only
      cases v l with
      | none => exact hm x hx
      | some c => simp only [Function.update_apply]; rw [hm x hx]
  have conv : ∀ (v : StackLocal K GC GB → GC × GB → NumbaCell K GC GB) (f : NumbaList),
      (fun l s => (l, match l.est with
        | some g => Function.update s (f, i) (v l g)
        | none => s) : Act (NumbaList × Nat) (NumbaCell K GC GB) (StackLocal K GC GB)) =
      (fun l s => (l, match l.est.map (v l) with
        | some c => Function.update s (f, i) c
        | none => s)) := by
    intro v f
    funext l s
    cases l.est <;> rfl
  simp only [stackingActs, List.mem_append, List.mem_flatMap, List.mem_cons, List.not_mem_nil,
    or_false] at ha
  rcases ha with ((⟨e, -, he⟩ | rfl | rfl) | ⟨e, -, he⟩) | rfl | rfl | rfl
  · simp only [fillActs, List.mem_cons, List.mem_map] at he
    rcases he with rfl | ⟨e', -, rfl⟩
    · exact inside_loc _ fun l m => rfl
    · refine inside_loc (fun l => if e'.1 ∈ (nm.rowIdx i).filter (fun k => k != i) then
        { l with
          table := Function.update l.table e.2 (Function.update (l.table e.2) l.col e'.2)
          col := l.col + 1 } else l) fun l m => ?_
      unfold fillStep
      split <;> rfl
  · exact inside_loc _ fun l m => rfl
  · have := hst (fun l => l.est.map fun g => .num (numbaR2
      (((nm.rowIdx i).filter fun k => k != i).map y)
      ((l.rows ((nm.rowIdx i).filter fun k => k != i).length (Sm.rowIdx i).length).map
        (M.predict g)))) .score
    rw [← conv (fun l g => .num (numbaR2 (((nm.rowIdx i).filter fun k => k != i).map y)
      ((l.rows ((nm.rowIdx i).filter fun k => k != i).length (Sm.rowIdx i).length).map
        (M.predict g))))] at this
    exact this
  · simp only [queryActs, List.mem_append, List.mem_cons, List.mem_map, List.not_mem_nil,
      or_false] at he
    rcases he with (rfl | ⟨e', -, rfl⟩) | rfl
    · exact inside_loc _ fun l m => rfl
    · refine inside_loc (fun l => if l.found then l else
        { l with pos := e'.2, found := e'.1 == i }) fun l m => ?_
      unfold scanStep
      split <;> rfl
    · exact inside_loc _ fun l m => rfl
  · have := hst (fun l => l.est.map fun g => .coef g.1) .coef
    rw [← conv (fun _ g => .coef g.1)] at this
    exact this
  · have := hst (fun l => l.est.map fun g => .intercept g.2) .intercept
    rw [← conv (fun _ g => .intercept g.2)] at this
    exact this
  · have := hst (fun l => l.est.map fun g => .num (M.predict g
      ((List.range (Sm.rowIdx i).length).map l.query))) .predict
    rw [← conv (fun l g => .num (M.predict g
      ((List.range (Sm.rowIdx i).length).map l.query)))] at this
    exact this

/-- An iteration run alone stores what the sequential model computes. -/
theorem stackingActs_alone (M : Learner K (GC × GB)) (Xm : Csr K) (nm : Csr Bool) (A : Csr K)
    (Sm : Csr Nat) (y : Nat → K) (base : List F) (i : Nat)
    (hne : ∀ j ∈ Sm.rowIdx i, Xm.rowIdx j ≠ []) (o : MetaOut K F (GC × GB))
    (ho : solveNumba M base (problemNumba Xm nm A Sm y i) = .ok o)
    (m0 : Mem (NumbaList × Nat) (NumbaCell K GC GB)) :
    readNumba base Sm (runAlone (stackingActs M Xm nm A Sm y i) StackLocal.init m0).2 i =
      some o := by
  obtain ⟨hrne, hwl, g, hg, rfl⟩ := solveNumba_ok ho
  obtain ⟨l1, h1, -, h3⟩ := fill_all Xm ((nm.rowIdx i).filter fun k => k != i) (Sm.rowIdx i) 0
    (StackLocal.init (K := K) (GC := GC) (GB := GB)) (fun _ _ _ => rfl) m0
  have hrows : l1.rows ((nm.rowIdx i).filter fun k => k != i).length (Sm.rowIdx i).length =
      (problemNumba Xm nm A Sm y i).rows := by
    unfold StackLocal.rows problemNumba
    simp only
    refine List.map_congr_left fun t ht => ?_
    apply List.ext_getElem
    · simp
    · intro r k1 k2
      simp only [List.length_map, List.length_range] at k1
      have := h3 r k1 t (by simpa using ht)
      rw [Nat.zero_add] at this
      simp only [List.getElem_map, List.getElem_range]
      exact this
  set l2 : StackLocal K GC GB := { l1 with est := some g } with hl2
  set nb := (nm.rowIdx i).filter fun k => k != i with hnb
  set m1 := Function.update m0 (NumbaList.score, i) (NumbaCell.num (numbaR2 (nb.map y)
    ((problemNumba Xm nm A Sm y i).rows.map (M.predict g)))) with hm1
  obtain ⟨l3, q1, q2, -, q4⟩ := query_all Xm i (Sm.rowIdx i) 0 l2 hne m1
  have hq : (List.range (Sm.rowIdx i).length).map l3.query =
      (problemNumba Xm nm A Sm y i).query := by
    unfold problemNumba
    simp only
    apply List.ext_getElem
    · simp
    · intro r k1 k2
      simp only [List.length_map, List.length_range] at k1
      have := q4 r k1
      rw [Nat.zero_add] at this
      simp only [List.getElem_map, List.getElem_range]
      exact this
  have hest : l3.est = some g := q2
  have hrun : (runAlone (stackingActs M Xm nm A Sm y i) StackLocal.init m0).2 =
      Function.update (Function.update (Function.update m1 (NumbaList.coef, i) (.coef g.1))
        (NumbaList.intercept, i) (.intercept g.2)) (NumbaList.predict, i)
        (.num (M.predict g (problemNumba Xm nm A Sm y i).query)) := by
    unfold stackingActs
    simp only
    rw [runAlone_append, runAlone_append, runAlone_append, h1]
    have hs : runAlone [solveStep M nb.length (Sm.rowIdx i).length (nb.map y)
          ((((A.rowIdx i).zip (A.rowData i)).filter fun e => e.1 != i).map Prod.snd),
        storeScore M nb.length (Sm.rowIdx i).length (nb.map y) i] l1 m0 = (l2, m1) := by
      have hg' : M.fit 0 (l1.rows nb.length (Sm.rowIdx i).length) (nb.map y)
          ((((A.rowIdx i).zip (A.rowData i)).filter fun e => e.1 != i).map Prod.snd) = .ok g := by
        rw [hrows]; exact hg
      have e1 : (solveStep M nb.length (Sm.rowIdx i).length (nb.map y)
          ((((A.rowIdx i).zip (A.rowData i)).filter fun e => e.1 != i).map Prod.snd) l1 m0) =
          (l2, m0) := by
        unfold solveStep
        rw [hg']
        rfl
      show storeScore M nb.length (Sm.rowIdx i).length (nb.map y) i
        (solveStep M nb.length (Sm.rowIdx i).length (nb.map y) _ l1 m0).1
        (solveStep M nb.length (Sm.rowIdx i).length (nb.map y) _ l1 m0).2 = _
      rw [e1]
      unfold storeScore
      have e2 : l2.rows nb.length (Sm.rowIdx i).length = (problemNumba Xm nm A Sm y i).rows := hrows
      simp only [e2]
      rfl
    simp only
    rw [hs]
    simp only
    rw [q1]
    show (storePredict M _ i l3 (storeIntercept i l3 (storeCoef i l3 m1).2).2).2 = _
    unfold storePredict storeIntercept storeCoef
    simp only [hest, hq]
  rw [hrun]
  unfold readNumba
  simp [hm1, problemNumba, hnb]

/-- C25: every complete execution of the parallel loop of the stacking model, in any order and with
any interleaving of the iterations' steps, and whatever the result lists contained, leaves in the
lists exactly the predictions, coefficients, intercepts and scores of the sequential model. -/
theorem C25_stacking_loop (M : Learner K (GC × GB)) (Xm : Csr K) (nm : Csr Bool) (A : Csr K)
    (Sm : Csr Nat) (y : Nat → K) (base : List F) (N : Nat)
    (hne : ∀ i < N, ∀ j ∈ Sm.rowIdx i, Xm.rowIdx j ≠ []) (outs : List (MetaOut K F (GC × GB)))
    (hseq : mapE (fun i => solveNumba M base (problemNumba Xm nm A Sm y i)) (List.range N) =
      .ok outs)
    (m0 : Mem (NumbaList × Nat) (NumbaCell K GC GB)) (sched : List Nat)
    (hdone : ((Par.start (stackingActs M Xm nm A Sm y) StackLocal.init m0).run sched).Done N) :
    (List.range N).map (readNumba base Sm
      ((Par.start (stackingActs M Xm nm A Sm y) StackLocal.init m0).run sched).mem) =
      outs.map some := by
  have h := (schedule_result (own := fun (i : Nat) (x : NumbaList × Nat) => x.2 = i)
    (acts := stackingActs M Xm nm A Sm y) (l0 := fun _ => StackLocal.init) (m0 := m0) N
    (fun i j x hi hj => hi.symm.trans hj) (stackingActs_inside M Xm nm A Sm y) sched hdone).1
  obtain ⟨hlen, hget⟩ := mapE_range hseq
  apply List.ext_getElem
  · simp [hlen]
  · intro i k1 k2
    simp only [List.length_map, List.length_range] at k1
    simp only [List.getElem_map, List.getElem_range]
    obtain ⟨o, ho1, ho2⟩ := hget i k1
    have ho : outs[i]'(by rw [hlen]; exact k1) = o := by
      rw [List.getElem?_eq_getElem (by rw [hlen]; exact k1)] at ho1
      exact Option.some.inj ho1
    rw [ho, ← stackingActs_alone M Xm nm A Sm y base i (hne i k1) o ho2 m0]
    have hx := fun f => h i k1 (f, i) rfl
    unfold readNumba
    have e : ∀ f, (Par.start (stackingActs M Xm nm A Sm y) StackLocal.init m0 |>.run sched).mem
        (f, i) = (runAlone (stackingActs M Xm nm A Sm y i) StackLocal.init m0).2 (f, i) := hx
    rw [e, e, e, e]

/-- The inner loop writes at most as many values as `X_fit_T` has columns, if the stored indices of
a row are distinct: no write beyond the table. -/
theorem numba_writes_in_bounds (nb : List Nat) (es : List (Nat × K))
    (hd : (es.map Prod.fst).Nodup) : (hits nb es).length ≤ nb.length := by
  have hsub : ((es.filter fun e => decide (e.1 ∈ nb)).map Prod.fst).Nodup :=
    hd.sublist (List.Sublist.map _ List.filter_sublist)
  have := (List.subperm_of_subset hsub (l₂ := nb) (by
    intro k hk
    obtain ⟨e, he, rfl⟩ := List.mem_map.1 hk
    simpa using (List.mem_filter.1 he).2)).length_le
  simpa [hits] using this

theorem numba_outs {outs : List (MetaOut K F (GC × GB))} (h : ∀ o ∈ outs, ∃ v, o.score = some v) :
    outs.map some = ((outs.map MetaOut.pred).zip ((outs.map MetaOut.est).zip
      (outs.filterMap MetaOut.score))).map fun t => some ⟨t.1, t.2.1, some t.2.2⟩ := by
  induction outs with
  | nil => rfl
  | cons o outs ih =>
    obtain ⟨v, hv⟩ := h o (by simp)
    obtain ⟨p, e, sc⟩ := o
    simp only at hv
    subst hv
    simp only [List.map_cons, List.filterMap_cons, List.zip_cons_cons, List.cons.injEq, true_and]
    exact ih fun o' ho' => h o' (by simp [ho'])

/-- C25: a successful fit with numba on a canonical CSR array records what the parallel loop leaves
in its lists under every complete schedule; the loop works on the table of the base predictions,
the shrunk weights and the sampled base estimators, reads only rows that are not empty, and writes
inside its table. -/
theorem C25_stacking_fit {S C : Type} (L : Learner K F) (M Mn : Learner K (GC × GB)) (rng : Rng S)
    (p : SParams K C) (hp : p.useNumba = true) (st : SState K F (GC × GB) C) (s : S) (X : Mat K)
    (y : List K) (coords : Option C) (A : Csr K) (hW : SparseFine rng p (some (.sparse A)))
    (hok : (stackFit L M Mn rng p st s X y coords (some (.sparse A))).result = .ok ()) :
    let o := (stackFit L M Mn rng p st s X y coords (some (.sparse A))).state
    ∃ (Xm A1 : Csr K) (Sm : Csr Nat) (rate : K) (base : List F) (ps : List K)
      (es : List (StackedEst F (GC × GB))) (scs : List K), p.leaveOutRate = some rate ∧
      shrinkMetaSparse p.metaShrink A = .ok A1 ∧
      (sampleNeighbourSparse rng s A rate p.leaveOutShrink).result = .ok Sm ∧
      o.base = some base ∧ o.stackPredictions = some ps ∧
      o.wm.estimators = some (es.map some) ∧ (0 < X.r → o.fitScores = some scs) ∧
      (∀ i < X.r, ∀ j ∈ Sm.rowIdx i, ∃ b, base[j]? = some b ∧ Xm.rowIdx j ≠ [] ∧
        Xm.rowData j = (Xm.rowIdx j).map (fun k => L.predict b (X.row k)) ∧
        (hits (((othersSparse A1).rowIdx i).filter fun k => k != i)
          ((Xm.rowIdx j).zip (Xm.rowData j))).length ≤
          (((othersSparse A1).rowIdx i).filter fun k => k != i).length) ∧
      ∀ m0 sched,
        ((Par.start (stackingActs Mn Xm (othersSparse A1) A1 Sm (yfun y)) StackLocal.init m0).run
          sched).Done X.r →
        (List.range X.r).map (readNumba base Sm ((Par.start (stackingActs Mn Xm (othersSparse A1) A1
            Sm (yfun y)) StackLocal.init m0).run sched).mem) =
          (ps.zip (es.zip scs)).map fun t => some ⟨t.1, t.2.1, some t.2.2⟩ := by
  obtain ⟨W0, rate, hc, hW0, hlr, heq⟩ := stackFit_ok hok
  simp only [chosenWeights, Except.ok.injEq] at hW0
  subst hW0
  obtain ⟨hA, hz, hv, hrate⟩ := hW A rfl
  simp only
  rw [heq] at hok ⊢
  generalize stackWeights _ (stackBegin p st X y coords _) _ = st0 at *
  unfold stackWith at hok ⊢
  rw [hlr] at hok ⊢
  simp only at hok ⊢
  obtain ⟨Sm, A1, sec, idx, res, out, score, score', s', hr, he, h1, h2⟩ := stackSparse_ok hok
  have hb : SparseBase L rng p s X y rate A Sm A1 sec res := ⟨hr.rows, hr.cols, hr.sample,
    hr.shrunk, hr.second_, hr.base, hv, hrate rate (by rw [hlr]; rfl), hA, hz⟩
  have hm := hr.meta_
  unfold metaStageSparse at hm
  simp only [hp, if_true] at hm
  obtain ⟨hlen, hget⟩ := mapE_range hm
  have hsc : ∀ o ∈ out, ∃ v, o.score = some v := by
    intro o ho
    obtain ⟨i, hi, rfl⟩ := List.getElem_of_mem ho
    obtain ⟨o', e1, e2⟩ := hget i (by rw [hlen] at hi; exact hi)
    rw [List.getElem?_eq_getElem hi] at e1
    injection e1 with e1
    rw [e1]
    obtain ⟨-, -, g, -, rfl⟩ := solveNumba_ok e2
    exact ⟨_, rfl⟩
  have hne : ∀ i < X.r, ∀ j ∈ Sm.rowIdx i, (metaSparse sec res).rowIdx j ≠ [] := by
    intro i hi j hj
    obtain ⟨o, -, e2⟩ := hget i hi
    obtain ⟨hrows, -⟩ := solveNumba_ok e2
    have hnb : (othersSparse A1).rowIdx i ≠ [] := by
      intro h0
      apply hrows
      simp [problemNumba, h0]
    obtain ⟨k, hk⟩ := List.exists_mem_of_ne_nil _ hnb
    have := (hb.stored hi hj ((hb.others hi).2 k hk).2.1).1
    exact List.ne_nil_of_mem this
  refine ⟨metaSparse sec res, A1, Sm, rate, res.map BaseOut.est, out.map MetaOut.pred,
    out.map MetaOut.est, out.filterMap MetaOut.score, rfl, hr.shrunk, hr.sample, by rw [he],
    by rw [he], by rw [he]; simp, fun hN => ?_, fun i hi j hj => ?_, fun m0 sched hd => ?_⟩
  · rw [he]
    simp only
    rw [if_pos]
    have h0 : 0 < out.length := by rw [hlen]; exact hN
    obtain ⟨v, hv⟩ := hsc _ (List.getElem_mem h0)
    rw [List.any_eq_true]
    exact ⟨_, List.getElem_mem h0, by rw [hv]; rfl⟩
  · have hjN := (hb.sel hi).2.1 j hj
    obtain ⟨t1, t2⟩ := hb.table hjN
    have hjl : j < res.length := by rw [(mapE_range hr.base).1]; exact hjN
    refine ⟨(res[j]).est, by rw [List.getElem?_map, List.getElem?_eq_getElem hjl]; rfl, hne i hi j hj, ?_, ?_⟩
    · rw [t1]
      refine List.map_congr_left fun k _ => ?_
      exact basePred_of (List.getElem?_eq_getElem hjl)
    · apply numba_writes_in_bounds
      rw [t1, List.map_fst_zip (by simp)]
      exact t2.imp fun h => h.ne
  · rw [C25_stacking_loop Mn _ _ _ _ _ _ X.r hne out hm m0 sched hd]
    exact numba_outs hsc

/-! ### Examples -/

/-- A learner whose estimators are pairs. -/
def pairLearner : Learner ℚ (ℚ × ℚ) :=
  ⟨fun e rows ys ws => (meanLearner.fit e rows ys ws).map fun m => (m, rows.length),
    fun g x => g.1 + g.2 * x.sum⟩

/-- A complete schedule exists for every loop. -/
example (M : Learner K (GC × GB)) (Xm : Csr K) (nm : Csr Bool) (A : Csr K) (Sm : Csr Nat)
    (y : Nat → K) (N : Nat) (m0 : Mem (NumbaList × Nat) (NumbaCell K GC GB)) :
    ∃ sched, ((Par.start (stackingActs M Xm nm A Sm y) StackLocal.init m0).run sched).Done N :=
  exists_sequential _ N

/-- The hypotheses of `C25_stacking_fit` are met. -/
example : SparseFine rotRng { seP with useNumba := true } (some (.sparse seA)) ∧
    (stackFit meanLearner pairLearner pairLearner rotRng { seP with useNumba := true } {} 0 seX seY
      none (some (.sparse seA))).result = .ok () := by
  refine ⟨fun A hA => ?_, by decide +kernel⟩
  injection hA with hA
  injection hA with hA
  subst hA
  refine ⟨seA_canonical, fun x hx => (seA_pos x hx).ne', rotRng_valid, fun r hr => ?_⟩
  cases hr
  norm_num

end Geo
