import Verif.Model.Objects
import Verif.Props.Threads
import Verif.Lemmas.WeightModel
import Verif.Props.StackingAttrs
/-!
C155: regressors are objects; the one passed in is never touched and every location has its own.
-/
set_option linter.unusedSectionVars false
namespace Geo
variable {K : Type} [Field K] [LinearOrder K] [IsStrictOrderedRing K] [FloorRing K] {C S O V : Type}

/-- What a new clone of an object in state `o` learns: the regressor as a function from data to a fitted
regressor, as in the other theorems. -/
def Regressor.learner (R : Regressor K O) (o : O) : Learner K O where
  fit := fun _ Xs ys ws => match R.fit (R.fresh o) Xs ys ws with
    | (.ok (), q) => .ok q
    | (.error e, _) => .error e
  predict := R.predict

def pureJob (L : Learner K O) (j : Job K O V) : Except Err (V × O) :=
  (L.fit 0 j.rows j.ys j.ws).bind fun f => (j.read f).map fun v => (v, f)

theorem seqJobs_spec (R : Regressor K O) (o : O) (tasks : List (Except Err (Job K O V))) (h : Heap O)
    (hn : (tasks.filterMap taskObj).Nodup) (hf : ∀ e ∈ tasks.filterMap taskObj, h.get e = R.fresh o) :
    (seqJobs R tasks h).2.next = h.next ∧
    (∀ a, a ∉ tasks.filterMap taskObj → (seqJobs R tasks h).2.get a = h.get a) ∧
    (seqJobs R tasks h).1.map (fun l => l.map fun r => (r.1, (seqJobs R tasks h).2.get r.2)) =
      mapE (fun t => t.bind (pureJob (R.learner o))) tasks ∧
    ∀ l, (seqJobs R tasks h).1 = .ok l → l.map Prod.snd = tasks.filterMap taskObj := by
  induction tasks generalizing h with
  | nil => exact ⟨rfl, fun _ _ => rfl, rfl, fun l hl => by cases hl; rfl⟩
  | cons t tasks ih =>
    cases t with
    | error e => exact ⟨rfl, fun _ _ => rfl, rfl, fun l hl => by cases hl⟩
    | ok j =>
      have hcons : (Except.ok j :: tasks).filterMap taskObj = j.est :: tasks.filterMap taskObj := rfl
      rw [hcons] at hn hf ⊢
      obtain ⟨hj, hn'⟩ := List.nodup_cons.1 hn
      have hfj := hf j.est (List.mem_cons_self ..)
      cases hfit : R.fit (R.fresh o) j.rows j.ys j.ws with
      | mk r q =>
        cases r with
        | error e =>
          have hb : (Except.ok j : Except Err (Job K O V)).bind (pureJob (R.learner o)) = .error e := by
            simp [Except.bind, pureJob, Regressor.learner, hfit]
          simp only [seqJobs, runJob, hfj, mapE, hb, hfit]
          refine ⟨trivial, fun a ha => ?_, rfl, fun l hl => by cases hl⟩
          rw [Function.update_of_ne (by rintro rfl; exact ha (List.mem_cons_self ..))]
        | ok u =>
          cases u
          have hb : (Except.ok j : Except Err (Job K O V)).bind (pureJob (R.learner o)) =
              (j.read q).map fun v => (v, q) := by
            simp [Except.bind, pureJob, Regressor.learner, hfit]
          obtain ⟨h1, h2, h3, h4⟩ := ih { h with get := Function.update h.get j.est q } hn' (fun e he => by
            simp only
            rw [Function.update_of_ne (by rintro rfl; exact hj he)]
            exact hf e (List.mem_cons_of_mem _ he))
          have h5 := h2 j.est hj
          simp only [Function.update_self] at h5
          simp only [seqJobs, runJob, hfj, mapE, hb, hfit, Function.update_self]
          cases hread : j.read q with
          | error e =>
            refine ⟨rfl, fun a ha => ?_, rfl, fun l hl => by cases hl⟩
            simp only
            rw [Function.update_of_ne (by rintro rfl; exact ha (List.mem_cons_self ..))]
          | ok v =>
          simp only [Except.map]
          rw [← h3]
          cases hs : seqJobs R tasks { h with get := Function.update h.get j.est q } with
          | mk r' h' =>
            rw [hs] at h1 h2 h3 h4 h5
            have hout : ∀ a, a ∉ j.est :: tasks.filterMap taskObj → h'.get a = h.get a := by
              intro a ha
              have := h2 a (fun hc => ha (List.mem_cons_of_mem _ hc))
              simp only at this
              rw [this, Function.update_of_ne (by rintro rfl; exact ha (List.mem_cons_self ..))]
            cases r' with
            | error e => exact ⟨h1, hout, rfl, fun l hl => by cases hl⟩
            | ok rs =>
              refine ⟨h1, hout, ?_, fun l hl => ?_⟩
              · simp only at h5
                simp only [Except.map, List.map_cons, h5]
              · cases hl
                rw [List.map_cons, h4 rs rfl]

theorem receive_spec (l : List (V × O)) (h : Heap O) :
    (receive l h).2.next = h.next + l.length ∧
    (∀ a < h.next, (receive l h).2.get a = h.get a) ∧
    (receive l h).1.map (fun r => (r.1, (receive l h).2.get r.2)) = l ∧
    (receive l h).1.map Prod.snd = List.range' h.next l.length := by
  induction l generalizing h with
  | nil => exact ⟨rfl, fun _ _ => rfl, rfl, rfl⟩
  | cons a l ih =>
    obtain ⟨v, o⟩ := a
    obtain ⟨h1, h2, h3, h4⟩ := ih (h.alloc o).2
    have hnx : (h.alloc o).2.next = h.next + 1 := rfl
    rw [hnx] at h1 h2 h4
    simp only [receive]
    refine ⟨?_, fun a ha => ?_, ?_, ?_⟩
    · rw [h1, List.length_cons]; omega
    · rw [h2 a (by omega)]
      exact Function.update_of_ne (by omega) ..
    · have := h2 h.next (Nat.lt_succ_self _)
      rw [List.map_cons, h3]
      show (v, (receive l (h.alloc o).2).2.get h.next) :: l = _
      rw [this]
      simp [Heap.alloc]
    · rw [List.map_cons, h4]
      rfl

theorem cloneMany_spec (R : Regressor K O) (reg n : Nat) (h : Heap O) (hreg : reg < h.next) :
    (cloneMany R reg n h).2.next = h.next + n ∧
    (∀ a < h.next, (cloneMany R reg n h).2.get a = h.get a) ∧
    (cloneMany R reg n h).1 = List.range' h.next n ∧
    ∀ a ∈ (cloneMany R reg n h).1, (cloneMany R reg n h).2.get a = R.fresh (h.get reg) := by
  induction n generalizing h with
  | zero => exact ⟨rfl, fun _ _ => rfl, rfl, fun a ha => by cases ha⟩
  | succ n ih =>
    have hnx : (h.alloc (R.fresh (h.get reg))).2.next = h.next + 1 := rfl
    have hold : ∀ a < h.next, (h.alloc (R.fresh (h.get reg))).2.get a = h.get a := fun a ha =>
      Function.update_of_ne (by omega) ..
    obtain ⟨h1, h2, h3, h4⟩ := ih (h.alloc (R.fresh (h.get reg))).2 (by rw [hnx]; omega)
    rw [hnx] at h1 h2 h3
    rw [hold reg hreg] at h4
    simp only [cloneMany]
    refine ⟨by rw [h1]; omega, fun a ha => by rw [h2 a (by omega), hold a ha], ?_, fun a ha => ?_⟩
    · rw [h3]
      rfl
    · rcases List.mem_cons.1 ha with rfl | ha
      · have := h2 h.next (Nat.lt_succ_self _)
        show (cloneMany R reg n (h.alloc (R.fresh (h.get reg))).2).2.get h.next = _
        rw [this]
        simp [Heap.alloc]
      · exact h4 a ha

theorem mapE_list_map {α β γ : Type} (f : β → Except Err γ) (g : α → β) (l : List α) :
    mapE f (l.map g) = mapE (fun a => f (g a)) l := by
  induction l with
  | nil => rfl
  | cons a l ih => simp only [List.map_cons, mapE, ih]

/-- What a call with objects did: the values, the objects of the values, and what is left as it was. -/
structure Did (h : Heap O) (ests : List Nat) (r : Except Err (List (V × Nat)) × Heap O)
    (want : Except Err (List (V × O))) : Prop where
  value : r.1.map (fun l => l.map fun a => (a.1, r.2.get a.2)) = want
  grow : h.next ≤ r.2.next
  old : ∀ a < h.next, a ∉ ests → r.2.get a = h.get a
  mine : ∀ l, r.1 = .ok l → (l.map Prod.snd).Nodup ∧
    ∀ a ∈ l.map Prod.snd, a < r.2.next ∧ (a ∈ ests ∨ h.next ≤ a)

theorem Did.failed {h : Heap O} {ests : List Nat} {e : Err} :
    Did h ests ((.error e : Except Err (List (V × Nat))), h) (.error e) :=
  ⟨rfl, le_rfl, fun _ _ _ => rfl, fun l hl => by cases hl⟩

theorem runBatches_spec (R : Regressor K O) (backend : Backend) (o : O)
    (batches : List (List (Except Err (Job K O V)))) (h : Heap O) (ests : List Nat)
    (hn : (batches.flatten.filterMap taskObj).Nodup)
    (hsub : ∀ e ∈ batches.flatten.filterMap taskObj, e ∈ ests) (hlt : ∀ e ∈ ests, e < h.next)
    (hf : ∀ e ∈ ests, h.get e = R.fresh o) :
    Did h ests (runBatches R backend batches h)
      ((mapE (mapE fun t => t.bind (pureJob (R.learner o))) batches).map List.flatten) := by
  cases backend with
  | serial =>
    unfold runBatches
    obtain ⟨h1, h2, h3, h4⟩ := seqJobs_spec R o batches.flatten h hn fun e he => hf e (hsub e he)
    refine ⟨?_, h1.ge, fun a _ ha => h2 a fun hc => ha (hsub a hc), fun l hl => ?_⟩
    · simp only
      rw [h3, mapE_flatten]
    · simp only at hl ⊢
      rw [h4 l hl]
      exact ⟨hn, fun a ha => ⟨by rw [h1]; exact hlt a (hsub a ha), Or.inl (hsub a ha)⟩⟩
  | threads sched =>
    obtain ⟨h1, h2, h3, h4⟩ := seqJobs_spec R o batches.flatten h hn fun e he => hf e (hsub e he)
    obtain ⟨t1, t2, t3, t4⟩ := threads_spec R sched batches h hn
    generalize runBatches R (.threads sched) batches h = out at t1 t2 t3 t4
    obtain ⟨r, h'⟩ := out
    simp only at t1 t2 t3 t4
    refine ⟨?_, t2.ge, fun a _ ha => t3 a fun hc => ha (hsub a hc), fun l hl => ?_⟩
    · simp only
      rw [mapE_flatten, ← h3, t1]
      cases hr : (seqJobs R batches.flatten h).1 with
      | error e => rfl
      | ok l => rw [t4 ⟨l, by rw [t1, hr]⟩]
    · simp only at hl ⊢
      rw [h4 l (t1 ▸ hl)]
      exact ⟨hn, fun a ha => ⟨by rw [t2]; exact hlt a (hsub a ha), Or.inl (hsub a ha)⟩⟩
  | processes =>
    unfold runBatches
    simp only
    have hb : mapE (workerBatch R h) batches =
        mapE (mapE fun t => t.bind (pureJob (R.learner o))) batches := by
      refine mapE_congr fun b hb => ?_
      have hsl : (b.filterMap taskObj).Sublist (batches.flatten.filterMap taskObj) :=
        (List.sublist_flatten_of_mem hb).filterMap _
      obtain ⟨-, -, h3, -⟩ := seqJobs_spec R o b h (hn.sublist hsl)
        fun e he => hf e (hsub e (hsl.subset he))
      rw [← h3, workerBatch]
      cases seqJobs R b h with
      | mk r h' => cases r <;> rfl
    rw [hb]
    cases mapE (mapE fun t => t.bind (pureJob (R.learner o))) batches with
    | error e => exact Did.failed
    | ok bs =>
      obtain ⟨h1, h2, h3, h4⟩ := receive_spec bs.flatten h
      refine ⟨?_, by simp only; omega, fun a ha _ => h2 a ha, fun l hl => ?_⟩
      · simp only [Except.map, h3]
      · simp only [Except.ok.injEq] at hl
        subst hl
        simp only
        rw [h4]
        refine ⟨List.nodup_range', fun a ha => ?_⟩
        rw [List.mem_range'_1] at ha
        exact ⟨by omega, Or.inr ha.1⟩

theorem denseTask_job (R : Regressor K O) (o : O) (X : Mat K) (y : Nat → K) (Xp W : Mat K) (e est i : Nat) :
    denseTask (R.learner o) X y Xp W e i = (denseJob R X y Xp W est i).bind (pureJob (R.learner o)) := by
  unfold denseTask denseJob
  split
  · rfl
  · rfl

theorem locTask_job (R : Regressor K O) (o : O) (X : Mat K) (y : Nat → K) (Xp : Mat K) (W : WMat K)
    (ests : List Nat) (i : Nat) : locTask (R.learner o) X y Xp W ests.length i =
      (locJob R X y Xp W ests i).bind (pureJob (R.learner o)) := by
  unfold locTask locJob atIndex
  split
  · cases W with
    | dense W => exact denseTask_job R o X y Xp W i _ i
    | sparse A =>
      simp only [sparseTask, sparseJob]
      split <;> rfl
  · rfl

theorem locJob_obj {R : Regressor K O} {X : Mat K} {y : Nat → K} {Xp : Mat K} {W : WMat K} {ests : List Nat} {i e : Nat}
    (h : taskObj (locJob R X y Xp W ests i) = some e) : i < ests.length ∧ ests[i]? = some e := by
  unfold locJob atIndex at h
  split at h
  · rename_i hi
    refine ⟨hi.1, ?_⟩
    have : e = ests.getD i 0 := by
      cases W with
      | dense W =>
        simp only [denseJob] at h
        split at h
        · cases h
        · simpa [taskObj] using h.symm
      | sparse A =>
        simp only [sparseJob] at h
        split at h
        · cases h
        · simpa [taskObj] using h.symm
    rw [this]
    simp [hi.1]
  · cases h

theorem filterMap_own {ests idx : List Nat} {f : Nat → Except Err (Job K O V)} (hn : ests.Nodup) (hi : idx.Nodup)
    (hf : ∀ i ∈ idx, ∀ e, taskObj (f i) = some e → ests[i]? = some e) :
    ((idx.map f).filterMap taskObj).Nodup ∧ ∀ e ∈ (idx.map f).filterMap taskObj, e ∈ ests := by
  induction idx with
  | nil => exact ⟨List.nodup_nil, fun e he => by cases he⟩
  | cons i idx ih =>
    obtain ⟨hni, hi'⟩ := List.nodup_cons.1 hi
    obtain ⟨h1, h2⟩ := ih hi' fun j hj => hf j (List.mem_cons_of_mem _ hj)
    rw [List.map_cons, List.filterMap_cons]
    cases ht : taskObj (f i) with
    | none => exact ⟨h1, h2⟩
    | some e =>
      have he := hf i (List.mem_cons_self ..) e ht
      refine ⟨List.nodup_cons.2 ⟨fun hc => ?_, h1⟩, fun a ha => ?_⟩
      · obtain ⟨t, hta, hte⟩ := List.mem_filterMap.1 hc
        obtain ⟨j, hj, rfl⟩ := List.mem_map.1 hta
        have hje := hf j (List.mem_cons_of_mem _ hj) e hte
        have hl := (List.getElem?_eq_some_iff.1 he).1
        have : i = j := (List.getElem?_inj hl hn).1 (he.trans hje.symm)
        exact hni (this ▸ hj)
      · rcases List.mem_cons.1 ha with rfl | ha
        · exact List.mem_of_getElem? he
        · exact h2 a ha

theorem fitAllObj_spec (R : Regressor K O) (backend : Backend) (o : O) (X : Mat K) (y : Nat → K)
    (Xp : Option (Mat K)) (W : WMat K) (ests : List Nat) (idx : Option (List Nat)) (nJobs nPatches : Option ℤ)
    (cpu : Nat) (h : Heap O) (hn : ests.Nodup) (hi : ∀ l, idx = some l → l.Nodup)
    (hlt : ∀ e ∈ ests, e < h.next) (hf : ∀ e ∈ ests, h.get e = R.fresh o) :
    Did h ests (fitAllObj R backend X y Xp W ests idx nJobs nPatches cpu h)
      (fitAll (R.learner o) X y Xp W ests.length idx nJobs nPatches cpu) := by
  unfold fitAllObj fitAll
  have hidx : (idx.getD (List.range W.r)).Nodup := by
    cases idx with
    | none => exact List.nodup_range
    | some l => exact hi l rfl
  generalize idx.getD (List.range W.r) = ix at hidx
  generalize Xp.getD X = Xq
  have hpatch : ∀ n : ℤ, Did h ests (patchesObj R backend (locJob R X y Xq W ests) ix n h)
      (runPatches (locTask (R.learner o) X y Xq W ests.length) ix n) := by
    intro n
    unfold patchesObj runPatches
    split
    · exact Did.failed
    · have hflat : ((arraySplit ix n.toNat).map (List.map (locJob R X y Xq W ests))).flatten =
          ix.map (locJob R X y Xq W ests) := by
        obtain ⟨m, hm⟩ : ∃ m, n.toNat = m + 1 := ⟨n.toNat - 1, by omega⟩
        rw [← List.map_flatten, hm, arraySplit_flatten]
      obtain ⟨h1, h2⟩ := filterMap_own (f := locJob R X y Xq W ests) hn hidx fun i _ e he => (locJob_obj he).2
      have := runBatches_spec R backend o ((arraySplit ix n.toNat).map (List.map (locJob R X y Xq W ests))) h ests
        (by rw [hflat]; exact h1) (by rw [hflat]; exact h2) hlt hf
      rw [mapE_list_map] at this
      convert this using 3
      funext l
      rw [mapE_list_map]
      exact mapE_congr fun i _ => locTask_job ..
  have hjob : ∀ tasks : List (Except Err (Job K O K)), (tasks.filterMap taskObj).Nodup →
      (∀ e ∈ tasks.filterMap taskObj, e ∈ ests) →
      Did h ests ((runBatches R backend (tasks.map fun t => [t]) h).1.bind unzipNonempty,
        (runBatches R backend (tasks.map fun t => [t]) h).2)
        ((mapE (fun t => t.bind (pureJob (R.learner o))) tasks).bind unzipNonempty) := by
    intro tasks h1 h2
    have hflat : (tasks.map fun t => [t]).flatten = tasks := by
      clear h1 h2
      induction tasks with
      | nil => rfl
      | cons a l ih => simpa using ih
    have := runBatches_spec R backend o (tasks.map fun t => [t]) h ests (by rw [hflat]; exact h1)
      (by rw [hflat]; exact h2) hlt hf
    rw [mapE_flatten, hflat] at this
    obtain ⟨g1, g2, g3, g4⟩ := this
    generalize runBatches R backend (tasks.map fun t => [t]) h = r at *
    obtain ⟨r, h'⟩ := r
    rw [← g1]
    refine ⟨?_, g2, g3, fun l hl => ?_⟩
    · cases r with
      | error e => rfl
      | ok l => cases l <;> rfl
    · cases r with
      | error e => cases hl
      | ok l' =>
        cases l' with
        | nil => cases hl
        | cons a l' =>
          simp only [Except.bind, unzipNonempty, Except.ok.injEq] at hl
          subst hl
          exact g4 _ rfl
  cases nJobs with
  | none => cases nPatches <;> exact hpatch _
  | some j =>
    cases nPatches with
    | some n => exact Did.failed
    | none =>
      simp only
      split
      · exact Did.failed
      · unfold jobsObj runJobs
        cases W with
        | dense D =>
          obtain ⟨h1, h2⟩ := filterMap_own (ests := ests)
            (idx := List.range (zipCount ix.length ests.length D.r Xq.r))
            (f := fun k => denseJob R X y Xq D (ests.getD k 0) k) hn List.nodup_range (by
              intro i hi e he
              have hi' : i < ests.length := by
                have := List.mem_range.1 hi
                unfold zipCount at this
                omega
              simp only [denseJob] at he
              split at he
              · cases he
              · simp only [taskObj, Option.some.injEq] at he
                rw [← he]
                simp [hi'])
          have := hjob _ h1 h2
          rw [mapE_list_map] at this
          convert this using 3
          funext k
          exact denseTask_job ..
        | sparse A =>
          obtain ⟨h1, h2⟩ := filterMap_own (f := locJob R X y Xq (.sparse A) ests) hn hidx
            fun i _ e he => (locJob_obj he).2
          have := hjob _ h1 h2
          rw [mapE_list_map] at this
          convert this using 3
          funext k
          exact locTask_job ..

/-! ### The methods of a model -/

/-- The attributes of a model with the objects in place of the references. -/
def WMState.deref (g : Nat → O) (st : WMState K Nat C) : WMState K O C where
  isFitted := st.isFitted
  nFeatures := st.nFeatures
  N := st.N
  X := st.X
  y := st.y
  coords := st.coords
  weightMatrix := st.weightMatrix
  neighbourMatrix := st.neighbourMatrix
  localIndices := st.localIndices
  ySample := st.ySample
  estimators := st.estimators.map (List.map (Option.map g))
  localPredict := st.localPredict
  score := st.score
  residual := st.residual
  permDecrease := st.permDecrease
  interaction := st.interaction

/-- All references of a model are to existing objects. -/
def WMState.Below (n : Nat) (st : WMState K Nat C) : Prop :=
  ∀ l, st.estimators = some l → ∀ a, some a ∈ l → a < n

def FitOut.deref (g : Nat → O) (out : FitOut K Nat C S) : FitOut K O C S :=
  ⟨out.result, out.state.deref g, out.caller, out.rng⟩

theorem WMState.deref_congr {g g' : Nat → O} {n : Nat} {st : WMState K Nat C} (hb : st.Below n)
    (h : ∀ a < n, g' a = g a) : st.deref g' = st.deref g := by
  have : st.estimators.map (List.map (Option.map g')) = st.estimators.map (List.map (Option.map g)) := by
    cases he : st.estimators with
    | none => rfl
    | some l =>
      simp only [Option.map_some, Option.some.injEq]
      refine List.map_congr_left fun a ha => ?_
      cases a with
      | none => rfl
      | some a => simp only [Option.map_some, h a (hb l he a ha)]
  simp only [WMState.deref, this]

theorem stateBegin_deref (g : Nat → O) (p : WMParams K C) (st : WMState K Nat C) (X : Mat K) (y : List K)
    (coords : Option C) (W : Option (WMat K)) :
    (stateBegin p st X y coords W).deref g = stateBegin p (st.deref g) X y coords W := by
  unfold stateBegin
  split
  · rfl
  · split <;> rfl

theorem stateBegin_ests (p : WMParams K C) (st : WMState K Nat C) (X : Mat K) (y : List K)
    (coords : Option C) (W : Option (WMat K)) :
    (stateBegin p st X y coords W).estimators = st.estimators := by
  unfold stateBegin
  split
  · rfl
  · split <;> rfl

theorem stateEnd_deref (g : Nat → O) (p : WMParams K C) (st : WMState K Nat C) (ys : List K)
    (res : List (K × Nat)) :
    (stateEnd p (st.deref g) ys (res.map fun a => (a.1, g a.2))).1 = (stateEnd p st ys res).1 ∧
    (stateEnd p (st.deref g) ys (res.map fun a => (a.1, g a.2))).2 = (stateEnd p st ys res).2.deref g := by
  have h1 : (res.map fun a => (a.1, g a.2)).map Prod.fst = res.map Prod.fst := by
    simp
  have h2 : ((res.map fun a => (a.1, g a.2)).map fun r => if p.cacheEstimator then some r.2 else none) =
      (res.map fun r => if p.cacheEstimator then some r.2 else none).map (Option.map g) := by
    rw [List.map_map, List.map_map]
    refine List.map_congr_left fun a _ => ?_
    simp only [Function.comp]
    split <;> rfl
  unfold stateEnd
  simp only [h1, h2]
  cases skR2 ys (res.map Prod.fst) <;> exact ⟨rfl, rfl⟩

theorem stateEnd_ests (p : WMParams K C) (st : WMState K Nat C) (ys : List K) (res : List (K × Nat)) :
    (stateEnd p st ys res).2.estimators =
      some (res.map fun r => if p.cacheEstimator then some r.2 else none) := by
  unfold stateEnd
  simp only
  cases skR2 ys (res.map Prod.fst) <;> rfl

/-- What a method call did to the objects, in terms of the calls on regressors as functions. -/
structure Kept (h h' : Heap O) : Prop where
  grow : h.next ≤ h'.next
  old : ∀ a < h.next, h'.get a = h.get a

theorem Kept.refl (h : Heap O) : Kept h h := ⟨le_rfl, fun _ _ => rfl⟩

theorem Kept.trans {h h' h'' : Heap O} (a : Kept h h') (b : Kept h' h'') : Kept h h'' :=
  ⟨a.grow.trans b.grow, fun x hx => (b.old x (lt_of_lt_of_le hx a.grow)).trans (a.old x hx)⟩

theorem clones_fit (R : Regressor K O) (backend : Backend) (reg : Nat) (X : Mat K) (y : Nat → K)
    (Xp : Option (Mat K)) (W : WMat K) (n : Nat) (idx : Option (List Nat)) (nJobs nPatches : Option ℤ)
    (cpu : Nat) (h : Heap O) (hi : ∀ l, idx = some l → l.Nodup) (hreg : reg < h.next) :
    let r := fitAllObj R backend X y Xp W (cloneMany R reg n h).1 idx nJobs nPatches cpu (cloneMany R reg n h).2
    r.1.map (fun l => l.map fun a => (a.1, r.2.get a.2)) =
      fitAll (R.learner (h.get reg)) X y Xp W n idx nJobs nPatches cpu ∧ Kept h r.2 ∧
    ∀ l, r.1 = .ok l → (l.map Prod.snd).Nodup ∧ ∀ a ∈ l.map Prod.snd, a < r.2.next ∧ h.next ≤ a := by
  intro r
  obtain ⟨c1, c2, c3, c4⟩ := cloneMany_spec R reg n h hreg
  have hmem : ∀ e ∈ (cloneMany R reg n h).1, h.next ≤ e ∧ e < h.next + n := by
    intro e he
    rw [c3, List.mem_range'_1] at he
    exact he
  obtain ⟨d1, d2, d3, d4⟩ := fitAllObj_spec R backend (h.get reg) X y Xp W (cloneMany R reg n h).1 idx nJobs
    nPatches cpu (cloneMany R reg n h).2 (by rw [c3]; exact List.nodup_range') hi
    (fun e he => by rw [c1]; exact (hmem e he).2) c4
  have hlen : (cloneMany R reg n h).1.length = n := by rw [c3, List.length_range']
  rw [hlen] at d1
  refine ⟨d1, ⟨by simp only [r]; omega, fun a ha => ?_⟩, fun l hl => ?_⟩
  · simp only [r]
    rw [d3 a (by omega) fun hc => by have := (hmem a hc).1; omega, c2 a ha]
  · obtain ⟨e1, e2⟩ := d4 l hl
    refine ⟨e1, fun a ha => ⟨(e2 a ha).1, ?_⟩⟩
    rcases (e2 a ha).2 with h1 | h1
    · exact (hmem a h1).1
    · omega

/-- The outcome of `fit` on objects. -/
theorem fitWithObj_spec (R : Regressor K O) (backend : Backend) (reg : Nat) (rng : Rng S) (hrng : rng.Valid)
    (p : WMParams K C) (hrate : ∀ r, p.sampleRate = some r → 0 ≤ r ∧ r ≤ 1) (st : WMState K Nat C) (s : S)
    (X : Mat K) (y : List K) (given : Bool) (W0 : WMat K) (h : Heap O) (hreg : reg < h.next)
    (hst : st.Below h.next) :
    let out := fitWithObj R backend reg rng p st s X y given W0 h
    out.1.deref out.2.get = fitWith (R.learner (h.get reg)) rng p (st.deref h.get) s X y given W0 ∧
    Kept h out.2 ∧ out.1.state.Below out.2.next ∧
    (out.1.result = .ok () → ∀ l, out.1.state.estimators = some l →
      (l.filterMap id).Nodup ∧ (∀ a, some a ∈ l → h.next ≤ a) ∧
      ∀ o ∈ l, o.isSome = p.cacheEstimator) := by
  intro out
  simp only [out, fitWithObj, fitWith]
  clear out
  cases hs : sampleLocations rng s p.sampleRate X.r with
  | mk r s' =>
    cases r with
    | error e =>
      exact ⟨rfl, Kept.refl h, hst, fun hr => by cases hr⟩
    | ok idx =>
      have hnd : ∀ l, some idx = some l → l.Nodup := by
        rintro l ⟨rfl⟩
        have := (sampleLocations_spec hrng hrate hs).1
        exact this.imp (fun h => ne_of_lt h)
      obtain ⟨d1, d2, d3⟩ := clones_fit R backend reg X (fun i => y.getD i 0) none (leaveOut p W0) X.r (some idx)
        p.nJobs p.storedPatches p.cpu h hnd hreg
      simp only
      rw [← d1]
      cases hf : fitAllObj R backend X (fun i => y.getD i 0) none (leaveOut p W0) (cloneMany R reg X.r h).1
          (some idx) p.nJobs p.storedPatches p.cpu (cloneMany R reg X.r h).2 with
      | mk r h' =>
        rw [hf] at d1 d2 d3
        cases r with
        | error e =>
          refine ⟨?_, d2, fun l hl a ha => lt_of_lt_of_le (hst l hl a ha) d2.grow, fun hr => by cases hr⟩
          simp only [Except.map, FitOut.deref]
          rw [← WMState.deref_congr hst d2.old]
          rfl
        | ok res =>
          simp only [Except.map]
          obtain ⟨e1, e2⟩ := stateEnd_deref h'.get p { st with
            weightMatrix := some (leaveOut p W0), neighbourMatrix := some (leaveOut p W0).gt0,
            localIndices := some idx, ySample := some (idx.map fun i => y.getD i 0) }
            (idx.map fun i => y.getD i 0) res
          have e3 := stateEnd_ests p { st with
            weightMatrix := some (leaveOut p W0), neighbourMatrix := some (leaveOut p W0).gt0,
            localIndices := some idx, ySample := some (idx.map fun i => y.getD i 0) }
            (idx.map fun i => y.getD i 0) res
          obtain ⟨f1, f2⟩ := d3 res rfl
          refine ⟨?_, d2, fun l hl a ha => ?_, fun _ l hl => ?_⟩
          · simp only [FitOut.deref]
            rw [← e2, ← e1, ← WMState.deref_congr hst d2.old]
            rfl
          · rw [e3] at hl
            cases hl
            obtain ⟨r, hr, hra⟩ := List.mem_map.1 ha
            split at hra
            · cases hra
              exact (f2 _ (List.mem_map_of_mem hr)).1
            · cases hra
          · rw [e3] at hl
            cases hl
            refine ⟨?_, fun a ha => ?_, fun o ho => ?_⟩
            · cases p.cacheEstimator with
              | true =>
                have : (res.map fun r => if true = true then some r.2 else none).filterMap id =
                    res.map Prod.snd := by
                  rw [List.filterMap_map]
                  simp [List.filterMap_eq_map']
                rw [this]
                exact f1
              | false => simp
            · obtain ⟨r, hr, hra⟩ := List.mem_map.1 ha
              split at hra
              · cases hra
                exact (f2 _ (List.mem_map_of_mem hr)).2
              · cases hra
            · obtain ⟨r, hr, rfl⟩ := List.mem_map.1 ho
              cases p.cacheEstimator <;> rfl

/-- C155: `WeightModel.fit` with objects. The results are those of a regressor that is a function of its
data, the clone of the regressor passed in; all objects that existed before are as they were, whether
the call succeeds or not; and after a successful call `local_estimator_list` holds one new object per
location, no two locations sharing one, or only `None`. -/
theorem C155_fit (R : Regressor K O) (backend : Backend) (reg : Nat) (rng : Rng S) (hrng : rng.Valid)
    (p : WMParams K C) (hrate : ∀ r, p.sampleRate = some r → 0 ≤ r ∧ r ≤ 1) (st : WMState K Nat C) (s : S)
    (X : Mat K) (y : List K) (coords : Option C) (W : Option (WMat K)) (h : Heap O) (hreg : reg < h.next)
    (hst : st.Below h.next) :
    let out := wmFitObj R backend reg rng p st s X y coords W h
    out.1.deref out.2.get = wmFit (R.learner (h.get reg)) rng p (st.deref h.get) s X y coords W ∧
    (h.next ≤ out.2.next ∧ ∀ a < h.next, out.2.get a = h.get a) ∧ out.1.state.Below out.2.next ∧
    (out.1.result = .ok () → ∀ l, out.1.state.estimators = some l →
      (l.filterMap id).Nodup ∧ (∀ a, some a ∈ l → h.next ≤ a) ∧
      ∀ o ∈ l, o.isSome = p.cacheEstimator) := by
  intro out
  simp only [out, wmFitObj, wmFit]
  clear out
  split
  · cases hc : chosenWeights p coords W with
    | error e =>
      refine ⟨?_, ⟨le_rfl, fun _ _ => rfl⟩, ?_, fun hr => by cases hr⟩
      · simp only [FitOut.deref, stateBegin_deref]
      · intro l hl
        rw [stateBegin_ests] at hl
        exact hst l hl
    | ok W0 =>
      obtain ⟨d1, d2, d3, d4⟩ := fitWithObj_spec R backend reg rng hrng p hrate (stateBegin p st X y coords W) s
        X y W.isSome W0 h hreg (by
          intro l hl
          rw [stateBegin_ests] at hl
          exact hst l hl)
      rw [stateBegin_deref] at d1
      exact ⟨d1, ⟨d2.grow, d2.old⟩, d3, d4⟩
  · exact ⟨rfl, ⟨le_rfl, fun _ _ => rfl⟩, hst, fun hr => by cases hr⟩

/-- C155: `predict_by_fit` with objects: the predictions are those of a regressor that is a function of
its data, and all objects that existed before are as they were. -/
theorem C155_predict_by_fit (R : Regressor K O) (backend : Backend) (reg : Nat) (p : WMParams K C)
    (st : WMState K Nat C) (X : Mat K) (coords : Option C) (W : Option (Mat K)) (h : Heap O)
    (hreg : reg < h.next) :
    let out := predictByFitObj R backend reg p st X coords W h
    out.1 = predictByFit (R.learner (h.get reg)) p (st.deref h.get) X coords W ∧
    h.next ≤ out.2.next ∧ ∀ a < h.next, out.2.get a = h.get a := by
  intro out
  simp only [out, predictByFitObj, predictByFit]
  clear out
  split
  · exact ⟨rfl, le_rfl, fun _ _ => rfl⟩
  · have hc : (st.deref h.get).coords = st.coords := rfl
    have hd : cachedData (st.deref h.get) = cachedData st := rfl
    rw [hc, hd]
    cases guard coords W with
    | error e => exact ⟨rfl, le_rfl, fun _ _ => rfl⟩
    | ok u =>
      cases predictFitWeights p coords st.coords W with
      | error e => exact ⟨rfl, le_rfl, fun _ _ => rfl⟩
      | ok W =>
        cases cachedData st with
        | error e => exact ⟨rfl, le_rfl, fun _ _ => rfl⟩
        | ok D =>
          obtain ⟨Xt, yt⟩ := D
          obtain ⟨d1, d2, -⟩ := clones_fit R backend reg Xt (fun i => yt.getD i 0) (some X) (.dense W) X.r none
            none none p.cpu h (fun l hl => by cases hl) hreg
          refine ⟨?_, d2.grow, d2.old⟩
          simp only [bind, Except.bind]
          rw [← d1]
          cases fitAllObj R backend Xt (fun i => yt.getD i 0) (some X) (.dense W) (cloneMany R reg X.r h).1 none
              none none p.cpu (cloneMany R reg X.r h).2 with
          | mk r h' =>
            cases r with
            | error e => rfl
            | ok l => simp [Except.map]

theorem storedEstimators_deref (g : Nat → O) (st : WMState K Nat C) :
    storedEstimators (st.deref g) = (storedEstimators st).map (List.map g) := by
  unfold storedEstimators WMState.deref
  cases st.estimators with
  | none => rfl
  | some l =>
    simp only [Option.map_some]
    induction l with
    | nil => rfl
    | cons a l ih =>
      cases a with
      | none => rfl
      | some a =>
        simp only [List.map_cons, Option.map_some, mapE, cachedOne, ih]
        cases mapE cachedOne l <;> rfl

/-- C155: `predict_by_weight` with objects gives what the objects of `local_estimator_list` give. -/
theorem C155_predict_by_weight (R : Regressor K O) (o : O) (p : WMParams K C) (st : WMState K Nat C)
    (X : Mat K) (coords : Option C) (W : Option (Mat K)) (h : Heap O) :
    predictByWeightObj R p st X coords W h = predictByWeight (R.learner o) p (st.deref h.get) X coords W := by
  unfold predictByWeightObj predictByWeight
  rw [storedEstimators_deref]
  have hc : (st.deref h.get).coords = st.coords := rfl
  rw [hc]
  split
  · rfl
  · simp only [bind, Except.bind]
    cases guard coords W with
    | error e => rfl
    | ok u =>
      cases storedEstimators st with
      | error e => rfl
      | ok l =>
        cases l with
        | nil => rfl
        | cons a l =>
          simp only [Except.map, unzipNonempty, List.map_cons]
          have : estimatorTable (R.reader h) (a :: l) X =
              estimatorTable (R.learner o) (h.get a :: l.map h.get) X := by
            unfold estimatorTable
            simp only [List.length_cons, List.length_map]
            congr 1
            funext j i
            rw [← List.map_cons, List.getElem?_map]
            cases (a :: l)[j]? <;> rfl
          rw [this]

/-- A later call on any model, with any regressor of the class. -/
inductive ModelCall (R : Regressor K O) (S C : Type) : Heap O → Heap O → Prop
  | fit (backend : Backend) (reg : Nat) (rng : Rng S) (hrng : rng.Valid) (p : WMParams K C)
      (hrate : ∀ r, p.sampleRate = some r → 0 ≤ r ∧ r ≤ 1) (st : WMState K Nat C) (s : S) (X : Mat K)
      (y : List K) (coords : Option C) (W : Option (WMat K)) (h : Heap O) (hreg : reg < h.next)
      (hst : st.Below h.next) : ModelCall R S C h (wmFitObj R backend reg rng p st s X y coords W h).2
  | predict (backend : Backend) (reg : Nat) (p : WMParams K C) (st : WMState K Nat C) (X : Mat K)
      (coords : Option C) (W : Option (Mat K)) (h : Heap O) (hreg : reg < h.next) :
      ModelCall R S C h (predictByFitObj R backend reg p st X coords W h).2

/-- C155: whatever is fitted or predicted afterwards, with the same regressor object or others, a model
goes on predicting what it predicted, and a regressor can be shared: a fit later on is the fit it would
have been at once. -/
theorem C155_later_calls (R : Regressor K O) (h h' : Heap O) (hh : Relation.ReflTransGen (ModelCall R S C) h h')
    (p : WMParams K C) (st : WMState K Nat C) (hst : st.Below h.next) :
    (∀ (X : Mat K) (coords : Option C) (W : Option (Mat K)),
      predictByWeightObj R p st X coords W h' = predictByWeightObj R p st X coords W h) ∧
    ∀ (reg : Nat) (_ : reg < h.next) (backend backend' : Backend) (rng : Rng S) (_ : rng.Valid)
      (_ : ∀ r, p.sampleRate = some r → 0 ≤ r ∧ r ≤ 1) (s : S) (X : Mat K) (y : List K) (coords : Option C)
      (W : Option (WMat K)),
      let late := wmFitObj R backend reg rng p st s X y coords W h'
      let soon := wmFitObj R backend' reg rng p st s X y coords W h
      late.1.deref late.2.get = soon.1.deref soon.2.get := by
  have hk : Kept h h' := by
    induction hh with
    | refl => exact Kept.refl h
    | tail _ hb ih =>
      refine ih.trans ?_
      cases hb with
      | fit backend reg rng hrng p hrate st s X y coords W h1 hreg hst =>
        obtain ⟨-, ⟨h1, h2⟩, -⟩ := C155_fit R backend reg rng hrng p hrate st s X y coords W _ hreg hst
        exact ⟨h1, h2⟩
      | predict backend reg p st X coords W h1 hreg =>
        obtain ⟨-, h1, h2⟩ := C155_predict_by_fit R backend reg p st X coords W _ hreg
        exact ⟨h1, h2⟩
  have hd : st.deref h'.get = st.deref h.get := WMState.deref_congr hst hk.old
  refine ⟨fun X coords W => ?_, fun reg hreg backend backend' rng hrng hrate s X y coords W => ?_⟩
  · rw [C155_predict_by_weight R (h.get 0), C155_predict_by_weight R (h.get 0), hd]
  · have h1 := (C155_fit R backend reg rng hrng p hrate st s X y coords W h' (lt_of_lt_of_le hreg hk.grow)
      (fun l hl a ha => lt_of_lt_of_le (hst l hl a ha) hk.grow)).1
    have h2 := (C155_fit R backend' reg rng hrng p hrate st s X y coords W h hreg hst).1
    simp only at h1 h2 ⊢
    rw [h1, h2, hd, hk.old reg hreg]

/-- C155: it does not matter whether the regressor passed in has been fitted before, for regressors whose
clones do not depend on that. -/
theorem C155_fitted_before (R : Regressor K O) (backend : Backend) (reg : Nat) (rng : Rng S) (hrng : rng.Valid)
    (p : WMParams K C) (hrate : ∀ r, p.sampleRate = some r → 0 ≤ r ∧ r ≤ 1) (st : WMState K Nat C) (s : S)
    (X : Mat K) (y : List K) (coords : Option C) (W : Option (WMat K)) (h : Heap O) (hreg : reg < h.next)
    (hst : st.Below h.next) (hown : ∀ l, st.estimators = some l → some reg ∉ l)
    (rows : List (List K)) (ys ws : List K)
    (hR : R.fresh (R.fit (h.get reg) rows ys ws).2 = R.fresh (h.get reg)) :
    let h₁ : Heap O := ⟨h.next, Function.update h.get reg (R.fit (h.get reg) rows ys ws).2⟩
    let a := wmFitObj R backend reg rng p st s X y coords W h
    let b := wmFitObj R backend reg rng p st s X y coords W h₁
    b.1.deref b.2.get = a.1.deref a.2.get := by
  intro h₁ a b
  have h1 := (C155_fit R backend reg rng hrng p hrate st s X y coords W h hreg hst).1
  have h2 := (C155_fit R backend reg rng hrng p hrate st s X y coords W h₁ hreg hst).1
  have hL : R.learner (h₁.get reg) = R.learner (h.get reg) := by
    simp only [h₁, Function.update_self, Regressor.learner, hR]
  have hd : st.deref h₁.get = st.deref h.get := by
    have : st.estimators.map (List.map (Option.map h₁.get)) = st.estimators.map (List.map (Option.map h.get)) := by
      cases he : st.estimators with
      | none => rfl
      | some l =>
        simp only [Option.map_some, Option.some.injEq]
        refine List.map_congr_left fun a ha => ?_
        cases a with
        | none => rfl
        | some a =>
          simp only [Option.map_some, h₁]
          rw [Function.update_of_ne (by rintro rfl; exact hown l he ha)]
    simp only [WMState.deref, this]
  rw [hL, hd] at h2
  exact h2.trans h1.symm

/-! ### An example: a regressor with a memory -/

/-- A mean that goes on from its last value (`warm_start`): the state is the number of fits and the sum of
all targets seen. A clone has seen nothing. -/
def warmMean : Regressor ℚ (Nat × ℚ) where
  fresh := fun _ => (0, 0)
  steps := fun _ _ ys _ => [fun o => (if ys = [] then .error .valueError else .ok (), (o.1 + 1, o.2)),
    fun o => (.ok (), (o.1, o.2 + ys.sum / ys.length))]
  predict := fun o _ => o.2

def warmHeap : Heap (Nat × ℚ) := ⟨1, fun _ => (5, 100)⟩
def warmW : Mat ℚ := ⟨3, 3, fun _ _ => 1 / 3⟩
def warmX : Mat ℚ := ⟨3, 1, fun i _ => i⟩
def warmP : WMParams ℚ Unit :=
  { cacheData := true, cacheEstimator := true, nPatches := some 3, weights := fun _ _ => .error .exception }
def warmOut (backend : Backend) : FitOut ℚ Nat Unit Nat × Heap (Nat × ℚ) :=
  wmFitObj warmMean backend 0 countRng warmP {} 0 warmX [1, 2, 6] none (some (.dense warmW)) warmHeap

/-- The hypotheses of `C155_fit` are met, the fit succeeds in this process, with workers and
in threads, and the objects are as claimed: the regressor keeps its state, every location has a new object, fitted once. -/
example : (({} : WMState ℚ Nat Unit).Below warmHeap.next ∧ countRng.Valid ∧ (0 : Nat) < warmHeap.next) ∧
    (∀ w ∈ [.serial, .processes, .threads [2, 0, 1, 2, 0, 0, 1, 2, 7, 2]], (warmOut w).1.result = .ok () ∧ (warmOut w).1.state.localPredict = some [4, 7 / 2, 3 / 2] ∧
      (warmOut w).2.get 0 = (5, 100)) ∧
    (warmOut .serial).1.state.estimators = some [some 1, some 2, some 3] ∧
    (warmOut .processes).1.state.estimators = some [some 4, some 5, some 6] ∧
    (warmOut .serial).2.get 2 = (1, 7 / 2) ∧ (warmOut .processes).2.get 2 = (0, 0) ∧
    (warmOut .processes).2.get 5 = (1, 7 / 2) := by
  refine ⟨⟨fun l hl => by simp at hl, countRng_valid, by decide⟩, ?_, by decide +kernel, by decide +kernel,
    by decide +kernel, by decide +kernel, by decide +kernel⟩
  simp only [List.mem_cons, List.not_mem_nil, or_false, forall_eq_or_imp, forall_eq]
  refine ⟨⟨?_, ?_, ?_⟩, ⟨?_, ?_, ?_⟩, ⟨?_, ?_, ?_⟩⟩ <;> decide +kernel

/-- Fitting one shared object at all locations would give other predictions: `seqJobs` on three tasks with
the same object. -/
example : (seqJobs warmMean [.ok ⟨0, [], [2, 6], [], fun o => .ok o.2⟩,
    .ok ⟨0, [], [1, 6], [], fun o => .ok o.2⟩, .ok ⟨0, [], [1, 2], [], fun o => .ok o.2⟩]
    ⟨1, fun _ => (0, 0)⟩).1 = .ok [(4, 0), (15 / 2, 0), (9, 0)] := by decide +kernel

/-- The clones of `warmMean` do not depend on what its objects have seen (`C155_fitted_before`). -/
example (o : Nat × ℚ) (rows : List (List ℚ)) (ys ws : List ℚ) :
    warmMean.fresh (warmMean.fit o rows ys ws).2 = warmMean.fresh o := rfl

end Geo
