import Verif.Model.StackObjects
import Verif.Props.Objects
import Verif.Props.StackingExamples
/-
C156: stacking models with base regressors as objects.
-/
set_option linter.unusedSectionVars false
namespace Geo
variable {K : Type} [Field K] [LinearOrder K] [IsStrictOrderedRing K] [FloorRing K] {C S O V G F F' : Type}

theorem patchesObj_spec (R : Regressor K O) (backend : Backend) (o : O) (task : Nat → Except Err (Job K O V))
    (idx : List Nat) (n : ℤ) (h : Heap O) (ests : List Nat) (hn : ests.Nodup) (hidx : idx.Nodup)
    (hown : ∀ i ∈ idx, ∀ e, taskObj (task i) = some e → ests[i]? = some e) (hlt : ∀ e ∈ ests, e < h.next)
    (hf : ∀ e ∈ ests, h.get e = R.fresh o) :
    Did h ests (patchesObj R backend task idx n h)
      (runPatches (fun i => (task i).bind (pureJob (R.learner o))) idx n) := by
  unfold patchesObj runPatches
  split
  · exact Did.failed
  · have hflat : ((arraySplit idx n.toNat).map (List.map task)).flatten = idx.map task := by
      obtain ⟨m, hm⟩ : ∃ m, n.toNat = m + 1 := ⟨n.toNat - 1, by omega⟩
      rw [← List.map_flatten, hm, arraySplit_flatten]
    obtain ⟨h1, h2⟩ := filterMap_own (f := task) hn hidx hown
    have := runBatches_spec R backend o ((arraySplit idx n.toNat).map (List.map task)) h ests
      (by rw [hflat]; exact h1) (by rw [hflat]; exact h2) hlt hf
    rw [mapE_list_map] at this
    convert this using 3
    funext l
    rw [mapE_list_map]

/-! ### Replacing base estimators by what they refer to -/

def BaseOut.mapEst (g : F → F') (b : BaseOut K F) : BaseOut K F' := ⟨b.pred, b.second, g b.est⟩

def StackedEst.mapBase (g : F → F') : StackedEst F G → StackedEst F' G
  | .base f => .base (g f)
  | .stacked m fs => .stacked m (fs.map g)

def MetaOut.mapBase (g : F → F') (m : MetaOut K F G) : MetaOut K F' G := ⟨m.pred, m.est.mapBase g, m.score⟩

/-- The attributes of a stacking model with the objects in place of the references. -/
def SState.deref (g : F → F') (st : SState K F G C) : SState K F' G C where
  wm := { isFitted := st.wm.isFitted, nFeatures := st.wm.nFeatures, N := st.wm.N, X := st.wm.X, y := st.wm.y
          coords := st.wm.coords, weightMatrix := st.wm.weightMatrix, neighbourMatrix := st.wm.neighbourMatrix
          localIndices := st.wm.localIndices, ySample := st.wm.ySample
          estimators := st.wm.estimators.map (List.map (Option.map (StackedEst.mapBase g)))
          localPredict := st.wm.localPredict, score := st.wm.score, residual := st.wm.residual
          permDecrease := st.wm.permDecrease, interaction := st.wm.interaction }
  cacheEstimator := st.cacheEstimator
  base := st.base.map (List.map g)
  residuals := st.residuals
  stackPredictions := st.stackPredictions
  stackScore := st.stackScore
  fitScores := st.fitScores

def SOut.deref {R : Type} (g : F → F') (out : SOut R K F G C S) : SOut R K F' G C S :=
  ⟨out.result, out.state.deref g, out.caller, out.rng⟩

/-- All references of a stacking estimator are to existing objects. -/
def StackedEst.Below (n : Nat) : StackedEst Nat G → Prop
  | .base a => a < n
  | .stacked _ as => ∀ a ∈ as, a < n

/-- All references of a stacking model are to existing objects. -/
def SState.Below (n : Nat) (st : SState K Nat G C) : Prop :=
  (∀ l, st.base = some l → ∀ a ∈ l, a < n) ∧
  ∀ l, st.wm.estimators = some l → ∀ e, some e ∈ l → e.Below n

theorem StackedEst.mapBase_congr {g g' : Nat → O} {n : Nat} {e : StackedEst Nat G} (hb : e.Below n)
    (h : ∀ a < n, g' a = g a) : e.mapBase g' = e.mapBase g := by
  cases e with
  | base a => exact congrArg StackedEst.base (h a hb)
  | stacked m as => exact congrArg (StackedEst.stacked m) (List.map_congr_left fun a ha => h a (hb a ha))

theorem SState.deref_congr {g g' : Nat → O} {n : Nat} {st : SState K Nat G C} (hb : st.Below n)
    (h : ∀ a < n, g' a = g a) : st.deref g' = st.deref g := by
  have h1 : st.base.map (List.map g') = st.base.map (List.map g) := by
    cases he : st.base with
    | none => rfl
    | some l => exact congrArg some (List.map_congr_left fun a ha => h a (hb.1 l he a ha))
  have h2 : st.wm.estimators.map (List.map (Option.map (StackedEst.mapBase g'))) =
      st.wm.estimators.map (List.map (Option.map (StackedEst.mapBase g))) := by
    cases he : st.wm.estimators with
    | none => rfl
    | some l =>
      refine congrArg some (List.map_congr_left fun a ha => ?_)
      cases a with
      | none => rfl
      | some e => exact congrArg some (StackedEst.mapBase_congr (hb.2 l he e ha) h)
  simp only [SState.deref, h1, h2]

theorem StackedEst.Below.mono {n m : Nat} (hnm : n ≤ m) {e : StackedEst Nat G} (h : e.Below n) : e.Below m := by
  cases e with
  | base a => exact lt_of_lt_of_le h hnm
  | stacked g as => exact fun a ha => lt_of_lt_of_le (h a ha) hnm

theorem SState.Below.mono {n m : Nat} (hnm : n ≤ m) {st : SState K Nat G C} (h : st.Below n) : st.Below m :=
  ⟨fun l hl a ha => lt_of_lt_of_le (h.1 l hl a ha) hnm, fun l hl e he => (h.2 l hl e he).mono hnm⟩

theorem metaDense_mapEst (g : F → F') (N : Nat) (second : Mat Bool) (res : List (BaseOut K F)) :
    metaDense N second (res.map (BaseOut.mapEst g)) = metaDense N second res := by
  unfold metaDense
  congr 1
  funext j
  rw [List.getElem?_map]
  cases res[j]? <;> rfl

theorem metaSparse_mapEst (g : F → F') (second : Csr Nat) (res : List (BaseOut K F)) :
    metaSparse second (res.map (BaseOut.mapEst g)) = metaSparse second res := by
  unfold metaSparse
  rw [List.map_map]
  rfl

theorem bases_map (g : F → F') (base : List F) (bs : List Nat) :
    (bs.filterMap fun j => (base.map g)[j]?) = (bs.filterMap fun j => base[j]?).map g := by
  rw [List.map_filterMap]
  refine List.filterMap_congr fun j _ => ?_
  rw [List.getElem?_map]

theorem solveMeta_map (M : Learner K G) (g : F → F') (base : List F) (p : MetaProblem K) :
    solveMeta M (base.map g) p = (solveMeta M base p).map (MetaOut.mapBase g) := by
  unfold solveMeta
  split
  · rfl
  · cases M.fit 0 p.rows p.targets p.weights with
    | error e => rfl
    | ok m => simp only [Except.map, MetaOut.mapBase, StackedEst.mapBase, bases_map]

theorem solveNumba_map (M : Learner K G) (g : F → F') (base : List F) (p : MetaProblem K) :
    solveNumba M (base.map g) p = (solveNumba M base p).map (MetaOut.mapBase g) := by
  unfold solveNumba
  split
  · rfl
  · cases M.fit 0 p.rows p.targets p.weights with
    | error e => rfl
    | ok m => simp only [Except.map, MetaOut.mapBase, StackedEst.mapBase, bases_map]

theorem metaLoop_map {α β : Type} (f : α → β) (choose : S → Nat → Except Err (List Nat) × S)
    (solve : List Nat → Nat → Except Err α) (s : S) (l : List Nat) :
    metaLoop choose (fun b i => (solve b i).map f) s l =
      ((metaLoop choose solve s l).1.map (List.map f), (metaLoop choose solve s l).2) := by
  induction l generalizing s with
  | nil => rfl
  | cons i l ih =>
    simp only [metaLoop, ih]
    rcases choose s i with ⟨r | r, s'⟩
    · rfl
    · simp only
      cases solve r i with
      | error e => rfl
      | ok a =>
        simp only [Except.map]
        rcases metaLoop choose solve s' l with ⟨r | r, s''⟩ <;> rfl

theorem mapE_map_result {α β γ : Type} (f : α → Except Err β) (g : β → γ) (l : List α) :
    mapE (fun a => (f a).map g) l = (mapE f l).map (List.map g) := by
  induction l with
  | nil => rfl
  | cons a l ih =>
    simp only [mapE, ih]
    cases f a with
    | error e => rfl
    | ok b => simp only [Except.map]; cases mapE f l <;> rfl

theorem metaStageDense_map (g : F → F') (M : Learner K G) (rng : Rng S) (p : SParams K C) (N : Nat) (y : Nat → K)
    (W : Mat K) (leaveOut second : Mat Bool) (s : S) (res : List (BaseOut K F)) :
    metaStageDense M rng p N y W leaveOut second s (res.map (BaseOut.mapEst g)) =
      ((metaStageDense M rng p N y W leaveOut second s res).1.map (List.map (MetaOut.mapBase g)),
        (metaStageDense M rng p N y W leaveOut second s res).2) := by
  have hb : (res.map (BaseOut.mapEst g)).map BaseOut.est = (res.map BaseOut.est).map g := by
    rw [List.map_map, List.map_map]; rfl
  unfold metaStageDense
  split
  · rfl
  · rw [← metaLoop_map, metaDense_mapEst, hb]
    simp only [solveMeta_map]

theorem metaStageSparse_map (g : F → F') (M Mn : Learner K G) (p : SParams K C) (N : Nat) (y : Nat → K)
    (A : Csr K) (Sm second : Csr Nat) (res : List (BaseOut K F)) :
    metaStageSparse M Mn p N y A Sm second (res.map (BaseOut.mapEst g)) =
      (metaStageSparse M Mn p N y A Sm second res).map (List.map (MetaOut.mapBase g)) := by
  have hb : (res.map (BaseOut.mapEst g)).map BaseOut.est = (res.map BaseOut.est).map g := by
    rw [List.map_map, List.map_map]; rfl
  unfold metaStageSparse
  simp only [metaSparse_mapEst, hb]
  split
  · rw [← mapE_map_result]
    simp only [solveNumba_map]
  · rw [← mapE_map_result]
    refine mapE_congr fun i _ => ?_
    cases problemSparse (metaSparse second res) (othersSparse A) A Sm y i with
    | error e => rfl
    | ok q => exact solveMeta_map ..

theorem stackBase_deref (g : F → F') (cache : Bool) (st : SState K F G C) (ys : List K)
    (res : List (BaseOut K F)) :
    stackBase cache (st.deref g) ys (res.map (BaseOut.mapEst g)) =
      ((stackBase cache st ys res).1, (stackBase cache st ys res).2.deref g) := by
  have h1 : (res.map (BaseOut.mapEst g)).map BaseOut.pred = res.map BaseOut.pred := by
    rw [List.map_map]; rfl
  have h2 : (res.map (BaseOut.mapEst g)).map BaseOut.est = (res.map BaseOut.est).map g := by
    rw [List.map_map, List.map_map]; rfl
  have h3 : ((res.map (BaseOut.mapEst g)).map fun b => some (StackedEst.base (G := G) b.est)) =
      (res.map fun b => some (StackedEst.base b.est)).map (Option.map (StackedEst.mapBase g)) := by
    rw [List.map_map, List.map_map]; rfl
  unfold stackBase
  simp only [h1, h2, h3]
  cases r2Column ys (res.map BaseOut.pred) <;> rfl

theorem stackEnd_deref (g : F → F') (st : SState K F G C) (ys : List K) (res : List (MetaOut K F G)) :
    stackEnd (st.deref g) ys (res.map (MetaOut.mapBase g)) =
      ((stackEnd st ys res).1, (stackEnd st ys res).2.deref g) := by
  have h1 : (res.map (MetaOut.mapBase g)).map MetaOut.pred = res.map MetaOut.pred := by
    rw [List.map_map]; rfl
  have h2 : ((res.map (MetaOut.mapBase g)).map fun r => some r.est) =
      (res.map fun r => some r.est).map (Option.map (StackedEst.mapBase g)) := by
    rw [List.map_map, List.map_map]; rfl
  have h3 : ((res.map (MetaOut.mapBase g)).any fun r => r.score.isSome) = res.any fun r => r.score.isSome := by
    rw [List.any_map]; rfl
  have h4 : (res.map (MetaOut.mapBase g)).filterMap MetaOut.score = res.filterMap MetaOut.score := by
    rw [List.filterMap_map]; rfl
  unfold stackEnd
  simp only [h1, h2, h3, h4]
  cases r2Column ys (res.map MetaOut.pred) <;> rfl

theorem stackFinish_deref (g : F → F') (cache : Bool) (st : SState K F G C) (caller : Option (WMat K)) (s : S)
    (ys : List K) (baseRes : Except Err (List (BaseOut K F)))
    (run : List (BaseOut K F) → Except Err (List (MetaOut K F G)) × S)
    (run' : List (BaseOut K F') → Except Err (List (MetaOut K F' G)) × S)
    (hrun : ∀ res, run' (res.map (BaseOut.mapEst g)) = ((run res).1.map (List.map (MetaOut.mapBase g)), (run res).2)) :
    stackFinish cache (st.deref g) caller s ys (baseRes.map (List.map (BaseOut.mapEst g))) run' =
      (stackFinish cache st caller s ys baseRes run).deref g := by
  unfold stackFinish
  cases baseRes with
  | error e => rfl
  | ok res =>
    simp only [Except.map, stackBase_deref, hrun]
    rcases stackBase cache st ys res with ⟨r | r, st'⟩
    · rfl
    · rcases run res with ⟨m | m, s'⟩
      · rfl
      · simp only [stackEnd_deref]
        rfl

/-! ### The base fit on objects -/

theorem baseJob_pure (R : Regressor K O) (o : O) (X : Mat K) (y : Nat → K) (e est : Nat) (idx : List Nat)
    (ws : List K) (secondIdx : List Nat) (x : List K) :
    fitBase (R.learner o) X y e idx ws secondIdx x =
      ((baseJob R X y est idx ws secondIdx x).bind (pureJob (R.learner o))).map
        fun a => ⟨a.1.1, a.1.2, a.2⟩ := by
  simp only [fitBase, baseJob, pureJob, Except.bind, Regressor.learner]
  cases (R.fit (R.fresh o) (idx.map X.row) (idx.map y) ws) with
  | mk r q =>
    cases r with
    | error e => rfl
    | ok u =>
      simp only [Except.map]
      by_cases hs : secondIdx = []
      · simp [hs]
      · simp [hs]

theorem runPatches_map {α β : Type} (f : Nat → Except Err α) (g : α → β) (idx : List Nat) (n : ℤ) :
    runPatches (fun i => (f i).map g) idx n = (runPatches f idx n).map (List.map g) := by
  unfold runPatches
  split
  · rfl
  · have : (mapE fun i => (f i).map g) = fun l => (mapE f l).map (List.map g) := funext fun l => mapE_map_result ..
    rw [this, mapE_map_result]
    cases mapE (mapE f) (arraySplit idx n.toNat) with
    | error e => rfl
    | ok l => simp [Except.map, List.map_flatten]

theorem runBaseObj_spec (R : Regressor K O) (backend : Backend) (reg : Nat)
    (task : List Nat → Nat → Except Err (Job K O (K × List K))) (want : Nat → Except Err (BaseOut K O))
    (N : Nat) (nPatches : Option ℤ) (h : Heap O) (hreg : reg < h.next)
    (htask : ∀ ests i, taskObj (task ests i) = some (ests.getD i 0))
    (hwant : ∀ ests i, want i =
      ((task ests i).bind (pureJob (R.learner (h.get reg)))).map fun a => ⟨a.1.1, a.1.2, a.2⟩) :
    let r := runBaseObj R backend reg task N nPatches h
    r.1.map (List.map (BaseOut.mapEst r.2.get)) = runBase want N nPatches ∧ Kept h r.2 ∧
    ∀ l, r.1 = .ok l → (l.map BaseOut.est).Nodup ∧ ∀ a ∈ l.map BaseOut.est, a < r.2.next ∧ h.next ≤ a := by
  intro r
  obtain ⟨c1, c2, c3, c4⟩ := cloneMany_spec R reg N h hreg
  have hmem : ∀ e ∈ (cloneMany R reg N h).1, h.next ≤ e ∧ e < h.next + N := by
    intro e he
    rw [c3, List.mem_range'_1] at he
    exact he
  have hlen : (cloneMany R reg N h).1.length = N := by rw [c3, List.length_range']
  cases nPatches with
  | none =>
    refine ⟨rfl, ⟨?_, c2⟩, fun l hl => by cases hl⟩
    show h.next ≤ (cloneMany R reg N h).2.next
    omega
  | some n =>
    obtain ⟨d1, d2, d3, d4⟩ := patchesObj_spec R backend (h.get reg) (task (cloneMany R reg N h).1) (List.range N) n
      (cloneMany R reg N h).2 (cloneMany R reg N h).1 (by rw [c3]; exact List.nodup_range') List.nodup_range
      (fun i hi e he => by
        rw [htask] at he
        have hi' : i < (cloneMany R reg N h).1.length := by rw [hlen]; exact List.mem_range.1 hi
        cases he
        simp [hi'])
      (fun e he => by rw [c1]; exact (hmem e he).2) c4
    have hw : want = fun i => ((task (cloneMany R reg N h).1 i).bind (pureJob (R.learner (h.get reg)))).map
        fun a => (⟨a.1.1, a.1.2, a.2⟩ : BaseOut K O) := funext fun i => hwant _ i
    simp only [r, runBaseObj, runBase]
    rw [hw, runPatches_map, ← d1]
    refine ⟨?_, ⟨by omega, fun a ha => ?_⟩, fun l hl => ?_⟩
    · cases (patchesObj R backend (task (cloneMany R reg N h).1) (List.range N) n (cloneMany R reg N h).2).1 with
      | error e => rfl
      | ok l => simp [Except.map, BaseOut.mapEst, Function.comp_def]
    · rw [d3 a (by omega) fun hc => by have := (hmem a hc).1; omega, c2 a ha]
    · cases hp : (patchesObj R backend (task (cloneMany R reg N h).1) (List.range N) n (cloneMany R reg N h).2).1 with
      | error e => rw [hp] at hl; cases hl
      | ok l' =>
        rw [hp] at hl
        simp only [Except.map, Except.ok.injEq] at hl
        subst hl
        obtain ⟨e1, e2⟩ := d4 l' hp
        have : (l'.map fun a => (⟨a.1.1, a.1.2, a.2⟩ : BaseOut K Nat)).map BaseOut.est = l'.map Prod.snd := by
          rw [List.map_map]; rfl
        rw [this]
        refine ⟨e1, fun a ha => ⟨(e2 a ha).1, ?_⟩⟩
        rcases (e2 a ha).2 with h1 | h1
        · exact (hmem a h1).1
        · omega

/-! ### References held by the model -/

/-- A stacking estimator made of base objects in `base`. -/
def StackedEst.Over (base : List F) (e : StackedEst F G) : Prop :=
  ∃ g refs, e = .stacked g refs ∧ ∀ a ∈ refs, a ∈ base

theorem solveMeta_over {M : Learner K G} {base : List F} {p : MetaProblem K} {o : MetaOut K F G}
    (h : solveMeta M base p = .ok o) : o.est.Over base := by
  unfold solveMeta at h
  split at h
  · cases h
  · cases hm : M.fit 0 p.rows p.targets p.weights with
    | error e => rw [hm] at h; cases h
    | ok g =>
      rw [hm] at h
      cases h
      refine ⟨_, _, rfl, fun a ha => ?_⟩
      obtain ⟨j, -, hj⟩ := List.mem_filterMap.1 ha
      exact List.mem_of_getElem? hj

theorem solveNumba_over {M : Learner K G} {base : List F} {p : MetaProblem K} {o : MetaOut K F G}
    (h : solveNumba M base p = .ok o) : o.est.Over base := by
  unfold solveNumba at h
  split at h
  · cases h
  · cases hm : M.fit 0 p.rows p.targets p.weights with
    | error e => rw [hm] at h; cases h
    | ok g =>
      rw [hm] at h
      cases h
      refine ⟨_, _, rfl, fun a ha => ?_⟩
      obtain ⟨j, -, hj⟩ := List.mem_filterMap.1 ha
      exact List.mem_of_getElem? hj

theorem metaLoop_mem {α : Type} {P : α → Prop} {choose : S → Nat → Except Err (List Nat) × S}
    {solve : List Nat → Nat → Except Err α} (hP : ∀ b i a, solve b i = .ok a → P a) {s : S} {l : List Nat}
    {out : List α} (h : (metaLoop choose solve s l).1 = .ok out) : ∀ a ∈ out, P a := by
  induction l generalizing s out with
  | nil => cases h; exact fun a ha => by cases ha
  | cons i l ih =>
    simp only [metaLoop] at h
    rcases hc : choose s i with ⟨r | r, s'⟩
    · rw [hc] at h; cases h
    · rw [hc] at h
      simp only at h
      cases hs : solve r i with
      | error e => rw [hs] at h; cases h
      | ok a =>
        rw [hs] at h
        simp only at h
        rcases hl : metaLoop choose solve s' l with ⟨r' | r', s''⟩
        · rw [hl] at h; cases h
        · rw [hl] at h
          cases h
          intro b hb
          rcases List.mem_cons.1 hb with rfl | hb
          · exact hP _ _ _ hs
          · exact ih (congrArg Prod.fst hl) b hb

theorem mapE_mem {α β : Type} {P : β → Prop} {f : α → Except Err β} {l : List α} {out : List β}
    (hP : ∀ a ∈ l, ∀ b, f a = .ok b → P b) (h : mapE f l = .ok out) : ∀ b ∈ out, P b := by
  induction l generalizing out with
  | nil => cases h; exact fun a ha => by cases ha
  | cons a l ih =>
    simp only [mapE] at h
    cases ha : f a with
    | error e => rw [ha] at h; cases h
    | ok b =>
      rw [ha] at h
      cases hl : mapE f l with
      | error e => rw [hl] at h; cases h
      | ok bs =>
        rw [hl] at h
        cases h
        intro c hc
        rcases List.mem_cons.1 hc with rfl | hc
        · exact hP a (List.mem_cons_self ..) _ ha
        · exact ih (fun a ha => hP a (List.mem_cons_of_mem _ ha)) hl c hc

theorem metaStageDense_over {M : Learner K G} {rng : Rng S} {p : SParams K C} {N : Nat} {y : Nat → K}
    {W : Mat K} {leaveOut second : Mat Bool} {s : S} {res : List (BaseOut K F)} {out : List (MetaOut K F G)}
    (h : (metaStageDense M rng p N y W leaveOut second s res).1 = .ok out) :
    ∀ o ∈ out, o.est.Over (res.map BaseOut.est) := by
  unfold metaStageDense at h
  split at h
  · cases h
  · exact metaLoop_mem (P := fun o : MetaOut K F G => o.est.Over (res.map BaseOut.est))
      (fun b i a ha => solveMeta_over ha) h

theorem metaStageSparse_over {M Mn : Learner K G} {p : SParams K C} {N : Nat} {y : Nat → K} {A : Csr K}
    {Sm second : Csr Nat} {res : List (BaseOut K F)} {out : List (MetaOut K F G)}
    (h : metaStageSparse M Mn p N y A Sm second res = .ok out) :
    ∀ o ∈ out, o.est.Over (res.map BaseOut.est) := by
  unfold metaStageSparse at h
  simp only at h
  split at h
  · exact mapE_mem (P := fun o : MetaOut K F G => o.est.Over (res.map BaseOut.est))
      (fun a _ b hb => solveNumba_over hb) h
  · refine mapE_mem (P := fun o : MetaOut K F G => o.est.Over (res.map BaseOut.est)) (fun a _ b hb => ?_) h
    cases hq : problemSparse (metaSparse second res) (othersSparse A) A Sm y a with
    | error e => rw [hq] at hb; cases hb
    | ok q => rw [hq] at hb; exact solveMeta_over hb

/-- What a successful fit left in the model: its base estimators are objects from `n` on, no two the same,
and the stacking estimators are made of these. -/
def SState.Fresh (n : Nat) (st : SState K Nat G C) : Prop :=
  ∃ base, st.base = some base ∧ base.Nodup ∧ (∀ a ∈ base, n ≤ a) ∧
    ∃ l, st.wm.estimators = some l ∧ ∀ e ∈ l, ∃ f, e = some f ∧ f.Over base

theorem StackedEst.Over.below {n : Nat} {base : List Nat} {e : StackedEst Nat G} (h : e.Over base)
    (hb : ∀ a ∈ base, a < n) : e.Below n := by
  obtain ⟨g, refs, rfl, hr⟩ := h
  exact fun a ha => hb a (hr a ha)

theorem stackBase_below {cache : Bool} {st : SState K Nat G C} {ys : List K} {res : List (BaseOut K Nat)}
    {n : Nat} (hst : st.Below n) (hres : ∀ a ∈ res.map BaseOut.est, a < n) :
    (stackBase cache st ys res).2.Below n ∧
    ((stackBase cache st ys res).1 = .ok () → (stackBase cache st ys res).2.base = some (res.map BaseOut.est)) := by
  unfold stackBase
  simp only
  cases r2Column ys (res.map BaseOut.pred) with
  | error e =>
    refine ⟨⟨hst.1, fun l hl e he => ?_⟩, fun h => by cases h⟩
    cases hl
    obtain ⟨b, hb, hbe⟩ := List.mem_map.1 he
    cases hbe
    exact hres _ (List.mem_map_of_mem hb)
  | ok sc =>
    refine ⟨⟨fun l hl => ?_, fun l hl => by cases hl⟩, fun _ => rfl⟩
    cases hl
    exact hres

theorem stackFinish_refs {cache : Bool} {st : SState K Nat G C} {caller : Option (WMat K)} {s : S} {ys : List K}
    {baseRes : Except Err (List (BaseOut K Nat))}
    {run : List (BaseOut K Nat) → Except Err (List (MetaOut K Nat G)) × S} {n m : Nat} (hnm : n ≤ m)
    (hst : st.Below n)
    (hres : ∀ res, baseRes = .ok res → (res.map BaseOut.est).Nodup ∧ ∀ a ∈ res.map BaseOut.est, a < m ∧ n ≤ a)
    (hrun : ∀ res out, (run res).1 = .ok out → ∀ o ∈ out, o.est.Over (res.map BaseOut.est)) :
    (stackFinish cache st caller s ys baseRes run).state.Below m ∧
    ((stackFinish cache st caller s ys baseRes run).result = .ok () →
      (stackFinish cache st caller s ys baseRes run).state.Fresh n) := by
  unfold stackFinish
  cases baseRes with
  | error e => exact ⟨hst.mono hnm, fun h => by cases h⟩
  | ok res =>
    obtain ⟨g1, g2⟩ := hres res rfl
    obtain ⟨b1, b2⟩ := stackBase_below (cache := cache) (ys := ys) (hst.mono hnm) fun a ha => (g2 a ha).1
    simp only
    rcases hb : stackBase cache st ys res with ⟨r | r, st'⟩
    · rw [hb] at b1
      exact ⟨b1, fun h => by cases h⟩
    · rw [hb] at b1 b2
      simp only
      rcases hm : run res with ⟨e | out, s'⟩
      · exact ⟨b1, fun h => by cases h⟩
      · have ho := hrun res out (congrArg Prod.fst hm)
        have hbase : st'.base = some (res.map BaseOut.est) := b2 rfl
        simp only [stackEnd]
        cases r2Column ys (out.map MetaOut.pred) with
        | error e => exact ⟨⟨b1.1, b1.2⟩, fun h => by cases h⟩
        | ok sc =>
          refine ⟨⟨b1.1, fun l hl e he => ?_⟩, fun _ => ⟨_, hbase, g1, fun a ha => (g2 a ha).2, _, rfl, fun e he => ?_⟩⟩
          · cases hl
            obtain ⟨o, hoo, hoe⟩ := List.mem_map.1 he
            cases hoe
            exact (ho o hoo).below fun a ha => (g2 a ha).1
          · obtain ⟨o, hoo, rfl⟩ := List.mem_map.1 he
            exact ⟨_, rfl, ho o hoo⟩

/-! ### The methods of a model -/

theorem stackBegin_deref (g : F → F') (p : SParams K C) (st : SState K F G C) (X : Mat K) (y : List K)
    (coords : Option C) (W : Option (WMat K)) :
    (stackBegin p st X y coords W).deref g = stackBegin p (st.deref g) X y coords W := by
  unfold stackBegin
  simp only
  split
  · rfl
  · split <;> rfl

theorem stackBegin_below {n : Nat} {p : SParams K C} {st : SState K Nat G C} {X : Mat K} {y : List K}
    {coords : Option C} {W : Option (WMat K)} (h : st.Below n) : (stackBegin p st X y coords W).Below n := by
  unfold stackBegin
  simp only
  split
  · exact h
  · split <;> exact h

theorem stackWeights_deref (g : F → F') (given : Bool) (st : SState K F G C) (W : WMat K) :
    (stackWeights given st W).deref g = stackWeights given (st.deref g) W := by
  cases given <;> rfl

theorem stackWeights_below {n : Nat} {given : Bool} {st : SState K Nat G C} {W : WMat K} (h : st.Below n) :
    (stackWeights given st W).Below n := by
  cases given <;> exact h

theorem stackShrunk_deref (g : F → F') (given : Bool) (st : SState K F G C) (W : WMat K) :
    (stackShrunk given st W).deref g = stackShrunk given (st.deref g) W := by
  cases given <;> rfl

theorem stackShrunk_below {n : Nat} {given : Bool} {st : SState K Nat G C} {W : WMat K} (h : st.Below n) :
    (stackShrunk given st W).Below n := by
  cases given <;> exact h

/-- What a call did, in terms of the call with regressors as functions. -/
structure StackDone (h : Heap O) (out : SOut Unit K Nat G C S × Heap O) (want : SOut Unit K O G C S) : Prop where
  same : out.1.deref out.2.get = want
  kept : Kept h out.2
  below : out.1.state.Below out.2.next
  fresh : out.1.result = .ok () → out.1.state.Fresh h.next

theorem StackDone.failed {h : Heap O} {e : Err} {st : SState K Nat G C} {st' : SState K O G C} {W : Option (WMat K)}
    {s : S} (hst : st.Below h.next) (hd : st.deref h.get = st') :
    StackDone h ((⟨.error e, st, W, s⟩ : SOut Unit K Nat G C S), h) ⟨.error e, st', W, s⟩ :=
  ⟨by rw [← hd]; rfl, Kept.refl h, hst, fun hr => by cases hr⟩

/-- From the base fit on. -/
theorem stackFinish_obj (R : Regressor K O) (backend : Backend) (reg : Nat)
    (task : List Nat → Nat → Except Err (Job K O (K × List K))) (want : Nat → Except Err (BaseOut K O))
    (N : Nat) (nPatches : Option ℤ) (h : Heap O) (hreg : reg < h.next)
    (htask : ∀ ests i, taskObj (task ests i) = some (ests.getD i 0))
    (hwant : ∀ ests i, want i =
      ((task ests i).bind (pureJob (R.learner (h.get reg)))).map fun a => ⟨a.1.1, a.1.2, a.2⟩)
    (cache : Bool) (st : SState K Nat G C) (hst : st.Below h.next) (caller : Option (WMat K)) (s : S)
    (ys : List K) (run : List (BaseOut K Nat) → Except Err (List (MetaOut K Nat G)) × S)
    (run' : List (BaseOut K O) → Except Err (List (MetaOut K O G)) × S)
    (hrun : ∀ (g : Nat → O) res,
      run' (res.map (BaseOut.mapEst g)) = ((run res).1.map (List.map (MetaOut.mapBase g)), (run res).2))
    (hover : ∀ res out, (run res).1 = .ok out → ∀ o ∈ out, o.est.Over (res.map BaseOut.est)) :
    StackDone h (stackFinish cache st caller s ys (runBaseObj R backend reg task N nPatches h).1 run,
        (runBaseObj R backend reg task N nPatches h).2)
      (stackFinish cache (st.deref h.get) caller s ys (runBase want N nPatches) run') := by
  obtain ⟨d1, d2, d3⟩ := runBaseObj_spec R backend reg task want N nPatches h hreg htask hwant
  obtain ⟨e1, e2⟩ := stackFinish_refs (cache := cache) (caller := caller) (s := s) (ys := ys) d2.grow hst d3 hover
  refine ⟨?_, d2, e1, e2⟩
  rw [← d1, ← SState.deref_congr hst d2.old]
  exact (stackFinish_deref _ cache st caller s ys _ run run' fun res => hrun _ res).symm

theorem baseDenseJob_pure (R : Regressor K O) (o : O) (X : Mat K) (y : Nat → K) (Wl : Mat K) (second : Mat Bool)
    (ests : List Nat) (i : Nat) : baseDense (R.learner o) X y Wl second i =
      ((baseDenseJob R X y Wl second ests i).bind (pureJob (R.learner o))).map fun a => ⟨a.1.1, a.1.2, a.2⟩ :=
  baseJob_pure ..

theorem baseSparseJob_pure (R : Regressor K O) (o : O) (X : Mat K) (y : Nat → K) (Wl : Csr K) (second : Csr Nat)
    (ests : List Nat) (i : Nat) : baseSparse (R.learner o) X y Wl second i =
      ((baseSparseJob R X y Wl second ests i).bind (pureJob (R.learner o))).map fun a => ⟨a.1.1, a.1.2, a.2⟩ :=
  baseJob_pure ..

theorem stackDenseObj_spec (R : Regressor K O) (backend : Backend) (reg : Nat) (M : Learner K G) (rng : Rng S)
    (p : SParams K C) (cache : Bool) (st : SState K Nat G C) (s : S) (X : Mat K) (y : List K) (given : Bool)
    (rate : K) (W : Mat K) (h : Heap O) (hreg : reg < h.next) (hst : st.Below h.next) :
    StackDone h (stackDenseObj R backend reg M rng p cache st s X y given rate W h)
      (stackDense (R.learner (h.get reg)) M rng p cache (st.deref h.get) s X y given rate W) := by
  unfold stackDenseObj stackDense
  simp only
  split
  · exact StackDone.failed hst rfl
  · rcases sampleNeighbourDense rng s W rate p.leaveOutShrink with ⟨r | Sm, s, W⟩
    · exact StackDone.failed hst rfl
    · simp only
      rcases sampleLocations rng s p.sampleRate X.r with ⟨r | idx, s⟩
      · exact StackDone.failed hst rfl
      · simp only
        cases shrinkMetaDense p.metaShrink W with
        | error e => exact StackDone.failed hst rfl
        | ok W' =>
          simp only
          have := stackFinish_obj R backend reg (baseDenseJob R X (fun i => y.getD i 0)
              (localDense p.leaveLocalOut W Sm.transpose) (secondOrderDense (gt0 W') Sm.transpose))
            (baseDense (R.learner (h.get reg)) X (fun i => y.getD i 0)
              (localDense p.leaveLocalOut W Sm.transpose) (secondOrderDense (gt0 W') Sm.transpose))
            X.r p.storedPatches h hreg (fun _ _ => rfl) (fun ests i => baseDenseJob_pure R _ X _ _ _ ests i)
            cache (stackShrunk given { st with wm := { st.wm with
              localIndices := some idx, ySample := some (idx.map fun i => y.getD i 0) } } (.dense W'))
            (stackShrunk_below hst) (if given then some (WMat.dense W') else none) s (idx.map fun i => y.getD i 0)
            (metaStageDense M rng p X.r (fun i => y.getD i 0) W' Sm.transpose
              (secondOrderDense (gt0 W') Sm.transpose) s)
            (metaStageDense M rng p X.r (fun i => y.getD i 0) W' Sm.transpose
              (secondOrderDense (gt0 W') Sm.transpose) s)
            (fun g res => metaStageDense_map g M rng p X.r _ W' _ _ s res)
            (fun res out ho => metaStageDense_over ho)
          rw [stackShrunk_deref] at this
          exact this

theorem stackSparseObj_spec (R : Regressor K O) (backend : Backend) (reg : Nat) (M Mn : Learner K G) (rng : Rng S)
    (p : SParams K C) (cache : Bool) (st : SState K Nat G C) (s : S) (X : Mat K) (y : List K)
    (rate : K) (A : Csr K) (h : Heap O) (hreg : reg < h.next) (hst : st.Below h.next) :
    StackDone h (stackSparseObj R backend reg M Mn rng p cache st s X y rate A h)
      (stackSparse (R.learner (h.get reg)) M Mn rng p cache (st.deref h.get) s X y rate A) := by
  unfold stackSparseObj stackSparse
  simp only
  split
  · exact StackDone.failed hst rfl
  · rcases sampleNeighbourSparse rng s A rate p.leaveOutShrink with ⟨r | Sm, s, A⟩
    · exact StackDone.failed hst rfl
    · simp only
      rcases sampleLocations rng s p.sampleRate X.r with ⟨r | idx, s⟩
      · exact StackDone.failed hst rfl
      · simp only
        cases shrinkMetaSparse p.metaShrink A with
        | error e => exact StackDone.failed hst rfl
        | ok A' =>
          simp only
          cases secondSparse A' Sm.transposePattern with
          | error e => exact StackDone.failed hst rfl
          | ok second =>
            exact stackFinish_obj R backend reg (baseSparseJob R X (fun i => y.getD i 0)
                (localSparse p.leaveLocalOut A Sm.transposePattern) second)
              (baseSparse (R.learner (h.get reg)) X (fun i => y.getD i 0)
                (localSparse p.leaveLocalOut A Sm.transposePattern) second)
              X.r p.storedPatches h hreg (fun _ _ => rfl) (fun ests i => baseSparseJob_pure R _ X _ _ _ ests i)
              cache { st with wm := { st.wm with
                localIndices := some idx, ySample := some (idx.map fun i => y.getD i 0) } }
              hst (some (WMat.sparse A')) s (idx.map fun i => y.getD i 0)
              (fun res => (metaStageSparse M Mn p X.r (fun i => y.getD i 0) A' Sm second res, s))
              (fun res => (metaStageSparse M Mn p X.r (fun i => y.getD i 0) A' Sm second res, s))
              (fun g res => by simp only [metaStageSparse_map g M Mn p X.r _ A' Sm second res])
              (fun res out ho => metaStageSparse_over ho)

theorem stackFitObj_spec (R : Regressor K O) (backend : Backend) (reg : Nat) (M Mn : Learner K G) (rng : Rng S)
    (p : SParams K C) (st : SState K Nat G C) (s : S) (X : Mat K) (y : List K) (coords : Option C)
    (W : Option (WMat K)) (h : Heap O) (hreg : reg < h.next) (hst : st.Below h.next) :
    StackDone h (stackFitObj R backend reg M Mn rng p st s X y coords W h)
      (stackFit (R.learner (h.get reg)) M Mn rng p (st.deref h.get) s X y coords W) := by
  unfold stackFitObj stackFit
  split
  · cases chosenWeights p.toWMParams coords W with
    | error e => exact StackDone.failed (stackBegin_below hst) (stackBegin_deref ..)
    | ok W0 =>
      simp only
      rw [← stackBegin_deref, ← stackWeights_deref]
      have hc : (st.deref h.get).cacheEstimator = st.cacheEstimator := rfl
      rw [hc]
      have hb : (stackWeights W.isSome (stackBegin p st X y coords W) W0).Below h.next :=
        stackWeights_below (stackBegin_below hst)
      unfold stackWithObj stackWith
      cases p.leaveOutRate with
      | none => exact StackDone.failed hb rfl
      | some rate =>
        cases W0 with
        | dense W0 => exact stackDenseObj_spec (hreg := hreg) (hst := hb) ..
        | sparse A => exact stackSparseObj_spec (hreg := hreg) (hst := hb) ..
  · exact StackDone.failed hst rfl

theorem stackPredict_map (R : Regressor K O) (o : O) (M : Learner K G) (h : Heap O) (e : StackedEst Nat G)
    (x : List K) : stackPredict (R.learner o) M (e.mapBase h.get) x = stackPredict (R.reader h) M e x := by
  cases e with
  | base a => rfl
  | stacked g as =>
    simp only [StackedEst.mapBase, stackPredict, List.map_map]
    rfl

theorem testStage_map (R : Regressor K O) (o : O) (M : Learner K G) (h : Heap O) (p : SParams K C) (N : Nat)
    (y : Nat → K) (Xp T : Mat K) (second : Mat Bool) (res : List (BaseOut K Nat)) :
    testStage (R.learner o) M p N y Xp T second (res.map (BaseOut.mapEst h.get)) =
      (testStage (R.reader h) M p N y Xp T second res).map (List.map fun a => (a.1, a.2.mapBase h.get)) := by
  have hb : (res.map (BaseOut.mapEst h.get)).map BaseOut.est = (res.map BaseOut.est).map h.get := by
    rw [List.map_map, List.map_map]; rfl
  unfold testStage
  split
  · rfl
  · rw [← mapE_map_result, metaDense_mapEst, hb]
    refine mapE_congr fun t _ => ?_
    rw [solveMeta_map]
    cases solveMeta M (res.map BaseOut.est) (problemTest (metaDense N second res) T y t) with
    | error e => rfl
    | ok a => simp only [Except.map, MetaOut.mapBase, stackPredict_map]

theorem testStage_over {L : Learner K F} {M : Learner K G} {p : SParams K C} {N : Nat}
    {y : Nat → K} {Xp T : Mat K} {second : Mat Bool} {res : List (BaseOut K F)}
    {out : List (K × StackedEst F G)} (h : testStage L M p N y Xp T second res = .ok out) :
    ∀ a ∈ out, a.2.Over (res.map BaseOut.est) := by
  unfold testStage at h
  split at h
  · cases h
  · refine mapE_mem (P := fun o : K × StackedEst F G => o.2.Over (res.map BaseOut.est)) (fun t _ b hb => ?_) h
    cases hq : solveMeta M (res.map BaseOut.est) (problemTest (metaDense N second res) T y t) with
    | error e => rw [hq] at hb; cases hb
    | ok q =>
      rw [hq] at hb
      cases hb
      exact solveMeta_over hq

/-- C156: `StackingWeightModel.fit` with objects. The results are those of a base regressor that is a
function of its data, the clone of the regressor passed in; all objects that existed before are as they
were, whether the call succeeds or not; and after a successful call `base_estimator_list` holds new
objects, no two locations sharing one, and the stacking estimators of all locations are made of these
very objects. -/
theorem C156_fit (R : Regressor K O) (backend : Backend) (reg : Nat) (M Mn : Learner K G) (rng : Rng S)
    (p : SParams K C) (st : SState K Nat G C) (s : S) (X : Mat K) (y : List K) (coords : Option C)
    (W : Option (WMat K)) (h : Heap O) (hreg : reg < h.next) (hst : st.Below h.next) :
    let out := stackFitObj R backend reg M Mn rng p st s X y coords W h
    out.1.deref out.2.get = stackFit (R.learner (h.get reg)) M Mn rng p (st.deref h.get) s X y coords W ∧
    (h.next ≤ out.2.next ∧ ∀ a < h.next, out.2.get a = h.get a) ∧ out.1.state.Below out.2.next ∧
    (out.1.result = .ok () → ∃ base, out.1.state.base = some base ∧ base.Nodup ∧ (∀ a ∈ base, h.next ≤ a) ∧
      ∃ l, out.1.state.wm.estimators = some l ∧
        ∀ e ∈ l, ∃ g refs, e = some (.stacked g refs) ∧ ∀ a ∈ refs, a ∈ base) := by
  obtain ⟨h1, h2, h3, h4⟩ := stackFitObj_spec R backend reg M Mn rng p st s X y coords W h hreg hst
  refine ⟨h1, ⟨h2.grow, h2.old⟩, h3, fun hr => ?_⟩
  obtain ⟨base, b1, b2, b3, l, b4, b5⟩ := h4 hr
  refine ⟨base, b1, b2, b3, l, b4, fun e he => ?_⟩
  obtain ⟨f, rfl, g, refs, rfl, hrefs⟩ := b5 e he
  exact ⟨g, refs, rfl, hrefs⟩

/-- C156: `StackingWeightModel.predict_by_fit` with objects: it replaces the lists of the model by new
objects, and leaves all objects that existed before as they were. -/
theorem C156_predict_by_fit (R : Regressor K O) (backend : Backend) (reg : Nat) (M : Learner K G)
    (p : SParams K C) (st : SState K Nat G C) (s : S) (X : Mat K) (y : List K) (train : C) (Xp : Mat K)
    (test : C) (h : Heap O) (hreg : reg < h.next) (hst : st.Below h.next) :
    let out := stackPredictByFitObj R backend reg M p st s X y train Xp test h
    out.1.deref out.2.get = stackPredictByFit (R.learner (h.get reg)) M p (st.deref h.get) s X y train Xp test ∧
    (h.next ≤ out.2.next ∧ ∀ a < h.next, out.2.get a = h.get a) ∧ out.1.state.Below out.2.next ∧
    (∀ ps, out.1.result = .ok ps → ∃ base, out.1.state.base = some base ∧ base.Nodup ∧
      (∀ a ∈ base, h.next ≤ a) ∧ ∃ l, out.1.state.wm.estimators = some l ∧
        ∀ e ∈ l, ∃ g refs, e = some (.stacked g refs) ∧ ∀ a ∈ refs, a ∈ base) := by
  intro out
  simp only [out, stackPredictByFitObj, stackPredictByFit]
  clear out
  split
  · have hc : (st.deref h.get).cacheEstimator = st.cacheEstimator := rfl
    rw [hc, ← stackBegin_deref]
    have hb : (stackBegin p st X y (some train) none).Below h.next := stackBegin_below hst
    cases p.weights train train with
    | error e => exact ⟨rfl, ⟨le_rfl, fun _ _ => rfl⟩, hb, fun ps hr => by cases hr⟩
    | ok W =>
      simp only
      rw [← stackWeights_deref]
      replace hb : (stackWeights false (stackBegin p st X y (some train) none) (.dense W)).Below h.next :=
        stackWeights_below hb
      generalize stackWeights false (stackBegin p st X y (some train) none) (.dense W) = st1 at hb
      cases p.weights train test with
      | error e => exact ⟨rfl, ⟨le_rfl, fun _ _ => rfl⟩, hb, fun ps hr => by cases hr⟩
      | ok T =>
        simp only
        split
        · exact ⟨rfl, ⟨le_rfl, fun _ _ => rfl⟩, hb, fun ps hr => by cases hr⟩
        · obtain ⟨d1, d2, d3⟩ := runBaseObj_spec R backend reg (baseDenseJob R X (fun i => y.getD i 0)
              (localDense p.leaveLocalOut W ⟨W.r, W.c, fun _ _ => false⟩)
              (secondOrderDense (gt0 T).transpose (gt0 T)))
            (baseDense (R.learner (h.get reg)) X (fun i => y.getD i 0)
              (localDense p.leaveLocalOut W ⟨W.r, W.c, fun _ _ => false⟩)
              (secondOrderDense (gt0 T).transpose (gt0 T)))
            X.r p.storedPatches h hreg (fun _ _ => rfl) (fun ests i => baseDenseJob_pure R _ X _ _ _ ests i)
          rw [← d1, ← SState.deref_congr hb d2.old]
          generalize runBaseObj R backend reg (baseDenseJob R X (fun i => y.getD i 0)
              (localDense p.leaveLocalOut W ⟨W.r, W.c, fun _ _ => false⟩)
              (secondOrderDense (gt0 T).transpose (gt0 T))) X.r p.storedPatches h = rb at d1 d2 d3
          obtain ⟨e | res, h'⟩ := rb
          · exact ⟨rfl, ⟨d2.grow, d2.old⟩, hb.mono d2.grow, fun ps hr => by cases hr⟩
          · obtain ⟨g1, g2⟩ := d3 res rfl
            have hb' : ({ st1 with wm := { st1.wm with ySample := some y } } : SState K Nat G C).Below h'.next :=
              hb.mono d2.grow
            obtain ⟨b1, b2⟩ := stackBase_below (cache := st.cacheEstimator) (ys := y) hb' fun a ha => (g2 a ha).1
            have hs := stackBase_deref h'.get st.cacheEstimator
              { st1 with wm := { st1.wm with ySample := some y } } y res
            have hs' : stackBase st.cacheEstimator { st1.deref h'.get with wm := { (st1.deref h'.get).wm with
                ySample := some y } } y (res.map (BaseOut.mapEst h'.get)) = _ := hs
            simp only [Except.map]
            rw [hs']
            rcases hsb : stackBase st.cacheEstimator { st1 with wm := { st1.wm with ySample := some y } } y res with
              ⟨r | r, st2⟩
            · rw [hsb] at b1
              exact ⟨rfl, ⟨d2.grow, d2.old⟩, b1, fun ps hr => by cases hr⟩
            · rw [hsb] at b1 b2
              have hbase : st2.base = some (res.map BaseOut.est) := b2 rfl
              simp only
              rw [testStage_map]
              cases ht : testStage (R.reader h') M p X.r (fun i => y.getD i 0) Xp T
                  (secondOrderDense (gt0 T).transpose (gt0 T)) res with
              | error e => exact ⟨rfl, ⟨d2.grow, d2.old⟩, b1, fun ps hr => by cases hr⟩
              | ok os =>
                have ho := testStage_over ht
                refine ⟨?_, ⟨d2.grow, d2.old⟩, ⟨b1.1, fun l hl e he => ?_⟩, fun ps _ =>
                  ⟨_, hbase, g1, fun a ha => (g2 a ha).2, _, rfl, fun e he => ?_⟩⟩
                · simp only [SOut.deref, SState.deref, Except.map, List.map_map, Option.map_some]
                  rfl
                · cases hl
                  obtain ⟨o, hoo, hoe⟩ := List.mem_map.1 he
                  cases hoe
                  exact (ho o hoo).below fun a ha => (g2 a ha).1
                · obtain ⟨o, hoo, rfl⟩ := List.mem_map.1 he
                  obtain ⟨g, refs, hg, hrefs⟩ := ho o hoo
                  exact ⟨g, refs, by rw [hg], hrefs⟩
  · exact ⟨rfl, ⟨le_rfl, fun _ _ => rfl⟩, hst, fun ps hr => by cases hr⟩

/-- A call on any model of either kind, with any regressor of the class. -/
inductive AnyCall (R : Regressor K O) (S C G : Type) : Heap O → Heap O → Prop
  | weight {h h' : Heap O} (c : ModelCall R S C h h') : AnyCall R S C G h h'
  | fit (backend : Backend) (reg : Nat) (M Mn : Learner K G) (rng : Rng S) (p : SParams K C) (st : SState K Nat G C)
      (s : S) (X : Mat K) (y : List K) (coords : Option C) (W : Option (WMat K)) (h : Heap O)
      (hreg : reg < h.next) (hst : st.Below h.next) :
      AnyCall R S C G h (stackFitObj R backend reg M Mn rng p st s X y coords W h).2
  | predict (backend : Backend) (reg : Nat) (M : Learner K G) (p : SParams K C) (st : SState K Nat G C)
      (s : S) (X : Mat K) (y : List K) (train : C) (Xp : Mat K) (test : C) (h : Heap O)
      (hreg : reg < h.next) (hst : st.Below h.next) :
      AnyCall R S C G h (stackPredictByFitObj R backend reg M p st s X y train Xp test h).2

theorem AnyCall.kept {R : Regressor K O} {h h' : Heap O} (c : AnyCall R S C G h h') : Kept h h' := by
  cases c with
  | weight c =>
    cases c with
    | fit backend reg rng hrng p hrate st s X y coords W h1 hreg hst =>
      obtain ⟨-, ⟨h1, h2⟩, -⟩ := C155_fit R backend reg rng hrng p hrate st s X y coords W _ hreg hst
      exact ⟨h1, h2⟩
    | predict backend reg p st X coords W h1 hreg =>
      obtain ⟨-, h1, h2⟩ := C155_predict_by_fit R backend reg p st X coords W _ hreg
      exact ⟨h1, h2⟩
  | fit backend reg M Mn rng p st s X y coords W h1 hreg hst =>
    obtain ⟨-, ⟨h1, h2⟩, -⟩ := C156_fit R backend reg M Mn rng p st s X y coords W _ hreg hst
    exact ⟨h1, h2⟩
  | predict backend reg M p st s X y train Xp test h1 hreg hst =>
    obtain ⟨-, ⟨h1, h2⟩, -⟩ := C156_predict_by_fit R backend reg M p st s X y train Xp test _ hreg hst
    exact ⟨h1, h2⟩

/-- C156: whatever is fitted or predicted afterwards with models of either kind - the same model included,
whose lists then refer to other objects -, stacking estimators taken from a model go on predicting what
they predicted, so does a model left alone, and a fit later on is the fit it would have been at once. -/
theorem C156_later_calls (R : Regressor K O) (h h' : Heap O) (hh : Relation.ReflTransGen (AnyCall R S C G) h h') :
    (∀ (M : Learner K G) (e : StackedEst Nat G), e.Below h.next → ∀ x,
      stackPredict (R.reader h') M e x = stackPredict (R.reader h) M e x) ∧
    (∀ (p : WMParams K C) (st : WMState K Nat C), st.Below h.next → ∀ X coords W,
      predictByWeightObj R p st X coords W h' = predictByWeightObj R p st X coords W h) ∧
    ∀ (st : SState K Nat G C) (_ : st.Below h.next) (reg : Nat) (_ : reg < h.next) (backend backend' : Backend)
      (M Mn : Learner K G) (rng : Rng S) (p : SParams K C) (s : S) (X : Mat K) (y : List K),
      (∀ coords W,
        let late := stackFitObj R backend reg M Mn rng p st s X y coords W h'
        let soon := stackFitObj R backend' reg M Mn rng p st s X y coords W h
        late.1.deref late.2.get = soon.1.deref soon.2.get) ∧
      ∀ train Xp test,
        let late := stackPredictByFitObj R backend reg M p st s X y train Xp test h'
        let soon := stackPredictByFitObj R backend' reg M p st s X y train Xp test h
        late.1.deref late.2.get = soon.1.deref soon.2.get := by
  have hk : Kept h h' := by
    induction hh with
    | refl => exact Kept.refl h
    | tail _ hb ih => exact ih.trans hb.kept
  refine ⟨fun M e he x => ?_, fun p st hst X coords W => ?_, fun st hst reg hreg backend backend' M Mn rng p s X y =>
    ⟨fun coords W => ?_, fun train Xp test => ?_⟩⟩
  · rw [← stackPredict_map R (h.get 0) M h', ← stackPredict_map R (h.get 0) M h,
      StackedEst.mapBase_congr he hk.old]
  · rw [C155_predict_by_weight R (h.get 0), C155_predict_by_weight R (h.get 0), WMState.deref_congr hst hk.old]
  · have h1 := (C156_fit R backend reg M Mn rng p st s X y coords W h' (lt_of_lt_of_le hreg hk.grow)
      (hst.mono hk.grow)).1
    have h2 := (C156_fit R backend' reg M Mn rng p st s X y coords W h hreg hst).1
    simp only at h1 h2 ⊢
    rw [h1, h2, SState.deref_congr hst hk.old, hk.old reg hreg]
  · have h1 := (C156_predict_by_fit R backend reg M p st s X y train Xp test h' (lt_of_lt_of_le hreg hk.grow)
      (hst.mono hk.grow)).1
    have h2 := (C156_predict_by_fit R backend' reg M p st s X y train Xp test h hreg hst).1
    simp only at h1 h2 ⊢
    rw [h1, h2, SState.deref_congr hst hk.old, hk.old reg hreg]

/-! ### The hypotheses are met -/

def warmSum : Learner ℚ ℚ := ⟨fun _ _ ys _ => .ok (ys.sum / (ys.length : ℚ)), fun g x => g + x.sum⟩
def seRefs (e : Option (StackedEst Nat ℚ)) : List Nat :=
  match e with
  | some (.stacked _ l) => l
  | _ => []
def warmStack (backend : Backend) (W : WMat ℚ) : SOut Unit ℚ Nat ℚ Unit Nat × Heap (Nat × ℚ) :=
  stackFitObj warmMean backend 0 warmSum warmSum rotRng seP {} 0 seX seY none (some W) warmHeap

/-- A fit with objects: the regressor passed in keeps its state, the base estimators are four new objects
and the stacking estimators of different locations share them. -/
example : ({} : SState ℚ Nat ℚ Unit).Below warmHeap.next ∧ (0 : Nat) < warmHeap.next ∧
    (∀ w W, w = .serial ∨ w = .processes ∨ w = .threads [0, 1, 2, 1, 0, 3, 1, 1, 0] →
      W = .dense seW ∨ W = .sparse seA →
      (warmStack w W).1.result = .ok () ∧ (warmStack w W).2.get 0 = (5, 100)) ∧
    (warmStack .serial (.dense seW)).1.state.base = some [1, 2, 3, 4] ∧
    (warmStack .processes (.dense seW)).1.state.base = some [5, 6, 7, 8] ∧
    (warmStack .processes (.dense seW)).1.state.wm.estimators.map (List.map seRefs) =
      some [[5, 6], [6, 7], [7, 8], [5, 8]] := by
  refine ⟨⟨fun l hl => by simp at hl, fun l hl => by simp at hl⟩, by decide, ?_, ?_, ?_, ?_⟩
  · rintro w W (rfl | rfl | rfl) (rfl | rfl) <;> exact ⟨by decide +kernel, by decide +kernel⟩
  all_goals decide +kernel

/-- `predict_by_fit` replaces the model's base estimators by other objects; the former ones are as they
were, so estimators taken from the model before go on predicting what they predicted. -/
def warmAgain : SOut (List ℚ) ℚ Nat ℚ Unit Nat × Heap (Nat × ℚ) :=
  stackPredictByFitObj warmMean .processes 0 warmSum { seP with weights := fun _ _ => .ok seW }
    (warmStack .processes (.dense seW)).1.state 0 seX seY () seX () (warmStack .processes (.dense seW)).2

example : warmAgain.1.result.isOk = true ∧ warmAgain.1.state.base = some [13, 14, 15, 16] ∧
    (∀ a ∈ [5, 6, 7, 8], warmAgain.2.get a = (warmStack .processes (.dense seW)).2.get a ∧
      (warmAgain.2.get a).1 = 1) := by
  refine ⟨by decide +kernel, by decide +kernel, by decide +kernel⟩

end Geo
