import Verif.Lemmas.Rel
import Verif.Props.StackingExamples
import Verif.Props.WeightModelState
import Verif.Model.Importance
/-
Property C118: the way the features are written down. Units, offsets, order and number of columns do
not matter to a model whose regressor does not mind.
-/
set_option linter.unusedSectionVars false
namespace Geo
variable {K : Type} [Field K] [LinearOrder K] [IsStrictOrderedRing K] [FloorRing K]
variable {F F' G C S : Type}

/-- The table whose rows are the rows of `X` rewritten by `φ`, with `c` columns. -/
def recoded (φ : List K → List K) (c : Nat) (X : Mat K) : Mat K :=
  ⟨X.r, c, fun i j => (φ (X.row i)).getD j 0⟩

/-- Two fitted regressors agree about every row with `n` features. -/
def Agrees (n : Nat) (φ : List K → List K) (L : Learner K F) (L' : Learner K F') (f : F) (f' : F') :
    Prop := ∀ x, x.length = n → L'.predict f' (φ x) = L.predict f x

/-- A regressor (and its counterpart for rewritten features) that does not mind how the features are
written down: on the same targets and weights it raises the same exception, or its predictions for
the rewritten rows are the predictions for the rows. -/
def CodeFree (n : Nat) (φ : List K → List K) (L : Learner K F) (L' : Learner K F') : Prop :=
  ∀ e rows ys ws, (∀ r ∈ rows, r.length = n) →
    ERel (Agrees n φ L L') (L.fit e rows ys ws) (L'.fit e (rows.map φ) ys ws)

/-- A rewriting of rows with `n` features into rows with `c`. -/
def Widths (φ : List K → List K) (n c : Nat) : Prop :=
  (∀ x, x.length = n → (φ x).length = c) ∧ (0 < n ↔ 0 < c)

theorem recoded_row {φ : List K → List K} {n c : Nat} (hφ : Widths φ n c) {X : Mat K}
    (hX : X.c = n) (i : Nat) : (recoded φ c X).row i = φ (X.row i) := by
  have hl : (φ (X.row i)).length = c := hφ.1 _ (by rw [Mat.row_length, hX])
  unfold Mat.row recoded
  simp only
  apply List.ext_getElem
  · rw [List.length_map, List.length_range]
    exact hl.symm
  · intro k h1 h2
    simp only [List.getElem_map, List.getElem_range]
    exact (List.getD_eq_getElem _ 0 h2)

theorem recoded_rows {φ : List K → List K} {n c : Nat} (hφ : Widths φ n c) {X : Mat K}
    (hX : X.c = n) (idx : List Nat) :
    idx.map (recoded φ c X).row = (idx.map X.row).map φ := by
  rw [List.map_map]
  exact List.map_congr_left fun i _ => recoded_row hφ hX i

/-- Results of one location in the two runs. -/
def CodeOut (n : Nat) (φ : List K → List K) (L : Learner K F) (L' : Learner K F') (r : K × F)
    (r' : K × F') : Prop := r'.1 = r.1 ∧ Agrees n φ L L' r.2 r'.2

theorem fitLocal_code {φ : List K → List K} {n c : Nat} (hφ : Widths φ n c) {L : Learner K F}
    {L' : Learner K F'} (hL : CodeFree n φ L L') {X : Mat K} (hX : X.c = n) (y : Nat → K) (e : Nat)
    (idx : List Nat) (ws : List K) {x : List K} (hx : x.length = n) :
    ERel (CodeOut n φ L L') (fitLocal L X y e idx ws x)
      (fitLocal L' (recoded φ c X) y e idx ws (φ x)) := by
  unfold fitLocal
  rw [recoded_rows hφ hX]
  refine ERel.map (hL e _ _ ws ?_) fun f f' hf => ⟨hf x hx, hf⟩
  intro r hr
  obtain ⟨i, -, rfl⟩ := List.mem_map.1 hr
  rw [Mat.row_length, hX]

theorem denseTask_code {φ : List K → List K} {n c : Nat} (hφ : Widths φ n c) {L : Learner K F}
    {L' : Learner K F'} (hL : CodeFree n φ L L') {X Xp : Mat K} (hX : X.c = n) (hXp : Xp.c = n)
    (y : Nat → K) (D : Mat K) (e i : Nat) :
    ERel (CodeOut n φ L L') (denseTask L X y Xp D e i)
      (denseTask L' (recoded φ c X) y (recoded φ c Xp) D e i) := by
  unfold denseTask
  rw [recoded_row hφ hXp]
  simp only [show (recoded φ c X).r = X.r from rfl]
  split
  · rfl
  · exact fitLocal_code hφ hL hX y e _ _ (by rw [Mat.row_length, hXp])

theorem sparseTask_code {φ : List K → List K} {n c : Nat} (hφ : Widths φ n c) {L : Learner K F}
    {L' : Learner K F'} (hL : CodeFree n φ L L') {X Xp : Mat K} (hX : X.c = n) (hXp : Xp.c = n)
    (y : Nat → K) (A : Csr K) (e i : Nat) :
    ERel (CodeOut n φ L L') (sparseTask L X y Xp A e i)
      (sparseTask L' (recoded φ c X) y (recoded φ c Xp) A e i) := by
  unfold sparseTask
  rw [recoded_row hφ hXp]
  simp only [show (recoded φ c X).r = X.r from rfl]
  split
  · rfl
  · exact fitLocal_code hφ hL hX y e _ _ (by rw [Mat.row_length, hXp])

/-- What two objects have in common after the same calls on the two tables: everything except the
features themselves, their number, and the stored estimators, which agree about every row. -/
structure CodeState (n : Nat) (φ : List K → List K) (c : Nat) (L : Learner K F) (L' : Learner K F')
    (st : WMState K F C) (st' : WMState K F' C) : Prop where
  isFitted : st'.isFitted = st.isFitted
  nFeatures : (st.nFeatures = none ∧ st'.nFeatures = none) ∨
    (st.nFeatures = some n ∧ st'.nFeatures = some c)
  N : st'.N = st.N
  X : st'.X = st.X.map (recoded φ c)
  width : ∀ X, st.X = some X → X.c = n
  y : st'.y = st.y
  coords : st'.coords = st.coords
  weightMatrix : st'.weightMatrix = st.weightMatrix
  neighbourMatrix : st'.neighbourMatrix = st.neighbourMatrix
  localIndices : st'.localIndices = st.localIndices
  ySample : st'.ySample = st.ySample
  estimators : Option.Rel (List.Forall₂ (Option.Rel (Agrees n φ L L'))) st.estimators st'.estimators
  localPredict : st'.localPredict = st.localPredict
  score : st'.score = st.score
  residual : st'.residual = st.residual
  permDecrease : st'.permDecrease = st.permDecrease
  interaction : st'.interaction = st.interaction

theorem CodeState.new (n : Nat) (φ : List K → List K) (c : Nat) (L : Learner K F)
    (L' : Learner K F') : CodeState n φ c L L' ({} : WMState K F C) ({} : WMState K F' C) :=
  ⟨rfl, .inl ⟨rfl, rfl⟩, rfl, rfl, fun _ h => (nomatch h), rfl, rfl, rfl, rfl, rfl, rfl, .none, rfl,
    rfl, rfl, rfl, rfl⟩

theorem codeOut_fst {n : Nat} {φ : List K → List K} {L : Learner K F} {L' : Learner K F'}
    {res : List (K × F)} {res' : List (K × F')} (h : List.Forall₂ (CodeOut n φ L L') res res') :
    res'.map Prod.fst = res.map Prod.fst := by
  induction h with
  | nil => rfl
  | cons h1 _ ih => simp only [List.map_cons, ih, h1.1]

/-- C118: fitting on rewritten features. Both calls succeed or raise the same exception, draw the same
numbers, leave the same matrix with the caller, and leave the two objects with the same predictions,
scores, residuals, locations and weights; the stored estimators agree about every row. -/
theorem C118_fit {φ : List K → List K} {n c : Nat} (hφ : Widths φ n c) {L : Learner K F}
    {L' : Learner K F'} (hL : CodeFree n φ L L') (rng : Rng S) (p : WMParams K C)
    {st : WMState K F C} {st' : WMState K F' C} (hst : CodeState n φ c L L' st st') (s : S)
    {X : Mat K} (hX : X.c = n) (y : List K) (coords : Option C) (W : Option (WMat K)) :
    let o := wmFit L rng p st s X y coords W
    let o' := wmFit L' rng p st' s (recoded φ c X) y coords W
    o'.result = o.result ∧ o'.caller = o.caller ∧ o'.rng = o.rng ∧
      CodeState n φ c L L' o.state o'.state := by
  intro o o'
  simp only [o, o']
  unfold wmFit
  have hck : checkXy (recoded φ c X) y = checkXy X y := by
    unfold checkXy
    congr 1
    simp only [recoded, hX, hφ.2]
  rw [hck]
  split
  swap
  · exact ⟨rfl, rfl, rfl, hst⟩
  have hb : CodeState n φ c L L' (stateBegin p st X y coords W)
      (stateBegin p st' (recoded φ c X) y coords W) := by
    unfold stateBegin
    simp only
    split
    · exact { hst with nFeatures := .inr ⟨by simp [hX], rfl⟩, isFitted := rfl, N := rfl }
    split
    · exact { hst with
        nFeatures := .inr ⟨by simp [hX], rfl⟩, isFitted := rfl, N := rfl, X := rfl, y := rfl
        coords := rfl, width := fun X' h => by cases h; exact hX }
    · exact { hst with nFeatures := .inr ⟨by simp [hX], rfl⟩, isFitted := rfl, N := rfl }
  revert hb
  generalize stateBegin p st X y coords W = b
  generalize stateBegin p st' (recoded φ c X) y coords W = b'
  intro hb
  cases chosenWeights p coords W with
  | error e => exact ⟨rfl, rfl, rfl, hb⟩
  | ok W0 =>
    simp only [fitWith, show (recoded φ c X).r = X.r from rfl]
    rcases sampleLocations rng s p.sampleRate X.r with ⟨e | idx, s1⟩
    · exact ⟨rfl, rfl, rfl, { hb with weightMatrix := rfl, neighbourMatrix := rfl }⟩
    simp only
    have hf : ERel (List.Forall₂ (CodeOut n φ L L'))
        (fitAll L X (fun i => y.getD i 0) none (leaveOut p W0) X.r (some idx) p.nJobs
          p.storedPatches p.cpu)
        (fitAll L' (recoded φ c X) (fun i => y.getD i 0) none (leaveOut p W0) X.r (some idx)
          p.nJobs p.storedPatches p.cpu) :=
      ERel.fitAll (X := X) (X' := recoded φ c X) rfl (fun D _ e i => denseTask_code hφ hL hX hX _ D e i)
        (fun A _ e i => sparseTask_code hφ hL hX hX _ A e i) _ _ _ _ _
    revert hf
    generalize fitAll L X (fun i => y.getD i 0) none (leaveOut p W0) X.r (some idx) p.nJobs
      p.storedPatches p.cpu = r1
    generalize fitAll L' (recoded φ c X) (fun i => y.getD i 0) none (leaveOut p W0) X.r (some idx)
      p.nJobs p.storedPatches p.cpu = r2
    intro hf
    cases r1 with
    | error e =>
      rw [hf.error]
      exact ⟨rfl, rfl, rfl, { hb with
        weightMatrix := rfl, neighbourMatrix := rfl, localIndices := rfl, ySample := rfl }⟩
    | ok res =>
      obtain ⟨res', rfl, hr⟩ := hf.ok
      have he : List.Forall₂ (Option.Rel (Agrees n φ L L'))
          (res.map fun r => if p.cacheEstimator then some r.2 else none)
          (res'.map fun r => if p.cacheEstimator then some r.2 else none) := by
        rw [List.forall₂_map_left_iff, List.forall₂_map_right_iff]
        refine hr.imp fun a b hab => ?_
        cases p.cacheEstimator
        · exact .none
        · exact .some hab.2
      simp only [stateEnd]
      rw [codeOut_fst hr]
      cases skR2 (idx.map fun i => y.getD i 0) (res.map Prod.fst) with
      | error e =>
        exact ⟨rfl, by trivial, by trivial, { hb with
          weightMatrix := rfl, neighbourMatrix := rfl, localIndices := rfl, ySample := rfl
          localPredict := rfl, estimators := .some he }⟩
      | ok v =>
        exact ⟨rfl, by trivial, by trivial, { hb with
          weightMatrix := rfl, neighbourMatrix := rfl, localIndices := rfl, ySample := rfl
          localPredict := rfl, estimators := .some he, score := rfl, residual := rfl }⟩

/-! ### Prediction -/

theorem mapE_cached {n : Nat} {φ : List K → List K} {L : Learner K F} {L' : Learner K F'}
    {l : List (Option F)} {l' : List (Option F')}
    (h : List.Forall₂ (Option.Rel (Agrees n φ L L')) l l') :
    ERel (List.Forall₂ (Agrees n φ L L')) (mapE cachedOne l) (mapE cachedOne l') := by
  induction h with
  | nil => exact .nil
  | cons h1 _ ih =>
    cases h1 with
    | none => rfl
    | @some a b hab =>
      rename_i l1 l2 _
      simp only [mapE, cachedOne]
      cases hm : mapE cachedOne l1 with
      | error e => rw [hm] at ih; rw [ih.error]; rfl
      | ok v =>
        rw [hm] at ih
        obtain ⟨v', hv', hr⟩ := ih.ok
        rw [hv']
        exact .cons hab hr

theorem storedEstimators_code {n : Nat} {φ : List K → List K} {c : Nat} {L : Learner K F}
    {L' : Learner K F'} {st : WMState K F C} {st' : WMState K F' C}
    (hst : CodeState n φ c L L' st st') :
    ERel (List.Forall₂ (Agrees n φ L L')) (storedEstimators st) (storedEstimators st') := by
  unfold storedEstimators
  have h := hst.estimators
  generalize st.estimators = l at h
  generalize st'.estimators = l' at h
  cases h with
  | none => rfl
  | some h => exact mapE_cached h

theorem estimatorTable_code {n : Nat} {φ : List K → List K} {c : Nat} (hφ : Widths φ n c)
    {L : Learner K F} {L' : Learner K F'} {ests : List F} {ests' : List F'}
    (h : List.Forall₂ (Agrees n φ L L') ests ests') {X : Mat K} (hX : X.c = n) :
    estimatorTable L' ests' (recoded φ c X) = estimatorTable L ests X := by
  unfold estimatorTable
  rw [h.length_eq]
  congr 1
  funext j i
  rw [recoded_row hφ hX]
  have hl := h.length_eq
  by_cases hj : j < ests.length
  · rw [List.getElem?_eq_getElem hj, List.getElem?_eq_getElem (hl ▸ hj)]
    exact (List.forall₂_iff_get.1 h).2 j hj (hl ▸ hj) _ (by rw [Mat.row_length, hX])
  · rw [List.getElem?_eq_none (by omega), List.getElem?_eq_none (by omega)]

/-- C118: `predict_by_weight` on rewritten features. -/
theorem C118_predict_by_weight {φ : List K → List K} {n c : Nat} (hφ : Widths φ n c)
    {L : Learner K F} {L' : Learner K F'} (p : WMParams K C) {st : WMState K F C}
    {st' : WMState K F' C} (hst : CodeState n φ c L L' st st') {X : Mat K} (hX : X.c = n)
    (coords : Option C) (W : Option (Mat K)) :
    predictByWeight L' p st' (recoded φ c X) coords W = predictByWeight L p st X coords W := by
  unfold predictByWeight
  split
  · rfl
  simp only [bind]
  have hs := storedEstimators_code hst
  rw [hst.coords]
  cases guard coords W with
  | error e => rfl
  | ok u =>
    simp only [Except.bind]
    cases hm : storedEstimators st with
    | error e => rw [hm] at hs; rw [hs.error]
    | ok l =>
      rw [hm] at hs
      obtain ⟨l', hl', hr⟩ := hs.ok
      rw [hl']
      simp only
      have hu := ERel.unzipNonempty hr
      cases hm2 : unzipNonempty l with
      | error e => rw [hm2] at hu; rw [hu.error]
      | ok v =>
        rw [hm2] at hu
        obtain ⟨v', hv', hr'⟩ := hu.ok
        rw [hv']
        simp only
        rw [estimatorTable_code hφ hr' hX]

theorem fitAll_at_code {φ : List K → List K} {n c : Nat} (hφ : Widths φ n c) {L : Learner K F}
    {L' : Learner K F'} (hL : CodeFree n φ L L') {X Xp : Mat K} (hX : X.c = n) (hXp : Xp.c = n)
    (y : Nat → K) (D : Mat K) (nEst cpu : Nat) :
    ERel (List.Forall₂ (CodeOut n φ L L'))
      (fitAll L X y (some Xp) (.dense D) nEst none none none cpu)
      (fitAll L' (recoded φ c X) y (some (recoded φ c Xp)) (.dense D) nEst none none none cpu) := by
  unfold fitAll
  simp only [Option.getD_some]
  refine ERel.runPatches (fun i => ?_) _ _
  unfold locTask atIndex
  simp only [show (recoded φ c Xp).r = Xp.r from rfl]
  split
  · exact denseTask_code hφ hL hX hXp _ D i i
  · rfl

/-- C118: `predict_by_fit` on rewritten features. -/
theorem C118_predict_by_fit {φ : List K → List K} {n c : Nat} (hφ : Widths φ n c)
    {L : Learner K F} {L' : Learner K F'} (hL : CodeFree n φ L L') (p : WMParams K C)
    {st : WMState K F C} {st' : WMState K F' C} (hst : CodeState n φ c L L' st st') {X : Mat K}
    (hX : X.c = n) (coords : Option C) (W : Option (Mat K)) :
    predictByFit L' p st' (recoded φ c X) coords W = predictByFit L p st X coords W := by
  unfold predictByFit
  split
  · rfl
  simp only [bind]
  rw [hst.coords]
  cases guard coords W with
  | error e => rfl
  | ok u =>
    simp only [Except.bind]
    cases predictFitWeights p coords st.coords W with
    | error e => rfl
    | ok D =>
      simp only
      unfold cachedData
      rw [hst.X, hst.y]
      cases hx : st.X with
      | none => rfl
      | some X0 =>
        cases st.y with
        | none => rfl
        | some y =>
          simp only [Option.map_some]
          have hf := fitAll_at_code hφ hL (hst.width X0 hx) hX (fun i => y.getD i 0) D X.r p.cpu
          cases hm : fitAll L X0 (fun i => y.getD i 0) (some X) (.dense D) X.r none none none p.cpu
            with
          | error e =>
            rw [hm] at hf
            have := hf.error
            simp only [show (recoded φ c X).r = X.r from rfl, this]
          | ok v =>
            rw [hm] at hf
            obtain ⟨v', hv', hr⟩ := hf.ok
            simp only [show (recoded φ c X).r = X.r from rfl, hv', codeOut_fst hr]

/-- C118: from a new object to the predictions: the same predictions at the training locations, the
same R², and the same predictions for new observations by both methods. -/
theorem C118_new_object {φ : List K → List K} {n c : Nat} (hφ : Widths φ n c) {L : Learner K F}
    {L' : Learner K F'} (hL : CodeFree n φ L L') (rng : Rng S) (p : WMParams K C) (s : S)
    {X : Mat K} (hX : X.c = n) (y : List K) (coords : Option C) (W : Option (WMat K)) :
    let o := wmFit L rng p {} s X y coords W
    let o' := wmFit L' rng p {} s (recoded φ c X) y coords W
    o'.result = o.result ∧ o'.state.localPredict = o.state.localPredict ∧
      o'.state.score = o.state.score ∧
      ∀ (Xn : Mat K), Xn.c = n → ∀ coords Wn,
        predictByWeight L' p o'.state (recoded φ c Xn) coords Wn =
          predictByWeight L p o.state Xn coords Wn ∧
        predictByFit L' p o'.state (recoded φ c Xn) coords Wn =
          predictByFit L p o.state Xn coords Wn := by
  intro o o'
  obtain ⟨h1, -, -, h4⟩ := C118_fit hφ hL rng p (CodeState.new n φ c L L') s hX y coords W
  exact ⟨h1, h4.localPredict, h4.score, fun Xn hXn cs Wn =>
    ⟨C118_predict_by_weight hφ p h4 hXn cs Wn, C118_predict_by_fit hφ hL p h4 hXn cs Wn⟩⟩

/-! ### Stacking -/

/-- Results of one base estimator in the two runs. -/
def CodeBase (n : Nat) (φ : List K → List K) (L : Learner K F) (L' : Learner K F')
    (b : BaseOut K F) (b' : BaseOut K F') : Prop :=
  b'.pred = b.pred ∧ b'.second = b.second ∧ Agrees n φ L L' b.est b'.est

/-- Results of one meta estimator in the two runs. -/
def CodeMeta (n : Nat) (φ : List K → List K) (L : Learner K F) (L' : Learner K F')
    (M : Learner K G) (b : MetaOut K F G) (b' : MetaOut K F' G) : Prop :=
  b'.pred = b.pred ∧ b'.score = b.score ∧ Agrees n φ (stackLearner L M) (stackLearner L' M) b.est b'.est

theorem fitBase_code {φ : List K → List K} {n c : Nat} (hφ : Widths φ n c) {L : Learner K F}
    {L' : Learner K F'} (hL : CodeFree n φ L L') {X : Mat K} (hX : X.c = n) (y : Nat → K) (e : Nat)
    (idx : List Nat) (ws : List K) (second : List Nat) (i : Nat) :
    ERel (CodeBase n φ L L') (fitBase L X y e idx ws second (X.row i))
      (fitBase L' (recoded φ c X) y e idx ws second ((recoded φ c X).row i)) := by
  unfold fitBase
  rw [recoded_rows hφ hX, recoded_row hφ hX]
  refine ERel.bind (hL e _ _ ws ?_) fun f f' hf => ?_
  · intro r hr
    obtain ⟨i, -, rfl⟩ := List.mem_map.1 hr
    rw [Mat.row_length, hX]
  · split
    · rfl
    · refine ⟨hf _ (by rw [Mat.row_length, hX]), ?_, hf⟩
      apply List.map_congr_left
      intro k _
      rw [recoded_row hφ hX]
      exact hf _ (by rw [Mat.row_length, hX])

theorem runBase_rel {α β : Type} {R : α → β → Prop} {f : Nat → Except Err α} {g : Nat → Except Err β}
    (h : ∀ i, ERel R (f i) (g i)) (N : Nat) (np : Option ℤ) :
    ERel (List.Forall₂ R) (runBase f N np) (runBase g N np) := by
  unfold runBase
  cases np with
  | none => rfl
  | some k => exact ERel.runPatches h _ _

theorem codeBase_pred {n : Nat} {φ : List K → List K} {L : Learner K F} {L' : Learner K F'}
    {res : List (BaseOut K F)} {res' : List (BaseOut K F')}
    (h : List.Forall₂ (CodeBase n φ L L') res res') :
    res'.map BaseOut.pred = res.map BaseOut.pred := by
  induction h with
  | nil => rfl
  | cons h1 _ ih => simp only [List.map_cons, ih, h1.1]

theorem codeBase_second {n : Nat} {φ : List K → List K} {L : Learner K F} {L' : Learner K F'}
    {res : List (BaseOut K F)} {res' : List (BaseOut K F')}
    (h : List.Forall₂ (CodeBase n φ L L') res res') :
    res'.map BaseOut.second = res.map BaseOut.second := by
  induction h with
  | nil => rfl
  | cons h1 _ ih => simp only [List.map_cons, ih, h1.2.1]

theorem codeBase_est {n : Nat} {φ : List K → List K} {L : Learner K F} {L' : Learner K F'}
    {res : List (BaseOut K F)} {res' : List (BaseOut K F')}
    (h : List.Forall₂ (CodeBase n φ L L') res res') :
    List.Forall₂ (Agrees n φ L L') (res.map BaseOut.est) (res'.map BaseOut.est) := by
  rw [List.forall₂_map_left_iff, List.forall₂_map_right_iff]
  exact h.imp fun a b hab => hab.2.2

theorem metaDense_code {n : Nat} {φ : List K → List K} {L : Learner K F} {L' : Learner K F'}
    {res : List (BaseOut K F)} {res' : List (BaseOut K F')}
    (h : List.Forall₂ (CodeBase n φ L L') res res') (N : Nat) (second : Mat Bool) :
    metaDense N second res' = metaDense N second res := by
  unfold metaDense
  congr 1
  funext j
  have hl := h.length_eq
  by_cases hj : j < res.length
  · rw [List.getElem?_eq_getElem hj, List.getElem?_eq_getElem (hl ▸ hj)]
    have := ((List.forall₂_iff_get.1 h).2 j hj (hl ▸ hj)).2.1
    simp only [List.get_eq_getElem] at this
    simp only [this]
  · rw [List.getElem?_eq_none (by omega), List.getElem?_eq_none (by omega)]

theorem filterMap_get_code {n : Nat} {φ : List K → List K} {L : Learner K F} {L' : Learner K F'}
    {base : List F} {base' : List F'} (h : List.Forall₂ (Agrees n φ L L') base base')
    (bases : List Nat) :
    List.Forall₂ (Agrees n φ L L') (bases.filterMap fun j => base[j]?)
      (bases.filterMap fun j => base'[j]?) := by
  have hl := h.length_eq
  induction bases with
  | nil => exact .nil
  | cons j js ih =>
    by_cases hj : j < base.length
    · have h2 : j < base'.length := hl ▸ hj
      rw [List.filterMap_cons_some (List.getElem?_eq_getElem hj),
        List.filterMap_cons_some (List.getElem?_eq_getElem h2)]
      exact .cons ((List.forall₂_iff_get.1 h).2 j hj h2) ih
    · rw [List.filterMap_cons_none (List.getElem?_eq_none (by omega)),
        List.filterMap_cons_none (List.getElem?_eq_none (by omega))]
      exact ih

theorem stacked_code {n : Nat} {φ : List K → List K} {L : Learner K F} {L' : Learner K F'}
    (M : Learner K G) {base : List F} {base' : List F'}
    (h : List.Forall₂ (Agrees n φ L L') base base') (g : G) :
    Agrees n φ (stackLearner L M) (stackLearner L' M) (.stacked g base) (.stacked g base') := by
  intro x hx
  simp only [stackLearner, stackPredict]
  congr 1
  induction h with
  | nil => rfl
  | cons h1 _ ih => simp only [List.map_cons, ih, h1 x hx]

theorem solveMeta_code {n : Nat} {φ : List K → List K} {L : Learner K F} {L' : Learner K F'}
    (M : Learner K G) {base : List F} {base' : List F'}
    (h : List.Forall₂ (Agrees n φ L L') base base') (q : MetaProblem K) :
    ERel (CodeMeta n φ L L' M) (solveMeta M base q) (solveMeta M base' q) := by
  unfold solveMeta
  split
  · rfl
  · exact ERel.map (R := Eq) (ERel.refl _) fun g g' hg => by
      subst hg
      exact ⟨rfl, rfl, stacked_code M (filterMap_get_code h _) g⟩

theorem solveNumba_code {n : Nat} {φ : List K → List K} {L : Learner K F} {L' : Learner K F'}
    (M Mn : Learner K G) {base : List F} {base' : List F'}
    (h : List.Forall₂ (Agrees n φ L L') base base') (q : MetaProblem K) :
    ERel (CodeMeta n φ L L' M) (solveNumba Mn base q) (solveNumba Mn base' q) := by
  unfold solveNumba
  split
  · rfl
  · exact ERel.map (R := Eq) (ERel.refl _) fun g g' hg => by
      subst hg
      exact ⟨rfl, rfl, stacked_code M (filterMap_get_code h _) g⟩

theorem metaLoop_rel {α β : Type} {R : α → β → Prop}
    (choose : S → Nat → Except Err (List Nat) × S) {f : List Nat → Nat → Except Err α}
    {g : List Nat → Nat → Except Err β} (h : ∀ l i, ERel R (f l i) (g l i)) (s : S) (is : List Nat) :
    ERel (List.Forall₂ R) (metaLoop choose f s is).1 (metaLoop choose g s is).1 ∧
      (metaLoop choose g s is).2 = (metaLoop choose f s is).2 := by
  induction is generalizing s with
  | nil => exact ⟨.nil, rfl⟩
  | cons i is ih =>
    simp only [metaLoop]
    rcases choose s i with ⟨e | l, s1⟩
    · exact ⟨rfl, rfl⟩
    simp only
    have h1 := h l i
    cases hf : f l i with
    | error e => rw [hf] at h1; rw [h1.error]; exact ⟨rfl, rfl⟩
    | ok a =>
      rw [hf] at h1
      obtain ⟨b, hb, hab⟩ := h1.ok
      rw [hb]
      simp only
      obtain ⟨h2, h3⟩ := ih s1
      rcases hm : metaLoop choose f s1 is with ⟨e | as, s2⟩
      · rcases hm' : metaLoop choose g s1 is with ⟨e' | bs, s2'⟩
        · rw [hm, hm'] at h2 h3
          exact ⟨h2, h3⟩
        · rw [hm, hm'] at h2
          exact h2.elim
      · rcases hm' : metaLoop choose g s1 is with ⟨e' | bs, s2'⟩
        · rw [hm, hm'] at h2
          exact h2.elim
        · rw [hm, hm'] at h2 h3
          exact ⟨.cons hab h2, h3⟩

/-- What two stacking objects have in common. -/
structure CodeStack (n : Nat) (φ : List K → List K) (c : Nat) (L : Learner K F) (L' : Learner K F')
    (M : Learner K G) (st : SState K F G C) (st' : SState K F' G C) : Prop where
  wm : CodeState n φ c (stackLearner L M) (stackLearner L' M) st.wm st'.wm
  cacheEstimator : st'.cacheEstimator = st.cacheEstimator
  base : Option.Rel (List.Forall₂ (Agrees n φ L L')) st.base st'.base
  residuals : st'.residuals = st.residuals
  stackPredictions : st'.stackPredictions = st.stackPredictions
  stackScore : st'.stackScore = st.stackScore
  fitScores : st'.fitScores = st.fitScores

theorem CodeStack.new (n : Nat) (φ : List K → List K) (c : Nat) (L : Learner K F)
    (L' : Learner K F') (M : Learner K G) :
    CodeStack n φ c L L' M ({} : SState K F G C) ({} : SState K F' G C) :=
  ⟨CodeState.new _ _ _ _ _, rfl, .none, rfl, rfl, rfl, rfl⟩

/-- What two calls of a stacking model have in common. -/
def CodeCall {R : Type} (n : Nat) (φ : List K → List K) (c : Nat) (L : Learner K F)
    (L' : Learner K F') (M : Learner K G) (o : SOut R K F G C S) (o' : SOut R K F' G C S) : Prop :=
  o'.result = o.result ∧ o'.caller = o.caller ∧ o'.rng = o.rng ∧ CodeStack n φ c L L' M o.state o'.state

theorem stackBase_code {n : Nat} {φ : List K → List K} {c : Nat} {L : Learner K F}
    {L' : Learner K F'} {M : Learner K G} (cache : Bool) {st : SState K F G C} {st' : SState K F' G C}
    (hst : CodeStack n φ c L L' M st st') (ys : List K) {res : List (BaseOut K F)}
    {res' : List (BaseOut K F')} (h : List.Forall₂ (CodeBase n φ L L') res res') :
    (stackBase cache st' ys res').1 = (stackBase cache st ys res).1 ∧
      CodeStack n φ c L L' M (stackBase cache st ys res).2 (stackBase cache st' ys res').2 := by
  have he : List.Forall₂ (Option.Rel (Agrees n φ (stackLearner L M) (stackLearner L' M)))
      (res.map fun b => some (StackedEst.base b.est : StackedEst F G))
      (res'.map fun b => some (StackedEst.base b.est : StackedEst F' G)) := by
    rw [List.forall₂_map_left_iff, List.forall₂_map_right_iff]
    exact h.imp fun a b hab => .some fun x hx => hab.2.2 x hx
  simp only [stackBase, codeBase_pred h]
  cases r2Column ys (res.map BaseOut.pred) with
  | error e =>
    exact ⟨rfl, { hst with wm := { hst.wm with localPredict := rfl, estimators := .some he } }⟩
  | ok v =>
    exact ⟨rfl, { hst with
      wm := { hst.wm with localPredict := rfl, score := rfl, estimators := .none }
      residuals := rfl, cacheEstimator := rfl, base := .some (codeBase_est h) }⟩

theorem codeMeta_pred {n : Nat} {φ : List K → List K} {L : Learner K F} {L' : Learner K F'}
    {M : Learner K G} {res : List (MetaOut K F G)} {res' : List (MetaOut K F' G)}
    (h : List.Forall₂ (CodeMeta n φ L L' M) res res') :
    res'.map MetaOut.pred = res.map MetaOut.pred ∧
      (res'.any fun r => r.score.isSome) = (res.any fun r => r.score.isSome) ∧
      res'.filterMap MetaOut.score = res.filterMap MetaOut.score := by
  induction h with
  | nil => exact ⟨rfl, rfl, rfl⟩
  | cons h1 _ ih =>
    simp only [List.map_cons, ih, h1.1, List.any_cons, h1.2.1, List.filterMap_cons]
    exact ⟨trivial, trivial, trivial⟩

theorem stackEnd_code {n : Nat} {φ : List K → List K} {c : Nat} {L : Learner K F}
    {L' : Learner K F'} {M : Learner K G} {st : SState K F G C} {st' : SState K F' G C}
    (hst : CodeStack n φ c L L' M st st') (ys : List K) {res : List (MetaOut K F G)}
    {res' : List (MetaOut K F' G)} (h : List.Forall₂ (CodeMeta n φ L L' M) res res') :
    (stackEnd st' ys res').1 = (stackEnd st ys res).1 ∧
      CodeStack n φ c L L' M (stackEnd st ys res).2 (stackEnd st' ys res').2 := by
  have he : List.Forall₂ (Option.Rel (Agrees n φ (stackLearner L M) (stackLearner L' M)))
      (res.map fun r => some r.est) (res'.map fun r => some r.est) := by
    rw [List.forall₂_map_left_iff, List.forall₂_map_right_iff]
    exact h.imp fun a b hab => .some hab.2.2
  obtain ⟨h1, h2, h3⟩ := codeMeta_pred h
  simp only [stackEnd, h1, h2, h3, hst.fitScores]
  cases r2Column ys (res.map MetaOut.pred) with
  | error e => exact ⟨rfl, { hst with stackPredictions := rfl, fitScores := rfl }⟩
  | ok v =>
    exact ⟨rfl, { hst with
      wm := { hst.wm with estimators := .some he }
      stackPredictions := rfl, fitScores := rfl, stackScore := rfl }⟩

theorem stackFinish_code {n : Nat} {φ : List K → List K} {c : Nat} {L : Learner K F}
    {L' : Learner K F'} {M : Learner K G} (cache : Bool) {st : SState K F G C} {st' : SState K F' G C}
    (hst : CodeStack n φ c L L' M st st') (caller : Option (WMat K)) (s : S) (ys : List K)
    {b : Except Err (List (BaseOut K F))} {b' : Except Err (List (BaseOut K F'))}
    (hb : ERel (List.Forall₂ (CodeBase n φ L L')) b b')
    {m : List (BaseOut K F) → Except Err (List (MetaOut K F G)) × S}
    {m' : List (BaseOut K F') → Except Err (List (MetaOut K F' G)) × S}
    (hm : ∀ res res', List.Forall₂ (CodeBase n φ L L') res res' →
      ERel (List.Forall₂ (CodeMeta n φ L L' M)) (m res).1 (m' res').1 ∧ (m' res').2 = (m res).2) :
    CodeCall n φ c L L' M (stackFinish cache st caller s ys b m)
      (stackFinish cache st' caller s ys b' m') := by
  unfold stackFinish
  cases b with
  | error e =>
    rw [hb.error]
    exact ⟨rfl, rfl, rfl, hst⟩
  | ok res =>
    obtain ⟨res', rfl, hr⟩ := hb.ok
    simp only
    obtain ⟨h1, h2⟩ := stackBase_code cache hst ys hr
    rcases hx : stackBase cache st ys res with ⟨r1, st1⟩
    rcases hx' : stackBase cache st' ys res' with ⟨r1', st1'⟩
    rw [hx, hx'] at h1 h2
    simp only at h1 h2
    subst h1
    cases r1' with
    | error e => exact ⟨rfl, rfl, rfl, h2⟩
    | ok u =>
      simp only
      obtain ⟨h3, h4⟩ := hm res res' hr
      rcases hy : m res with ⟨r2, s2⟩
      rcases hy' : m' res' with ⟨r2', s2'⟩
      rw [hy, hy'] at h3 h4
      simp only at h3 h4
      subst h4
      cases r2 with
      | error e =>
        rw [h3.error]
        exact ⟨rfl, rfl, rfl, h2⟩
      | ok out =>
        obtain ⟨out', rfl, ho⟩ := h3.ok
        obtain ⟨h5, h6⟩ := stackEnd_code h2 ys ho
        exact ⟨h5, rfl, rfl, h6⟩

theorem stackDense_code {φ : List K → List K} {n c : Nat} (hφ : Widths φ n c) {L : Learner K F}
    {L' : Learner K F'} (hL : CodeFree n φ L L') (M : Learner K G) (rng : Rng S) (p : SParams K C)
    (cache : Bool) {st : SState K F G C} {st' : SState K F' G C}
    (hst : CodeStack n φ c L L' M st st') (s : S) {X : Mat K} (hX : X.c = n) (y : List K)
    (given : Bool) (rate : K) (W : Mat K) :
    CodeCall n φ c L L' M (stackDense L M rng p cache st s X y given rate W)
      (stackDense L' M rng p cache st' s (recoded φ c X) y given rate W) := by
  unfold stackDense
  simp only [show (recoded φ c X).r = X.r from rfl]
  split
  · exact ⟨rfl, rfl, rfl, hst⟩
  rcases sampleNeighbourDense rng s W rate p.leaveOutShrink with ⟨e | Sm, s1, W1⟩
  · exact ⟨rfl, rfl, rfl, hst⟩
  simp only
  rcases sampleLocations rng s1 p.sampleRate X.r with ⟨e | idx, s2⟩
  · exact ⟨rfl, rfl, rfl, hst⟩
  simp only
  have h1 : CodeStack n φ c L L' M
      { st with wm := { st.wm with
          localIndices := some idx, ySample := some (idx.map fun i => y.getD i 0) } }
      { st' with wm := { st'.wm with
          localIndices := some idx, ySample := some (idx.map fun i => y.getD i 0) } } :=
    { hst with wm := { hst.wm with localIndices := rfl, ySample := rfl } }
  cases shrinkMetaDense p.metaShrink W1 with
  | error e => exact ⟨rfl, rfl, rfl, h1⟩
  | ok W' =>
    simp only
    refine stackFinish_code cache ?_ _ _ _ (runBase_rel (fun i => ?_) _ _) ?_
    · unfold stackShrunk
      split
      · exact h1
      · exact { h1 with wm := { h1.wm with weightMatrix := rfl } }
    · exact fitBase_code hφ hL hX _ _ _ _ _ _
    · intro res res' hr
      unfold metaStageDense
      rw [metaDense_code hr]
      split
      · exact ⟨rfl, rfl⟩
      · exact metaLoop_rel _ (fun l i => solveMeta_code M (codeBase_est hr) _) _ _

theorem stackSparse_code {φ : List K → List K} {n c : Nat} (hφ : Widths φ n c) {L : Learner K F}
    {L' : Learner K F'} (hL : CodeFree n φ L L') (M Mn : Learner K G) (rng : Rng S) (p : SParams K C)
    (cache : Bool) {st : SState K F G C} {st' : SState K F' G C}
    (hst : CodeStack n φ c L L' M st st') (s : S) {X : Mat K} (hX : X.c = n) (y : List K)
    (rate : K) (A : Csr K) :
    CodeCall n φ c L L' M (stackSparse L M Mn rng p cache st s X y rate A)
      (stackSparse L' M Mn rng p cache st' s (recoded φ c X) y rate A) := by
  unfold stackSparse
  simp only [show (recoded φ c X).r = X.r from rfl]
  split
  · exact ⟨rfl, rfl, rfl, hst⟩
  rcases sampleNeighbourSparse rng s A rate p.leaveOutShrink with ⟨e | Sm, s1, A1⟩
  · exact ⟨rfl, rfl, rfl, hst⟩
  simp only
  rcases sampleLocations rng s1 p.sampleRate X.r with ⟨e | idx, s2⟩
  · exact ⟨rfl, rfl, rfl, hst⟩
  simp only
  have h1 : CodeStack n φ c L L' M
      { st with wm := { st.wm with
          localIndices := some idx, ySample := some (idx.map fun i => y.getD i 0) } }
      { st' with wm := { st'.wm with
          localIndices := some idx, ySample := some (idx.map fun i => y.getD i 0) } } :=
    { hst with wm := { hst.wm with localIndices := rfl, ySample := rfl } }
  cases shrinkMetaSparse p.metaShrink A1 with
  | error e => exact ⟨rfl, rfl, rfl, h1⟩
  | ok A' =>
    simp only
    cases secondSparse A' Sm.transposePattern with
    | error e => exact ⟨rfl, rfl, rfl, h1⟩
    | ok second =>
      simp only
      refine stackFinish_code cache h1 _ _ _ (runBase_rel (fun i => ?_) _ _) ?_
      · exact fitBase_code hφ hL hX _ _ _ _ _ _
      · intro res res' hr
        unfold metaStageSparse
        simp only [metaSparse, codeBase_second hr]
        split
        · exact ⟨ERel.mapE fun i _ => solveNumba_code M Mn (codeBase_est hr) _, by trivial⟩
        · exact ⟨ERel.mapE fun i _ => ERel.bind (R := Eq) (ERel.refl _) fun q q' hq => by
            subst hq
            exact solveMeta_code M (codeBase_est hr) _, by trivial⟩

theorem stackBegin_code {φ : List K → List K} {n c : Nat} {L : Learner K F}
    {L' : Learner K F'} {M : Learner K G} (p : SParams K C)
    {st : SState K F G C} {st' : SState K F' G C} (hst : CodeStack n φ c L L' M st st')
    {X : Mat K} (hX : X.c = n) (y : List K) (coords : Option C) (W : Option (WMat K)) :
    CodeStack n φ c L L' M (stackBegin p st X y coords W)
      (stackBegin p st' (recoded φ c X) y coords W) := by
  unfold stackBegin
  simp only
  have h1 : CodeState n φ c (stackLearner L M) (stackLearner L' M)
      { st.wm with isFitted := true, nFeatures := some X.c, N := some X.r }
      { st'.wm with isFitted := true, nFeatures := some (recoded φ c X).c,
                    N := some (recoded φ c X).r } :=
    { hst.wm with nFeatures := .inr ⟨by simp [hX], rfl⟩, isFitted := rfl, N := rfl }
  split
  · exact { hst with wm := h1 }
  · refine { hst with wm := ?_, cacheEstimator := rfl }
    split
    · exact { h1 with X := rfl, y := rfl, width := fun X' h => by cases h; exact hX }
    · exact h1

theorem stackWeights_code {φ : List K → List K} {n c : Nat} {L : Learner K F}
    {L' : Learner K F'} {M : Learner K G} (given : Bool)
    {st : SState K F G C} {st' : SState K F' G C} (hst : CodeStack n φ c L L' M st st')
    (W : WMat K) : CodeStack n φ c L L' M (stackWeights given st W) (stackWeights given st' W) := by
  unfold stackWeights
  split
  · exact hst
  · exact { hst with wm := { hst.wm with weightMatrix := rfl, neighbourMatrix := rfl } }

theorem checkXy_code {φ : List K → List K} {n c : Nat} (hφ : Widths φ n c) {X : Mat K}
    (hX : X.c = n) (y : List K) : checkXy (recoded φ c X) y = checkXy X y := by
  unfold checkXy
  congr 1
  simp only [recoded, hX, hφ.2]

/-- C118: fitting a stacking model on rewritten features. -/
theorem C118_stacking_fit {φ : List K → List K} {n c : Nat} (hφ : Widths φ n c) {L : Learner K F}
    {L' : Learner K F'} (hL : CodeFree n φ L L') (M Mn : Learner K G) (rng : Rng S) (p : SParams K C)
    {st : SState K F G C} {st' : SState K F' G C} (hst : CodeStack n φ c L L' M st st') (s : S)
    {X : Mat K} (hX : X.c = n) (y : List K) (coords : Option C) (W : Option (WMat K)) :
    CodeCall n φ c L L' M (stackFit L M Mn rng p st s X y coords W)
      (stackFit L' M Mn rng p st' s (recoded φ c X) y coords W) := by
  unfold stackFit
  rw [checkXy_code hφ hX]
  split
  swap
  · exact ⟨rfl, rfl, rfl, hst⟩
  have hb := stackBegin_code p hst hX y coords W
  cases chosenWeights p.toWMParams coords W with
  | error e => exact ⟨rfl, rfl, rfl, hb⟩
  | ok W0 =>
    simp only
    have hw := stackWeights_code W.isSome hb W0
    rw [hst.cacheEstimator]
    unfold stackWith
    cases p.leaveOutRate with
    | none => exact ⟨rfl, rfl, rfl, hw⟩
    | some rate =>
      cases W0 with
      | dense D => exact stackDense_code hφ hL M rng p _ hw s hX y _ rate D
      | sparse A => exact stackSparse_code hφ hL M Mn rng p _ hw s hX y rate A

/-- C118: `predict_by_fit` of a stacking model on rewritten features. -/
theorem C118_stacking_predict {φ : List K → List K} {n c : Nat} (hφ : Widths φ n c)
    {L : Learner K F} {L' : Learner K F'} (hL : CodeFree n φ L L') (M : Learner K G)
    (p : SParams K C) {st : SState K F G C} {st' : SState K F' G C}
    (hst : CodeStack n φ c L L' M st st') (s : S) {X Xp : Mat K} (hX : X.c = n) (hXp : Xp.c = n)
    (y : List K) (train test : C) :
    CodeCall n φ c L L' M (stackPredictByFit L M p st s X y train Xp test)
      (stackPredictByFit L' M p st' s (recoded φ c X) y train (recoded φ c Xp) test) := by
  unfold stackPredictByFit
  rw [checkXy_code hφ hX]
  split
  swap
  · exact ⟨rfl, rfl, rfl, hst⟩
  have hb := stackBegin_code p hst hX y (some train) none
  simp only [show (recoded φ c X).r = X.r from rfl, show (recoded φ c Xp).r = Xp.r from rfl]
  cases p.weights train train with
  | error e => exact ⟨rfl, rfl, rfl, hb⟩
  | ok W =>
    simp only
    have hw := stackWeights_code false hb (.dense W)
    cases p.weights train test with
    | error e => exact ⟨rfl, rfl, rfl, hw⟩
    | ok T =>
      simp only
      split
      · exact ⟨rfl, rfl, rfl, hw⟩
      have hr := runBase_rel (R := CodeBase n φ L L') (fun i =>
        fitBase_code hφ hL hX (fun i => y.getD i 0) i
          (nonzeroIdx (localDense p.leaveLocalOut W ⟨W.r, W.c, fun _ _ => false⟩).c
            ((localDense p.leaveLocalOut W ⟨W.r, W.c, fun _ _ => false⟩).get i))
          ((nonzeroIdx (localDense p.leaveLocalOut W ⟨W.r, W.c, fun _ _ => false⟩).c
            ((localDense p.leaveLocalOut W ⟨W.r, W.c, fun _ _ => false⟩).get i)).map
            ((localDense p.leaveLocalOut W ⟨W.r, W.c, fun _ _ => false⟩).get i))
          (trueIdx (secondOrderDense (gt0 T).transpose (gt0 T)) i) i) X.r p.storedPatches
      change ERel _ (runBase (baseDense L X (fun i => y.getD i 0)
          (localDense p.leaveLocalOut W ⟨W.r, W.c, fun _ _ => false⟩)
          (secondOrderDense (gt0 T).transpose (gt0 T))) X.r p.storedPatches)
        (runBase (baseDense L' (recoded φ c X) (fun i => y.getD i 0)
          (localDense p.leaveLocalOut W ⟨W.r, W.c, fun _ _ => false⟩)
          (secondOrderDense (gt0 T).transpose (gt0 T))) X.r p.storedPatches) at hr
      revert hr
      generalize runBase (baseDense L X (fun i => y.getD i 0)
          (localDense p.leaveLocalOut W ⟨W.r, W.c, fun _ _ => false⟩)
          (secondOrderDense (gt0 T).transpose (gt0 T))) X.r p.storedPatches = r1
      generalize runBase (baseDense L' (recoded φ c X) (fun i => y.getD i 0)
          (localDense p.leaveLocalOut W ⟨W.r, W.c, fun _ _ => false⟩)
          (secondOrderDense (gt0 T).transpose (gt0 T))) X.r p.storedPatches = r2
      intro hr
      cases r1 with
      | error e =>
        rw [hr.error]
        exact ⟨rfl, rfl, rfl, hw⟩
      | ok res =>
        obtain ⟨res', rfl, hres⟩ := hr.ok
        simp only
        have hw2 : CodeStack n φ c L L' M
            { stackWeights false (stackBegin p st X y (some train) none) (.dense W) with
              wm := { (stackWeights false (stackBegin p st X y (some train) none) (.dense W)).wm with
                ySample := some y } }
            { stackWeights false (stackBegin p st' (recoded φ c X) y (some train) none) (.dense W) with
              wm := { (stackWeights false (stackBegin p st' (recoded φ c X) y (some train) none)
                (.dense W)).wm with ySample := some y } } :=
          { hw with wm := { hw.wm with ySample := rfl } }
        obtain ⟨h1, h2⟩ := stackBase_code st.cacheEstimator hw2 y hres
        rw [hst.cacheEstimator]
        revert h1 h2
        generalize stackBase st.cacheEstimator
            { stackWeights false (stackBegin p st X y (some train) none) (.dense W) with
              wm := { (stackWeights false (stackBegin p st X y (some train) none) (.dense W)).wm with
                ySample := some y } } y res = q1
        generalize stackBase st.cacheEstimator
            { stackWeights false (stackBegin p st' (recoded φ c X) y (some train) none) (.dense W) with
              wm := { (stackWeights false (stackBegin p st' (recoded φ c X) y (some train) none)
                (.dense W)).wm with ySample := some y } } y res' = q2
        intro h1 h2
        rcases q1 with ⟨r1, st1⟩
        rcases q2 with ⟨r1', st1'⟩
        simp only at h1 h2
        subst h1
        cases r1' with
        | error e => exact ⟨rfl, rfl, rfl, h2⟩
        | ok u =>
          simp only
          have ht : ERel (List.Forall₂ (CodeOut n φ (stackLearner L M) (stackLearner L' M)))
              (testStage L M p X.r (fun i => y.getD i 0) Xp T
                (secondOrderDense (gt0 T).transpose (gt0 T)) res)
              (testStage L' M p X.r (fun i => y.getD i 0) (recoded φ c Xp) T
                (secondOrderDense (gt0 T).transpose (gt0 T)) res') := by
            unfold testStage
            rw [metaDense_code hres]
            split
            · rfl
            · refine ERel.mapE fun t _ => ERel.map (solveMeta_code M (codeBase_est hres) _) ?_
              intro a b hab
              rw [recoded_row hφ hXp]
              exact ⟨hab.2.2 _ (by rw [Mat.row_length, hXp]), hab.2.2⟩
          revert ht
          generalize testStage L M p X.r (fun i => y.getD i 0) Xp T
                (secondOrderDense (gt0 T).transpose (gt0 T)) res = t1
          generalize testStage L' M p X.r (fun i => y.getD i 0) (recoded φ c Xp) T
                (secondOrderDense (gt0 T).transpose (gt0 T)) res' = t2
          intro ht
          cases t1 with
          | error e =>
            rw [ht.error]
            exact ⟨rfl, rfl, rfl, h2⟩
          | ok out =>
            obtain ⟨out', rfl, ho⟩ := ht.ok
            refine ⟨by simp only [codeOut_fst ho], rfl, rfl, { h2 with wm := { h2.wm with
              estimators := .some ?_ } }⟩
            rw [List.forall₂_map_left_iff, List.forall₂_map_right_iff]
            exact ho.imp fun a b hab => .some hab.2

end Geo
