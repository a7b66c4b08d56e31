import Verif.Model.Inputs
import Verif.Props.TrainingSets
/-
C169: what may be passed as features, targets and points.
-/
set_option linter.unusedSectionVars false
namespace Geo
variable {K : Type} [Field K] [LinearOrder K] [IsStrictOrderedRing K] [FloorRing K]
variable {F G C S : Type}

/-- The features are the numbers of the table `Z`: as an array, a data frame or a list of lists. -/
inductive Features.Shows : Features K → Mat K → Prop
  | array (A : Mat (Num K)) (Z : Mat K) (hr : Z.r = A.r) (hc : Z.c = A.c)
      (h : ∀ i < A.r, ∀ j < A.c, A.get i j = .fin (Z.get i j)) : Features.Shows (.points (.array A)) Z
  | frame (b : Bool) (A : Mat (Num K)) (Z : Mat K) (hr : Z.r = A.r) (hc : Z.c = A.c)
      (h : ∀ i < A.r, ∀ j < A.c, A.get i j = .fin (Z.get i j)) : Features.Shows (.points (.frame b A)) Z
  | nested (rows : List (List (Num K))) (Z : Mat K) (hr : Z.r = rows.length)
      (hc : ∀ row ∈ rows, row.length = Z.c)
      (h : ∀ i (hi : i < rows.length), ∀ j (hj : j < rows[i].length), rows[i][j] = .fin (Z.get i j)) :
      Features.Shows (.points (.nested rows)) Z

/-- The targets are the numbers `z`: as a list or array, or as a single column. -/
inductive Targets.Shows : Targets K → List K → Prop
  | flat (z : List K) : Targets.Shows (.flat (z.map .fin)) z
  | column (z : List K) : Targets.Shows (.column (z.map .fin)) z

/-- Features and targets that show numbers, at least one observation and one feature, and as many targets
as observations. -/
structure GoodInputs (X : Features K) (y : Targets K) (Z : Mat K) (z : List K) : Prop where
  features : X.Shows Z
  targets : y.Shows z
  rows : 0 < Z.r
  cols : 0 < Z.c
  length : Z.r = z.length

theorem fin_toK {w : Num K} : w = .fin w.toK ↔ ∃ x, w = .fin x := by
  constructor
  · exact fun h => ⟨_, h⟩
  · rintro ⟨x, rfl⟩
    rfl

theorem finiteMat_ok {A : Mat (Num K)} {Z : Mat K} (h : finiteMat A = .ok Z) :
    Z = A.map Num.toK ∧ ∀ i < A.r, ∀ j < A.c, A.get i j = .fin (Z.get i j) := by
  unfold finiteMat at h
  split at h
  · rename_i ha
    injection h with h
    subst h
    refine ⟨rfl, fun i hi j hj => ?_⟩
    have := List.all_eq_true.1 ha (A.get i j) (List.mem_flatten.2 ⟨A.row i,
      List.mem_map.2 ⟨i, List.mem_range.2 hi, rfl⟩, List.mem_map.2 ⟨j, List.mem_range.2 hj, rfl⟩⟩)
    exact of_decide_eq_true this
  · cases h

theorem finiteMat_of {A : Mat (Num K)} (h : ∀ i < A.r, ∀ j < A.c, ∃ x, A.get i j = .fin x) :
    finiteMat A = .ok (A.map Num.toK) := by
  unfold finiteMat
  rw [if_pos]
  rw [List.all_eq_true]
  intro w hw
  obtain ⟨row, hrow, hw⟩ := List.mem_flatten.1 hw
  obtain ⟨i, hi, rfl⟩ := List.mem_map.1 hrow
  obtain ⟨j, hj, rfl⟩ := List.mem_map.1 hw
  exact decide_eq_true (fin_toK.2 (h i (List.mem_range.1 hi) j (List.mem_range.1 hj)))

theorem finiteMat_error {A : Mat (Num K)} {e : Err} (h : finiteMat A = .error e) : e = .valueError := by
  unfold finiteMat at h
  split at h <;> cases h
  rfl

theorem targets_of {v : List (Num K)} (h : v.all fun w => decide (w = .fin w.toK)) :
    v = (v.map Num.toK).map .fin := by
  rw [List.map_map]
  conv_lhs => rw [← List.map_id v]
  apply List.map_congr_left
  intro w hw
  exact of_decide_eq_true (List.all_eq_true.1 h w hw)

theorem targets_fin (z : List K) : ((z.map Num.fin).all fun w => decide (w = .fin w.toK)) = true := by
  rw [List.all_eq_true]
  intro w hw
  obtain ⟨x, -, rfl⟩ := List.mem_map.1 hw
  exact decide_eq_true rfl

theorem targets_back (z : List K) : (z.map Num.fin).map Num.toK = z := by
  rw [List.map_map]
  conv_rhs => rw [← List.map_id z]
  rfl

theorem checkTargets_ok {y : Targets K} {z : List K} (h : checkTargets y = .ok z) : y.Shows z := by
  cases y with
  | missing => cases h
  | wide => cases h
  | flat v =>
    simp only [checkTargets] at h
    split at h
    · rename_i ha
      injection h with h
      subst h
      have := Targets.Shows.flat (v.map Num.toK)
      rwa [← targets_of ha] at this
    · cases h
  | column v =>
    simp only [checkTargets] at h
    split at h
    · rename_i ha
      injection h with h
      subst h
      have := Targets.Shows.column (v.map Num.toK)
      rwa [← targets_of ha] at this
    · cases h

theorem checkTargets_of {y : Targets K} {z : List K} (h : y.Shows z) : checkTargets y = .ok z := by
  cases h with
  | flat => simp only [checkTargets, targets_fin, if_true, targets_back]
  | column => simp only [checkTargets, targets_fin, if_true, targets_back]

theorem checkTargets_error {y : Targets K} {e : Err} (h : checkTargets y = .error e) : e = .valueError := by
  cases y <;> simp only [checkTargets] at h
  · cases h; rfl
  · split at h <;> cases h; rfl
  · split at h <;> cases h; rfl
  · cases h; rfl

theorem checkFeatures_ok {X : Features K} {Z : Mat K} (h : checkFeatures X = .ok Z) : X.Shows Z := by
  cases X with
  | sparse A => cases h
  | deeper => cases h
  | points t =>
    cases t with
    | vector v => cases h
    | array A =>
      obtain ⟨rfl, h2⟩ := finiteMat_ok h
      exact .array A _ rfl rfl h2
    | frame b A =>
      obtain ⟨rfl, h2⟩ := finiteMat_ok h
      exact .frame b A _ rfl rfl h2
    | nested rows =>
      simp only [checkFeatures] at h
      split at h
      · rename_i hr
        obtain ⟨rfl, h2⟩ := finiteMat_ok h
        have hl : ∀ row ∈ rows, row.length = (rows.headD []).length := fun row hm =>
          beq_iff_eq.1 (List.all_eq_true.1 hr.2 row hm)
        refine .nested rows _ rfl hl fun i hi j hj => ?_
        have h3 := h2 i hi j (by
          show j < (rows.headD []).length
          rw [← hl _ (List.getElem_mem hi)]
          exact hj)
        rw [← h3]
        simp [nestedMat, List.getD_eq_getElem?_getD, List.getElem?_eq_getElem hi, List.getElem?_eq_getElem hj]
      · cases h

theorem checkFeatures_of {X : Features K} {Z : Mat K} (h : X.Shows Z) (h0 : 0 < Z.r) :
    ∃ Z', checkFeatures X = .ok Z' ∧ Z'.r = Z.r ∧ Z'.c = Z.c := by
  cases h with
  | array A _ hr hc h => exact ⟨_, finiteMat_of fun i hi j hj => ⟨_, h i hi j hj⟩, hr.symm, hc.symm⟩
  | frame b A _ hr hc h => exact ⟨_, finiteMat_of fun i hi j hj => ⟨_, h i hi j hj⟩, hr.symm, hc.symm⟩
  | nested rows _ hr hc h =>
    have hne : rows ≠ [] := by
      rintro rfl
      simp at hr
      omega
    have hh : (rows.headD []).length = Z.c := by
      cases rows with
      | nil => exact absurd rfl hne
      | cons r rows => exact hc r (by simp)
    refine ⟨(nestedMat rows).map Num.toK, ?_, hr.symm, hh⟩
    · simp only [checkFeatures]
      rw [if_pos ⟨hne, List.all_eq_true.2 fun row hm => beq_iff_eq.2 ((hc row hm).trans hh.symm)⟩]
      refine finiteMat_of fun i hi j hj => ?_
      have hi : i < rows.length := hi
      have hj' : j < rows[i].length := by
        rw [hc _ (List.getElem_mem hi), ← hh]
        exact hj
      refine ⟨Z.get i j, ?_⟩
      · simp only [nestedMat, List.getD_eq_getElem?_getD, List.getElem?_eq_getElem hi,
          Option.getD_some, List.getElem?_eq_getElem hj']
        exact h i hi j hj'

theorem checkFeatures_error {X : Features K} {e : Err} (h : checkFeatures X = .error e) :
    ((∃ A, X = .sparse A) ∧ e = .typeError) ∨ ((∀ A, X ≠ .sparse A) ∧ e = .valueError) := by
  cases X with
  | sparse A => cases h; exact .inl ⟨⟨A, rfl⟩, rfl⟩
  | deeper => cases h; exact .inr ⟨by simp, rfl⟩
  | points t =>
    refine .inr ⟨by simp, ?_⟩
    cases t with
    | vector v => cases h; rfl
    | array A => exact finiteMat_error h
    | frame b A => exact finiteMat_error h
    | nested rows =>
      simp only [checkFeatures] at h
      split at h
      · exact finiteMat_error h
      · cases h; rfl

theorem checkInputs_ok {X : Features K} {y : Targets K} {Z : Mat K} {z : List K}
    (h : checkInputs X y = .ok (Z, z)) : GoodInputs X y Z z := by
  unfold checkInputs at h
  split at h
  · cases h
  · rename_i hy
    split at h
    · cases h
    · rename_i Z' hZ
      split at h
      · cases h
      · rename_i z' hz
        split at h
        · rename_i hc
          cases h
          obtain ⟨h1, h2, h3⟩ := of_decide_eq_true hc
          exact ⟨checkFeatures_ok hZ, checkTargets_ok hz, h2, h3, h1⟩
        · cases h

theorem checkInputs_of {X : Features K} {y : Targets K} {Z : Mat K} {z : List K}
    (h : GoodInputs X y Z z) : ∃ Z', checkInputs X y = .ok (Z', z) := by
  obtain ⟨Z', hZ, hr, hc⟩ := checkFeatures_of h.features h.rows
  have hz := checkTargets_of h.targets
  have hck : checkXy Z' z = true := decide_eq_true ⟨hr.trans h.length, hr.symm ▸ h.rows, hc.symm ▸ h.cols⟩
  refine ⟨Z', ?_⟩
  unfold checkInputs
  split
  · cases hz
  · rw [hZ]
    simp only
    rw [hz]
    simp only
    rw [if_pos hck]

/-- The exception for inputs that are not good. -/
theorem checkInputs_error {X : Features K} {y : Targets K} {e : Err} (h : checkInputs X y = .error e) :
    ((y ≠ .missing ∧ ∃ A, X = .sparse A) ∧ e = .typeError) ∨
    (¬ (y ≠ .missing ∧ ∃ A, X = .sparse A) ∧ e = .valueError) := by
  unfold checkInputs at h
  split at h
  · cases h
    exact .inr ⟨fun hh => hh.1 rfl, rfl⟩
  · rename_i hy
    split at h
    · rename_i e' hZ
      cases h
      rcases checkFeatures_error hZ with ⟨h1, h2⟩ | ⟨h1, h2⟩
      · exact .inl ⟨⟨hy, h1⟩, h2⟩
      · exact .inr ⟨fun hh => by obtain ⟨A, hA⟩ := hh.2; exact h1 A hA, h2⟩
    · rename_i Z' hZ
      have hns : ¬ (y ≠ .missing ∧ ∃ A, X = .sparse A) := by
        rintro ⟨-, A, rfl⟩
        cases hZ
      split at h
      · rename_i e' hz
        cases h
        exact .inr ⟨hns, checkTargets_error hz⟩
      · split at h <;> cases h
        exact .inr ⟨hns, rfl⟩

/-- C169: a weight model can be fitted to numbers in an array or a data frame, with targets in a list, an
array, or a single column: it is the fit to these numbers, whatever the form. -/
theorem C169_fit_accepts (L : Learner K F) (rng : Rng S) (p : WMParams K C) (st : WMState K F C) (s : S)
    (X : Features K) (y : Targets K) (coords : Option C) (W : Option (WMat K))
    (hX : ∀ rows, X ≠ .points (.nested rows)) (h : ∃ Z z, GoodInputs X y Z z) :
    ∃ Z z, GoodInputs X y Z z ∧
      wmFitAny L rng p st s X y coords W = wmFit L rng p st s Z z coords W := by
  obtain ⟨Z, z, h⟩ := h
  obtain ⟨Z', h'⟩ := checkInputs_of h
  refine ⟨Z', z, checkInputs_ok h', ?_⟩
  have hs : X.hasShape = true := by
    cases X with
    | points t => cases t with
      | nested rows => exact absurd rfl (hX rows)
      | _ => rfl
    | _ => rfl
  unfold wmFitAny
  rw [if_pos hs, h']

/-- C169: anything else is refused before anything happens: the object, the caller's weights and the
random generator are as before. Lists of lists raise `AttributeError`, sparse features `TypeError` (if
there are targets), everything else `ValueError`. -/
theorem C169_fit_refuses (L : Learner K F) (rng : Rng S) (p : WMParams K C) (st : WMState K F C) (s : S)
    (X : Features K) (y : Targets K) (coords : Option C) (W : Option (WMat K))
    (h : (∃ rows, X = .points (.nested rows)) ∨ ¬ ∃ Z z, GoodInputs X y Z z) :
    ∃ e, wmFitAny L rng p st s X y coords W = ⟨.error e, st, W, s⟩ ∧
      ((∃ rows, X = .points (.nested rows)) → e = .attributeError) ∧
      ((∃ A, X = .sparse A) → y ≠ .missing → e = .typeError) ∧
      ((∀ rows, X ≠ .points (.nested rows)) → (∀ A, X ≠ .sparse A) ∨ y = .missing → e = .valueError) := by
  by_cases hn : ∃ rows, X = .points (.nested rows)
  · obtain ⟨rows, rfl⟩ := hn
    exact ⟨.attributeError, rfl, fun _ => rfl, (fun ⟨A, hA⟩ => by cases hA), fun hh => absurd rfl (hh rows)⟩
  · have h := h.resolve_left hn
    cases hc : checkInputs X y with
    | ok v => exact absurd ⟨v.1, v.2, checkInputs_ok hc⟩ h
    | error e =>
      have hs : X.hasShape = true := by
        cases X with
        | points t => cases t with
          | nested rows => exact absurd ⟨rows, rfl⟩ hn
          | _ => rfl
        | _ => rfl
      refine ⟨e, ?_, fun hh => absurd hh hn, fun hA hy => ?_, fun _ hh => ?_⟩
      · unfold wmFitAny
        rw [if_pos hs, hc]
      · rcases checkInputs_error hc with h1 | h1
        · exact h1.2
        · exact absurd ⟨hy, hA⟩ h1.1
      · rcases checkInputs_error hc with h1 | h1
        · obtain ⟨⟨hy, A, hA⟩, -⟩ := h1
          rcases hh with hh | hh
          · exact absurd hA (hh A)
          · exact absurd hh hy
        · exact h1.2

/-- C169: missing values and infinities among the features or the targets of a fit: `ValueError`, and
nothing has happened. -/
theorem C169_missing_values (L : Learner K F) (rng : Rng S) (p : WMParams K C) (st : WMState K F C) (s : S)
    (A : Mat (Num K)) (b : Bool) (v : List (Num K)) (coords : Option C) (W : Option (WMat K))
    (h : (∃ i < A.r, ∃ j < A.c, ∀ x, A.get i j ≠ .fin x) ∨ ∃ w ∈ v, ∀ x, w ≠ .fin x) :
    wmFitAny L rng p st s (.points (.array A)) (.flat v) coords W = ⟨.error .valueError, st, W, s⟩ ∧
    wmFitAny L rng p st s (.points (.frame b A)) (.flat v) coords W = ⟨.error .valueError, st, W, s⟩ := by
  have key : ∀ X : Features K, (X = .points (.array A) ∨ X = .points (.frame b A)) →
      wmFitAny L rng p st s X (.flat v) coords W = ⟨.error .valueError, st, W, s⟩ := by
    intro X hX
    have hbad : ¬ ∃ Z z, GoodInputs X (.flat v) Z z := by
      rintro ⟨Z, z, hg⟩
      rcases h with ⟨i, hi, j, hj, hh⟩ | ⟨w, hw, hh⟩
      · have := hg.features
        rcases hX with rfl | rfl
        · cases this with
          | array _ _ _ _ h => exact hh _ (h i hi j hj)
        · cases this with
          | frame _ _ _ _ _ h => exact hh _ (h i hi j hj)
      · cases hg.targets with
        | flat =>
          obtain ⟨x, -, rfl⟩ := List.mem_map.1 hw
          exact hh x rfl
    obtain ⟨e, h1, -, -, h2⟩ := C169_fit_refuses L rng p st s X (.flat v) coords W (.inr hbad)
    rw [h1, h2 (by rcases hX with rfl | rfl <;> simp) (.inl (by rcases hX with rfl | rfl <;> simp))]
  exact ⟨key _ (.inl rfl), key _ (.inr rfl)⟩

/-- C169: a stacking model also takes lists of lists. -/
theorem C169_stacking_accepts (L : Learner K F) (M Mn : Learner K G) (rng : Rng S) (p : SParams K C)
    (st : SState K F G C) (s : S) (X : Features K) (y : Targets K) (coords : Option C)
    (W : Option (WMat K)) (h : ∃ Z z, GoodInputs X y Z z) :
    ∃ Z z, GoodInputs X y Z z ∧
      stackFitAny L M Mn rng p st s X y coords W = stackFit L M Mn rng p st s Z z coords W := by
  obtain ⟨Z, z, h⟩ := h
  obtain ⟨Z', h'⟩ := checkInputs_of h
  refine ⟨Z', z, checkInputs_ok h', ?_⟩
  unfold stackFitAny
  rw [h']

/-- C169: and refuses everything else before anything happens. -/
theorem C169_stacking_refuses (L : Learner K F) (M Mn : Learner K G) (rng : Rng S) (p : SParams K C)
    (st : SState K F G C) (s : S) (X : Features K) (y : Targets K) (coords : Option C)
    (W : Option (WMat K)) (h : ¬ ∃ Z z, GoodInputs X y Z z) :
    stackFitAny L M Mn rng p st s X y coords W = ⟨.error .typeError, st, W, s⟩ ∧
      (y ≠ .missing ∧ ∃ A, X = .sparse A) ∨
    stackFitAny L M Mn rng p st s X y coords W = ⟨.error .valueError, st, W, s⟩ ∧
      ¬ (y ≠ .missing ∧ ∃ A, X = .sparse A) := by
  cases hc : checkInputs X y with
  | ok v => exact absurd ⟨v.1, v.2, checkInputs_ok hc⟩ h
  | error e =>
    have e1 : stackFitAny L M Mn rng p st s X y coords W = ⟨.error e, st, W, s⟩ := by
      unfold stackFitAny
      rw [hc]
    rw [e1]
    rcases checkInputs_error hc with ⟨h1, rfl⟩ | ⟨h1, rfl⟩
    · exact .inl ⟨rfl, h1⟩
    · exact .inr ⟨rfl, h1⟩

/-- C169: the same numbers as an array, a data frame, or (for a stacking model) a list of lists, and the
targets flat or as a column, give the same fit. -/
theorem C169_form_irrelevant (L : Learner K F) (M Mn : Learner K G) (rng : Rng S) (p : WMParams K C)
    (q : SParams K C) (st : WMState K F C) (sst : SState K F G C) (s : S) (b : Bool) (A : Mat (Num K))
    (v : List (Num K)) (coords : Option C) (W : Option (WMat K)) :
    wmFitAny L rng p st s (.points (.frame b A)) (.column v) coords W =
      wmFitAny L rng p st s (.points (.array A)) (.flat v) coords W ∧
    stackFitAny L M Mn rng q sst s (.points (.frame b A)) (.column v) coords W =
      stackFitAny L M Mn rng q sst s (.points (.array A)) (.flat v) coords W ∧
    ∀ rows : List (List (Num K)), rows ≠ [] → (∀ row ∈ rows, row.length = A.c) → rows.length = A.r →
      (∀ i j, A.get i j = (rows.getD i []).getD j .nan) →
      stackFitAny L M Mn rng q sst s (.points (.nested rows)) (.flat v) coords W =
        stackFitAny L M Mn rng q sst s (.points (.array A)) (.flat v) coords W := by
  refine ⟨rfl, rfl, fun rows hne hc hr hA => ?_⟩
  have hh : (rows.headD []).length = A.c := by
    cases rows with
    | nil => exact absurd rfl hne
    | cons r rows => exact hc r (by simp)
  have e : nestedMat rows = A := by
    obtain ⟨r, c, g⟩ := A
    simp only [nestedMat, Mat.mk.injEq]
    exact ⟨hr, hh, by funext i j; exact (hA i j).symm⟩
  have : checkFeatures (.points (.nested rows)) = checkFeatures (.points (.array A)) := by
    simp only [checkFeatures]
    rw [if_pos ⟨hne, List.all_eq_true.2 fun row hm => beq_iff_eq.2 ((hc row hm).trans hh.symm)⟩, e]
  unfold stackFitAny checkInputs
  simp only [this]

/-! ### Points to predict at -/

/-- C169: `predict_by_fit` checks nothing: an array is taken row by row; a one-dimensional array, which
`fit` refuses, is taken as points with one feature; a list of lists and a data frame raise as soon as
there is something to predict. -/
theorem C169_predict_by_fit (L : Learner K F) (p : WMParams K C) (st : WMState K F C)
    (coords : Option C) (W : Option (Mat K)) :
    (∀ X, predictByFitAny L p st (.array X) coords W = predictByFit L p st X coords W) ∧
    (∀ v, predictByFitAny L p st (.vector v) coords W =
      predictByFit L p st ⟨v.length, 1, fun i _ => v.getD i 0⟩ coords W) ∧
    (∀ rows, ∃ e, predictByFitAny L p st (.nested rows) coords W = .error e) ∧
    (∀ b X, (∀ V, predictFitWeights p coords st.coords W = .ok V → 0 < V.r) →
      ∃ e, predictByFitAny L p st (.frame b X) coords W = .error e) := by
  have key : ∀ (t : Points K) (X : Mat K), (∀ n, fitPoints n t = .ok X) →
      predictByFitAny L p st t coords W = predictByFit L p st X coords W := by
    intro t X h
    unfold predictByFitAny predictByFit
    by_cases hp : (!p.cacheData) = true
    · rw [if_pos hp, if_pos hp]
    · rw [if_neg hp, if_neg hp]
      cases hg : guard coords W with
      | error e => rfl
      | ok u =>
        cases hw : predictFitWeights p coords st.coords W with
        | error e => rfl
        | ok V =>
          simp only
          rw [h V.r]
          simp only
          rw [if_neg hp]
  refine ⟨fun X => key _ X fun _ => rfl, fun v => key _ _ fun _ => rfl, fun rows => ?_, fun b X hV => ?_⟩
  · unfold predictByFitAny
    split
    · exact ⟨_, rfl⟩
    · split
      · exact ⟨_, rfl⟩
      · split
        · exact ⟨_, rfl⟩
        · exact ⟨_, rfl⟩
  · unfold predictByFitAny
    split
    · exact ⟨_, rfl⟩
    · split
      · exact ⟨_, rfl⟩
      · split
        · exact ⟨_, rfl⟩
        · rename_i V hw
          have h0 : V.r ≠ 0 := (hV V hw).ne'
          simp only [fitPoints, if_neg h0]
          by_cases hX : X.r = 0
          · simp only [if_pos hX]
            exact ⟨_, rfl⟩
          · simp only [if_neg hX]
            exact ⟨_, rfl⟩

theorem weightedSum_congr {W P Q : Mat K} (hr : P.r = Q.r) (hc : P.c = Q.c) (h0 : 0 < P.c)
    (h : ∀ j, ∀ i < P.c, P.get j i = Q.get j i) : weightedSum W P = weightedSum W Q := by
  unfold weightedSum
  rw [← hr, ← hc]
  cases hb : bcast W.r P.c with
  | error e => rfl
  | ok n =>
    cases hk : bcast W.c P.r with
    | error e => rfl
    | ok k =>
      simp only
      congr 1
      apply List.map_congr_left
      intro i hi
      congr 1
      apply List.map_congr_left
      intro j _
      congr 1
      apply h
      by_cases h1 : P.c = 1
      · rw [if_pos h1]
        exact h0
      · rw [if_neg h1]
        have hi := List.mem_range.1 hi
        unfold bcast at hb
        split at hb
        · rename_i e
          cases hb
          omega
        · split at hb
          · cases hb
            exact hi
          · cases hb

/-- C169: `predict_by_weight` leaves the check to the regressors: arrays, data frames and lists of lists
with the same numbers give the same predictions; a one-dimensional array raises. -/
theorem C169_predict_by_weight (L : Learner K F) (p : WMParams K C) (st : WMState K F C)
    (coords : Option C) (W : Option (Mat K)) :
    (∀ X, 0 < X.r → 0 < X.c →
      predictByWeightAny L p st (.array X) coords W = predictByWeight L p st X coords W) ∧
    (∀ b X, 0 < X.r → 0 < X.c →
      predictByWeightAny L p st (.frame b X) coords W = predictByWeight L p st X coords W) ∧
    (∀ X, 0 < X.r → 0 < X.c →
      predictByWeightAny L p st (.nested X.toLists) coords W = predictByWeight L p st X coords W) ∧
    (∀ v, ∃ e, predictByWeightAny L p st (.vector v) coords W = .error e) := by
  have key : ∀ (t : Points K) (X : Mat K), predictPoints t = .ok X →
      predictByWeightAny L p st t coords W = predictByWeight L p st X coords W := by
    intro t X h
    unfold predictByWeightAny predictByWeight
    by_cases hp : (!p.cacheData || !p.cacheEstimator) = true
    · rw [if_pos hp, if_pos hp]
    · rw [if_neg hp, if_neg hp]
      cases hg : guard coords W with
      | error e => rfl
      | ok u =>
        cases hs : storedEstimators st with
        | error e => rfl
        | ok ests =>
          simp only
          cases hu : unzipNonempty ests with
          | error e =>
            show Except.error e = (unzipNonempty ests >>= _)
            rw [hu]
            rfl
          | ok es =>
            simp only
            rw [h]
            simp only
            rw [if_neg hp]
  refine ⟨fun X hr hc => key _ X ?_, fun b X hr hc => key _ X ?_, fun X hr hc => ?_, fun v => ?_⟩
  · simp only [predictPoints]
    rw [if_neg (by omega)]
  · simp only [predictPoints]
    rw [if_neg (by omega)]
  · have hl : X.toLists.length = X.r := by simp [Mat.toLists]
    have hne : X.toLists ≠ [] := by
      intro h
      rw [h] at hl
      simp at hl
      omega
    have hrow : ∀ row ∈ X.toLists, row.length = X.c := by
      intro row hm
      obtain ⟨i, -, rfl⟩ := List.mem_map.1 hm
      simp [Mat.row]
    have hh : (X.toLists.headD []).length = X.c := by
      cases hX : X.toLists with
      | nil => exact absurd hX hne
      | cons r rows => exact hrow r (by rw [hX]; simp)
    have hp : predictPoints (.nested X.toLists) = .ok ⟨X.r, X.c, fun i j => (X.toLists.getD i []).getD j 0⟩ := by
      simp only [predictPoints]
      rw [if_pos ⟨hne, List.all_eq_true.2 fun row hm => beq_iff_eq.2 ((hrow row hm).trans hh.symm), by omega⟩, hl, hh]
    rw [key _ _ hp]
    have hrows : ∀ i < X.r, Mat.row (⟨X.r, X.c, fun i j => (X.toLists.getD i []).getD j 0⟩ : Mat K) i = X.row i := by
      intro i hi
      simp only [Mat.row]
      apply List.map_congr_left
      intro j hj
      have hj := List.mem_range.1 hj
      simp [Mat.toLists, Mat.row, List.getD_eq_getElem?_getD, hi, hj]
    unfold predictByWeight
    split
    · rfl
    · cases hg : guard coords W with
      | error e => rfl
      | ok u =>
        cases hs : storedEstimators st with
        | error e => rfl
        | ok ests =>
          show (unzipNonempty ests >>= _) = (unzipNonempty ests >>= _)
          cases hu : unzipNonempty ests with
          | error e => rfl
          | ok es =>
            show (predictWeights p coords st.coords W >>= _) = (predictWeights p coords st.coords W >>= _)
            cases hw : predictWeights p coords st.coords W with
            | error e => rfl
            | ok V =>
              exact weightedSum_congr rfl rfl hr fun j i hi => by
                simp only [estimatorTable]
                rw [hrows i hi]
  · unfold predictByWeightAny
    split
    · exact ⟨_, rfl⟩
    · split
      · exact ⟨_, rfl⟩
      · split
        · exact ⟨_, rfl⟩
        · split
          · exact ⟨_, rfl⟩
          · exact ⟨_, rfl⟩

/-! ### Examples -/

def inA : Mat (Num ℚ) := ⟨3, 1, fun i _ => .fin i⟩
def inW : Option (WMat ℚ) := some (.dense ⟨3, 3, fun _ _ => 1⟩)
def inP : WMParams ℚ Unit := { weights := fun _ _ => .error .exception }

/-- The same numbers are taken as an array and as a frame; a list of lists is not, nor is a single
missing value. -/
example : GoodInputs (.points (.array inA)) (.column [.fin 1, .fin 2, .fin 4])
      ⟨3, 1, fun i _ => (i : ℚ)⟩ [1, 2, 4] ∧
    (wmFitAny meanLearner rotRng inP {} 0 (.points (.array inA)) (.flat [.fin 1, .fin 2, .fin 4]) none inW).result
      = .ok () ∧
    (wmFitAny meanLearner rotRng inP {} 0 (.points (.nested [[.fin 0], [.fin 1], [.fin 2]]))
      (.flat [.fin 1, .fin 2, .fin 4]) none inW).result = .error .attributeError ∧
    (wmFitAny meanLearner rotRng inP {} 0 (.points (.array inA)) (.flat [.fin 1, .nan, .fin 4]) none inW).result
      = .error .valueError := by
  refine ⟨⟨.array _ _ rfl rfl fun _ _ _ _ => rfl, .column [1, 2, 4], by decide, by decide, rfl⟩, ?_, ?_, ?_⟩ <;>
    decide +kernel

/-- A vector of points is one feature to `predict_by_fit`. -/
example : (predictByFitAny meanLearner { inP with cacheData := true }
      (wmFit meanLearner rotRng { inP with cacheData := true } {} 0 ⟨3, 1, fun i _ => i⟩ [1, 2, 6] (some ()) inW).state
      (.vector [5, 6]) (some ()) (some ⟨2, 3, fun i j => if i = j then 0 else 1⟩)).toOption.isSome = true ∧
    predictByFitAny meanLearner { inP with cacheData := true }
      (wmFit meanLearner rotRng { inP with cacheData := true } {} 0 ⟨3, 1, fun i _ => i⟩ [1, 2, 6] (some ()) inW).state
      (.frame false ⟨2, 1, fun i _ => i⟩) (some ()) (some ⟨2, 3, fun i j => if i = j then 0 else 1⟩) =
        .error .keyError := by
  refine ⟨?_, ?_⟩ <;> decide +kernel

end Geo
