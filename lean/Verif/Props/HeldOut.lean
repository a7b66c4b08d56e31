import Verif.Model.HeldOut
import Verif.Props.Repeats
import Verif.Props.GlobalLimit
import Verif.Props.StackingMore
import Verif.Props.Refresh
import Verif.Props.Refit
import Verif.Props.WeightModelAttrs

namespace Geo
set_option linter.unusedSectionVars false
variable {K : Type} [Field K] [LinearOrder K] [IsStrictOrderedRing K] [FloorRing K]
variable {F G C S : Type}

theorem keptRows_others {n i : Nat} (hi : i < n) : keptRows n i = othersOf n i := by
  have e : List.range n = List.range i ++ i :: (List.range n).drop (i + 1) := by
    conv_lhs => rw [← List.take_append_drop i (List.range n)]
    congr 1
    · rw [List.take_range, Nat.min_eq_left hi.le]
    · rw [List.drop_eq_getElem_cons (by simpa using hi)]; simp
  unfold keptRows othersOf
  conv_rhs => rw [e]
  rw [List.filter_append, List.filter_cons, if_neg (by simp)]
  congr 1
  · rw [List.filter_eq_self.2]
    intro a ha
    have := List.mem_range.1 ha
    simp; omega
  · rw [List.filter_eq_self.2]
    intro a ha
    obtain ⟨k, hk, rfl⟩ := List.getElem_of_mem ha
    simp; omega

/-- The features of a row with the coordinates of its point behind them. -/
def featuresAndPlace (X points : Mat K) (i : Nat) : List K := X.row i ++ points.row i

theorem besideCols_row {X P Z : Mat K} (h : besideCols X P = .ok Z) :
    X.r = P.r ∧ Z.r = X.r ∧ ∀ i, Z.row i = featuresAndPlace X P i := by
  unfold besideCols at h
  split at h
  · cases h
  rename_i hr
  cases h
  refine ⟨not_not.1 hr, rfl, fun i => ?_⟩
  unfold featuresAndPlace Mat.row
  rw [List.range_add, List.map_append, List.map_map]
  congr 1
  · apply List.map_congr_left
    intro j hj
    simp [List.mem_range.1 hj]
  · apply List.map_congr_left
    intro j _
    simp

theorem r2Column_spec {ys ps : List K} {v : Option K} (h : r2Column ys ps = .ok v) :
    ys.length = ps.length ∧ 0 < ps.length ∧ (2 ≤ ps.length →
      v = some (R2Of ys.length (fun k => ys.getD k 0) fun k => ps.getD k 0)) := by
  unfold r2Column at h
  split at h
  · cases h
  rename_i hn
  have hn' : ys.length = ps.length ∧ ps.length ≠ 0 := by
    constructor
    · by_contra hc; exact hn (.inl hc)
    · intro hc; exact hn (.inr hc)
  refine ⟨hn'.1, Nat.pos_of_ne_zero hn'.2, fun h2 => ?_⟩
  rw [if_neg (by omega)] at h
  cases hs : skR2 ys ps with
  | error e => rw [hs] at h; cases h
  | ok w =>
    rw [hs] at h
    cases h
    rw [skR2_lists hs]

/-- C124: the record of `fit_llocv_models` is the score of leave-one-out cross-validation. With at
least two rows, the prediction for a row comes from a regressor fitted to the other rows, features
and coordinates, without weights; the score is the coefficient of determination of these
predictions. -/
theorem C124_score (L : Learner K F) (X points : Mat K) (y : List K) (d : Record K)
    (h : fitLlocvModels L X points y = .ok d) :
    2 ≤ X.r ∧ y.length = X.r ∧ ∃ ps : Nat → K,
      d.find "n_estimators" = some (.num 500) ∧
      d.find "score" = some (.num (R2Of X.r (fun k => y.getD k 0) ps)) ∧
      ∀ i < X.r, ∃ f, L.fit 0 ((othersOf X.r i).map (featuresAndPlace X points))
          ((othersOf X.r i).map fun j => y.getD j 0) ((othersOf X.r i).map fun _ => 1) = .ok f ∧
        ps i = L.predict f (featuresAndPlace X points i) := by
  unfold fitLlocvModels at h
  cases hb : besideCols X points with
  | error e => rw [hb] at h; cases h
  | ok Z =>
    rw [hb] at h
    obtain ⟨-, hZr, hrow⟩ := besideCols_row hb
    have hrow' : Z.row = featuresAndPlace X points := funext hrow
    cases hp : leaveOneOutPredicts L Z y with
    | error e => simp only [hp] at h; cases h
    | ok ps =>
      simp only [hp] at h
      cases hv : r2Column y ps with
      | error e => rw [hv] at h; cases h
      | ok v =>
        rw [hv] at h
        cases h
        unfold leaveOneOutPredicts at hp
        split at hp
        · cases hp
        rename_i h1
        split at hp
        · cases hp
        obtain ⟨hl, hi⟩ := mapE_range hp
        obtain ⟨hyl, -, hsc⟩ := r2Column_spec hv
        have h2 : 2 ≤ X.r := by omega
        rw [hsc (by omega)]
        refine ⟨h2, by omega, fun k => ps.getD k 0, by rfl, ?_, ?_⟩
        · have : y.length = X.r := by omega
          rw [← this]
          rfl
        · intro i hix
          obtain ⟨b, hb1, hb2⟩ := hi i (by omega)
          rw [keptRows_others (by omega), hrow', hZr] at hb2
          cases hf : L.fit 0 ((othersOf X.r i).map (featuresAndPlace X points))
              ((othersOf X.r i).map fun j => y.getD j 0) ((othersOf X.r i).map fun _ => 1) with
          | error e => rw [hf] at hb2; cases hb2
          | ok f =>
            rw [hf] at hb2
            have hb2 := Except.ok.inj hb2
            refine ⟨f, rfl, ?_⟩
            simp only [List.getD_eq_getElem?_getD, hb1, Option.getD_some]
            exact hb2.symm

/-- C124: fewer than two rows, or a number of targets other than the number of rows, raise. -/
theorem C124_too_few (L : Learner K F) (X points : Mat K) (y : List K)
    (h : X.r < 2 ∨ y.length ≠ X.r ∨ points.r ≠ X.r) : ∃ e, fitLlocvModels L X points y = .error e := by
  cases hd : fitLlocvModels L X points y with
  | error e => exact ⟨e, rfl⟩
  | ok d =>
    exfalso
    obtain ⟨h1, h2, -⟩ := C124_score L X points y d hd
    rcases h with h | h | h
    · omega
    · exact h h2
    · unfold fitLlocvModels at hd
      cases hb : besideCols X points with
      | error e => rw [hb] at hd; cases hd
      | ok Z => exact h (besideCols_row hb).1.symm

/-- C124: with equal positive weights, `llocv_score_` of a `WeightModel` that leaves out the location
is the leave-one-out score of its regressor, provided the regressor ignores the scale of weights. -/
theorem C124_weight_model (L : Learner K F) (hclone : ∀ e e', L.fit e = L.fit e')
    (hscale : ScaleFree L) (rng : Rng S) (hrng : rng.Valid) (p : WMParams K C) (hrate : p.sampleRate = none)
    (hlo : p.leaveLocalOut = true) (st : WMState K F C) (s : S) (X points Z : Mat K) (y : List K)
    (hZ : besideCols X points = .ok Z) (coords : Option C) (W : Option (WMat K))
    (hok : (wmFit L rng p st s Z y coords W).result = .ok ())
    {D : Mat K} (hD : chosenWeights p coords W = .ok (.dense D))
    (w : K) (hw0 : 0 < w) (hw : ∀ i < X.r, ∀ j < D.c, D.get i j = w) :
    ∃ d v, fitLlocvModels L X points y = .ok d ∧ d.find "score" = some (.num v) ∧
      (wmFit L rng p st s Z y coords W).state.score = some v := by
  obtain ⟨-, hZr, -⟩ := besideCols_row hZ
  obtain ⟨W0, idx0, s', res, sc, hck, hW0, hs, hf, hl, hl2, hsc, hout⟩ := wmFit_ok hok
  rw [hrate] at hs
  have hidx := sampleLocations_all hs
  have h1 : (wmFit L rng p st s Z y coords W).state.localIndices = some idx0 := by rw [hout]
  have h2 : (wmFit L rng p st s Z y coords W).state.localPredict = some (res.map Prod.fst) := by
    rw [hout]
  have h3 : (wmFit L rng p st s Z y coords W).state.score = some sc := by rw [hout]
  have hlen : res.length = Z.r := by rw [hl, hidx]; simp
  have hyl : Z.r = y.length := by
    unfold checkXy at hck
    exact (of_decide_eq_true hck).1
  have h2r : 2 ≤ Z.r := by rw [hidx] at hl2; simpa using hl2
  have hy : idx0.map (yfun y) = y := by
    rw [hidx, hyl]
    apply List.ext_getElem (by simp)
    intro i h1 h2
    simp [yfun, h2]
  rw [hy] at hsc
  have hloo : leaveOneOutPredicts L Z y = .ok (res.map Prod.fst) := by
    unfold leaveOneOutPredicts
    rw [if_neg (by omega), if_neg (by omega), mapE_ok_iff, List.forall₂_iff_get]
    refine ⟨by simp [hlen], fun i hi hi' => ?_⟩
    have hi : i < Z.r := by simpa using hi
    obtain ⟨f, -, hf1, hf2⟩ := C97_leave_one_out L hclone rng hrng p
      (fun r hr => by rw [hrate] at hr; cases hr) (.inr hrate) hlo st s Z y coords W hok hD h1 w hw0
      (by rw [hZr]; exact hw) i i (by rw [hidx]; simp [hi])
    rw [h2] at hf2
    have hr : i < res.length := by omega
    simp only [List.get_eq_getElem, List.getElem_range, List.getElem_map]
    rw [keptRows_others hi, hf1 hscale]
    simp [hr] at hf2
    simp [Except.map, hf2]
  refine ⟨Record.puts [] [("n_estimators", .num 500), ("score", scoreVal (some sc))], sc, ?_, ?_, h3⟩
  · unfold fitLlocvModels
    simp only [hZ, hloo, r2Column]
    rw [if_neg (by simp only [List.length_map]; omega), if_neg (by simp only [List.length_map]; omega), hsc]
    rfl
  · rfl


/-! ### A second sample -/

theorem wmFit_any_rng {L : Learner K F} {rng : Rng S} {p : WMParams K C} (hrate : p.sampleRate = none)
    (st : WMState K F C) (s s' : S) (X : Mat K) (y : List K) (coords : Option C)
    (W : Option (WMat K)) :
    (wmFit L rng p st s X y coords W).result = (wmFit L rng p st s' X y coords W).result ∧
    (wmFit L rng p st s X y coords W).state = (wmFit L rng p st s' X y coords W).state := by
  unfold wmFit
  split
  · cases chosenWeights p coords W with
    | error e => exact ⟨rfl, rfl⟩
    | ok W0 =>
      simp only [fitWith, hrate, sampleLocations]
      split <;> exact ⟨rfl, rfl⟩
  · exact ⟨rfl, rfl⟩

theorem wmFit_score_again {L : Learner K F} {rng : Rng S} {p : WMParams K C}
    (hrate : p.sampleRate = none) {st st' : WMState K F C} {s s' : S} {X : Mat K} {y : List K}
    {coords : Option C} {W : Option (WMat K)}
    (h : (wmFit L rng p st s X y coords W).result = .ok ()) :
    (wmFit L rng p st' s' X y coords W).result = .ok () ∧
    (wmFit L rng p st s X y coords W).state.score =
      (wmFit L rng p st' s' X y coords W).state.score := by
  have e := wmFit_any_rng (L := L) (rng := rng) hrate st s s' X y coords W
  rw [e.1] at h
  obtain ⟨h1, -, -, h2⟩ := C116_refit L rng p st s' X y coords W
  obtain ⟨h3, -, -, h4⟩ := C116_refit L rng p st' s' X y coords W
  rw [e.2, h2 h, h4 (by rw [h3, ← h1]; exact h)]
  exact ⟨by rw [h3, ← h1]; exact h, rfl⟩

theorem wmHeldOut_ok {L : Learner K F} {rng : Rng S} {p : WMParams K C} {X : Mat K}
    {y : List K} {pts : C} {Xt : Mat K} {yt : List K} {ptst : C} {s s' : S} {h : HeldOut K}
    (ho : wmHeldOut L rng p X y pts Xt yt ptst s = (.ok h, s')) :
    ∃ ps v s1, let a := wmFit L rng p {} s X y (some pts) none
      a.result = .ok () ∧ predictByFit L p a.state Xt (some ptst) none = .ok ps ∧
      skR2 yt ps = .ok v ∧ (wmFit L rng p a.state s1 Xt yt (some ptst) none).result = .ok () ∧
      h = ⟨[a.state.score], some v, [(wmFit L rng p a.state s1 Xt yt (some ptst) none).state.score]⟩ := by
  unfold wmHeldOut at ho
  simp only at ho
  split at ho
  · cases ho
  rename_i h1
  split at ho
  · cases ho
  rename_i ps h2
  split at ho
  · cases ho
  rename_i v h3
  split at ho
  · cases ho
  rename_i h4
  cases ho
  exact ⟨ps, v, _, h1, h2, h3, h4, rfl⟩

theorem stackHeldOut_ok {L : Learner K F} {M Mn : Learner K G} {rng : Rng S} {p : SParams K C}
    {X : Mat K} {y : List K} {pts : C} {Xt : Mat K} {yt : List K} {ptst : C} {s s' : S} {h : HeldOut K}
    (ho : stackHeldOut L M Mn rng p X y pts Xt yt ptst s = (.ok h, s')) :
    ∃ ps v s1 st1, let a := stackFit L M Mn rng p {} s X y (some pts) none
      a.result = .ok () ∧ (stackPredictByFit L M p a.state a.rng X y pts Xt ptst).result = .ok ps ∧
      r2Column yt ps = .ok v ∧ (stackFit L M Mn rng p st1 s1 Xt yt (some ptst) none).result = .ok () ∧
      h = ⟨[a.state.wm.score, a.state.stackScore], v,
        [(stackFit L M Mn rng p st1 s1 Xt yt (some ptst) none).state.wm.score,
          (stackFit L M Mn rng p st1 s1 Xt yt (some ptst) none).state.stackScore]⟩ := by
  unfold stackHeldOut at ho
  simp only at ho
  split at ho
  · cases ho
  rename_i h1
  split at ho
  · cases ho
  rename_i ps h2
  split at ho
  · cases ho
  rename_i v h3
  split at ho
  · cases ho
  rename_i h4
  cases ho
  exact ⟨ps, v, _, _, h1, h2, h3, h4, rfl⟩

/-- C125: what is printed for a local model. The score of the predictions is the coefficient of
determination of what `predict_by_fit` yields for the second sample after a fit to the first. The
score of the fit to the second sample is the one of a new object. -/
theorem C125_local (L : Learner K F) (rng : Rng S) (p : WMParams K C) (hrate : p.sampleRate = none)
    (X : Mat K) (y : List K) (pts : C) (Xt : Mat K) (yt : List K) (ptst : C) (s s' : S)
    (h : HeldOut K) (ho : wmHeldOut L rng p X y pts Xt yt ptst s = (.ok h, s')) (t : S) :
    let a := wmFit L rng p {} t X y (some pts) none
    let c := wmFit L rng p {} t Xt yt (some ptst) none
    a.result = .ok () ∧ c.result = .ok () ∧ h.recorded = [a.state.score] ∧
    h.refit = [c.state.score] ∧
    ∃ ps, predictByFit L p a.state Xt (some ptst) none = .ok ps ∧ ps.length = yt.length ∧
      h.prediction = some (R2Of yt.length (fun k => yt.getD k 0) fun k => ps.getD k 0) := by
  obtain ⟨ps, v, s1, h1, h2, h3, h4, rfl⟩ := wmHeldOut_ok ho
  have e := wmFit_any_rng (L := L) (rng := rng) hrate {} s t X y (some pts) none
  have f := wmFit_score_again (st' := {}) (s' := t) hrate h4
  refine ⟨e.1 ▸ h1, f.1, by rw [e.2], by rw [f.2], ps, e.2 ▸ h2, (skR2_ok h3).1.symm, ?_⟩
  rw [skR2_lists h3]

/-- C125: what is printed for a stacking model, in the same way. -/
theorem C125_stacking (L : Learner K F) (M Mn : Learner K G) (rng : Rng S) (p : SParams K C)
    (X : Mat K) (y : List K) (pts : C) (Xt : Mat K) (yt : List K) (ptst : C) (s s' : S)
    (h : HeldOut K) (ho : stackHeldOut L M Mn rng p X y pts Xt yt ptst s = (.ok h, s')) (t : S) :
    let a := stackFit L M Mn rng p {} t X y (some pts) none
    let c := stackFit L M Mn rng p {} t Xt yt (some ptst) none
    a.result = .ok () ∧ c.result = .ok () ∧ h.recorded = [a.state.wm.score, a.state.stackScore] ∧
    h.refit = [c.state.wm.score, c.state.stackScore] ∧
    ∃ ps, (stackPredictByFit L M p {} t X y pts Xt ptst).result = .ok ps ∧ ps.length = yt.length ∧
      (2 ≤ yt.length →
        h.prediction = some (R2Of yt.length (fun k => yt.getD k 0) fun k => ps.getD k 0)) := by
  obtain ⟨ps, v, s1, st1, h1, h2, h3, h4, rfl⟩ := stackHeldOut_ok ho
  obtain ⟨ha, -, hA⟩ := C116_stacking L M Mn rng p {} {} s t X y (some pts) none
  obtain ⟨hc, -, hC⟩ := C116_stacking L M Mn rng p st1 {} s1 t Xt yt (some ptst) none
  have hA := (hA h1).2.2
  have hC := (hC h4).2.2
  obtain ⟨hl, -, hv⟩ := r2Column_spec h3
  refine ⟨ha ▸ h1, hc ▸ h4, by rw [hA.score, hA.stackScore], by rw [hC.score, hC.stackScore], ps, ?_,
    hl.symm, fun h => hv (by omega)⟩
  rw [← h2]
  unfold stackPredictByFit
  split
  swap
  · rfl
  cases p.weights pts pts with
  | error e => rfl
  | ok W =>
    cases p.weights pts ptst with
    | error e => rfl
    | ok T =>
      simp only
      split
      · rfl
      split
      · rfl
      · rename_i res _
        simp only [stackBase]
        cases r2Column y (res.map BaseOut.pred) with
        | error e => rfl
        | ok sc =>
          simp only
          cases testStage L M p X.r (fun i => y.getD i 0) Xt T
            (secondOrderDense (gt0 T).transpose (gt0 T)) res <;> rfl


theorem Record.find_puts (l : List (String × JVal K)) (d : Record K) (k : String) :
    (d.puts l).find k = (l.reverse.lookup k).or (d.find k) := by
  induction l generalizing d with
  | nil => rfl
  | cons a l ih =>
    have : d.puts (a :: l) = (d.put a.1 a.2).puts l := rfl
    rw [this, ih, Record.find_put, List.reverse_cons, List.lookup_append, Option.or_assoc]
    congr 1
    obtain ⟨q, v⟩ := a
    by_cases h : k = q
    · subst h; simp [List.lookup]
    · have : (k == q) = false := by simpa using h
      simp [List.lookup, h, this]

theorem contests_cons {c : Contest K S} {cs : List (Contest K S)} {times : List K} {d d' : Record K}
    {s s' : S} (h : contests (c :: cs) times d s = (.ok d', s')) :
    ∃ sc s1, c.fit s = (.ok sc, s1) ∧ contests cs times.tail
      (d.puts ((c.names.zip (sc.map scoreVal)) ++ [(c.timeName, .num (times.headD 0))])) s1 =
        (.ok d', s') := by
  rw [contests] at h
  rcases hq : c.fit s with ⟨e | sc, s1⟩
  · rw [hq] at h; cases h
  · rw [hq] at h
    exact ⟨sc, s1, rfl, h⟩

theorem heldOutContest_fit {names : List String × String} {run : S → Except Err (HeldOut K) × S}
    {s s' : S} {sc : List (Option K)} (h : (heldOutContest names run).fit s = (.ok sc, s')) :
    ∃ o, run s = (.ok o, s') ∧ sc = o.recorded := by
  unfold heldOutContest at h
  simp only at h
  rcases hq : run s with ⟨e | o, s1⟩
  · rw [hq] at h; cases h
  · rw [hq] at h; cases h; exact ⟨o, rfl, rfl⟩

/-- The recorded scores of a regressor fitted to all rows: what the script asks the regressor fitted
to the first sample for. -/
theorem plainHeldOut_ok {L : Learner K F} {own : F → Mat K → List K → Except Err (Option K)}
    {X : Mat K} {y : List K} {Xt : Mat K} {yt : List K} {h : HeldOut K}
    (ho : plainHeldOut L own X y Xt yt = .ok h) :
    ∃ f r, fitPlain L X y = .ok f ∧ own f X y = .ok r ∧ h.recorded = [r] := by
  unfold plainHeldOut at ho
  simp only [bind, Except.bind] at ho
  cases hf : fitPlain L X y with
  | error e => rw [hf] at ho; cases ho
  | ok f =>
    rw [hf] at ho
    simp only at ho
    cases hr : own f X y with
    | error e => rw [hr] at ho; cases ho
    | ok r =>
      rw [hr] at ho
      simp only at ho
      refine ⟨f, r, rfl, hr, ?_⟩
      split at ho
      · cases ho
      split at ho
      · cases ho
      split at ho
      · cases ho
      cases ho
      rfl

theorem fitPlain_ok {L : Learner K F} {X : Mat K} {y : List K} {f : F} (h : fitPlain L X y = .ok f) :
    L.fit 0 ((List.range X.r).map X.row) y (List.replicate X.r 1) = .ok f := by
  unfold fitPlain at h
  split at h
  · exact h
  · cases h

theorem plainScore_ok {L : Learner K F} {f : F} {X : Mat K} {y : List K} {v : Option K}
    (h : plainScore L f X y = .ok v) : X.r = y.length ∧
      (2 ≤ y.length → v = some (R2Of y.length (fun k => y.getD k 0) fun k => L.predict f (X.row k))) := by
  obtain ⟨hl, -, hv⟩ := r2Column_spec h
  have hl : y.length = X.r := by simpa using hl
  refine ⟨hl.symm, fun h2 => ?_⟩
  rw [hv (by simpa [hl] using h2)]
  refine congrArg some (R2Of_congr (fun _ _ => rfl) fun i hi => ?_)
  rw [List.getD_eq_getElem _ _ (by simpa [hl] using hi)]
  simp

/-- C125: what is printed for a forest or a linear regression on all rows: the score of the predictions is
that of the regressor fitted to the first sample on the second; the last score is what the script asks
a regressor fitted to the second sample for. -/
theorem C125_plain (L : Learner K F) (own : F → Mat K → List K → Except Err (Option K)) (X : Mat K)
    (y : List K) (Xt : Mat K) (yt : List K) (h : HeldOut K) (ho : plainHeldOut L own X y Xt yt = .ok h) :
    ∃ f g r q, L.fit 0 ((List.range X.r).map X.row) y (List.replicate X.r 1) = .ok f ∧
      L.fit 0 ((List.range Xt.r).map Xt.row) yt (List.replicate Xt.r 1) = .ok g ∧
      own f X y = .ok r ∧ own g Xt yt = .ok q ∧ h.recorded = [r] ∧ h.refit = [q] ∧ Xt.r = yt.length ∧
      (2 ≤ yt.length → h.prediction =
        some (R2Of yt.length (fun k => yt.getD k 0) fun k => L.predict f (Xt.row k))) := by
  unfold plainHeldOut at ho
  simp only [bind, Except.bind] at ho
  cases hf : fitPlain L X y with
  | error e => rw [hf] at ho; cases ho
  | ok f =>
    rw [hf] at ho
    simp only at ho
    cases hr : own f X y with
    | error e => rw [hr] at ho; cases ho
    | ok r =>
      rw [hr] at ho
      simp only at ho
      cases hv : plainScore L f Xt yt with
      | error e => rw [hv] at ho; cases ho
      | ok v =>
        rw [hv] at ho
        simp only at ho
        cases hg : fitPlain L Xt yt with
        | error e => rw [hg] at ho; cases ho
        | ok g =>
          rw [hg] at ho
          simp only at ho
          cases hq : own g Xt yt with
          | error e => rw [hq] at ho; cases ho
          | ok q =>
            rw [hq] at ho
            cases ho
            obtain ⟨p1, p2⟩ := plainScore_ok hv
            exact ⟨f, g, r, q, fitPlain_ok hf, fitPlain_ok hg, hr, hq, rfl, rfl, p1, p2⟩

/-- C125: what is printed for the boosted trees: the score on the second sample of the regressor fitted to
the first. -/
theorem C125_boosted (L : Learner K F) (X : Mat K) (y : List K) (Xt : Mat K) (yt : List K) (v : Option K)
    (ho : boostHeldOut L X y Xt yt = .ok v) :
    ∃ f, L.fit 0 ((List.range X.r).map X.row) y (List.replicate X.r 1) = .ok f ∧ Xt.r = yt.length ∧
      (2 ≤ yt.length → v = some (R2Of yt.length (fun k => yt.getD k 0) fun k => L.predict f (Xt.row k))) := by
  unfold boostHeldOut at ho
  simp only [bind, Except.bind] at ho
  cases hf : fitPlain L X y with
  | error e => rw [hf] at ho; cases ho
  | ok f =>
    rw [hf] at ho
    obtain ⟨p1, p2⟩ := plainScore_ok ho
    exact ⟨f, fitPlain_ok hf, p1, p2⟩

/-- The hypotheses of `C125_plain` and `C125_boosted` are met. -/
example : (plainHeldOut meanLearner (plainScore meanLearner) seX seY ⟨2, 1, fun i _ => i⟩ [1, 2]).isOk = true ∧
    (boostHeldOut meanLearner seX seY ⟨2, 1, fun i _ => i⟩ [1, 2]).isOk = true := by
  constructor <;> decide +kernel

/-- The entries of the record that `fit_models` makes from the scores of the models. -/
def robustEntries (stack extra : List (Option K)) (grf gwr rf lr : Option K) (times : List K) :
    List (String × JVal K) :=
  (["Stacking_Base", "Stacking"].zip (stack.map scoreVal)) ++
  ("Stacking_Time", .num (times.getD 0 0)) ::
  (["Stacking_Extra_Base", "Stacking_Extra"].zip (extra.map scoreVal)) ++
  [("Stacking_Extra_Time", .num (times.getD 1 0)),
   ("GRF", scoreVal grf), ("GRF_Time", .num (times.getD 2 0)),
   ("GWR", scoreVal gwr), ("GWR_Time", .num (times.getD 3 0)),
   ("RF", scoreVal rf), ("RF_Time", .num (times.getD 4 0)),
   ("LR", scoreVal lr), ("LR_Time", .num (times.getD 5 0))]

theorem robustModels_ok {A : Cast K} {rng : Rng S} {p : RobustParams K} (h1 : p.grf.sampleRate = none)
    (h2 : p.gwr.sampleRate = none) {X : Mat K} {y : List K} {points Xt : Mat K} {yt : List K}
    {pointst : Mat K} {times : List K} {info : Record K} {s s' : S} {fs fs' : Lines K} {d : Record K}
    (h : robustModels A rng p X y points Xt yt pointst times info s fs = (.ok d, s', fs')) (t : S) :
    ∃ Z f g r, besideCols X points = .ok Z ∧
      fitPlain A.plainForest Z y = .ok f ∧ fitPlain A.plainLinear Z y = .ok g ∧
      plainScore A.plainLinear g Z y = .ok r ∧
      (stackFit A.tree A.ridge A.numba rng p.stack {} t Z y (some points) none).result = .ok () ∧
      (stackFit A.extra A.ridge A.numba rng p.stack {} t Z y (some points) none).result = .ok () ∧
      (wmFit A.forest rng p.grf {} t Z y (some points) none).result = .ok () ∧
      (wmFit A.linear rng p.gwr {} t Z y (some points) none).result = .ok () ∧
      d = Record.merge (Record.puts [] (robustEntries
        [(stackFit A.tree A.ridge A.numba rng p.stack {} t Z y (some points) none).state.wm.score,
         (stackFit A.tree A.ridge A.numba rng p.stack {} t Z y (some points) none).state.stackScore]
        [(stackFit A.extra A.ridge A.numba rng p.stack {} t Z y (some points) none).state.wm.score,
         (stackFit A.extra A.ridge A.numba rng p.stack {} t Z y (some points) none).state.stackScore]
        (wmFit A.forest rng p.grf {} t Z y (some points) none).state.score
        (wmFit A.linear rng p.gwr {} t Z y (some points) none).state.score (A.oob f) r times)) info ∧
      fs' = fs.append "simulation_result.jsonl" [d] := by
  unfold robustModels at h
  cases hZ : besideCols X points with
  | error e => rw [hZ] at h; cases h
  | ok Z =>
    cases hZt : besideCols Xt pointst with
    | error e => rw [hZ, hZt] at h; cases h
    | ok Zt =>
      rw [hZ, hZt] at h
      simp only [fitModels, contestNames, robustRuns, List.zipWith] at h
      split at h
      · cases h
      rename_i d0 s0 hc
      cases h
      obtain ⟨sc1, s1, c1, hc⟩ := contests_cons hc
      obtain ⟨sc2, s2, c2, hc⟩ := contests_cons hc
      obtain ⟨sc3, s3, c3, hc⟩ := contests_cons hc
      obtain ⟨sc4, s4, c4, hc⟩ := contests_cons hc
      obtain ⟨sc5, s5, c5, hc⟩ := contests_cons hc
      obtain ⟨sc6, s6, c6, hc⟩ := contests_cons hc
      obtain ⟨o1, k1, e1⟩ := heldOutContest_fit c1
      obtain ⟨o2, k2, e2⟩ := heldOutContest_fit c2
      obtain ⟨o3, k3, e3⟩ := heldOutContest_fit c3
      obtain ⟨o4, k4, e4⟩ := heldOutContest_fit c4
      obtain ⟨o5, k5, e5⟩ := heldOutContest_fit c5
      obtain ⟨o6, k6, e6⟩ := heldOutContest_fit c6
      obtain ⟨a1, -, b1, -⟩ := C125_stacking _ _ _ _ _ _ _ _ _ _ _ _ _ _ k1 t
      obtain ⟨a2, -, b2, -⟩ := C125_stacking _ _ _ _ _ _ _ _ _ _ _ _ _ _ k2 t
      obtain ⟨a3, -, b3, -⟩ := C125_local _ _ _ h1 _ _ _ _ _ _ _ _ _ k3 t
      obtain ⟨a4, -, b4, -⟩ := C125_local _ _ _ h2 _ _ _ _ _ _ _ _ _ k4 t
      simp only [Prod.mk.injEq] at k5 k6
      obtain ⟨f, r, a5, hf, b5⟩ := plainHeldOut_ok k5.1
      cases hf
      have k6 := k6.1
      cases hb : boostHeldOut A.boost Z y Zt yt with
      | error e => rw [hb] at k6; cases k6
      | ok u =>
        rw [hb] at k6
        obtain ⟨g, r, a6, hg, b6⟩ := plainHeldOut_ok k6
        refine ⟨Z, f, g, r, rfl, a5, a6, hg, a1, a2, a3, a4, ?_, rfl⟩
        simp only [contests, Prod.mk.injEq, Except.ok.injEq] at hc
        rw [← hc.1, e1, e2, e3, e4, e5, e6, b1, b2, b3, b4, b5, b6]
        simp only [← Record.puts_append]
        congr 2
        have tl : ∀ l : List K, ∀ n, l.tail.getD n 0 = l.getD (n + 1) 0 := by
          intro l n; cases l <;> rfl
        have hd : ∀ l : List K, l.headD 0 = l.getD 0 0 := by intro l; cases l <;> rfl
        simp only [robustEntries, heldOutContest, hd, tl]
        rfl

/-- C125: the second sample has no influence on the record. Two comparisons on the same first sample
that succeed return the same record, whatever their second samples and the state of the generator. -/
theorem C125_record (A : Cast K) (rng : Rng S) (p : RobustParams K) (h1 : p.grf.sampleRate = none)
    (h2 : p.gwr.sampleRate = none) (X : Mat K) (y : List K) (points Xt Xt' : Mat K) (yt yt' : List K)
    (pointst pointst' : Mat K) (times : List K) (info : Record K) (s s' : S) (fs fs' : Lines K)
    (d d' : Record K)
    (h : (robustModels A rng p X y points Xt yt pointst times info s fs).1 = .ok d)
    (h' : (robustModels A rng p X y points Xt' yt' pointst' times info s' fs').1 = .ok d') :
    d = d' := by
  rcases e : robustModels A rng p X y points Xt yt pointst times info s fs with ⟨r, q, gs⟩
  rcases e' : robustModels A rng p X y points Xt' yt' pointst' times info s' fs' with ⟨r', q', gs'⟩
  rw [e] at h
  rw [e'] at h'
  simp only at h h'
  subst h h'
  obtain ⟨Z, f, g, r, hZ, hf, hg, hr, -, -, -, -, hd, -⟩ := robustModels_ok h1 h2 e s
  obtain ⟨Z', f', g', r', hZ', hf', hg', hr', -, -, -, -, hd', -⟩ := robustModels_ok h1 h2 e' s
  rw [hZ] at hZ'
  cases hZ'
  rw [hf] at hf'
  cases hf'
  rw [hg] at hg'
  cases hg'
  rw [hr] at hr'
  cases hr'
  rw [hd, hd']

/-- C125: what the record holds. It is the one line added to the file. Every score is that of a model
fitted to the first sample, features beside coordinates; nothing else is recorded but the times
and the remarks. In particular no score of a prediction is. -/
theorem C125_scores (A : Cast K) (rng : Rng S) (p : RobustParams K) (h1 : p.grf.sampleRate = none)
    (h2 : p.gwr.sampleRate = none) (X : Mat K) (y : List K) (points Xt : Mat K) (yt : List K)
    (pointst : Mat K) (times : List K) (info : Record K) (hnd : (info.map Prod.fst).Nodup) (s s' : S)
    (fs fs' : Lines K) (d : Record K)
    (h : robustModels A rng p X y points Xt yt pointst times info s fs = (.ok d, s', fs')) (t : S) :
    (∀ q, fs' q = if q = "simulation_result.jsonl" then fs q ++ [d] else fs q) ∧
    ∃ (Z : Mat K) (m : String → Option (JVal K)), Z.r = X.r ∧
      (∀ i, Z.row i = featuresAndPlace X points i) ∧
      (∀ k, d.find k = (info.find k).or (m k)) ∧
      (let a := (stackFit A.tree A.ridge A.numba rng p.stack {} t Z y (some points) none).state
       m "Stacking_Base" = some (scoreVal a.wm.score) ∧ m "Stacking" = some (scoreVal a.stackScore)) ∧
      (let a := (stackFit A.extra A.ridge A.numba rng p.stack {} t Z y (some points) none).state
       m "Stacking_Extra_Base" = some (scoreVal a.wm.score) ∧
       m "Stacking_Extra" = some (scoreVal a.stackScore)) ∧
      m "GRF" = some (scoreVal (wmFit A.forest rng p.grf {} t Z y (some points) none).state.score) ∧
      m "GWR" = some (scoreVal (wmFit A.linear rng p.gwr {} t Z y (some points) none).state.score) ∧
      (∃ f, A.plainForest.fit 0 ((List.range Z.r).map Z.row) y (List.replicate Z.r 1) = .ok f ∧
        m "RF" = some (scoreVal (A.oob f))) ∧
      (∃ f, A.plainLinear.fit 0 ((List.range Z.r).map Z.row) y (List.replicate Z.r 1) = .ok f ∧
        (2 ≤ X.r → m "LR" = some (.num (R2Of X.r (fun i => y.getD i 0)
          fun i => A.plainLinear.predict f (featuresAndPlace X points i))))) ∧
      ∀ k v, m k = some v → k ∈ ["Stacking_Base", "Stacking", "Stacking_Time", "Stacking_Extra_Base",
        "Stacking_Extra", "Stacking_Extra_Time", "GRF", "GRF_Time", "GWR", "GWR_Time", "RF", "RF_Time",
        "LR", "LR_Time"] := by
  obtain ⟨Z, f, g, r, hZ, hf, hg, hr, -, -, -, -, hd, hfs⟩ := robustModels_ok h1 h2 h t
  obtain ⟨-, hZr, hrow⟩ := besideCols_row hZ
  refine ⟨fun q => by rw [hfs]; rfl, Z, fun k => Record.find (Record.puts [] _) k, hZr, hrow,
    fun k => by rw [hd, C122_info_wins _ _ _ hnd], ?_⟩
  simp only [Record.find_puts, robustEntries]
  refine ⟨⟨rfl, rfl⟩, ⟨rfl, rfl⟩, rfl, rfl, ⟨f, ?_, rfl⟩, ⟨g, ?_, fun h2 => ?_⟩, ?_⟩
  · unfold fitPlain at hf
    split at hf
    · exact hf
    · cases hf
  · unfold fitPlain at hg
    split at hg
    · exact hg
    · cases hg
  · obtain ⟨hl, -, hv⟩ := r2Column_spec hr
    have hyl : y.length = X.r := by simpa [hZr] using hl
    have e : List.lookup "LR" (robustEntries
        [(stackFit A.tree A.ridge A.numba rng p.stack {} t Z y (some points) none).state.wm.score,
         (stackFit A.tree A.ridge A.numba rng p.stack {} t Z y (some points) none).state.stackScore]
        [(stackFit A.extra A.ridge A.numba rng p.stack {} t Z y (some points) none).state.wm.score,
         (stackFit A.extra A.ridge A.numba rng p.stack {} t Z y (some points) none).state.stackScore]
        (wmFit A.forest rng p.grf {} t Z y (some points) none).state.score
        (wmFit A.linear rng p.gwr {} t Z y (some points) none).state.score (A.oob f) r times).reverse =
        some (scoreVal r) := rfl
    simp only [robustEntries] at e
    rw [e, hv (by simpa [hZr] using h2), hyl]
    simp only [Option.some_or, scoreVal, Option.some.injEq, JVal.num.injEq]
    refine R2Of_congr (fun _ _ => rfl) fun i hi => ?_
    rw [List.getD_eq_getElem _ _ (by simpa [hZr] using hi)]
    simp [hrow]
  · intro k v hk
    have hnil : Record.find ([] : Record K) k = none := rfl
    rw [hnil, Option.or_none] at hk
    have hm : k ∈ ((robustEntries
        [(stackFit A.tree A.ridge A.numba rng p.stack {} t Z y (some points) none).state.wm.score,
         (stackFit A.tree A.ridge A.numba rng p.stack {} t Z y (some points) none).state.stackScore]
        [(stackFit A.extra A.ridge A.numba rng p.stack {} t Z y (some points) none).state.wm.score,
         (stackFit A.extra A.ridge A.numba rng p.stack {} t Z y (some points) none).state.stackScore]
        (wmFit A.forest rng p.grf {} t Z y (some points) none).state.score
        (wmFit A.linear rng p.gwr {} t Z y (some points) none).state.score (A.oob f) r
        times).map Prod.fst) := by
      have := List.lookup_isSome_iff.1 (Option.isSome_of_eq_some hk)
      obtain ⟨e, he, hke⟩ := this
      rw [eq_of_beq hke]
      exact List.mem_map_of_mem (List.mem_reverse.1 he)
    exact hm

/-- C125: a stacking model cannot predict unless every training point is a neighbour of some test
point. If one is not, the comparison raises and leaves the files alone. -/
theorem C125_uncovered (A : Cast K) (rng : Rng S) (p : RobustParams K) (X : Mat K) (y : List K)
    (points Xt : Mat K) (yt : List K) (pointst : Mat K) (times : List K) (info : Record K) (s : S)
    (fs : Lines K) (T : Mat K) (hT : p.stack.weights points pointst = .ok T) (j : Nat) (hj : j < X.r)
    (hun : ∀ t < Xt.r, ¬ 0 < T.get j t) :
    (∃ e, (robustModels A rng p X y points Xt yt pointst times info s fs).1 = .error e) ∧
    (robustModels A rng p X y points Xt yt pointst times info s fs).2.2 = fs := by
  have key : ∃ e, (robustModels A rng p X y points Xt yt pointst times info s fs).1 = .error e := by
    cases hr : (robustModels A rng p X y points Xt yt pointst times info s fs).1 with
    | error e => exact ⟨e, rfl⟩
    | ok d =>
      exfalso
      unfold robustModels at hr
      cases hZ : besideCols X points with
      | error e => rw [hZ] at hr; cases hr
      | ok Z =>
        cases hZt : besideCols Xt pointst with
        | error e => rw [hZ, hZt] at hr; cases hr
        | ok Zt =>
          rw [hZ, hZt] at hr
          simp only [fitModels, contestNames, robustRuns, List.zipWith] at hr
          split at hr
          · cases hr
          rename_i d0 s0 hc
          obtain ⟨sc1, s1, c1, hc⟩ := contests_cons hc
          obtain ⟨o1, k1, e1⟩ := heldOutContest_fit c1
          obtain ⟨ps, v, s1, st1, -, h2, -⟩ := stackHeldOut_ok k1
          obtain ⟨e, he⟩ := C56_uncovered_training_point A.tree A.ridge p.stack
            (stackFit A.tree A.ridge A.numba rng p.stack {} s Z y (some points) none).state
            (stackFit A.tree A.ridge A.numba rng p.stack {} s Z y (some points) none).rng
            Z y points Zt pointst T hT j (by rw [(besideCols_row hZ).2.1]; exact hj)
            (by rw [(besideCols_row hZt).2.1]; exact hun)
          rw [he] at h2
          cases h2
  refine ⟨key, ?_⟩
  obtain ⟨e, he⟩ := key
  unfold robustModels at he ⊢
  cases hZ : besideCols X points with
  | error e => rfl
  | ok Z =>
    cases hZt : besideCols Xt pointst with
    | error e => rfl
    | ok Zt =>
      rw [hZ, hZt] at he
      exact C122_comparison_fails _ _ _ _ _ _ e he

/-- A comparison with averages for all regressors; two samples of four and three points. -/
def exCast : Cast ℚ where
  F := fun _ => ℚ
  G := ℚ
  tree := meanLearner
  extra := meanLearner
  forest := meanLearner
  linear := meanLearner
  plainForest := meanLearner
  boost := meanLearner
  plainLinear := meanLearner
  ridge := meanLearner
  numba := meanLearner
  oob := some

/-- Weights for the example: positive everywhere. -/
def exHeldNear (a b : Mat ℚ) : Except Err (Mat ℚ) := .ok ⟨a.r, b.r, fun i j => 1 / (1 + i + j : ℚ)⟩

/-- Parameters for the example. -/
def exRobust : RobustParams ℚ :=
  ⟨{ nPatches := some 2, cpu := 2, leaveOutRate := some (1 / 4), leaveLocalOut := true,
     weights := exHeldNear },
   { cpu := 2, cacheData := true, weights := exHeldNear },
   { cpu := 2, cacheData := true, weights := fun a b => .ok ⟨a.r, b.r, fun _ _ => 1⟩ }⟩

/-- The comparison of the example on a second sample with the given targets. -/
def exRobustRun (yt : List ℚ) : Except Err (Record ℚ) × Nat × Lines ℚ :=
  robustModels exCast rotRng exRobust seX seY ⟨4, 1, fun i _ => i⟩ ⟨3, 1, fun i _ => i + 5⟩ yt
    ⟨3, 1, fun i _ => i⟩ [1, 2, 3, 4, 5, 6] [] 0 fun _ => []

/-- The hypotheses of C125 are met: the example succeeds on two second samples; the printed scores
differ, the record does not. -/
example : ((exRobustRun [1, 2, 4]).1.toOption.bind fun d => d.score "Stacking").isSome ∧
    ((exRobustRun [1, 2, 4]).1.toOption.bind fun d => d.score "Stacking") =
      ((exRobustRun [7, 2, 4]).1.toOption.bind fun d => d.score "Stacking") ∧
    ((exRobustRun [1, 2, 4]).1.toOption.bind fun d => d.score "GWR").isSome ∧
    ((exRobustRun [7, 2, 4]).1.toOption.bind fun d => d.score "LR").isSome ∧
    ((exRobustRun [7, 2, 4]).1.toOption.bind fun d => d.find "XGB").isNone := by decide +kernel

example :
    let run := fun yt => wmHeldOut meanLearner rotRng exRobust.grf seX seY ⟨4, 1, fun i _ => i⟩
      ⟨3, 1, fun i _ => i + 5⟩ yt ⟨3, 1, fun i _ => i⟩ 0
    (run [1, 2, 4]).1.toOption.map HeldOut.recorded = (run [7, 2, 4]).1.toOption.map HeldOut.recorded ∧
    ((run [1, 2, 4]).1.toOption.bind HeldOut.prediction).isSome ∧
    (run [1, 2, 4]).1.toOption.bind HeldOut.prediction ≠
      (run [7, 2, 4]).1.toOption.bind HeldOut.prediction ∧
    (run [1, 2, 4]).1.toOption.map HeldOut.refit ≠
      (run [7, 2, 4]).1.toOption.map HeldOut.refit := by decide +kernel

/-- Weights for the example: the last of the four training points is far from the three test points. -/
def exHeldFar (a b : Mat ℚ) : Except Err (Mat ℚ) :=
  .ok ⟨a.r, b.r, fun i j => if i = 3 ∧ b.r = 3 then 0 else 1 / (1 + i + j : ℚ)⟩

/-- A training point without any test point near: the last of the four. -/
example : (robustModels exCast rotRng ⟨{ exRobust.stack with weights := exHeldFar }, exRobust.grf,
      exRobust.gwr⟩ seX seY ⟨4, 1, fun i _ => i⟩ ⟨3, 1, fun i _ => i + 5⟩ [1, 2, 4]
      ⟨3, 1, fun i _ => i⟩ [1, 2, 3, 4, 5, 6] [] 0 fun _ => []).1.toOption.isNone := by decide +kernel

/-- Leaving out one row at a time, and a `WeightModel` with equal weights. -/
example :
    let P : Mat ℚ := ⟨4, 1, fun i _ => i * i⟩
    let Z : Mat ℚ := ⟨4, 2, fun i j => if j < 1 then seX.get i j else P.get i (j - 1)⟩
    besideCols seX P = .ok Z ∧
    ((fitLlocvModels meanLearner seX P seY).toOption.bind fun d => d.score "score").isSome ∧
    ((fitLlocvModels meanLearner seX P seY).toOption.bind fun d => d.score "score") =
      (wmFit meanLearner rotRng { cpu := 2, weights := fun a b => .ok ⟨a.r, b.r, fun _ _ => 1⟩ } {} 0 Z
        seY (some P) none).state.score ∧
    (wmFit meanLearner rotRng { cpu := 2, weights := fun a b => .ok ⟨a.r, b.r, fun _ _ => 1⟩ } {} 0 Z
        seY (some P) none).result = .ok () := by
  refine ⟨?_, ?_, ?_, ?_⟩
  · rfl
  all_goals decide +kernel

end Geo
