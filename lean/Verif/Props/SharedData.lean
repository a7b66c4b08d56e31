import Verif.Model.SharedData
import Verif.Props.TrainingSets
/-
C170: what a fitted model shares with the caller.
-/
set_option linter.unusedSectionVars false
namespace Geo
variable {K : Type} [Field K] [LinearOrder K] [IsStrictOrderedRing K] [FloorRing K]
variable {F C S : Type}

theorem stateEnd_keeps (p : WMParams K C) (st : WMState K F C) (ys : List K) (res : List (K × F)) :
    (stateEnd p st ys res).2.X = st.X ∧ (stateEnd p st ys res).2.y = st.y ∧
    (stateEnd p st ys res).2.coords = st.coords ∧
    (stateEnd p st ys res).2.weightMatrix = st.weightMatrix := by
  unfold stateEnd
  cases h : skR2 ys (res.map Prod.fst) <;> simp [h]

theorem fitWith_keeps (L : Learner K F) (rng : Rng S) (p : WMParams K C) (st : WMState K F C) (s : S)
    (X : Mat K) (y : List K) (given : Bool) (W0 : WMat K) :
    (fitWith L rng p st s X y given W0).state.X = st.X ∧
    (fitWith L rng p st s X y given W0).state.y = st.y ∧
    (fitWith L rng p st s X y given W0).state.coords = st.coords ∧
    (fitWith L rng p st s X y given W0).state.weightMatrix = some (leaveOut p W0) ∧
    (fitWith L rng p st s X y given W0).caller = if given then some (leaveOut p W0) else none := by
  unfold fitWith
  simp only
  split
  · exact ⟨rfl, rfl, rfl, rfl, rfl⟩
  · split
    · exact ⟨rfl, rfl, rfl, rfl, rfl⟩
    · obtain ⟨h1, h2, h3, h4⟩ := stateEnd_keeps p _ _ _
      exact ⟨h1, h2, h3, h4, rfl⟩

theorem stateBegin_keeps (p : WMParams K C) (st : WMState K F C) (X : Mat K) (y : List K)
    (coords : Option C) (W : Option (WMat K)) :
    (stateBegin p st X y coords W).X =
      (if (p.cacheData && !(coords.isNone && W.isNone)) = true then some X else st.X) ∧
    (stateBegin p st X y coords W).y =
      (if (p.cacheData && !(coords.isNone && W.isNone)) = true then some y else st.y) ∧
    (stateBegin p st X y coords W).coords =
      (if (p.cacheData && !(coords.isNone && W.isNone)) = true then coords else st.coords) ∧
    (stateBegin p st X y coords W).weightMatrix = st.weightMatrix := by
  unfold stateBegin
  cases hc : (coords.isNone && W.isNone) <;> cases hp : p.cacheData <;> simp

/-- The attributes for the data after a fit, and the caller's weights. -/
theorem wmFit_keeps (L : Learner K F) (rng : Rng S) (p : WMParams K C) (st : WMState K F C) (s : S)
    (X : Mat K) (y : List K) (coords : Option C) (W : Option (WMat K)) :
    (wmFit L rng p st s X y coords W).state.X =
      (if (checkXy X y && p.cacheData && !(coords.isNone && W.isNone)) = true then some X else st.X) ∧
    (wmFit L rng p st s X y coords W).state.y =
      (if (checkXy X y && p.cacheData && !(coords.isNone && W.isNone)) = true then some y else st.y) ∧
    (wmFit L rng p st s X y coords W).state.coords =
      (if (checkXy X y && p.cacheData && !(coords.isNone && W.isNone)) = true then coords else st.coords) ∧
    (wmFit L rng p st s X y coords W).state.weightMatrix =
      (if checkXy X y = true then
        (match chosenWeights p coords W with
          | .ok W0 => some (leaveOut p W0)
          | .error _ => st.weightMatrix) else st.weightMatrix) ∧
    (wmFit L rng p st s X y coords W).caller =
      (if checkXy X y = true then W.map (leaveOut p) else W) := by
  obtain ⟨b1, b2, b3, b4⟩ := stateBegin_keeps p st X y coords W
  unfold wmFit
  by_cases hc : checkXy X y = true
  · simp only [hc, Bool.true_and]
    cases hW : chosenWeights p coords W with
    | error e =>
      refine ⟨b1, b2, b3, b4, ?_⟩
      cases W with
      | none => rfl
      | some W => cases hW
    | ok W0 =>
      obtain ⟨h1, h2, h3, h4, h5⟩ :=
        fitWith_keeps L rng p (stateBegin p st X y coords W) s X y W.isSome W0
      refine ⟨h1.trans b1, h2.trans b2, h3.trans b3, h4, h5.trans ?_⟩
      cases W with
      | none => rfl
      | some W => cases hW; rfl
  · simp only [hc, Bool.false_and]
    simp

theorem now_fields (o : HeldState K F C) (h : Store K C) :
    (o.now h).X = present h.tables o.xAt o.core.X ∧ (o.now h).y = present h.vectors o.yAt o.core.y ∧
    (o.now h).coords = present h.places o.placesAt o.core.coords ∧
    (o.now h).weightMatrix = present h.weights o.weightsAt o.core.weightMatrix := ⟨rfl, rfl, rfl, rfl⟩

theorem present_addr {α : Type} (m : Nat → α) (x : Passed α) : present m x.addr (some (x.read m)) = some (x.read m) := by
  cases x <;> rfl

theorem present_twice {α : Type} (m : Nat → α) (a : Option Nat) (v : Option α) :
    present m a (present m a v) = present m a v := by
  cases a <;> rfl

/-- C170: right after a fit the object reads as if everything had been copied. -/
theorem C170_after_fit (L : Learner K F) (rng : Rng S) (p : WMParams K C) (o : HeldState K F C) (s : S)
    (h : Store K C) (x : Passed (Mat K)) (y : Passed (List K)) (coords : Option (Passed C))
    (W : Option (Passed (WMat K))) :
    let out := fitHeld L rng p o s h x y coords W
    let ref := wmFit L rng p (o.now h) s (x.read h.tables) (y.read h.vectors)
      (coords.map (·.read h.places)) (W.map (·.read h.weights))
    out.result = ref.result ∧ out.rng = ref.rng ∧ out.object.now out.store = ref.state ∧
    out.store.tables = h.tables ∧ out.store.vectors = h.vectors ∧ out.store.places = h.places ∧
    (∀ a, (∀ w, W = some w → w.addr ≠ some a) → out.store.weights a = h.weights a) ∧
    (∀ a, W = some (.array a) → some (out.store.weights a) = ref.caller) := by
  intro out ref
  have hst : out.store.tables = h.tables ∧ out.store.vectors = h.vectors ∧ out.store.places = h.places := by
    show (weightsAfter h W _).tables = _ ∧ (weightsAfter h W _).vectors = _ ∧ (weightsAfter h W _).places = _
    unfold weightsAfter
    split <;> exact ⟨rfl, rfl, rfl⟩
  obtain ⟨k1, k2, k3, k4, k5⟩ := wmFit_keeps L rng p (o.now h) s (x.read h.tables) (y.read h.vectors)
    (coords.map (·.read h.places)) (W.map (·.read h.weights))
  have hw2 : ∀ a, W = some (.array a) → some (out.store.weights a) = ref.caller := by
    rintro a rfl
    have : ∃ V, ref.caller = some V := by
      show ∃ V, (wmFit L rng p (o.now h) s _ _ _ _).caller = some V
      rw [k5]
      split <;> exact ⟨_, rfl⟩
    obtain ⟨V, hV⟩ := this
    show some ((weightsAfter h (some (.array a)) ref.caller).weights a) = _
    rw [hV]
    simp [weightsAfter]
  refine ⟨rfl, rfl, ?_, hst.1, hst.2.1, hst.2.2, ?_, hw2⟩
  · have e1 : (out.object.now out.store).X = ref.state.X := by
      show present out.store.tables (if _ then x.addr else o.xAt) ref.state.X = ref.state.X
      rw [hst.1, show ref.state.X = _ from k1]
      simp only [Option.isNone_map]
      split
      · exact present_addr _ _
      · rw [(now_fields o h).1]
        exact present_twice _ _ _
    have e2 : (out.object.now out.store).y = ref.state.y := by
      show present out.store.vectors (if _ then y.addr else o.yAt) ref.state.y = ref.state.y
      rw [hst.2.1, show ref.state.y = _ from k2]
      simp only [Option.isNone_map]
      split
      · exact present_addr _ _
      · rw [(now_fields o h).2.1]
        exact present_twice _ _ _
    have e3 : (out.object.now out.store).coords = ref.state.coords := by
      show present out.store.places (if _ then coords.bind (·.addr) else o.placesAt) ref.state.coords =
        ref.state.coords
      rw [hst.2.2, show ref.state.coords = _ from k3]
      simp only [Option.isNone_map]
      split
      · cases coords with
        | none => rfl
        | some c => exact present_addr _ _
      · rw [(now_fields o h).2.2.1]
        exact present_twice _ _ _
    have e4 : (out.object.now out.store).weightMatrix = ref.state.weightMatrix := by
      show present out.store.weights (if checkXy (x.read h.tables) (y.read h.vectors) = true then
        weightsAddr p o (coords.map (·.read h.places)) W else o.weightsAt) ref.state.weightMatrix =
          ref.state.weightMatrix
      by_cases hc : checkXy (x.read h.tables) (y.read h.vectors) = true
      · rw [if_pos hc]
        rw [if_pos hc] at k4 k5
        cases W with
        | some w =>
          cases w with
          | other V => rfl
          | array a =>
            show some (out.store.weights a) = ref.state.weightMatrix
            rw [hw2 a rfl, show ref.caller = _ from k5, show ref.state.weightMatrix = _ from k4]
            rfl
        | none =>
          unfold weightsAddr
          simp only
          cases hch : chosenWeights p (coords.map (·.read h.places)) none with
          | ok V => rfl
          | error e =>
            simp only
            rw [show ref.state.weightMatrix = _ from k4]
            simp only [Option.map_none, hch]
            show present h.weights o.weightsAt _ = _
            rw [(now_fields o h).2.2.2]
            exact present_twice _ _ _
      · rw [if_neg hc]
        rw [if_neg hc] at k4 k5
        have hsw : out.store.weights = h.weights := by
          show (weightsAfter h W ref.caller).weights = h.weights
          rw [show ref.caller = _ from k5]
          cases W with
          | none => rfl
          | some w =>
            cases w with
            | other V => rfl
            | array a =>
              funext b
              simp only [weightsAfter, Option.map_some, Passed.read]
              split
              · rename_i hb
                rw [hb]
              · rfl
        rw [hsw, show ref.state.weightMatrix = _ from k4, (now_fields o h).2.2.2]
        exact present_twice _ _ _
    have e5 : out.object.now out.store = { ref.state with
        X := (out.object.now out.store).X, y := (out.object.now out.store).y,
        coords := (out.object.now out.store).coords,
        weightMatrix := (out.object.now out.store).weightMatrix } := rfl
    rw [e5, e1, e2, e3, e4]
  · intro a ha
    show (weightsAfter h W ref.caller).weights a = h.weights a
    unfold weightsAfter
    split
    · rename_i b V _
      simp only
      rw [if_neg]
      rintro rfl
      exact ha _ rfl rfl
    · rfl

theorem predictByFit_congr {L : Learner K F} {p : WMParams K C} {st st' : WMState K F C}
    (hX : st.X = st'.X) (hy : st.y = st'.y) (hc : st.coords = st'.coords) (Xn : Mat K) (cn : Option C)
    (V : Option (Mat K)) : predictByFit L p st Xn cn V = predictByFit L p st' Xn cn V := by
  unfold predictByFit cachedData
  rw [hX, hy, hc]

theorem predictByWeight_congr {L : Learner K F} {p : WMParams K C} {st st' : WMState K F C}
    (he : st.estimators = st'.estimators) (Xn : Mat K) (cn : Option C) (V : Option (Mat K))
    (hc : V = none → st.coords = st'.coords) :
    predictByWeight L p st Xn cn V = predictByWeight L p st' Xn cn V := by
  unfold predictByWeight storedEstimators
  rw [he]
  cases V with
  | none => rw [hc rfl]
  | some V => rfl

/-- C170: `predict_by_fit` uses what the caller's arrays contain when it is called, not what they contained
when the model was fitted: whatever has been done to them in between, the predictions are those of a model
fitted to the present contents (with any weights, generator and past). -/
theorem C170_predict_by_fit (L : Learner K F) (rng : Rng S) (p : WMParams K C) (hp : p.cacheData = true)
    (o : HeldState K F C) (s : S) (h : Store K C) (a b c : Nat) (W : Option (Passed (WMat K)))
    (hck : checkXy (h.tables a) (h.vectors b) = true) (h' : Store K C)
    (hck' : checkXy (h'.tables a) (h'.vectors b) = true) (rng' : Rng S) (st' : WMState K F C) (s' : S)
    (W' : Option (WMat K)) (Xn : Mat K) (cn : Option C) (V : Option (Mat K)) :
    predictByFit L p ((fitHeld L rng p o s h (.array a) (.array b) (some (.array c)) W).object.now h') Xn cn V =
      predictByFit L p (wmFit L rng' p st' s' (h'.tables a) (h'.vectors b) (some (h'.places c)) W').state
        Xn cn V := by
  obtain ⟨k1, k2, k3, -⟩ := wmFit_keeps L rng' p st' s' (h'.tables a) (h'.vectors b) (some (h'.places c)) W'
  simp only [hck', hp, Option.isNone_some, Bool.false_and, Bool.not_false, Bool.and_true, if_true] at k1 k2 k3
  have hc : (checkXy ((Passed.array a).read h.tables) ((Passed.array b).read h.vectors) && p.cacheData &&
      !((some (Passed.array (α := C) c)).isNone && W.isNone)) = true := by simp [Passed.read, hck, hp]
  apply predictByFit_congr
  · rw [k1]
    show present h'.tables (if _ then _ else _) _ = _
    rw [if_pos hc]
    rfl
  · rw [k2]
    show present h'.vectors (if _ then _ else _) _ = _
    rw [if_pos hc]
    rfl
  · rw [k3]
    show present h'.places (if _ then _ else _) _ = _
    rw [if_pos hc]
    rfl

/-- C170: what is not affected by later changes to the caller's arrays: the stored regressors, the local
predictions, scores, residuals and sampled locations; `predict_by_weight` with given weights; and
`predict_by_weight` with coordinates as long as the training coordinates are left alone. -/
theorem C170_unaffected (L : Learner K F) (rng : Rng S) (p : WMParams K C) (o : HeldState K F C) (s : S)
    (h : Store K C) (x : Passed (Mat K)) (y : Passed (List K)) (coords : Option (Passed C))
    (W : Option (Passed (WMat K))) (h' : Store K C) :
    let obj := (fitHeld L rng p o s h x y coords W).object
    let ref := (wmFit L rng p (o.now h) s (x.read h.tables) (y.read h.vectors)
      (coords.map (·.read h.places)) (W.map (·.read h.weights))).state
    (obj.now h').estimators = ref.estimators ∧ (obj.now h').localPredict = ref.localPredict ∧
    (obj.now h').score = ref.score ∧ (obj.now h').residual = ref.residual ∧
    (obj.now h').localIndices = ref.localIndices ∧ (obj.now h').ySample = ref.ySample ∧
    (obj.now h').neighbourMatrix = ref.neighbourMatrix ∧
    (∀ Xn cn V, predictByWeight L p (obj.now h') Xn cn (some V) = predictByWeight L p ref Xn cn (some V)) ∧
    (h'.places = h.places → ∀ Xn cn, predictByWeight L p (obj.now h') Xn cn none =
      predictByWeight L p ref Xn cn none) := by
  intro obj ref
  refine ⟨rfl, rfl, rfl, rfl, rfl, rfl, rfl, fun Xn cn V =>
    predictByWeight_congr (st' := ref) rfl Xn cn (some V) (fun hV => by cases hV), fun hpl Xn cn => ?_⟩
  obtain ⟨-, -, h3, -, -, h6, -⟩ := C170_after_fit L rng p o s h x y coords W
  refine predictByWeight_congr (st := obj.now h') (st' := ref) rfl Xn cn none fun _ => ?_
  have : ref.coords = (obj.now (fitHeld L rng p o s h x y coords W).store).coords := by
    rw [show obj.now (fitHeld L rng p o s h x y coords W).store = _ from h3]
  rw [this, (now_fields obj h').2.2.1, (now_fields obj _).2.2.1, hpl, h6]

/-- C170: data that had to be converted are copies: later changes to the caller's arrays do not reach a
new object fitted to them. -/
theorem C170_converted (L : Learner K F) (rng : Rng S) (p : WMParams K C) (s : S) (h : Store K C)
    (X : Mat K) (y : List K) (coords : Option C) (W : Option (WMat K)) (h' : Store K C) :
    (fitHeld L rng p {} s h (.other X) (.other y) (coords.map .other) (W.map .other)).object.now h' =
      (wmFit L rng p {} s X y coords W).state := by
  have key : ∀ o : HeldState K F C, o.xAt = none → o.yAt = none → o.placesAt = none → o.weightsAt = none →
      o.now h' = o.core := by
    intro o h1 h2 h3 h4
    unfold HeldState.now present
    rw [h1, h2, h3, h4]
  rw [key]
  · show (wmFit L rng p (HeldState.now {} h) s X y ((coords.map Passed.other).map _)
      ((W.map Passed.other).map _)).state = _
    rw [Option.map_map, Option.map_map]
    have e1 : coords.map ((fun x : Passed C => x.read h.places) ∘ Passed.other) = coords := by
      cases coords <;> rfl
    have e2 : W.map ((fun x : Passed (WMat K) => x.read h.weights) ∘ Passed.other) = W := by
      cases W <;> rfl
    rw [e1, e2]
    rfl
  · show (if _ then _ else _) = _
    split <;> rfl
  · show (if _ then _ else _) = _
    split <;> rfl
  · show (if _ then _ else _) = _
    split
    · cases coords <;> rfl
    · rfl
  · show (if _ then _ else _) = _
    split
    · cases W with
      | some W => rfl
      | none =>
        unfold weightsAddr
        simp only [Option.map_none]
        split <;> rfl
    · rfl

/-- C170: two models fitted with the same weight matrix share it: fitting the second one with
`leave_local_out` takes the diagonal out of the `weight_matrix_` of the first, which was fitted with it. -/
theorem C170_two_models (L : Learner K F) (rng : Rng S) (p q : WMParams K C)
    (hp : p.leaveLocalOut = false) (hq : q.leaveLocalOut = true) (o o' : HeldState K F C) (s s' : S)
    (h : Store K C) (x x' : Passed (Mat K)) (y y' : Passed (List K)) (coords coords' : Option (Passed C))
    (a : Nat) (hck : checkXy (x.read h.tables) (y.read h.vectors) = true)
    (hck' : checkXy (x'.read h.tables) (y'.read h.vectors) = true) :
    let one := fitHeld L rng p o s h x y coords (some (.array a))
    let two := fitHeld L rng q o' s' one.store x' y' coords' (some (.array a))
    (one.object.now one.store).weightMatrix = some (h.weights a) ∧
    (one.object.now two.store).weightMatrix = some (h.weights a).clearDiag := by
  intro one two
  obtain ⟨-, -, -, t1, t2, -, -, t8⟩ := C170_after_fit L rng p o s h x y coords (some (.array a))
  obtain ⟨-, -, -, -, -, -, -, u8⟩ := C170_after_fit L rng q o' s' one.store x' y' coords' (some (.array a))
  obtain ⟨-, -, -, -, k5⟩ := wmFit_keeps L rng p (o.now h) s (x.read h.tables) (y.read h.vectors)
    (coords.map (·.read h.places)) ((some (Passed.array a)).map (·.read h.weights))
  obtain ⟨-, -, -, -, l5⟩ := wmFit_keeps L rng q (o'.now one.store) s' (x'.read one.store.tables)
    (y'.read one.store.vectors) (coords'.map (·.read one.store.places))
    ((some (Passed.array a)).map (·.read one.store.weights))
  have hw : one.object.weightsAt = some a := by
    show (if checkXy (x.read h.tables) (y.read h.vectors) = true then _ else _) = _
    rw [if_pos hck]
    rfl
  rw [if_pos hck] at k5
  have t1' : one.store.tables = h.tables := t1
  have t2' : one.store.vectors = h.vectors := t2
  rw [if_pos (by rw [t1', t2']; exact hck')] at l5
  have h1 : some (one.store.weights a) = some (h.weights a) := by
    rw [show some (one.store.weights a) = _ from t8 a rfl, k5]
    simp [leaveOut, hp, Passed.read]
  have h2 : some (two.store.weights a) = some (h.weights a).clearDiag := by
    rw [show some (two.store.weights a) = _ from u8 a rfl, l5]
    simp only [Option.map_some, leaveOut, hq, if_true, Passed.read]
    injection h1 with h1
    rw [h1]
  refine ⟨?_, ?_⟩
  · rw [(now_fields _ _).2.2.2, hw]
    exact h1
  · rw [(now_fields _ _).2.2.2, hw]
    exact h2

/-! ### Example -/

def shStore : Store ℚ Unit where
  tables := fun _ => ⟨3, 1, fun i _ => i⟩
  vectors := fun _ => [1, 2, 6]
  places := fun _ => ()
  weights := fun _ => .dense ⟨3, 3, fun _ _ => 1⟩

def shP : WMParams ℚ Unit :=
  { cacheData := true, leaveLocalOut := false, weights := fun _ _ => .ok ⟨3, 3, fun _ _ => 1⟩ }

/-- After the fit the caller writes other targets into its own array: the predictions of `predict_by_fit`
follow. -/
example :
    let out := fitHeld meanLearner rotRng shP {} 0 shStore (.array 0) (.array 0) (some (.array 0)) none
    out.result = .ok () ∧ checkXy (shStore.tables 0) (shStore.vectors 0) = true ∧
    predictByFit meanLearner shP (out.object.now out.store) ⟨1, 1, fun _ _ => 0⟩ (some ())
      (some ⟨1, 3, fun _ _ => 1⟩) = .ok [3] ∧
    predictByFit meanLearner shP (out.object.now { out.store with vectors := fun _ => [10, 20, 60] })
      ⟨1, 1, fun _ _ => 0⟩ (some ()) (some ⟨1, 3, fun _ _ => 1⟩) = .ok [30] := by
  refine ⟨?_, ?_, ?_, ?_⟩ <;> decide +kernel

end Geo
