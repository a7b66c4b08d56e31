import Verif.Props.StackObjects
/-
C158: the backend of joblib does not matter, threads with any order of their steps included.
-/
set_option linter.unusedSectionVars false
namespace Geo
variable {K : Type} [Field K] [LinearOrder K] [IsStrictOrderedRing K] [FloorRing K] {C S O V G : Type}

/-- C158: batches in threads, however their steps alternate, return what they return one after the other,
or raise the same exception. Objects that belong to none of their tasks are untouched, and if nothing is
raised all objects are as after a serial run. -/
theorem C158_interleavings (R : Regressor K O) (schedule : List Nat)
    (batches : List (List (Except Err (Job K O V)))) (h : Heap O)
    (hn : (batches.flatten.filterMap fun t => t.toOption.map Job.est).Nodup) :
    let o := runBatches R (.threads schedule) batches h
    let q := runBatches R .serial batches h
    o.1 = q.1 ∧ o.2.next = h.next ∧
    (∀ a, (∀ b ∈ batches, ∀ j, .ok j ∈ b → j.est ≠ a) → o.2.get a = h.get a) ∧
    (o.1.isOk = true → o.2 = q.2) := by
  have hf : (fun t : Except Err (Job K O V) => t.toOption.map Job.est) = taskObj := by
    funext t
    cases t <;> rfl
  rw [hf] at hn
  obtain ⟨t1, t2, t3, t4⟩ := threads_spec R schedule batches h hn
  refine ⟨t1, t2, fun a ha => t3 a fun hc => ?_, fun hok => t4 ?_⟩
  · obtain ⟨t, ht, hta⟩ := List.mem_filterMap.1 hc
    obtain ⟨b, hb, htb⟩ := List.mem_flatten.1 ht
    cases t with
    | error e => cases hta
    | ok j => cases hta; exact ha b hb j htb rfl
  · generalize (runBatches R (.threads schedule) batches h).1 = r at hok
    cases r with
    | error e => cases hok
    | ok l => exact ⟨l, rfl⟩

/-- C158: `WeightModel.fit` returns, raises and stores the same with every backend: with two backends the
attributes are equal once references are replaced by what they refer to. -/
theorem C158_fit (R : Regressor K O) (b b' : Backend) (reg : Nat) (rng : Rng S) (hrng : rng.Valid)
    (p : WMParams K C) (hrate : ∀ r, p.sampleRate = some r → 0 ≤ r ∧ r ≤ 1) (st : WMState K Nat C) (s : S)
    (X : Mat K) (y : List K) (coords : Option C) (W : Option (WMat K)) (h : Heap O) (hreg : reg < h.next)
    (hst : st.Below h.next) :
    let o := wmFitObj R b reg rng p st s X y coords W h
    let q := wmFitObj R b' reg rng p st s X y coords W h
    o.1.result = q.1.result ∧ o.1.rng = q.1.rng ∧ o.1.caller = q.1.caller ∧
    o.1.state.deref o.2.get = q.1.state.deref q.2.get := by
  intro o q
  have e : o.1.deref o.2.get = q.1.deref q.2.get :=
    (C155_fit R b reg rng hrng p hrate st s X y coords W h hreg hst).1.trans
      (C155_fit R b' reg rng hrng p hrate st s X y coords W h hreg hst).1.symm
  simp only [FitOut.deref, FitOut.mk.injEq] at e
  exact ⟨e.1, e.2.2.2, e.2.2.1, e.2.1⟩

/-- C158: `WeightModel.predict_by_fit`. -/
theorem C158_predict_by_fit (R : Regressor K O) (b b' : Backend) (reg : Nat) (p : WMParams K C)
    (st : WMState K Nat C) (X : Mat K) (coords : Option C) (W : Option (Mat K)) (h : Heap O)
    (hreg : reg < h.next) :
    (predictByFitObj R b reg p st X coords W h).1 = (predictByFitObj R b' reg p st X coords W h).1 :=
  (C155_predict_by_fit R b reg p st X coords W h hreg).1.trans
    (C155_predict_by_fit R b' reg p st X coords W h hreg).1.symm

/-- C158: `StackingWeightModel.fit`. -/
theorem C158_stacking_fit (R : Regressor K O) (b b' : Backend) (reg : Nat) (M Mn : Learner K G) (rng : Rng S)
    (p : SParams K C) (st : SState K Nat G C) (s : S) (X : Mat K) (y : List K) (coords : Option C)
    (W : Option (WMat K)) (h : Heap O) (hreg : reg < h.next) (hst : st.Below h.next) :
    let o := stackFitObj R b reg M Mn rng p st s X y coords W h
    let q := stackFitObj R b' reg M Mn rng p st s X y coords W h
    o.1.result = q.1.result ∧ o.1.rng = q.1.rng ∧ o.1.caller = q.1.caller ∧
    o.1.state.deref o.2.get = q.1.state.deref q.2.get := by
  intro o q
  have e : o.1.deref o.2.get = q.1.deref q.2.get :=
    (C156_fit R b reg M Mn rng p st s X y coords W h hreg hst).1.trans
      (C156_fit R b' reg M Mn rng p st s X y coords W h hreg hst).1.symm
  generalize o.1 = x at e ⊢
  generalize q.1 = z at e ⊢
  obtain ⟨x1, x2, x3, x4⟩ := x
  obtain ⟨z1, z2, z3, z4⟩ := z
  simp only [SOut.deref, SOut.mk.injEq] at e
  exact ⟨e.1, e.2.2.2, e.2.2.1, e.2.1⟩

/-- C158: `StackingWeightModel.predict_by_fit`. -/
theorem C158_stacking_predict (R : Regressor K O) (b b' : Backend) (reg : Nat) (M : Learner K G)
    (p : SParams K C) (st : SState K Nat G C) (s : S) (X : Mat K) (y : List K) (train : C) (Xp : Mat K)
    (test : C) (h : Heap O) (hreg : reg < h.next) (hst : st.Below h.next) :
    let o := stackPredictByFitObj R b reg M p st s X y train Xp test h
    let q := stackPredictByFitObj R b' reg M p st s X y train Xp test h
    o.1.result = q.1.result ∧ o.1.rng = q.1.rng ∧ o.1.caller = q.1.caller ∧
    o.1.state.deref o.2.get = q.1.state.deref q.2.get := by
  intro o q
  have e : o.1.deref o.2.get = q.1.deref q.2.get :=
    (C156_predict_by_fit R b reg M p st s X y train Xp test h hreg hst).1.trans
      (C156_predict_by_fit R b' reg M p st s X y train Xp test h hreg hst).1.symm
  generalize o.1 = x at e ⊢
  generalize q.1 = z at e ⊢
  obtain ⟨x1, x2, x3, x4⟩ := x
  obtain ⟨z1, z2, z3, z4⟩ := z
  simp only [SOut.deref, SOut.mk.injEq] at e
  exact ⟨e.1, e.2.2.2, e.2.2.1, e.2.1⟩

/-! ### An example, and why tasks must own their objects -/

/-- Two batches of two tasks each, on objects `0 .. 3`. -/
def twoBatches (own : Nat → Nat) : List (List (Except Err (Job ℚ (Nat × ℚ) ℚ))) :=
  [[.ok ⟨own 0, [], [2, 6], [], fun o => .ok o.2⟩, .ok ⟨own 1, [], [1, 6], [], fun o => .ok o.2⟩],
   [.ok ⟨own 2, [], [1, 2], [], fun o => .ok o.2⟩, .ok ⟨own 3, [], [9], [], fun o => .ok o.2⟩]]

/-- The hypothesis of `C158_interleavings` is met, with a schedule under which the threads alternate. -/
example : ((twoBatches id).flatten.filterMap fun t => t.toOption.map Job.est).Nodup ∧
    (runBatches warmMean (.threads [0, 1, 1, 0, 0, 1, 1, 0, 0, 1]) (twoBatches id) ⟨4, fun _ => (0, 0)⟩).1 =
      .ok [(4, 0), (7 / 2, 1), (3 / 2, 2), (9, 3)] := by
  constructor <;> decide +kernel

/-- C158: this rests on every task having its own object. With one object for all tasks the order of the
steps decides about the results. -/
theorem C158_shared_object : ∃ (s s' : List Nat) (l l' : List (ℚ × Nat)), l ≠ l' ∧
    (runBatches warmMean (.threads s) (twoBatches fun _ => 0) ⟨1, fun _ => (0, 0)⟩).1 = .ok l ∧
    (runBatches warmMean (.threads s') (twoBatches fun _ => 0) ⟨1, fun _ => (0, 0)⟩).1 = .ok l' := by
  refine ⟨[], [1, 1, 1, 1], [(4, 0), (15 / 2, 0), (9, 0), (18, 0)],
    [(11 / 2, 0), (9, 0), (3 / 2, 0), (18, 0)], ?_, ?_, ?_⟩ <;> decide +kernel

end Geo
