import Verif.Props.Gwr
/-
C165: fits with `leave_local_out` compared with fits that keep the local observation.
-/
set_option linter.unusedSectionVars false
namespace Geo
variable {K : Type} [Field K] [LinearOrder K] [IsStrictOrderedRing K] [FloorRing K]
  {F C S : Type}

/-- The weighted loss of a fitted regressor on its training data. -/
def weightedLoss (loss : K → K → K) (L : Learner K F) (f : F) (rows : List (List K)) (ys ws : List K) : K :=
  ∑ k ∈ Finset.range rows.length,
    ws.getD k 0 * loss (ys.getD k 0) (L.predict f (rows.getD k []))

/-- A regressor that minimises a weighted loss plus a penalty over a class of models: linear models by
least squares, with or without ridge or lasso penalty, means, medians and other quantiles, kernel ridge
regression. -/
def MinimisesLoss (loss : K → K → K) (pen : F → K) (Q : F → Prop) (L : Learner K F) : Prop :=
  ∀ e rows ys ws f, L.fit e rows ys ws = .ok f → Q f ∧ ∀ g, Q g →
    weightedLoss loss L f rows ys ws + pen f ≤ weightedLoss loss L g rows ys ws + pen g

theorem weightedLoss_map (loss : K → K → K) (L : Learner K F) (f : F) (X : Mat K) (T : List Nat)
    (y w : Nat → K) : weightedLoss loss L f (T.map X.row) (T.map y) (T.map w) =
      (T.map fun j => w j * loss (y j) (L.predict f (X.row j))).sum := by
  unfold weightedLoss
  rw [← list_sum_range, List.length_map]
  congr 1
  apply List.ext_getElem (by simp)
  intro k k1 k2
  have hk : k < T.length := by simpa using k2
  simp [hk]

/-- One location. -/
theorem inSample_core {loss : K → K → K} {pen : F → K} {Q : F → Prop} {L : Learner K F}
    (hL : MinimisesLoss loss pen Q L) {X : Mat K} {y : Nat → K} {w : Nat → K} {i : Nat}
    (hw : i < X.r → 0 ≤ w i) {f g : F} {T T' : List Nat}
    (hT : T = (List.range X.r).filter fun k => decide (w k ≠ 0))
    (hT' : T' = (List.range X.r).filter fun k => decide (w k ≠ 0 ∧ k ≠ i))
    (hf : L.fit i (T.map X.row) (T.map y) (T.map w) = .ok f)
    (hg : L.fit i (T'.map X.row) (T'.map y) (T'.map w) = .ok g) :
    loss (y i) (L.predict f (X.row i)) ≤ loss (y i) (L.predict g (X.row i)) := by
  by_cases hi : i < X.r ∧ w i ≠ 0
  · obtain ⟨f1, f2⟩ := hL _ _ _ _ _ hf
    obtain ⟨g1, g2⟩ := hL _ _ _ _ _ hg
    have h1 := f2 g g1
    have h2 := g2 f f1
    simp only [weightedLoss_map] at h1 h2
    have e : ∀ m : F, (T.map fun j => w j * loss (y j) (L.predict m (X.row j))).sum =
        (T'.map fun j => w j * loss (y j) (L.predict m (X.row j))).sum +
          w i * loss (y i) (L.predict m (X.row i)) := by
      intro m
      rw [filtered_sum hT (out := fun _ => False) (w := w) (by simp) _ fun j _ h0 => by rw [h0, zero_mul],
        filtered_sum hT' (out := fun j => j = i) (w := w) (by simp) _ fun j _ h0 => by rw [h0, zero_mul]]
      have hm : i ∈ Finset.range X.r := Finset.mem_range.2 hi.1
      rw [← Finset.sum_erase_add _ _ hm, ← Finset.sum_erase_add (Finset.range X.r)
        (fun j => if j = i then 0 else w j * loss (y j) (L.predict m (X.row j))) hm]
      simp only [if_false, if_true, add_zero]
      congr 1
      refine Finset.sum_congr rfl fun j hj => ?_
      rw [if_neg (Finset.ne_of_mem_erase hj)]
    rw [e, e] at h1
    have hpos : 0 < w i := lt_of_le_of_ne (hw hi.1) (Ne.symm hi.2)
    have : w i * loss (y i) (L.predict f (X.row i)) ≤ w i * loss (y i) (L.predict g (X.row i)) := by
      linarith
    exact le_of_mul_le_mul_left this hpos
  · have : T = T' := by
      rw [hT, hT']
      refine List.filter_congr fun k hk => ?_
      have hk := List.mem_range.1 hk
      have : w k ≠ 0 ↔ w k ≠ 0 ∧ k ≠ i := by
        refine ⟨fun h => ⟨h, ?_⟩, fun h => h.1⟩
        rintro rfl
        exact hi ⟨hk, h⟩
      simp only [decide_eq_decide]
      exact this
    rw [this, hg] at hf
    rw [Except.ok.inj hf]

/-- C165: the loss. Fit once with and once without `leave_local_out`, everything else the same, with a
regressor that minimises a weighted loss plus a penalty. At every location the loss of the local
prediction without `leave_local_out` is at most the loss with it. -/
theorem C165_in_sample_loss (loss : K → K → K) (pen : F → K) (Q : F → Prop) (L : Learner K F)
    (hL : MinimisesLoss loss pen Q L) (rng : Rng S) (p p' : WMParams K C) (hp : p.leaveLocalOut = true)
    (hp' : p' = { p with leaveLocalOut := false })
    (hal : p.nJobs = none ∨ p.sampleRate = none) (st st' : WMState K F C) (s : S) (X : Mat K)
    (y : List K) (coords : Option C) (W : Option (WMat K)) (D : Mat K)
    (hD : chosenWeights p coords W = .ok (.dense D)) (hd : ∀ i < X.r, 0 ≤ D.get i i)
    (h : (wmFit L rng p st s X y coords W).result = .ok ())
    (h' : (wmFit L rng p' st' s X y coords W).result = .ok ()) :
    ∃ (idx : List Nat) (ps qs : List K),
      (wmFit L rng p st s X y coords W).state.localIndices = some idx ∧
      (wmFit L rng p' st' s X y coords W).state.localIndices = some idx ∧
      (wmFit L rng p st s X y coords W).state.localPredict = some ps ∧
      (wmFit L rng p' st' s X y coords W).state.localPredict = some qs ∧
      ps.length = idx.length ∧ qs.length = idx.length ∧
      ∀ (k i : Nat) (a b : K), idx[k]? = some i → ps[k]? = some a → qs[k]? = some b →
        loss (y.getD i 0) b ≤ loss (y.getD i 0) a := by
  subst hp'
  obtain ⟨idx, s1, fs, hs, hy, hl, hix, -, ⟨ps, hps, hpl, -, hpv⟩, hfit⟩ := fit_values hal hD h
  obtain ⟨idx', s1', fs', hs', hy', hl', hix', -, ⟨qs, hqs, hql, -, hqv⟩, hfit'⟩ :=
    fit_values (p := { p with leaveLocalOut := false }) hal hD h'
  have hii : idx' = idx := by
    have := hs.symm.trans hs'
    injection this with e1 e2
    injection e1 with e1
    exact e1.symm
  subst hii
  refine ⟨idx', ps, qs, hix, hix', hps, hqs, hpl, hql, fun k i a b hk ha hb => ?_⟩
  obtain ⟨hk', -⟩ := List.getElem?_eq_some_iff.1 hk
  have e1 := List.getElem?_eq_getElem (by omega : k < fs.length)
  have e2 := List.getElem?_eq_getElem (by omega : k < fs'.length)
  rw [hpv k i _ hk e1] at ha
  rw [hqv k i _ hk e2] at hb
  rw [← Option.some.inj ha, ← Option.some.inj hb]
  exact inSample_core hL (w := D.get i) (y := fun j => y.getD j 0) (hd i)
    (T := trainingSet { p with leaveLocalOut := false } X.r D i) (T' := trainingSet p X.r D i)
    (by unfold trainingSet; simp) (by unfold trainingSet; simp [hp]) (hfit' k i _ hk e2) (hfit k i _ hk e1)

theorem sum_sq_zip_le : ∀ (ys ps qs : List K), ps.length = ys.length → qs.length = ys.length →
    (∀ (k : Nat) (u a b : K), ys[k]? = some u → ps[k]? = some a → qs[k]? = some b →
      (u - b) ^ 2 ≤ (u - a) ^ 2) →
    ((ys.zip qs).map fun e => (e.1 - e.2) ^ 2).sum ≤ ((ys.zip ps).map fun e => (e.1 - e.2) ^ 2).sum
  | [], ps, qs, _, _, _ => by simp
  | u :: ys, [], qs, h1, _, _ => by simp at h1
  | u :: ys, a :: ps, [], _, h2, _ => by simp at h2
  | u :: ys, a :: ps, b :: qs, h1, h2, h => by
    simp only [List.zip_cons_cons, List.map_cons, List.sum_cons]
    refine add_le_add (h 0 u a b rfl rfl rfl) (sum_sq_zip_le ys ps qs ?_ ?_ fun k u a b hu ha hb =>
      h (k + 1) u a b hu ha hb)
    · simpa using h1
    · simpa using h2

theorem skR2_mono {ys ps qs : List K} {a b : K} (ha : skR2 ys ps = .ok a) (hb : skR2 ys qs = .ok b)
    (hle : ((ys.zip qs).map fun e => (e.1 - e.2) ^ 2).sum ≤ ((ys.zip ps).map fun e => (e.1 - e.2) ^ 2).sum) :
    a ≤ b := by
  have hn : ∀ (l : List K), 0 ≤ ((ys.zip l).map fun e => (e.1 - e.2) ^ 2).sum := fun l =>
    List.sum_nonneg (by
      intro x hx
      obtain ⟨e, -, rfl⟩ := List.mem_map.1 hx
      exact sq_nonneg _)
  have hden : 0 ≤ (ys.map fun y => (y - ys.sum / (ys.length : K)) ^ 2).sum :=
    List.sum_nonneg (by
      intro x hx
      obtain ⟨e, -, rfl⟩ := List.mem_map.1 hx
      exact sq_nonneg _)
  unfold skR2 at ha hb
  split at ha
  · cases ha
  split at ha
  · cases ha
  split at hb
  · cases hb
  split at hb
  · cases hb
  simp only [Except.ok.injEq] at ha hb
  rw [← ha, ← hb]
  split
  · rename_i hne
    have hpos := lt_of_le_of_ne hden (Ne.symm hne)
    have := div_le_div_of_nonneg_right hle hpos.le
    linarith
  · split
    · rename_i h0
      rw [h0] at hle
      rw [if_pos (le_antisymm hle (hn qs))]
    · split
      · exact zero_le_one
      · exact le_rfl

/-- C165: the score. With a regressor that minimises squared errors (plus a penalty) the score of a fit
with `leave_local_out` is at most the score of the fit without it. -/
theorem C165_score (pen : F → K) (Q : F → Prop) (L : Learner K F)
    (hL : MinimisesLoss (fun u v => (u - v) ^ 2) pen Q L) (rng : Rng S) (p p' : WMParams K C)
    (hp : p.leaveLocalOut = true) (hp' : p' = { p with leaveLocalOut := false })
    (hal : p.nJobs = none ∨ p.sampleRate = none) (st st' : WMState K F C) (s : S) (X : Mat K)
    (y : List K) (coords : Option C) (W : Option (WMat K)) (D : Mat K)
    (hD : chosenWeights p coords W = .ok (.dense D)) (hd : ∀ i < X.r, 0 ≤ D.get i i)
    (h : (wmFit L rng p st s X y coords W).result = .ok ())
    (h' : (wmFit L rng p' st' s X y coords W).result = .ok ()) :
    ∃ a b, (wmFit L rng p st s X y coords W).state.score = some a ∧
      (wmFit L rng p' st' s X y coords W).state.score = some b ∧ a ≤ b := by
  obtain ⟨idx, ps, qs, hi, hi', hps, hqs, hpl, hql, hle⟩ :=
    C165_in_sample_loss _ pen Q L hL rng p p' hp hp' hal st st' s X y coords W D hD hd h h'
  obtain ⟨W0, jx, s', res, sc, -, -, -, -, hl, -, hsc, hout⟩ := wmFit_ok h
  obtain ⟨W0', jx', s'', res', sc', -, -, -, -, hl', -, hsc', hout'⟩ := wmFit_ok h'
  rw [hout] at hi hps
  rw [hout'] at hi' hqs
  cases Option.some.inj hi
  cases Option.some.inj hi'
  refine ⟨sc, sc', by rw [hout], by rw [hout'], skR2_mono hsc hsc' ?_⟩
  rw [Option.some.inj hps, Option.some.inj hqs]
  refine sum_sq_zip_le _ _ _ (by simpa using hpl) (by simpa using hql) fun k u a b hu ha hb => ?_
  rw [List.getElem?_map, Option.map_eq_some_iff] at hu
  obtain ⟨i, hk, rfl⟩ := hu
  exact hle k i a b hk ha hb

/-- C165: least squares is such a regressor. -/
theorem leastSquares_minimises {n : Nat} {L : Learner K F} (hL : LeastSquares n L) :
    MinimisesLoss (fun u v => (u - v) ^ 2) (fun _ => 0)
      (fun f => ∃ c β, ∀ x, L.predict f x = linVal n c β x) L := by
  intro e rows ys ws f hf
  obtain ⟨c, β, hp, hmin⟩ := hL _ _ _ _ _ hf
  refine ⟨⟨c, β, hp⟩, ?_⟩
  rintro g ⟨c', β', hg⟩
  have := hmin c' β'
  unfold weightedSse at this
  unfold weightedLoss
  simp only [hp, hg, add_zero]
  exact this

/-- C165: means, exactly. Without `leave_local_out` the residual is the one with `leave_local_out` times
one minus the own weight of the location. -/
theorem C165_mean (L : Learner K F) (hL : IsWeightedMean L) (rng : Rng S) (p p' : WMParams K C)
    (hp : p.leaveLocalOut = true) (hp' : p' = { p with leaveLocalOut := false })
    (hal : p.nJobs = none ∨ p.sampleRate = none) (st st' : WMState K F C) (s : S) (X : Mat K)
    (y : List K) (coords : Option C) (W : Option (WMat K)) (D : Mat K)
    (hD : chosenWeights p coords W = .ok (.dense D))
    (h : (wmFit L rng p st s X y coords W).result = .ok ())
    (h' : (wmFit L rng p' st' s X y coords W).result = .ok ()) :
    ∃ (idx : List Nat) (ps qs : List K),
      (wmFit L rng p st s X y coords W).state.localIndices = some idx ∧
      (wmFit L rng p st s X y coords W).state.localPredict = some ps ∧
      (wmFit L rng p' st' s X y coords W).state.localPredict = some qs ∧
      ∀ (k i : Nat) (a b : K), idx[k]? = some i → i < X.r →
        ∑ j ∈ Finset.range X.r, D.get i j = 1 → D.get i i ≠ 1 → ps[k]? = some a → qs[k]? = some b →
        y.getD i 0 - b = (1 - D.get i i) * (y.getD i 0 - a) := by
  subst hp'
  obtain ⟨jx, ps, hix, hps, hpl, hpv⟩ := C161_local_predictions L hL rng p hal st s X y coords W D hD h
  obtain ⟨jx', qs, hix', hqs, hql, hqv⟩ :=
    C161_local_predictions L hL rng { p with leaveLocalOut := false } hal st' s X y coords W D hD h'
  have hjj : jx' = jx := by
    obtain ⟨i1, t1, -, u1, -, -, v1, -⟩ := fit_values hal hD h
    obtain ⟨i2, t2, -, u2, -, -, v2, -⟩ := fit_values (p := { p with leaveLocalOut := false }) hal hD h'
    rw [hix] at v1
    rw [hix'] at v2
    have := u1.symm.trans u2
    injection this with e1 e2
    injection e1 with e1
    rw [Option.some.inj v1, Option.some.inj v2, e1]
  subst hjj
  refine ⟨jx', ps, qs, hix, hps, hqs, fun k i a b hk hi hsum hne ha hb => ?_⟩
  have h1 := hpv k i hk (D.get i) 1 one_ne_zero (fun j _ => (div_one _).symm)
  have h2 := hqv k i hk (D.get i) 1 one_ne_zero (fun j _ => (div_one _).symm)
  rw [ha] at h1
  rw [hb] at h2
  have h1 := Option.some.inj h1
  have h2 := Option.some.inj h2
  simp only [hp, true_and] at h1
  simp only [Bool.false_eq_true, false_and, if_false, hsum, div_one] at h2
  have hm : i ∈ Finset.range X.r := Finset.mem_range.2 hi
  have hs : ∀ u : Nat → K, (∑ j ∈ Finset.range X.r, if j = i then 0 else u j) =
      (∑ j ∈ Finset.range X.r, u j) - u i := by
    intro u
    rw [← Finset.sum_erase_add _ _ hm, ← Finset.sum_erase_add (Finset.range X.r) u hm]
    simp only [if_true, add_zero, add_sub_cancel_right]
    exact Finset.sum_congr rfl fun j hj => if_neg (Finset.ne_of_mem_erase hj)
  rw [hs, hs, hsum, ← h2] at h1
  have hne' : 1 - D.get i i ≠ 0 := fun h0 => hne (by linarith)
  rw [h1]
  field_simp
  ring

/-- C165: least squares, exactly. Let `h` be the influence of observation `i` on its own prediction: the
value at `i` of the regression at `i` of the target that is one at `i` and zero elsewhere. Then `h` lies
between zero and one, and without `leave_local_out` the residual is the one with `leave_local_out` times
`1 - h`. -/
theorem C165_least_squares (L : Learner K F) (rng : Rng S) (p p' : WMParams K C)
    (hp : p.leaveLocalOut = true) (hp' : p' = { p with leaveLocalOut := false })
    (hal : p.nJobs = none ∨ p.sampleRate = none) (st st' : WMState K F C) (s : S) (X : Mat K)
    (hL : LeastSquares X.c L) (y : List K) (coords : Option C) (W : Option (WMat K)) (D : Mat K)
    (hD : chosenWeights p coords W = .ok (.dense D))
    (h : (wmFit L rng p st s X y coords W).result = .ok ())
    (h' : (wmFit L rng p' st' s X y coords W).result = .ok ()) :
    ∃ (idx : List Nat) (ps qs : List K),
      (wmFit L rng p st s X y coords W).state.localIndices = some idx ∧
      (wmFit L rng p st s X y coords W).state.localPredict = some ps ∧
      (wmFit L rng p' st' s X y coords W).state.localPredict = some qs ∧
      ∀ (k i : Nat) (a b : K), idx[k]? = some i → i < X.r →
        ∀ (κ : Nat → K) (z : K), 0 < z → (∀ j < X.r, 0 ≤ κ j ∧ D.get i j = κ j / z) → 0 < κ i →
        ps[k]? = some a → qs[k]? = some b →
        ∀ d γ, NormalEquations X κ (fun j => if j = i then 1 else 0) d γ →
          0 ≤ linVal X.c d γ (X.row i) ∧ linVal X.c d γ (X.row i) ≤ 1 ∧
          y.getD i 0 - b = (1 - linVal X.c d γ (X.row i)) * (y.getD i 0 - a) := by
  subst hp'
  obtain ⟨jx, ps, es, hix, hps, -, hpv⟩ :=
    C164_local_models L rng p hal st s X hL y coords W D hD h
  obtain ⟨jx', qs, es', hix', hqs, -, hqv⟩ :=
    C164_local_models L rng { p with leaveLocalOut := false } hal st' s X hL y coords W D hD h'
  have hjj : jx' = jx := by
    obtain ⟨i1, t1, -, u1, -, -, v1, -⟩ := fit_values hal hD h
    obtain ⟨i2, t2, -, u2, -, -, v2, -⟩ := fit_values (p := { p with leaveLocalOut := false }) hal hD h'
    rw [hix] at v1
    rw [hix'] at v2
    have := u1.symm.trans u2
    injection this with e1 e2
    injection e1 with e1
    rw [Option.some.inj v1, Option.some.inj v2, e1]
  subst hjj
  refine ⟨jx', ps, qs, hix, hps, hqs, fun k i a b hk hi κ z hz hκ hpos ha hb d γ hinf => ?_⟩
  obtain ⟨⟨c, β, hn, hv, -⟩, -⟩ := hpv k i hk κ z hz hκ
  obtain ⟨⟨c', β', hn', hv', -⟩, -⟩ := hqv k i hk κ z hz hκ
  rw [ha] at hv
  rw [hb] at hv'
  have hv := Option.some.inj hv
  have hv' := Option.some.inj hv'
  simp only [hp, true_and] at hn
  simp only [Bool.false_eq_true, false_and, if_false] at hn'
  have hm : i ∈ Finset.range X.r := Finset.mem_range.2 hi
  have hk0 : ∀ j < X.r, 0 ≤ κ j := fun j hj => (hκ j hj).1
  refine ⟨?_, ?_, ?_⟩
  · have ho := hinf.orthogonal d γ
    have e : ∀ j, κ j * ((if j = i then 1 else 0) - linVal X.c d γ (X.row j)) * linVal X.c d γ (X.row j) =
        (if j = i then κ j * linVal X.c d γ (X.row j) else 0) - κ j * linVal X.c d γ (X.row j) ^ 2 := by
      intro j
      split <;> ring
    simp only [e] at ho
    rw [Finset.sum_sub_distrib, Finset.sum_ite_eq' (Finset.range X.r) i, if_pos hm, sub_eq_zero] at ho
    have : 0 ≤ κ i * linVal X.c d γ (X.row i) := by
      rw [ho]
      exact Finset.sum_nonneg fun j hj => mul_nonneg (hk0 j (Finset.mem_range.1 hj)) (sq_nonneg _)
    exact nonneg_of_mul_nonneg_right this hpos
  · have ho := hinf.orthogonal d γ
    have e : ∀ j, κ j * ((if j = i then 1 else 0) - linVal X.c d γ (X.row j)) * linVal X.c d γ (X.row j) =
        (if j = i then κ j * linVal X.c d γ (X.row j) else 0) - κ j * linVal X.c d γ (X.row j) ^ 2 := by
      intro j
      split <;> ring
    simp only [e] at ho
    rw [Finset.sum_sub_distrib, Finset.sum_ite_eq' (Finset.range X.r) i, if_pos hm, sub_eq_zero] at ho
    have hge : κ i * linVal X.c d γ (X.row i) ^ 2 ≤ κ i * linVal X.c d γ (X.row i) := by
      rw [ho]
      exact Finset.single_le_sum (f := fun j => κ j * linVal X.c d γ (X.row j) ^ 2)
        (fun j hj => mul_nonneg (hk0 j (Finset.mem_range.1 hj)) (sq_nonneg _)) hm
    have h1 := le_of_mul_le_mul_left hge hpos
    by_contra hlt
    have hlt := not_le.1 hlt
    nlinarith
  · -- the regression without `i`, moved by the influence of `i`, is the regression with `i`
    have hmix : NormalEquations X κ (fun j => y.getD j 0) (c + (y.getD i 0 - a) * d)
        (fun q => β q + (y.getD i 0 - a) * γ q) := by
      have key : ∀ u : Nat → K, (∑ j ∈ Finset.range X.r, (if j = i then 0 else κ j) * u j *
            (y.getD j 0 - linVal X.c c β (X.row j)) = 0) →
          (∑ j ∈ Finset.range X.r, κ j * u j * ((if j = i then 1 else 0) - linVal X.c d γ (X.row j)) = 0) →
          ∑ j ∈ Finset.range X.r, κ j * u j * (y.getD j 0 - linVal X.c (c + (y.getD i 0 - a) * d)
            (fun q => β q + (y.getD i 0 - a) * γ q) (X.row j)) = 0 := by
        intro u h1 h2
        have e : ∀ j, κ j * u j * (y.getD j 0 - linVal X.c (c + (y.getD i 0 - a) * d)
            (fun q => β q + (y.getD i 0 - a) * γ q) (X.row j)) =
            (if j = i then 0 else κ j) * u j * (y.getD j 0 - linVal X.c c β (X.row j)) +
            (y.getD i 0 - a) * (κ j * u j * ((if j = i then 1 else 0) - linVal X.c d γ (X.row j))) := by
          intro j
          rw [linVal_step]
          by_cases hj : j = i
          · subst hj
            rw [if_pos rfl, if_pos rfl, hv]
            ring
          · rw [if_neg hj, if_neg hj]
            ring
        simp only [e]
        rw [Finset.sum_add_distrib, h1, ← Finset.mul_sum, h2, mul_zero, zero_add]
      refine ⟨?_, fun q hq => ?_⟩
      · have := key (fun _ => 1) (by simpa using hn.1) (by simpa using hinf.1)
        simpa using this
      · exact key (fun j => X.get j q) (hn.2 q hq) (hinf.2 q hq)
    have := hn'.unique hk0 hmix i hi hpos.ne'
    rw [linVal_step, ← hv, ← hv'] at this
    rw [this]
    ring

/-! ### Examples -/

/-- The parameters of the example without `leave_local_out`. -/
def exPcIn : WMParams ℚ (List (Mat ℚ)) := { exPc with leaveLocalOut := false }

/-- Twice the weighted mean: a regressor that minimises nothing. -/
def doubleMean : Learner ℚ ℚ where
  fit e rows ys ws := (localMean.fit e rows ys ws).map (2 * ·)
  predict f _ := f

/-- C165: without the hypothesis on the regressor the claim fails. Twice the weighted mean scores better
with `leave_local_out` than without. -/
theorem C165_needs_minimiser : ∃ (L : Learner ℚ ℚ) (y : List ℚ) (a b : ℚ),
    (wmFit L countRng exPc {} 0 exX5 y (some exTrain) none).result = .ok () ∧
    (wmFit L countRng exPcIn {} 0 exX5 y (some exTrain) none).result = .ok () ∧
    (wmFit L countRng exPc {} 0 exX5 y (some exTrain) none).state.score = some a ∧
    (wmFit L countRng exPcIn {} 0 exX5 y (some exTrain) none).state.score = some b ∧ b < a :=
  ⟨doubleMean, [2, 2, 1, 2, 2],
    (wmFit doubleMean countRng exPc {} 0 exX5 [2, 2, 1, 2, 2] (some exTrain) none).state.score.getD 0,
    (wmFit doubleMean countRng exPcIn {} 0 exX5 [2, 2, 1, 2, 2] (some exTrain) none).state.score.getD 0,
    by decide +kernel⟩

/-- Local regressions and local means of data that are not linear: both fits succeed and the scores
differ. -/
example : exPc.leaveLocalOut = true ∧
    (wmFit simpleRegression countRng exPc {} 0 exX5 exY5 (some exTrain) none).result = .ok () ∧
    (wmFit simpleRegression countRng exPcIn {} 0 exX5 exY5 (some exTrain) none).result = .ok () ∧
    (wmFit simpleRegression countRng exPc {} 0 exX5 exY5 (some exTrain) none).state.score ≠
      (wmFit simpleRegression countRng exPcIn {} 0 exX5 exY5 (some exTrain) none).state.score ∧
    (wmFit localMean countRng exPc {} 0 exX5 exY5 (some exTrain) none).result = .ok () ∧
    (wmFit localMean countRng exPcIn {} 0 exX5 exY5 (some exTrain) none).result = .ok () ∧
    (wmFit localMean countRng exPc {} 0 exX5 exY5 (some exTrain) none).state.score ≠
      (wmFit localMean countRng exPcIn {} 0 exX5 exY5 (some exTrain) none).state.score := by
  decide +kernel

/-- The target that is one at an observation and zero elsewhere. -/
def unitTarget (i : Nat) : List ℚ := (List.range 5).map fun j => if j = i then 1 else 0

/-- The regression at `i` of that target. -/
def influenceCoef (i : Nat) : ℚ × ℚ :=
  (((wmFit simpleRegression countRng exPcIn {} 0 exX5 (unitTarget i) (some exTrain) none).state.estimators.getD
    []).getD i none).getD (0, 0)

/-- The influence of each observation on its own prediction exists, and is neither zero nor one. -/
example : ∀ i < 5, NormalEquations exX5 (gwrKernel i) (fun j => if j = i then 1 else 0)
      (influenceCoef i).1 (fun _ => (influenceCoef i).2) ∧
    0 < linVal 1 (influenceCoef i).1 (fun _ => (influenceCoef i).2) (exX5.row i) ∧
    linVal 1 (influenceCoef i).1 (fun _ => (influenceCoef i).2) (exX5.row i) < 1 := by
  unfold NormalEquations linVal
  decide +kernel

end Geo
