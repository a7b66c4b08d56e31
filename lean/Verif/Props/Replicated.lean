import Verif.Props.MoreData
import Verif.Props.KernelSmoother
/-
C162: what changes when every observation is written down several times.
-/
set_option linter.unusedSectionVars false
namespace Geo
variable {K : Type} [Field K] [LinearOrder K] [IsStrictOrderedRing K] [FloorRing K]
  {F C S : Type}

/-- Sum of a quantity over training data, with the weights. -/
def weightedTotal (rows : List (List K)) (ys ws : List K) (φ : List K → K → K) : K :=
  ((ws.zip (rows.zip ys)).map fun a => a.1 * φ a.2.1 a.2.2).sum

/-- The predictions of the regressor are determined by the weighted totals of its training data, and do not
change when all totals are multiplied by `z`. Holds for `z = 1` whenever a regressor minimises a penalised
weighted loss, and for all positive `z` if there is no penalty. -/
def ByTotals (z : K) (L : Learner K F) : Prop :=
  ∀ e e' rows rows' ys ys' ws ws' f f', rows.length = ys.length → ws.length = ys.length →
    rows'.length = ys'.length → ws'.length = ys'.length →
    (∀ φ, weightedTotal rows' ys' ws' φ = z * weightedTotal rows ys ws φ) →
    L.fit e rows ys ws = .ok f → L.fit e' rows' ys' ws' = .ok f' → ∀ x, L.predict f' x = L.predict f x

/-- Weighted means are determined by the totals. -/
theorem IsWeightedMean.byTotals {L : Learner K F} (hL : IsWeightedMean L) {z : K} (hz : z ≠ 0) :
    ByTotals z L := by
  intro e e' rows rows' ys ys' ws ws' f f' a1 a2 b1 b2 h h1 h2 x
  rw [hL _ _ _ _ _ h1, hL _ _ _ _ _ h2]
  have key : ∀ (rows : List (List K)) (ys ws : List K), rows.length = ys.length → ws.length = ys.length →
      weightedTotal rows ys ws (fun _ b => b) = (List.zipWith (· * ·) ws ys).sum ∧
      weightedTotal rows ys ws (fun _ _ => 1) = ws.sum := by
    intro rows ys ws h1 h2
    unfold weightedTotal
    constructor
    · congr 1
      apply List.ext_getElem
      · simp [h1, h2]
      · intro k _ _; simp
    · congr 1
      apply List.ext_getElem
      · simp [h1, h2]
      · intro k _ _; simp
  obtain ⟨k1, k2⟩ := key rows ys ws a1 a2
  obtain ⟨k3, k4⟩ := key rows' ys' ws' b1 b2
  rw [← k1, ← k2, ← k3, ← k4, h, h, mul_div_mul_left _ _ hz]

/-- C162: regressors that minimise a weighted loss plus a penalty (least squares, ridge, lasso and generalised
linear models, whenever the minimum is unique) are determined by the totals; without a penalty also up to a
positive factor. -/
theorem C162_loss {Θ : Type} (L : Learner K F) (loss : Θ → List K → K → K) (pen : Θ → K)
    (g : Θ → List K → K) (z : K) (hz : 0 < z) (hp : z = 1 ∨ ∀ θ, pen θ = 0)
    (hL : ∀ e rows ys ws f, L.fit e rows ys ws = .ok f → ∃ θ, (∀ x, L.predict f x = g θ x) ∧
      ∀ θ', θ' ≠ θ → weightedTotal rows ys ws (loss θ) + pen θ < weightedTotal rows ys ws (loss θ') + pen θ') :
    ByTotals z L := by
  intro e e' rows rows' ys ys' ws ws' f f' _ _ _ _ h h1 h2 x
  obtain ⟨θ, hθ, hmin⟩ := hL _ _ _ _ _ h1
  obtain ⟨θ', hθ', hmin'⟩ := hL _ _ _ _ _ h2
  have : θ' = θ := by
    by_contra hne
    have a := hmin θ' hne
    have b := hmin' θ (Ne.symm hne)
    rw [h, h] at b
    rcases hp with rfl | hp
    · rw [one_mul, one_mul] at b
      exact lt_asymm a b
    · rw [hp, hp, add_zero, add_zero] at a b
      exact lt_asymm a (lt_of_mul_lt_mul_left b hz.le)
  rw [hθ, hθ', this]

theorem sum_copies (m n : Nat) (g : Nat → K) :
    ∑ j ∈ Finset.range (m * n), g (j % n) = m * ∑ j ∈ Finset.range n, g j := by
  induction m with
  | zero => simp
  | succ m ih =>
    rw [Nat.succ_mul, Finset.sum_range_add, ih]
    have : ∑ x ∈ Finset.range n, g ((m * n + x) % n) = ∑ x ∈ Finset.range n, g x := by
      refine Finset.sum_congr rfl fun x hx => ?_
      rw [Nat.add_comm, Nat.add_mul_mod_self_right, Nat.mod_eq_of_lt (Finset.mem_range.1 hx)]
    rw [this]
    push_cast
    ring

theorem countRow_copies {D D' : Mat K} {i i' m : Nat} (hc : D'.c = m * D.c)
    (h : ∀ j < m * D.c, D'.get i' j = D.get i (j % D.c)) (p : K → Bool) :
    countRow D' i' p = m * countRow D i p := by
  have e : ∀ (D : Mat K) (i : Nat), ((countRow D i p : ℕ) : ℚ) =
      ∑ j ∈ Finset.range D.c, if p (D.get i j) then 1 else 0 := by
    intro D i
    unfold countRow
    rw [Finset.sum_boole, Nat.cast_inj, ← List.toFinset_card_of_nodup (List.nodup_range.filter _)]
    congr 1
    ext j
    simp
  have : ((countRow D' i' p : ℕ) : ℚ) = m * ((countRow D i p : ℕ) : ℚ) := by
    rw [e, e, hc, ← sum_copies]
    refine Finset.sum_congr rfl fun j hj => ?_
    rw [h j (Finset.mem_range.1 hj)]
  exact_mod_cast this

/-- C162: with every target `m` times, the `m·k`-th nearest is where the `k`-th nearest was. -/
theorem C162_bandwidth (D D' : Mat K) (k : ℤ) (m : Nat) (hm : 0 < m) (bw : Nat → K)
    (h : adaptiveBandwidth false D (.int k) none = .ok bw) (hc : D'.c = m * D.c) :
    ∃ bw', adaptiveBandwidth false D' (.int (m * k)) none = .ok bw' ∧
      ∀ i i', (∀ j < m * D.c, D'.get i' j = D.get i (j % D.c)) → bw' i' = bw i := by
  obtain ⟨hk1, hk2, -⟩ := C08_kth_nearest D k bw h 0
  have hm' : (1 : ℤ) ≤ m := by exact_mod_cast hm
  obtain ⟨bw', h'⟩ := (C08_count_validated D' (m * k)).2 ⟨by nlinarith, by
    rw [hc]; push_cast; exact mul_le_mul_of_nonneg_left hk2 (by omega)⟩
  refine ⟨bw', h', fun i i' hs => ?_⟩
  obtain ⟨-, -, -, h1, h2⟩ := C08_kth_nearest D k bw h i
  obtain ⟨-, -, -, h3, h4⟩ := C08_kth_nearest D' _ bw' h' i'
  rw [countRow_copies hc hs] at h3 h4
  push_cast at h3 h4
  have h3 := le_of_mul_le_mul_left h3 (by omega : (0 : ℤ) < m)
  have h4 := lt_of_mul_lt_mul_left h4 (by omega : (0 : ℤ) ≤ m)
  rcases lt_trichotomy (bw' i') (bw i) with hlt | he | hlt
  · have b : countRow D i (fun x => decide (x ≤ bw' i')) ≤ countRow D i (fun x => decide (x < bw i)) :=
      countRow_imp fun x hx => by simpa using lt_of_le_of_lt (of_decide_eq_true hx) hlt
    omega
  · exact he
  · have b : countRow D i (fun x => decide (x ≤ bw i)) ≤ countRow D i (fun x => decide (x < bw' i')) :=
      countRow_imp fun x hx => by simpa using lt_of_le_of_lt (of_decide_eq_true hx) hlt
    omega

/-- `m` times as many neighbours. -/
def Count.times (m : Nat) : Count K → Count K
  | .int k => .int (m * k)
  | .npInt k => .npInt (m * k)
  | .float q => .float q

/-- The same arguments with `m` times as many neighbours. -/
def WParams.times (m : Nat) (p : WParams K) : WParams K :=
  { p with count := match p.count with
      | .scalar n => .scalar (n.map (Count.times m))
      | .list l => .list (l.map (Option.map (Count.times m))) }

theorem WParams.times_count (m : Nat) (p : WParams K) (n d : Nat) :
    ((p.times m).count.expand n)[d]? = ((p.count.expand n)[d]?).map (Option.map (Count.times m)) := by
  unfold WParams.times
  cases p.count with
  | scalar a =>
    simp only [Param.expand]
    by_cases hd : d < n <;> simp [hd]
  | list l => simp [Param.expand]

/-- C162: weights. Every target of `W` occurs `m` times among the targets of `W'`; bandwidths are the same
numbers, integer neighbour counts are multiplied by `m`. The weight of a target is shared evenly among its
copies. -/
theorem C162_weights (env : Env K) (he : env.Ok) (Ds Ds' : List (Mat K)) (p : WParams K) (m : Nat)
    (hm : 0 < m) (W W' : Mat (Num K)) (h : weightMatrixFromDistance env false Ds p = .ok W)
    (h' : weightMatrixFromDistance env false Ds' (p.times m) = .ok W') (hlen : Ds'.length = Ds.length)
    (hin : NonnegInput Ds p) (hin' : NonnegInput Ds' (p.times m))
    (hint : ∀ n, some n ∈ p.count.expand Ds.length → ∃ k, n = .int k)
    (i i' : Nat) (hi : i < W.r) (hi' : i' < W'.r) (hc : W'.c = m * W.c)
    (hsame : ∀ (d : Nat) (D D' : Mat K), Ds[d]? = some D → Ds'[d]? = some D' →
      ∀ j < W'.c, D'.get i' j = D.get i (j % W.c)) (j : Nat) (hj : j < W'.c) :
    ∃ x, W.get i (j % W.c) = .fin x ∧ W'.get i' j = .fin (x / m) := by
  obtain ⟨Ws, hWs, hsh, hu, hW⟩ := weightMatrix_master env he h hin
  obtain ⟨Ws', hWs', hsh', hu', hW'⟩ := weightMatrix_master env he h' hin'
  have hl := dimWeights_length hWs
  have hl' := dimWeights_length hWs'
  have hcpos : 0 < W.c := by
    rcases Nat.eq_zero_or_pos W.c with h0 | h0
    · rw [hc, h0] at hj; simp at hj
    · exact h0
  have hprod : ∀ j < W'.c, prodK Ws' i' j = prodK Ws i (j % W.c) := by
    intro j hj
    have hjm : j % W.c < W.c := Nat.mod_lt _ hcpos
    unfold prodK
    congr 1
    apply List.ext_getElem
    · simp [hl, hl', hlen]
    intro d h1 h2
    simp only [List.length_map] at h1 h2
    have hd : d < Ds.length := by omega
    have hd' : d < Ds'.length := by omega
    rw [List.getElem_map, List.getElem_map]
    obtain ⟨name, bw, hname, hnm, hrule, hat, hv⟩ := dim_rule hWs hd
    obtain ⟨name', bw', hname', -, hrule', hat', hv'⟩ := dim_rule hWs' hd'
    have hname' : (p.kernel.expand Ds.length)[d]? = some name' := by rw [← hlen]; exact hname'
    rw [hname] at hname'
    cases hname'
    obtain ⟨hr1, hc1⟩ := hsh _ (List.getElem_mem hd)
    obtain ⟨hr2, hc2⟩ := hsh' _ (List.getElem_mem hd')
    have hs := hsame d _ _ (List.getElem?_eq_getElem hd) (List.getElem?_eq_getElem hd')
    have hb0 : 0 ≤ bw i := bandwidthAt_nonneg hin hsh hi (hat i)
    have hbe : bw' i' = bw i := by
      rcases hrule with ⟨x, hx, -, rfl⟩ | ⟨n, hx, hn, hok⟩
      · rcases hrule' with ⟨y, hy, -, rfl⟩ | ⟨n, hy, hn, hok⟩
        · have hy : (p.bandwidth.expand Ds.length)[d]? = some (some y) := by rw [← hlen]; exact hy
          rw [hx] at hy
          cases hy
          rfl
        · have hy : (p.bandwidth.expand Ds.length)[d]? = some none := by rw [← hlen]; exact hy
          rw [hx] at hy
          cases hy
      · rcases hrule' with ⟨y, hy, -, rfl⟩ | ⟨n', hy, hn', hok'⟩
        · have hy : (p.bandwidth.expand Ds.length)[d]? = some (some y) := by rw [← hlen]; exact hy
          rw [hx] at hy
          cases hy
        · obtain ⟨k, rfl⟩ := hint n (List.mem_of_getElem? hn)
          rw [hlen, WParams.times_count, hn] at hn'
          simp only [Option.map_some, Option.some.injEq] at hn'
          subst hn'
          obtain ⟨bw'', hb'', hall⟩ := C162_bandwidth Ds[d] Ds'[d] k m hm bw hok (by rw [hc2, hc1, hc])
          simp only [Count.times] at hok'
          rw [hok'] at hb''
          cases hb''
          refine hall i i' fun j hj => ?_
          rw [hc1] at hj ⊢
          exact hs j (by omega)
    rw [hv i _ (hin.dist _ (List.getElem_mem hd) i (by omega) _ (by omega)) hb0,
      hv' i' j (hin'.dist _ (List.getElem_mem hd') i' (by omega) j (by omega)) (by rw [hbe]; exact hb0), hbe,
      hs j hj]
  have hm0 : (m : K) ≠ 0 := by exact_mod_cast hm.ne'
  have hsum : ∑ j ∈ Finset.range W'.c, prodK Ws' i' j = m * ∑ j ∈ Finset.range W.c, prodK Ws i j := by
    rw [hc, ← sum_copies]
    exact Finset.sum_congr rfl fun j hj => hprod j (by rw [hc]; exact Finset.mem_range.1 hj)
  refine ⟨_, hW i hi _ (Nat.mod_lt _ hcpos), ?_⟩
  rw [hW' i' hi' j hj, hprod j hj]
  congr 1
  unfold normK
  rw [hsum]
  by_cases h0 : ∑ j ∈ Finset.range W.c, prodK Ws i j = 0
  · have hz : prodK Ws i (j % W.c) = 0 :=
      (Finset.sum_eq_zero_iff_of_nonneg (fun k hk => (hu.prodK_unit hi (Finset.mem_range.1 hk)).1)).1 h0 _
        (Finset.mem_range.2 (Nat.mod_lt _ hcpos))
    rw [hz]
    simp
  · rw [if_neg h0, if_neg (mul_ne_zero hm0 h0), div_div, mul_comm]

/-! ### Tiled data -/

/-- `np.tile(M, (m, 1))`. -/
def Mat.tile {α : Type} (m : Nat) (M : Mat α) : Mat α := selRows (fun k => k % M.r) (m * M.r) M

/-- `np.tile(y, m)`. -/
def tileList (m : Nat) (y : List K) : List K := (List.replicate m y).flatten

theorem tileList_length (m : Nat) (y : List K) : (tileList m y).length = m * y.length := by
  simp [tileList]

theorem tileList_getD (m : Nat) (y : List K) {k : Nat} (hk : k < m * y.length) :
    (tileList m y).getD k 0 = y.getD (k % y.length) 0 := by
  induction m generalizing k with
  | zero => simp at hk
  | succ m ih =>
    have e : tileList (m + 1) y = y ++ tileList m y := by simp [tileList, List.replicate_succ]
    rw [e, List.getD_eq_getElem?_getD]
    by_cases h : k < y.length
    · rw [List.getElem?_append_left h, Nat.mod_eq_of_lt h, List.getD_eq_getElem?_getD]
    · have h := not_lt.1 h
      rw [List.getElem?_append_right h, ← List.getD_eq_getElem?_getD,
        ih (by rw [Nat.succ_mul] at hk; omega), Nat.mod_eq_sub_mod h]

/-- Totals over the selected observations, all with weight zero left out. -/
theorem weightedTotal_sel {T : List Nat} {n : Nat} {X : Mat K} {v w : Nat → K}
    (hT : T = (List.range n).filter fun k => decide (w k ≠ 0)) (φ : List K → K → K) :
    weightedTotal (T.map X.row) (T.map v) (T.map w) φ = ∑ j ∈ Finset.range n, w j * φ (X.row j) (v j) := by
  have e1 : weightedTotal (T.map X.row) (T.map v) (T.map w) φ = (T.map fun k => w k * φ (X.row k) (v k)).sum := by
    unfold weightedTotal
    congr 1
    apply List.ext_getElem
    · simp
    · intro k _ _; simp
  rw [e1, hT, ← list_sum_range]
  generalize List.range n = l
  induction l with
  | nil => rfl
  | cons a l ih =>
    rw [List.map_cons, List.sum_cons, ← ih]
    by_cases ha : w a = 0
    · rw [List.filter_cons_of_neg (by simpa using ha), ha, zero_mul, zero_add]
    · rw [List.filter_cons_of_pos (by simpa using ha), List.map_cons, List.sum_cons]

/-- Two regressors, one fitted on tiled data with weights multiplied by `z`. -/
theorem ByTotals.tiled {L : Learner K F} {m : Nat} {z : K} (hL : ByTotals (m * z) L) {X : Mat K} {y : List K}
    (hy : y.length = X.r) {w w' : Nat → K} (hz : z ≠ 0) (hw : ∀ k < m * X.r, w' k = z * w (k % X.r)) {e e' : Nat}
    {f f' : F}
    (h : let T := (List.range X.r).filter fun k => decide (w k ≠ 0)
      L.fit e (T.map X.row) (T.map fun k => y.getD k 0) (T.map w) = .ok f)
    (h' : let T := (List.range (m * X.r)).filter fun k => decide (w' k ≠ 0)
      L.fit e' (T.map (X.tile m).row) (T.map fun k => (tileList m y).getD k 0) (T.map w') = .ok f') (x : List K) :
    L.predict f' x = L.predict f x := by
  refine hL _ _ _ _ _ _ _ _ f f' (by simp) (by simp) (by simp) (by simp) (fun φ => ?_) h h' x
  rw [weightedTotal_sel rfl, weightedTotal_sel rfl, mul_right_comm, ← sum_copies, Finset.sum_mul]
  refine Finset.sum_congr rfl fun k hk => ?_
  have hk := Finset.mem_range.1 hk
  rw [hw k hk, tileList_getD m y (by rw [hy]; exact hk), hy, Mat.tile, selRows_row]
  ring

/-- C162: fits with given weights, `leave_local_out` off. The weights among the copies are those among the
observations times `z`. Copies have the local models of the observation: the same local prediction, and the
same predictions anywhere. -/
theorem C162_model (L : Learner K F) (rng : Rng S) (p p' : WMParams K C) (m : Nat) (z : K) (hz : z ≠ 0)
    (hL : ByTotals (m * z) L) (hsr : p.sampleRate = none) (hsr' : p'.sampleRate = none)
    (hlo : p.leaveLocalOut = false) (hlo' : p'.leaveLocalOut = false)
    (st st' : WMState K F C) (s s' : S) (X : Mat K) (y : List K) (coords coords' : Option C)
    (W W' : Option (WMat K)) (D D' : Mat K) (hD : chosenWeights p coords W = .ok (.dense D))
    (hD' : chosenWeights p' coords' W' = .ok (.dense D'))
    (hok : (wmFit L rng p st s X y coords W).result = .ok ())
    (hok' : (wmFit L rng p' st' s' (X.tile m) (tileList m y) coords' W').result = .ok ())
    (hw : ∀ t < m * X.r, ∀ k < m * X.r, D'.get t k = z * D.get (t % X.r) (k % X.r)) :
    let o := wmFit L rng p st s X y coords W
    let o' := wmFit L rng p' st' s' (X.tile m) (tileList m y) coords' W'
    ∃ (ps ps' : List K) (fs fs' : List F), o.state.localPredict = some ps ∧ o'.state.localPredict = some ps' ∧
      o.state.estimators = some (fs.map fun f => if p.cacheEstimator then some f else none) ∧
      o'.state.estimators = some (fs'.map fun f => if p'.cacheEstimator then some f else none) ∧
      ps.length = X.r ∧ ps'.length = m * X.r ∧ fs.length = X.r ∧ fs'.length = m * X.r ∧
      ∀ t < m * X.r, ps'.getD t 0 = ps.getD (t % X.r) 0 ∧
        ∃ f f', fs[t % X.r]? = some f ∧ fs'[t]? = some f' ∧ ∀ x, L.predict f' x = L.predict f x := by
  obtain ⟨idx, s1, fs, hs, hy, hl, hix, hes, ⟨ps, hps, hpl, -, hpv⟩, hfit⟩ := fit_values (.inr hsr) hD hok
  obtain ⟨idx', s1', fs', hs', hy', hl', hix', hes', ⟨ps', hps', hpl', -, hpv'⟩, hfit'⟩ :=
    fit_values (.inr hsr') hD' hok'
  rw [hsr] at hs
  rw [hsr'] at hs'
  have hidx := sampleLocations_all hs
  have hidx' := sampleLocations_all hs'
  have hr : (X.tile m).r = m * X.r := rfl
  rw [hr] at hidx'
  subst hidx hidx'
  rw [List.length_range] at hl hl' hpl hpl'
  refine ⟨ps, ps', fs, fs', hps, hps', hes, hes', hpl, hpl', hl, hl', fun t ht => ?_⟩
  have hX0 : 0 < X.r := by
    rcases Nat.eq_zero_or_pos X.r with h0 | h0
    · rw [h0] at ht; simp at ht
    · exact h0
  have htm : t % X.r < X.r := Nat.mod_lt _ hX0
  have e1 := List.getElem?_eq_getElem (by omega : t % X.r < fs.length)
  have e2 := List.getElem?_eq_getElem (by omega : t < fs'.length)
  have h1 := hfit _ _ _ (List.getElem?_range htm) e1
  have h2 := hfit' _ _ _ (List.getElem?_range ht) e2
  have hts : ∀ (p : WMParams K C), p.leaveLocalOut = false → ∀ n (D : Mat K) i, trainingSet p n D i =
      (List.range n).filter fun k => decide (D.get i k ≠ 0) := by
    intro p hp n D i
    unfold trainingSet
    simp [hp]
  rw [hts p hlo] at h1
  rw [hts p' hlo', hr] at h2
  have key := ByTotals.tiled hL hy.symm hz (fun k hk => hw t ht k hk) h1 h2
  refine ⟨?_, _, _, e1, e2, key⟩
  rw [List.getD_eq_getElem?_getD, List.getD_eq_getElem?_getD, hpv _ _ _ (List.getElem?_range htm) e1,
    hpv' _ _ _ (List.getElem?_range ht) e2, key, Mat.tile, selRows_row]

/-- Weights from coordinates with tiled targets. -/
theorem pointSource_tile (lib : Lib K) (hl : lib.Nonneg) (env : Env K) (he : env.Ok) (fs fs' : Disk K)
    (ms : Param (Option String)) (wp : WParams K) (m : Nat) (hm0 : 0 < m) (src src' tgt : List (Mat K))
    (hss : src'.length = src.length)
    (hm : src.length ≤ (ms.expand src.length).length)
    {a a' n : Nat} (hsr : ∀ s ∈ src, s.r = a) (hsr' : ∀ s ∈ src', s.r = a') (htr : ∀ t ∈ tgt, t.r = n)
    (hb : ∀ b, some b ∈ wp.bandwidth.expand src.length → 0 ≤ b)
    (hint : ∀ k, some k ∈ wp.count.expand src.length → ∃ k', k = .int k') (M M' : Mat K)
    (h : pointSource lib env fs ms wp src tgt = .ok M)
    (h' : pointSource lib env fs' ms (wp.times m) src' (tgt.map (Mat.tile m)) = .ok M') (i i' : Nat)
    (hi : i < a) (hi' : i' < a')
    (hrow : ∀ d (hd : d < src.length), (src'[d]'(by omega)).row i' = src[d].row i) (j : Nat) (hj : j < m * n) :
    M'.get i' j = (m : K)⁻¹ * M.get i (j % n) := by
  have hpos : ∀ s ∈ src, 0 < s.r := fun s hs => by rw [hsr s hs]; omega
  have hpos' : ∀ s ∈ src', 0 < s.r := fun s hs => by rw [hsr' s hs]; omega
  have hm' : src'.length ≤ (ms.expand src'.length).length := by rw [hss]; exact hm
  have htr' : ∀ t ∈ tgt.map (Mat.tile m), t.r = m * n := by
    intro t ht
    obtain ⟨t0, ht0, rfl⟩ := List.mem_map.1 ht
    rw [← htr t0 ht0]
    rfl
  have hMr := pointSource_r lib env fs ms wp src tgt hm hpos M h hsr
  have hMc := pointSource_c lib env fs ms wp src tgt hm hpos M h htr
  have hMr' := pointSource_r lib env fs' ms _ src' _ hm' hpos' M' h' hsr'
  have hMc' := pointSource_c lib env fs' ms _ src' _ hm' hpos' M' h' htr'
  obtain ⟨⟨hlen, hgood⟩, V, hV, hfin, rfl⟩ := (pointSource_iff lib env fs ms wp src tgt hm hpos M).1 h
  obtain ⟨⟨hlen', hgood'⟩, V', hV', hfin', rfl⟩ :=
    (pointSource_iff lib env fs' ms _ src' _ hm' hpos' M').1 h'
  rw [hss] at hV' hm'
  have hdl := dims_length src tgt _ hlen hm
  have hdl' := dims_length src' (tgt.map (Mat.tile m)) (ms.expand src.length) hlen' (by omega)
  have hin := eagerDists_nonneg hl src tgt _ wp hdl hb
  have hin' := eagerDists_nonneg hl src' (tgt.map (Mat.tile m)) _ (wp.times m) hdl' (by rw [hss]; exact hb)
  have hVr : V.r = a := hMr
  have hVc : V.c = n := hMc
  have hVr' : V'.r = a' := hMr'
  have hVc' : V'.c = m * n := hMc'
  have hcl : (eagerDists lib src tgt (ms.expand src.length)).length = src.length := by simp [eagerDists, hdl]
  obtain ⟨x, hx, hx'⟩ := C162_weights env he _ _ { wp with sorted := .scalar none } m hm0 V V' hV hV'
    (by simp [eagerDists, hdl, hdl', hss]) hin hin'
    (by rw [hcl]; exact hint) i i' (by omega) (by omega) (by rw [hVc, hVc']) (by
      intro d D D' hD hD' j hj
      have hd : d < src.length := by
        have := (List.getElem?_eq_some_iff.1 hD).1
        rwa [hcl] at this
      simp only [eagerDists, List.getElem?_map] at hD hD'
      rw [dims_get hd hlen hm] at hD
      rw [dims_get (by omega) hlen' (by omega)] at hD'
      simp only [Option.map_some, Option.some.injEq] at hD hD'
      subst hD hD'
      have hdt : d < tgt.length := by omega
      have e1 : src.getD d ⟨0, 0, fun _ _ => 0⟩ = src[d] := by simp [hd]
      have e2 : src'.getD d ⟨0, 0, fun _ _ => 0⟩ = src'[d]'(by omega) := by simp [hss, hd]
      have e3 : tgt.getD d ⟨0, 0, fun _ _ => 0⟩ = tgt[d] := by simp [hdt]
      have e4 : (tgt.map (Mat.tile m)).getD d ⟨0, 0, fun _ _ => 0⟩ = tgt[d].tile m := by simp [hdt]
      rw [e1, e2, e3, e4]
      simp only [cdistMat]
      rw [hrow d hd, Mat.tile, selRows_row, htr _ (List.getElem_mem hdt), hVc]) j (by omega)
  rw [hVc] at hx
  change (V'.get i' j).toK = _ * (V.get i (j % n)).toK
  rw [hx, hx']
  simp only [Num.toK]
  ring

theorem fit_pointWeights {L : Learner K F} {rng : Rng S} {p : WMParams K C} {st : WMState K F C} {s : S}
    {X : Mat K} {y : List K} {c : C} (hok : (wmFit L rng p st s X y (some c) none).result = .ok ()) :
    0 < X.r ∧ ∃ M, p.weights c c = .ok M ∧ chosenWeights p (some c) none = .ok (.dense M) := by
  obtain ⟨W0, -, -, -, -, hck, hW0, -⟩ := wmFit_ok hok
  have hch := hW0
  simp only [chosenWeights] at hW0
  have hX := of_decide_eq_true hck
  refine ⟨by omega, ?_⟩
  cases hM : p.weights c c with
  | error e => rw [hM] at hW0; cases hW0
  | ok M =>
    rw [hM] at hW0
    cases hW0
    exact ⟨M, rfl, hch⟩

/-- C162: fits on coordinates, `leave_local_out` off. Every observation (coordinates, features, target) is
written `m` times and integer neighbour counts are multiplied by `m`: every copy has the local models of the
observation. -/
theorem C162_fit (L : Learner K F) (hL : ByTotals 1 L) (rng : Rng S) (lib : Lib K) (hl : lib.Nonneg)
    (env : Env K) (he : env.Ok) (fs : Disk K) (ms : Param (Option String)) (wp : WParams K)
    (p p' : WMParams K (List (Mat K))) (m : Nat) (hm0 : 0 < m) (hp : p.weights = pointSource lib env fs ms wp)
    (hp' : p'.weights = pointSource lib env fs ms (wp.times m))
    (hsr : p.sampleRate = none) (hsr' : p'.sampleRate = none)
    (hlo : p.leaveLocalOut = false) (hlo' : p'.leaveLocalOut = false)
    (st st' : WMState K F (List (Mat K))) (s s' : S) (X : Mat K) (y : List K) (c : List (Mat K))
    (hm : c.length ≤ (ms.expand c.length).length) (hcr : ∀ t ∈ c, t.r = X.r)
    (hb : ∀ b, some b ∈ wp.bandwidth.expand c.length → 0 ≤ b)
    (hint : ∀ k, some k ∈ wp.count.expand c.length → ∃ k', k = .int k')
    (hok : (wmFit L rng p st s X y (some c) none).result = .ok ())
    (hok' : (wmFit L rng p' st' s' (X.tile m) (tileList m y) (some (c.map (Mat.tile m))) none).result = .ok ()) :
    let o := wmFit L rng p st s X y (some c) none
    let o' := wmFit L rng p' st' s' (X.tile m) (tileList m y) (some (c.map (Mat.tile m))) none
    ∃ (ps ps' : List K) (fs fs' : List F), o.state.localPredict = some ps ∧ o'.state.localPredict = some ps' ∧
      o.state.estimators = some (fs.map fun f => if p.cacheEstimator then some f else none) ∧
      o'.state.estimators = some (fs'.map fun f => if p'.cacheEstimator then some f else none) ∧
      ps.length = X.r ∧ ps'.length = m * X.r ∧ fs.length = X.r ∧ fs'.length = m * X.r ∧
      ∀ t < m * X.r, ps'.getD t 0 = ps.getD (t % X.r) 0 ∧
        ∃ f f', fs[t % X.r]? = some f ∧ fs'[t]? = some f' ∧ ∀ x, L.predict f' x = L.predict f x := by
  obtain ⟨hX0, M, hM, hch⟩ := fit_pointWeights hok
  obtain ⟨-, M', hM', hch'⟩ := fit_pointWeights hok'
  have hmK : (m : K) ≠ 0 := by exact_mod_cast hm0.ne'
  refine C162_model L rng p p' m (m : K)⁻¹ (inv_ne_zero hmK) (by rw [mul_inv_cancel₀ hmK]; exact hL) hsr hsr'
    hlo hlo' st st' s s' X y _ _ _ _ M M' hch hch' hok hok' fun t ht k hk => ?_
  rw [hp] at hM
  rw [hp'] at hM'
  have hcr' : ∀ t ∈ c.map (Mat.tile m), t.r = m * X.r := by
    intro t ht
    obtain ⟨t0, ht0, rfl⟩ := List.mem_map.1 ht
    rw [← hcr t0 ht0]
    rfl
  refine pointSource_tile lib hl env he fs fs ms wp m hm0 c _ c (by simp) hm hcr hcr' hcr hb hint M M' hM hM'
    (t % X.r) t (Nat.mod_lt _ hX0) ht (fun d hd => ?_) k hk
  rw [List.getElem_map, Mat.tile, selRows_row, hcr _ (List.getElem_mem hd)]

/-- C162: `predict_by_weight` at new places: the same numbers. -/
theorem C162_predict_by_weight (L : Learner K F) (hL : ByTotals 1 L) (rng : Rng S) (lib : Lib K)
    (hl : lib.Nonneg) (env : Env K) (he : env.Ok) (fs : Disk K) (ms : Param (Option String)) (wp : WParams K)
    (p p' : WMParams K (List (Mat K))) (m : Nat) (hm0 : 0 < m) (hp : p.weights = pointSource lib env fs ms wp)
    (hp' : p'.weights = pointSource lib env fs ms (wp.times m))
    (hd : p.cacheData = true) (hd' : p'.cacheData = true) (hce : p.cacheEstimator = true)
    (hce' : p'.cacheEstimator = true)
    (hsr : p.sampleRate = none) (hsr' : p'.sampleRate = none)
    (hlo : p.leaveLocalOut = false) (hlo' : p'.leaveLocalOut = false)
    (st st' : WMState K F (List (Mat K))) (s s' : S) (X : Mat K) (y : List K) (c cn : List (Mat K))
    (hcn : cn.length = c.length) (hm : c.length ≤ (ms.expand c.length).length) (hcr : ∀ t ∈ c, t.r = X.r)
    (hb : ∀ b, some b ∈ wp.bandwidth.expand c.length → 0 ≤ b)
    (hint : ∀ k, some k ∈ wp.count.expand c.length → ∃ k', k = .int k')
    (hok : (wmFit L rng p st s X y (some c) none).result = .ok ())
    (hok' : (wmFit L rng p' st' s' (X.tile m) (tileList m y) (some (c.map (Mat.tile m))) none).result = .ok ())
    (Xn : Mat K) (hn0 : 0 < Xn.r) (hnr : ∀ t ∈ cn, t.r = Xn.r) (M M' : Mat K) (hM : p.weights cn c = .ok M)
    (hM' : p'.weights cn (c.map (Mat.tile m)) = .ok M') :
    ∃ ps, predictByWeight L p (wmFit L rng p st s X y (some c) none).state Xn (some cn) none = .ok ps ∧
      predictByWeight L p' (wmFit L rng p' st' s' (X.tile m) (tileList m y)
        (some (c.map (Mat.tile m))) none).state Xn (some cn) none = .ok ps := by
  obtain ⟨ps, ps', fs1, fs2, -, -, hes, hes', -, -, hl1, hl2, hall⟩ := C162_fit L hL rng lib hl env he fs ms wp
    p p' m hm0 hp hp' hsr hsr' hlo hlo' st st' s s' X y c hm hcr hb hint hok hok'
  obtain ⟨hX0, -⟩ := fit_pointWeights hok
  simp only [hce, hce', if_true] at hes hes'
  have hco : ∀ (p : WMParams K (List (Mat K))) (st : WMState K F (List (Mat K))) (s : S) (X : Mat K) (y : List K)
      (c : List (Mat K)), p.cacheData = true → (wmFit L rng p st s X y (some c) none).result = .ok () →
      (wmFit L rng p st s X y (some c) none).state.coords = some c := by
    intro p st s X y c hd h
    obtain ⟨W0, idx, s', res, sc, hck, hW0, hs, hf, hl, h2, hsc, hout⟩ := wmFit_ok h
    rw [hout]
    simp [stateBegin, hd]
  have hcr' : ∀ t ∈ c.map (Mat.tile m), t.r = m * X.r := by
    intro t ht
    obtain ⟨t0, ht0, rfl⟩ := List.mem_map.1 ht
    rw [← hcr t0 ht0]
    rfl
  have hmn : cn.length ≤ (ms.expand cn.length).length := by rw [hcn]; exact hm
  have hposn : ∀ t ∈ cn, 0 < t.r := fun t ht => by rw [hnr t ht]; exact hn0
  rw [hp] at hM
  rw [hp'] at hM'
  have hMr := pointSource_r lib env fs ms wp cn c hmn hposn M hM hnr
  have hMc := pointSource_c lib env fs ms wp cn c hmn hposn M hM hcr
  have hMr' := pointSource_r lib env fs ms _ cn _ hmn hposn M' hM' hnr
  have hMc' := pointSource_c lib env fs ms _ cn _ hmn hposn M' hM' hcr'
  have hmX : 0 < m * X.r := Nat.mul_pos hm0 hX0
  refine ⟨_, C43_weighted_sum L p _ Xn cn c M fs1 hd hce hes (fun h0 => by rw [h0] at hl1; simp at hl1; omega)
    (hco _ _ _ _ _ _ hd hok) (by rw [hp]; exact hM) hMr (by omega), ?_⟩
  rw [C43_weighted_sum L p' _ Xn cn _ M' fs2 hd' hce' hes'
    (fun h0 => by rw [h0] at hl2; simp only [List.length_nil] at hl2; omega)
    (hco _ _ _ _ _ _ hd' hok') (by rw [hp']; exact hM') hMr' (by omega)]
  congr 1
  refine List.map_congr_left fun i hi => ?_
  have hi := List.mem_range.1 hi
  have hval : ∀ (M : Mat K) (gs : List F), gs.length = M.c →
      (List.zipWith (fun w f => w * L.predict f (Xn.row i)) (M.row i) gs).sum =
      ∑ k ∈ Finset.range M.c, M.get i k * (gs[k]?.map fun f => L.predict f (Xn.row i)).getD 0 := by
    intro M gs hg
    rw [← list_sum_range]
    congr 1
    apply List.ext_getElem
    · simp [Mat.row, hg]
    intro k h1 h2
    have hk : k < gs.length := by simpa [hg] using h2
    simp [Mat.row, hk]
  rw [hval M fs1 (by omega), hval M' fs2 (by omega), hMc, hMc']
  have hmK : (m : K) ≠ 0 := by exact_mod_cast hm0.ne'
  have key := sum_copies m X.r fun k =>
    (m : K)⁻¹ * (M.get i k * (fs1[k]?.map fun f => L.predict f (Xn.row i)).getD 0)
  rw [← Finset.mul_sum (Finset.range X.r), mul_inv_cancel_left₀ hmK] at key
  rw [← key]
  refine Finset.sum_congr rfl fun k hk => ?_
  have hk := Finset.mem_range.1 hk
  obtain ⟨-, f, f', hf, hf', hfx⟩ := hall k hk
  have hrow := pointSource_tile lib hl env he fs fs ms wp m hm0 cn cn c rfl hmn hnr hnr hcr
    (by rw [hcn]; exact hb) (by rw [hcn]; exact hint) M M' hM hM' i i hi hi (fun _ _ => rfl) k hk
  rw [hrow, hf, hf', Option.map_some, Option.map_some, hfx]
  simp only [Option.getD_some]
  ring

/-- C162: `predict_by_fit` with a given weight matrix: the rows of the second are those of the first for every
copy, times `z` (`1/m` if both come from `weight_matrix_from_points`, by `pointSource_tile`). -/
theorem C162_predict_by_fit_given (L : Learner K F) (m : Nat) (z : K) (hz : z ≠ 0) (hL : ByTotals (m * z) L)
    (p p' : WMParams K C)
    (st st' : WMState K F C) (X : Mat K) (y : List K) (hy : y.length = X.r) (hX : st.X = some X)
    (hyc : st.y = some y) (hX' : st'.X = some (X.tile m)) (hyc' : st'.y = some (tileList m y)) (Xn : Mat K)
    (cn cn' : Option C) (V V' : Mat K) (hVV : V'.r = V.r)
    (hV : ∀ i < V.r, ∀ k < m * X.r, V'.get i k = z * V.get i (k % X.r)) (ps ps' : List K)
    (h : predictByFit L p st Xn cn (some V) = .ok ps)
    (h' : predictByFit L p' st' Xn cn' (some V') = .ok ps') : ps' = ps := by
  obtain ⟨l1, h1⟩ := predictByFit_given hX hyc h
  obtain ⟨l2, h2⟩ := predictByFit_given hX' hyc' h'
  apply List.ext_getElem?
  intro i
  by_cases hi : i < V.r
  · obtain ⟨f, e1, g1⟩ := h1 i hi
    obtain ⟨f', e2, g2⟩ := h2 i (by omega)
    rw [g1, g2, ByTotals.tiled hL hy hz (fun k hk => hV i hi k hk) e1 e2]
  · rw [List.getElem?_eq_none (by omega), List.getElem?_eq_none (by omega)]

/-- C162: `predict_by_fit` on coordinates: here `neighbour_count` counts new places, so that it stays as it
is; every copy has the full weight, so that the regressor must not mind the total weight. -/
theorem C162_predict_by_fit_coordinates (L : Learner K F) (m : Nat) (hm0 : 0 < m) (hL : ByTotals (m : K) L)
    (lib : Lib K) (env : Env K) (fs : Disk K) (ms : Param (Option String)) (wp : WParams K)
    (p : WMParams K (List (Mat K))) (hp : p.weights = pointSource lib env fs ms wp)
    (st st' : WMState K F (List (Mat K))) (X : Mat K) (y : List K) (hy : y.length = X.r) (hX : st.X = some X)
    (hyc : st.y = some y) (hX' : st'.X = some (X.tile m)) (hyc' : st'.y = some (tileList m y)) (Xn : Mat K)
    (c cn : List (Mat K)) (hm : c.length ≤ (ms.expand c.length).length) (hc : st.coords = some c) (hc' : st'.coords = some (c.map (Mat.tile m)))
    (hX0 : 0 < X.r) (hcr : ∀ t ∈ c, t.r = X.r) (hnr : ∀ t ∈ cn, t.r = Xn.r) (ps : List K)
    (M : Mat K) (hM : p.weights c cn = .ok M)
    (h : predictByFit L p st Xn (some cn) none = .ok ps) (ps' : List K)
    (h' : predictByFit L p st' Xn (some cn) none = .ok ps') : ps' = ps := by
  have hM2 : p.weights (c.map (Mat.tile m)) cn = .ok (selRows (· % X.r) (m * X.r) M) := by
    have e : c.map (Mat.tile m) = c.map (selRows (· % X.r) (m * X.r)) :=
      List.map_congr_left fun t ht => by rw [Mat.tile, hcr t ht]
    rw [hp] at hM ⊢
    unfold pointSource at hM ⊢
    rw [e, C18_source_points lib env fs c cn ms wp X.r Xn.r (m * X.r) hX0 (Nat.mul_pos hm0 hX0) hcr hnr _
      fun i _ => Nat.mod_lt _ hX0]
    cases hW : (weightMatrixFromPoints lib env fs c (some cn) ms wp none).1 with
    | error e => rw [hW] at hM; cases hM
    | ok W =>
      rw [hW] at hM
      simp only at hM
      simp only [Except.map]
      split at hM
      · rename_i hfin
        cases hM
        rw [if_pos]
        · rfl
        · have hWr : W.r = X.r := pointSource_r lib env fs ms wp c cn hm
            (fun t ht => by rw [hcr t ht]; exact hX0) (W.map Num.toK) (by unfold pointSource; rw [hW]; simp [hfin]) hcr
          rw [List.all_eq_true] at hfin ⊢
          intro w hw
          simp only [Mat.toLists, List.mem_flatten, List.mem_map, List.mem_range] at hw
          obtain ⟨_, ⟨i, hi, rfl⟩, hw⟩ := hw
          refine hfin w (List.mem_flatten.2 ⟨W.row (i % X.r), List.mem_map.2
            ⟨i % X.r, List.mem_range.2 (by rw [hWr]; exact Nat.mod_lt _ hX0), rfl⟩, hw⟩)
      · cases hM
  obtain ⟨l1, h1⟩ := predictByFit_values hX hyc hc hM h
  obtain ⟨l2, h2⟩ := predictByFit_values hX' hyc' hc' hM2 h'
  apply List.ext_getElem?
  intro i
  by_cases hi : i < M.c
  · obtain ⟨f, e1, g1⟩ := h1 i hi
    obtain ⟨f', e2, g2⟩ := h2 i hi
    rw [g1, g2, ByTotals.tiled (z := 1) (w := fun k => M.get k i) (by rwa [mul_one]) hy one_ne_zero
      (fun k hk => by rw [one_mul]; rfl) e1 e2]
  · rw [List.getElem?_eq_none (l2.trans_le (not_lt.1 hi)), List.getElem?_eq_none (by omega)]

/-! ### Exceptions and examples -/

/-- Five stations, bisquare with the `k`-th nearest as bandwidth. -/
def kthP (wp : WParams ℚ) (out : Bool) : WMParams ℚ (List (Mat ℚ)) :=
  { cacheData := true, cacheEstimator := true, cpu := 2, leaveLocalOut := out,
    weights := pointSource exLib ratEnv (fun _ => none) (.scalar (some "sqeuclidean")) wp }

def kthFit (wp : WParams ℚ) (out : Bool) (m : Nat) : FitOut ℚ ℚ (List (Mat ℚ)) ℕ :=
  wmFit localMean countRng (kthP wp out) {} 0 (exX5.tile m) (tileList m exY5) (some (exTrain.map (Mat.tile m))) none

/-- The hypotheses of `C162_fit` and `C162_predict_by_weight`: five stations once and three times, the fourth
and the twelfth nearest. -/
example : ByTotals 1 localMean ∧ ByTotals ((3 : ℕ) : ℚ) localMean ∧
    (kthFit cntWp false 1).result = .ok () ∧ (kthFit (cntWp.times 3) false 3).result = .ok () ∧
    (∀ k, some k ∈ cntWp.count.expand 1 → ∃ k', k = .int k') ∧
    (kthFit (cntWp.times 3) false 3).state.localPredict =
      (kthFit cntWp false 1).state.localPredict.map (tileList 3) ∧
    ((kthP cntWp false).weights nearNew exTrain).isOk = true := by
  refine ⟨localMean_mean.byTotals one_ne_zero, localMean_mean.byTotals (by norm_num), by decide +kernel,
    by decide +kernel, ?_, by decide +kernel, by decide +kernel⟩
  intro k hk
  simp only [cntWp, Param.expand, List.replicate_one, List.mem_singleton, Option.some.injEq] at hk
  exact ⟨4, hk⟩

/-- C162: the exceptions. With `leave_local_out` the other copies of an observation stay in its training set;
with a fraction as `neighbour_count` the bandwidth moves; and an integer count that is not multiplied
reaches less far. -/
theorem C162_exceptions :
    (kthFit cntWp true 1).result = .ok () ∧ (kthFit (cntWp.times 3) true 3).result = .ok () ∧
    (kthFit (cntWp.times 3) true 3).state.localPredict ≠
      (kthFit cntWp true 1).state.localPredict.map (tileList 3) ∧
    (kthFit { cntWp with count := .scalar (some (.float (7 / 10))) } false 1).result = .ok () ∧
    (kthFit { cntWp with count := .scalar (some (.float (7 / 10))) } false 3).result = .ok () ∧
    (kthFit { cntWp with count := .scalar (some (.float (7 / 10))) } false 3).state.localPredict ≠
      (kthFit { cntWp with count := .scalar (some (.float (7 / 10))) } false 1).state.localPredict.map (tileList 3) ∧
    (kthFit cntWp false 3).state.localPredict ≠
      (kthFit cntWp false 1).state.localPredict.map (tileList 3) := by
  refine ⟨by decide +kernel, by decide +kernel, by decide +kernel, by decide +kernel, by decide +kernel,
    by decide +kernel, by decide +kernel⟩

/-- `predict_by_fit` on coordinates after the two fits, and with given weights. -/
example :
    okAnd (predictByFit localMean (kthP exWp false) (kthFit exWp false 1).state ⟨2, 1, fun _ _ => 0⟩
      (some nearNew) none) (fun ps =>
      okAnd (predictByFit localMean (kthP exWp false) (kthFit exWp false 3).state ⟨2, 1, fun _ _ => 0⟩
        (some nearNew) none) fun qs => decide (ps = qs ∧ ps.length = 2 ∧ ps.getD 0 0 ≠ ps.getD 1 0)) = true := by
  decide +kernel

end Geo
