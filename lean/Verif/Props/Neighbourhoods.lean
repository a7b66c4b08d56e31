import Verif.Props.TrainingSets
import Verif.Props.Stability
/-
C141: with fixed bandwidths neighbours are mutual and the weights balance; with a count they need not.
C142: how the bandwidth governs the neighbourhood: nested sets, and what very wide and very narrow
bandwidths amount to.
-/
set_option linter.unusedSectionVars false
namespace Geo
variable {K : Type} [Field K] [LinearOrder K] [IsStrictOrderedRing K] [FloorRing K]
variable {F C S : Type}

/-- What a dimension's weights are: kernel values at one bandwidth per row, given or adaptive. -/
theorem weightByDistance_rule {env : Env K} {lazy : Bool} {D : Mat K} {name : String} {b : Option K}
    {n : Option (Count K)} {S : Option (Mat K)} {W : Mat (Num K)}
    (h : weightByDistance env lazy D name b n S = .ok W) :
    name ∈ kernelTypeEnum ∧ ∃ bw : Nat → K,
      ((∃ x, b = some x ∧ n = none ∧ bw = fun _ => x) ∨
        ∃ c, b = none ∧ n = some c ∧ adaptiveBandwidth lazy D c S = .ok bw) ∧
      ∀ i j, 0 ≤ D.get i j → 0 ≤ bw i → W.get i j = .fin (kval env name (D.get i j) (bw i)) := by
  have key : ∀ bw : Nat → K, kernelFunction env lazy D bw name = .ok W → name ∈ kernelTypeEnum ∧
      ∀ i j, 0 ≤ D.get i j → 0 ≤ bw i → W.get i j = .fin (kval env name (D.get i j) (bw i)) := by
    intro bw hk
    simp only [kernelFunction] at hk
    cases hke : kernelElem env lazy name with
    | error e => rw [hke] at hk; cases hk
    | ok w =>
    rw [hke] at hk
    have hk := Except.ok.inj hk
    have hnm : name ∈ kernelTypeEnum := by
      by_contra hn
      simp only [mem_kernelTypeEnum, not_or] at hn
      obtain ⟨h1, h2, h3, h4, h5, h6, h7⟩ := hn
      simp [kernelElem, h1, h2, h3, h4, h5, h6, h7] at hke
    refine ⟨hnm, fun i j hd hb => ?_⟩
    have hv := kernelWeight_eq env lazy hnm hd hb
    simp only [kernelWeight, hke, Except.ok.injEq] at hv
    rw [← hk]
    exact hv
  unfold weightByDistance at h
  cases b with
  | some x =>
    cases n with
    | some c => cases h
    | none => exact ⟨(key _ h).1, fun _ => x, .inl ⟨x, rfl, rfl, rfl⟩, (key _ h).2⟩
  | none =>
    cases n with
    | none => cases h
    | some c =>
      simp only [adaptiveKernel] at h
      cases hbw : adaptiveBandwidth lazy D c S with
      | error e => rw [hbw] at h; cases h
      | ok bw =>
        rw [hbw] at h
        exact ⟨(key _ h).1, bw, .inr ⟨c, rfl, rfl, hbw⟩, (key _ h).2⟩

/-- Every one of `n` dimensions has a fixed bandwidth. -/
def WParams.AllFixed (p : WParams K) (n : Nat) : Prop :=
  ∀ d < n, ∃ b, (p.bandwidth.expand n)[d]? = some (some b)

/-- The kernel value of a dimension with a fixed bandwidth. -/
theorem dimWeights_given {env : Env K} {lazy : Bool} {Ds : List (Mat K)} {p : WParams K}
    {Ws : List (Mat (Num K))} (h : dimWeights env lazy Ds p = .ok Ws) (hin : NonnegInput Ds p)
    (hfix : p.AllFixed Ds.length) {d : Nat} (hd : d < Ds.length) :
    ∃ name b, (p.kernel.expand Ds.length)[d]? = some name ∧
      (p.bandwidth.expand Ds.length)[d]? = some (some b) ∧ 0 ≤ b ∧ name ∈ kernelTypeEnum ∧
      ∀ i < Ds[d].r, ∀ j < Ds[d].c, ((Ws[d]'(dimWeights_length h ▸ hd)).get i j).toK =
        kval env name (Ds[d].get i j) b := by
  obtain ⟨D, name, b, n, S, hD, hname, hb, -, -, hw⟩ := dimWeight_unfold (dimWeights_get h hd)
  rw [List.getElem?_eq_getElem hd] at hD
  cases hD
  obtain ⟨x, hx⟩ := hfix d hd
  have hx0 := hin.bandwidth x (List.mem_of_getElem? hx)
  rw [hx] at hb
  cases hb
  obtain ⟨hnm, bw, hbw, hv⟩ := weightByDistance_rule hw
  rcases hbw with ⟨y, hy, -, rfl⟩ | ⟨c, hc, -⟩
  · cases hy
    refine ⟨name, x, hname, hx, hx0, hnm, fun i hi j hj => ?_⟩
    rw [hv i j (hin.dist _ (List.getElem_mem hd) i hi j hj) hx0]
    rfl
  · cases hc

theorem prodK_congr {Ws Ws' : List (Mat (Num K))} (hl : Ws'.length = Ws.length) {i j i' j' : Nat}
    (h : ∀ d (hd : d < Ws.length), (Ws[d].get i j).toK = ((Ws'[d]'(hl ▸ hd)).get i' j').toK) :
    prodK Ws i j = prodK Ws' i' j' := by
  unfold prodK
  congr 1
  apply List.ext_getElem
  · simp [hl]
  · intro d h1 h2
    simpa using h d (by simpa using h1)

theorem list_prod_le {l l' : List K} (hl : l'.length = l.length) (h0 : ∀ x ∈ l, 0 ≤ x)
    (h : ∀ d (hd : d < l.length), l[d] ≤ l'[d]'(hl ▸ hd)) : l.prod ≤ l'.prod := by
  induction l generalizing l' with
  | nil =>
    have : l' = [] := List.length_eq_zero_iff.1 (by simpa using hl)
    simp [this]
  | cons a l ih =>
    cases l' with
    | nil => simp at hl
    | cons a' l' =>
      rw [List.prod_cons, List.prod_cons]
      have ha : a ≤ a' := h 0 (by simp)
      have ha0 : 0 ≤ a := h0 a (by simp)
      refine mul_le_mul ha ?_ (List.prod_nonneg' fun y hy => h0 y (by simp [hy])) (ha0.trans ha)
      refine ih (by simpa using hl) (fun x hx => h0 x (by simp [hx])) fun d hd => ?_
      have := h (d + 1) (by simpa using hd)
      simpa using this

theorem prodK_le {Ws Ws' : List (Mat (Num K))} (hl : Ws'.length = Ws.length) {i j : Nat}
    (h : ∀ d (hd : d < Ws.length), 0 ≤ (Ws[d].get i j).toK ∧
      (Ws[d].get i j).toK ≤ ((Ws'[d]'(hl ▸ hd)).get i j).toK) :
    prodK Ws i j ≤ prodK Ws' i j := by
  refine list_prod_le (by simpa using hl) (fun x hx => ?_) fun d hd => ?_
  · obtain ⟨d, hd, rfl⟩ := List.getElem_of_mem hx
    simpa using (h d (by simpa using hd)).1
  · simpa using (h d (by simpa using hd)).2

/-! ### C141 -/

/-- C141: with a fixed bandwidth in every dimension and distances that are the same both ways, the
weights balance: there is a positive factor for every row that makes the matrix symmetric. In
particular a point has a weight for another one exactly if it is the other way round. -/
theorem C141_balance (env : Env K) (he : env.Ok) (lazy : Bool) (Ds : List (Mat K)) (p : WParams K)
    (W : Mat (Num K)) (h : weightMatrixFromDistance env lazy Ds p = .ok W) (hin : NonnegInput Ds p)
    (hfix : p.AllFixed Ds.length) (hsq : W.c = W.r)
    (hsym : ∀ D ∈ Ds, ∀ i < W.r, ∀ j < W.r, D.get i j = D.get j i) :
    ∃ (w : Nat → Nat → K) (s : Nat → K), (∀ i < W.r, ∀ j < W.r, W.get i j = .fin (w i j)) ∧
      (∀ i < W.r, 0 < s i) ∧ (∀ i < W.r, ∀ j < W.r, s i * w i j = s j * w j i) ∧
      ∀ i < W.r, ∀ j < W.r, (w i j ≠ 0 ↔ w j i ≠ 0) := by
  obtain ⟨Ws, hWs, hsh, hu, hW⟩ := weightMatrix_master env he h hin
  rw [hsq] at hW hu hsh
  have hl := dimWeights_length hWs
  have hs : ∀ i < W.r, ∀ j < W.r, prodK Ws i j = prodK Ws j i := by
    intro i hi j hj
    refine prodK_congr rfl fun d hd => ?_
    obtain ⟨name, b, -, -, -, -, hv⟩ := dimWeights_given hWs hin hfix (hl ▸ hd : d < Ds.length)
    obtain ⟨h1, h2⟩ := hsh _ (List.getElem_mem (hl ▸ hd : d < Ds.length))
    rw [hv i (by omega) j (by omega), hv j (by omega) i (by omega),
      hsym _ (List.getElem_mem (hl ▸ hd : d < Ds.length)) i hi j hj]
  have hb : ∀ i < W.r, ∀ j < W.r, normK Ws W.r i * (prodK Ws i j / normK Ws W.r i) =
      normK Ws W.r j * (prodK Ws j i / normK Ws W.r j) := by
    intro i hi j hj
    rw [mul_div_cancel₀ _ (hu.normK_pos hi).ne', mul_div_cancel₀ _ (hu.normK_pos hj).ne', hs i hi j hj]
  refine ⟨fun i j => prodK Ws i j / normK Ws W.r i, normK Ws W.r, fun i hi j hj => ?_,
    fun i hi => hu.normK_pos hi, hb, fun i hi j hj => ?_⟩
  · exact hW i hi j hj
  · simp only [ne_eq, div_eq_zero_iff, (hu.normK_pos hi).ne', (hu.normK_pos hj).ne', or_false,
      hs i hi j hj]

/-- C141: after a fit on coordinates with fixed bandwidths, `j` trains the model of `i` exactly if `i`
trains the model of `j`, for every metric that is the same both ways. -/
theorem C141_fit (L : Learner K F) (rng : Rng S) (lib : Lib K) (hl : lib.Nonneg)
    (hsym : ∀ m a b, metricFun lib m a b = metricFun lib m b a)
    (env : Env K) (he : env.Ok) (fs : Disk K) (ms : Param (Option String)) (wp : WParams K)
    (p : WMParams K (List (Mat K))) (hp : p.weights = pointSource lib env fs ms wp)
    (st : WMState K F (List (Mat K))) (s : S) (X : Mat K) (y : List K)
    (c : List (Mat K)) (hm : c.length ≤ (ms.expand c.length).length) (hcr : ∀ t ∈ c, t.r = X.r)
    (hfix : wp.Fixed c.length)
    (hok : (wmFit L rng p st s X y (some c) none).result = .ok ()) :
    ∃ D : Mat K, (wmFit L rng p st s X y (some c) none).state.weightMatrix = some (.dense D) ∧
      (∀ i < X.r, ∀ j < X.r, D.get i j ≠ 0 ↔ D.get j i ≠ 0) ∧
      ∃ f : Nat → K, (∀ i < X.r, 0 < f i) ∧
        ∀ i < X.r, ∀ j < X.r, f i * D.get i j = f j * D.get j i := by
  obtain ⟨W0, idx, s', res, score, hck, hW0, hs, hf, hlen, -, -, hout⟩ := wmFit_ok hok
  simp only [chosenWeights, hp] at hW0
  cases hM : pointSource lib env fs ms wp c c with
  | error e => rw [hM] at hW0; cases hW0
  | ok M =>
  rw [hM] at hW0
  cases hW0
  have hX : 0 < X.r := by
    have := of_decide_eq_true hck
    omega
  have hpos : ∀ t ∈ c, 0 < t.r := fun t ht => by rw [hcr t ht]; exact hX
  have hMr := pointSource_r lib env fs ms wp c c hm hpos M hM hcr
  have hMc := pointSource_c lib env fs ms wp c c hm hpos M hM hcr
  have hg := pointSource_fixed lib hl env he fs ms wp c c hm hpos hfix M hM
  rw [hMr, hMc] at hg
  have hP : ∀ i j, wp.product env c.length (fun d => pointDist lib (ms.expand c.length) c c d i j) =
      wp.product env c.length (fun d => pointDist lib (ms.expand c.length) c c d j i) := by
    intro i j
    congr 1
    funext d
    exact hsym _ _ _
  have hP0 : ∀ i j, 0 ≤ wp.product env c.length
      (fun d => pointDist lib (ms.expand c.length) c c d i j) := by
    intro i j
    refine List.prod_nonneg' fun x hx => ?_
    obtain ⟨d, hd, rfl⟩ := List.mem_map.1 hx
    refine (kval_unit env he _ (hl.metricFun _ _ _) ?_).1
    obtain ⟨b, hb⟩ := hfix.1 d (List.mem_range.1 hd)
    have : wp.bandwidthOf c.length d = b := by
      simp [WParams.bandwidthOf, List.getD_eq_getElem?_getD, hb]
    rw [this]
    exact hfix.2 b (List.mem_of_getElem? hb)
  let f : Nat → K := fun i => if ∑ k ∈ Finset.range X.r, wp.product env c.length
      (fun d => pointDist lib (ms.expand c.length) c c d i k) = 0 then 1
    else ∑ k ∈ Finset.range X.r, wp.product env c.length
      (fun d => pointDist lib (ms.expand c.length) c c d i k)
  have hf0 : ∀ i, 0 < f i := by
    intro i
    simp only [f]
    split
    · exact one_pos
    · rename_i hne
      exact lt_of_le_of_ne (Finset.sum_nonneg fun j _ => hP0 i j) (Ne.symm hne)
  have hbal : ∀ i < X.r, ∀ j < X.r, f i * M.get i j = f j * M.get j i := by
    intro i hi j hj
    rw [hg i hi j hj, hg j hj i hi]
    change f i * (_ / f i) = f j * (_ / f j)
    rw [mul_div_cancel₀ _ (hf0 i).ne', mul_div_cancel₀ _ (hf0 j).ne', hP]
  have hW : ∃ D, leaveOut p (.dense M) = .dense D ∧
      ∀ i < X.r, ∀ j < X.r, f i * D.get i j = f j * D.get j i := by
    unfold leaveOut
    cases p.leaveLocalOut with
    | false => exact ⟨M, rfl, hbal⟩
    | true =>
      refine ⟨_, rfl, fun i hi j hj => ?_⟩
      by_cases hij : i = j
      · subst hij; rfl
      · simp only [if_neg hij, if_neg (Ne.symm hij)]
        exact hbal i hi j hj
  obtain ⟨D, hD, hDb⟩ := hW
  refine ⟨D, ?_, fun i hi j hj => ?_, f, fun i _ => hf0 i, hDb⟩
  · rw [hout, ← hD]
  · have := hDb i hi j hj
    constructor
    · intro h1 h2
      rw [h2, mul_zero] at this
      exact h1 ((mul_eq_zero.1 this).resolve_left (hf0 i).ne')
    · intro h1 h2
      rw [h2, mul_zero] at this
      exact h1 ((mul_eq_zero.1 this.symm).resolve_left (hf0 j).ne')

/-- The stations at 0, 1, 4, 9, 16 with a fixed bandwidth, in squared units. -/
def nbP (b : ℚ) (name : String) : WMParams ℚ (List (Mat ℚ)) :=
  { weights := pointSource exLib ratEnv (fun _ => none) (.scalar (some "sqeuclidean"))
      { kernel := .scalar name, bandwidth := .scalar (some b) } }

/-- C141: with `neighbour_count` neighbours need not be mutual: of the stations at 0, 1, 4, 9 and 16
the model of the last is trained on the one at 4, which in turn does not count the last as a
neighbour; with a fixed bandwidth it is both or none. -/
theorem C141_count_not_mutual :
    (wmFit meanLearner countRng (tsP 4 "bisquare") {} 0 exX5 exY5 (some tsPlaces) none).result = .ok () ∧
    (wmFit meanLearner countRng (tsP 4 "bisquare") {} 0 exX5 exY5
      (some tsPlaces) none).state.weightMatrix.map (fun W => (W.toMat.get 4 2 ≠ 0 : Bool)) = some true ∧
    (wmFit meanLearner countRng (tsP 4 "bisquare") {} 0 exX5 exY5
      (some tsPlaces) none).state.weightMatrix.map (fun W => (W.toMat.get 2 4 ≠ 0 : Bool)) = some false := by
  refine ⟨?_, ?_, ?_⟩ <;> decide +kernel

/-- The hypotheses of `C141_fit` on the same stations, and a row that is not the mirror of the column. -/
example :
    (wmFit meanLearner countRng (nbP 50 "bisquare") {} 0 exX5 exY5 (some tsPlaces) none).result = .ok () ∧
    (∀ i < 5, ∀ j < 5, ((wmFit meanLearner countRng (nbP 50 "bisquare") {} 0 exX5 exY5
      (some tsPlaces) none).state.weightMatrix.map fun W => (W.toMat.get i j ≠ 0 : Bool)) =
      (wmFit meanLearner countRng (nbP 50 "bisquare") {} 0 exX5 exY5
      (some tsPlaces) none).state.weightMatrix.map fun W => (W.toMat.get j i ≠ 0 : Bool)) ∧
    (wmFit meanLearner countRng (nbP 50 "bisquare") {} 0 exX5 exY5 (some tsPlaces) none).state.weightMatrix.map
      (fun W => (W.toMat.get 3 4 = W.toMat.get 4 3 : Bool)) = some false := by
  refine ⟨?_, ?_, ?_⟩ <;> decide +kernel

/-! ### C142 -/

/-- One count asks for at least as much as another of the same kind. -/
def CountLe : Count K → Count K → Prop
  | .int k, .int k' => k ≤ k'
  | .float q, .float q' => q ≤ q'
  | _, _ => False

/-- A count that asks for more never gives a smaller bandwidth. -/
theorem adaptiveBandwidth_countLe {D : Mat K} {n n' : Count K} (hn : CountLe n n') {bw bw' : Nat → K}
    (h : adaptiveBandwidth false D n none = .ok bw) (h' : adaptiveBandwidth false D n' none = .ok bw')
    (i : Nat) : bw i ≤ bw' i := by
  cases n with
  | int k =>
    cases n' with
    | int k' =>
      have hkk : k ≤ k' := hn
      obtain ⟨-, -, -, -, c2⟩ := C08_kth_nearest D k bw h i
      obtain ⟨-, -, -, c1, -⟩ := C08_kth_nearest D k' bw' h' i
      by_contra hc
      rw [not_le] at hc
      have : countRow D i (fun x => x ≤ bw' i) ≤ countRow D i (fun x => x < bw i) := by
        rw [countRow_eq, countRow_eq]
        exact List.countP_mono_left fun x _ hx => by
          simp only [decide_eq_true_eq] at hx ⊢
          exact hx.trans_lt hc
      omega
    | float q => cases hn
    | npInt k => cases hn
  | float q =>
    cases n' with
    | float q' => exact C09_monotone_in_fraction D q q' bw bw' h h' hn i
    | int k => cases hn
    | npInt k => cases hn
  | npInt k => cases n' <;> cases hn

/-- The kernels are the same and every dimension's bandwidth, or count, is at least as large. -/
def WParams.Wider (p p' : WParams K) (n : Nat) : Prop :=
  ∀ d < n, (p'.kernel.expand n)[d]? = (p.kernel.expand n)[d]? ∧
    ((∃ b b', (p.bandwidth.expand n)[d]? = some (some b) ∧
        (p'.bandwidth.expand n)[d]? = some (some b') ∧ b ≤ b') ∨
      ∃ c c', (p.count.expand n)[d]? = some (some c) ∧ (p'.count.expand n)[d]? = some (some c') ∧
        CountLe c c')

/-- A wider bandwidth never lowers a kernel value. -/
theorem kval_wider (env : Env K) (he : env.Ok) {name : String} (hn : name ∈ kernelTypeEnum) {d b b' : K}
    (hd : 0 ≤ d) (hb : 0 ≤ b) (h : b ≤ b') : kval env name d b ≤ kval env name d b' := by
  obtain ⟨w, w', h1, h2, h3⟩ := C05_monotone_in_bandwidth env he false name hn d b b' hd hb h
  rw [kernelWeight_eq env false hn hd hb] at h1
  rw [kernelWeight_eq env false hn hd (hb.trans h)] at h2
  cases h1
  cases h2
  exact h3

/-- The products of the kernels grow. -/
theorem prodK_wider (env : Env K) (he : env.Ok) {Ds : List (Mat K)} {p p' : WParams K}
    {Ws Ws' : List (Mat (Num K))} (h : dimWeights env false Ds p = .ok Ws)
    (h' : dimWeights env false Ds p' = .ok Ws') (hin : NonnegInput Ds p)
    (hw : p.Wider p' Ds.length) {r c : Nat} (hsh : AllShape Ds r c) {i j : Nat} (hi : i < r)
    (hj : j < c) : prodK Ws i j ≤ prodK Ws' i j := by
  have hl := dimWeights_length h
  have hl' := dimWeights_length h'
  refine prodK_le (by omega) fun d hd => ?_
  have hd' : d < Ds.length := hl ▸ hd
  obtain ⟨D, name, b, n, S, hD, hname, hb, hn, hS, hwd⟩ := dimWeight_unfold (dimWeights_get h hd')
  obtain ⟨D', name', b', n', S', hD', hname', hb', hn', hS', hwd'⟩ :=
    dimWeight_unfold (dimWeights_get h' hd')
  rw [hD] at hD'
  cases hD'
  obtain ⟨hk, hbn⟩ := hw d hd'
  rw [hk, hname] at hname'
  cases hname'
  have hDm := List.mem_of_getElem? hD
  obtain ⟨hr, hc⟩ := hsh D hDm
  have hd0 := hin.dist D hDm i (hr ▸ hi) j (hc ▸ hj)
  obtain ⟨hnm, bw, hbw, hv⟩ := weightByDistance_rule hwd
  obtain ⟨-, bw', hbw', hv'⟩ := weightByDistance_rule hwd'
  have hS0 : S = none := by
    rcases hS with ⟨hf, -⟩ | ⟨-, h0⟩
    · cases hf
    · exact h0
  have hS0' : S' = none := by
    rcases hS' with ⟨hf, -⟩ | ⟨-, h0⟩
    · cases hf
    · exact h0
  subst hS0 hS0'
  have hle : 0 ≤ bw i ∧ bw i ≤ bw' i := by
    rcases hbn with ⟨x, x', hx, hx', hxx⟩ | ⟨m, m', hm, hm', hmm⟩
    · have e1 := Option.some.inj (hb.symm.trans hx)
      have e2 := Option.some.inj (hb'.symm.trans hx')
      rcases hbw with ⟨z, hz, -, rfl⟩ | ⟨z, hz, -⟩
      · rcases hbw' with ⟨z', hz', -, rfl⟩ | ⟨z', hz', -⟩
        · rw [e1] at hz
          rw [e2] at hz'
          cases hz
          cases hz'
          exact ⟨hin.bandwidth x (List.mem_of_getElem? hx), hxx⟩
        · rw [e2] at hz'
          cases hz'
      · rw [e1] at hz
        cases hz
    · have e1 := Option.some.inj (hn.symm.trans hm)
      have e2 := Option.some.inj (hn'.symm.trans hm')
      rcases hbw with ⟨z, -, hz, -⟩ | ⟨z, -, hz, hzb⟩
      · rw [e1] at hz
        cases hz
      · rcases hbw' with ⟨z', -, hz', -⟩ | ⟨z', -, hz', hzb'⟩
        · rw [e2] at hz'
          cases hz'
        · rw [e1] at hz
          rw [e2] at hz'
          cases hz
          cases hz'
          exact ⟨adaptiveBandwidth_nonneg hzb (fun j hj => hin.dist D hDm i (hr ▸ hi) j hj)
            (fun S' hS' => by cases hS'), adaptiveBandwidth_countLe hmm hzb hzb' i⟩
  rw [hv i j hd0 hle.1, hv' i j hd0 (hle.1.trans hle.2)]
  exact ⟨(kval_unit env he name hd0 hle.1).1, kval_wider env he hnm hd0 hle.1 hle.2⟩

/-- C142: neighbourhoods are nested. With the same kernels and in every dimension a bandwidth, a count
or a fraction at least as large, every pair with a weight keeps one, and in every row that has a target
at distance zero (a point and itself) the largest weight, which is the weight of that target, does not
grow: the rows become flatter. -/
theorem C142_nested (env : Env K) (he : env.Ok) (Ds : List (Mat K)) (p p' : WParams K)
    (W W' : Mat (Num K)) (h : weightMatrixFromDistance env false Ds p = .ok W)
    (h' : weightMatrixFromDistance env false Ds p' = .ok W') (hin : NonnegInput Ds p)
    (hin' : NonnegInput Ds p') (hw : p.Wider p' Ds.length) :
    W'.r = W.r ∧ W'.c = W.c ∧ ∀ i < W.r, ∃ x x' : Nat → K,
      (∀ j < W.c, W.get i j = .fin (x j) ∧ W'.get i j = .fin (x' j)) ∧
      (∀ j < W.c, x j ≠ 0 → x' j ≠ 0) ∧
      ∀ t < W.c, (∀ D ∈ Ds, D.get i t = 0) →
        x' t ≤ x t ∧ ∀ j < W.c, x j ≤ x t ∧ x' j ≤ x' t := by
  obtain ⟨Ws, hWs, hsh, hu, hW⟩ := weightMatrix_master env he h hin
  obtain ⟨Ws', hWs', hsh', hu', hW'⟩ := weightMatrix_master env he h' hin'
  have hne : Ds ≠ [] := (weightMatrix_unfold h).2.2.choose_spec.2.1
  obtain ⟨D0, hD0⟩ := List.exists_mem_of_ne_nil _ hne
  have hr : W'.r = W.r := (hsh' D0 hD0).1.symm.trans (hsh D0 hD0).1
  have hc : W'.c = W.c := (hsh' D0 hD0).2.symm.trans (hsh D0 hD0).2
  rw [hr, hc] at hu' hW'
  refine ⟨hr, hc, fun i hi => ⟨fun j => prodK Ws i j / normK Ws W.c i,
    fun j => prodK Ws' i j / normK Ws' W.c i, fun j hj => ⟨hW i hi j hj, hW' i hi j hj⟩,
    fun j hj hx => ?_, fun t ht ht0 => ?_⟩⟩
  · have hle := prodK_wider env he hWs hWs' hin hw hsh hi hj
    have hp : 0 < prodK Ws i j := by
      refine lt_of_le_of_ne (hu.prodK_unit hi hj).1 fun e => hx ?_
      simp only [← e, zero_div]
    exact (div_pos (hp.trans_le hle) (hu'.normK_pos hi)).ne'
  · have one : ∀ (q : WParams K) (Vs : List (Mat (Num K))), dimWeights env false Ds q = .ok Vs →
        NonnegInput Ds q → prodK Vs i t = 1 := by
      intro q Vs hVs hq
      obtain ⟨name, bw, hlen, hall⟩ := dimWeights_val env hVs hq hsh
      refine List.prod_eq_one fun y hy => ?_
      obtain ⟨V, hV, rfl⟩ := List.mem_map.1 hy
      obtain ⟨d, hd, rfl⟩ := List.getElem_of_mem hV
      obtain ⟨_, _, _, _, hv⟩ := hall d (hlen ▸ hd)
      obtain ⟨hb, hv⟩ := hv i hi
      rw [hv t ht, ht0 _ (List.getElem_mem _), kval_self env he _ hb]
      rfl
    have o1 := one p Ws hWs hin
    have o2 := one p' Ws' hWs' hin'
    have hsum : ∀ {Vs : List (Mat (Num K))}, UnitWs Vs W.r W.c → prodK Vs i t = 1 →
        normK Vs W.c i = ∑ j ∈ Finset.range W.c, prodK Vs i j := by
      intro Vs hV h1
      unfold normK
      rw [if_neg]
      have : prodK Vs i t ≤ ∑ j ∈ Finset.range W.c, prodK Vs i j :=
        Finset.single_le_sum (fun j hj => (hV.prodK_unit hi (by simpa using hj)).1)
          (Finset.mem_range.2 ht)
      rw [h1] at this
      exact (one_pos.trans_le this).ne'
    refine ⟨?_, fun j hj => ⟨?_, ?_⟩⟩
    · simp only [o1, o2]
      refine one_div_le_one_div_of_le (hu.normK_pos hi) ?_
      rw [hsum hu o1, hsum hu' o2]
      exact Finset.sum_le_sum fun j hj =>
        prodK_wider env he hWs hWs' hin hw hsh hi (Finset.mem_range.1 hj)
    · simp only [o1]
      exact div_le_div_of_nonneg_right (hu.prodK_unit hi hj).2 (hu.normK_pos hi).le
    · simp only [o2]
      exact div_le_div_of_nonneg_right (hu'.prodK_unit hi hj).2 (hu'.normK_pos hi).le

/-- C142: after two fits on the same coordinates, the second with wider parameters, every observation
that trains the model of a location in the first fit also does in the second. -/
theorem C142_fit (L : Learner K F) (rng : Rng S) (lib : Lib K) (hl : lib.Nonneg)
    (env : Env K) (he : env.Ok) (fs : Disk K) (ms : Param (Option String)) (wp wp' : WParams K)
    (p p' : WMParams K (List (Mat K))) (hp : p.weights = pointSource lib env fs ms wp)
    (hp' : p'.weights = pointSource lib env fs ms wp') (hll : p.leaveLocalOut = true)
    (hll' : p'.leaveLocalOut = true)
    (st st' : WMState K F (List (Mat K))) (s s' : S) (X X' : Mat K) (y y' : List K) (hX : 0 < X.r)
    (c : List (Mat K)) (hm : c.length ≤ (ms.expand c.length).length) (hcr : ∀ t ∈ c, t.r = X.r)
    (hb : ∀ b, some b ∈ wp.bandwidth.expand c.length → 0 ≤ b)
    (hb' : ∀ b, some b ∈ wp'.bandwidth.expand c.length → 0 ≤ b) (hw : wp.Wider wp' c.length)
    (hok : (wmFit L rng p st s X y (some c) none).result = .ok ())
    (hok' : (wmFit L rng p' st' s' X' y' (some c) none).result = .ok ()) :
    ∃ D D' : Mat K, (wmFit L rng p st s X y (some c) none).state.weightMatrix = some (.dense D) ∧
      (wmFit L rng p' st' s' X' y' (some c) none).state.weightMatrix = some (.dense D') ∧
      ∀ i < X.r, ∀ j < X.r, D.get i j ≠ 0 → D'.get i j ≠ 0 := by
  obtain ⟨M, hM, hD⟩ := fitted_weights hp hll hok
  obtain ⟨M', hM', hD'⟩ := fitted_weights hp' hll' hok'
  refine ⟨_, _, hD, hD', fun i hi j hj => ?_⟩
  have hpos : ∀ t ∈ c, 0 < t.r := fun t ht => by rw [hcr t ht]; exact hX
  have hMr := pointSource_r lib env fs ms wp c c hm hpos M hM hcr
  have hMc := pointSource_c lib env fs ms wp c c hm hpos M hM hcr
  obtain ⟨⟨hlen, -⟩, W, hW, -, rfl⟩ := (pointSource_iff lib env fs ms wp c c hm hpos M).1 hM
  obtain ⟨-, W', hW', -, rfl⟩ := (pointSource_iff lib env fs ms wp' c c hm hpos M').1 hM'
  have hdl := dims_length _ _ _ hlen hm
  have hel : (eagerDists lib c c (ms.expand c.length)).length = c.length := by
    simp [eagerDists, hdl]
  obtain ⟨-, -, hall⟩ := C142_nested env he _ _ _ W W' hW hW'
    (eagerDists_nonneg hl c c _ wp hdl hb) (eagerDists_nonneg hl c c _ wp' hdl hb')
    (by rw [hel]; exact hw)
  obtain ⟨x, x', hx, hxx, -⟩ := hall i (hMr ▸ hi)
  by_cases hij : i = j
  · simp [hij]
  · simp only [if_neg hij]
    obtain ⟨g, g'⟩ := hx j (hMc ▸ hj)
    have e : (W.map Num.toK).get i j = x j := by
      change (W.get i j).toK = x j
      rw [g]
      rfl
    have e' : (W'.map Num.toK).get i j = x' j := by
      change (W'.get i j).toK = x' j
      rw [g']
      rfl
    rw [e, e']
    exact hxx j (hMc ▸ hj)

/-- C142: very narrow bandwidths. With kernels of bounded support and in every dimension a fixed
bandwidth below all distances that are not zero, the observations in the very place of a point share
its weight equally and no other has any. -/
theorem C142_narrow (env : Env K) (he : env.Ok) (lazy : Bool) (Ds : List (Mat K)) (p : WParams K)
    (W : Mat (Num K)) (h : weightMatrixFromDistance env lazy Ds p = .ok W) (hin : NonnegInput Ds p)
    (hfix : p.AllFixed Ds.length)
    (hk : ∀ name ∈ p.kernel.expand Ds.length, name ∈ ["linear", "bisquare", "tricube", "boxcar"])
    (i : Nat) (hi : i < W.r)
    (hb : ∀ (d : Nat) (b : K) (D : Mat K), (p.bandwidth.expand Ds.length)[d]? = some (some b) → Ds[d]? = some D →
      ∀ j < W.c, D.get i j = 0 ∨ b < D.get i j)
    (t : Nat) (ht : t < W.c) (ht0 : ∀ D ∈ Ds, D.get i t = 0) (j : Nat) (hj : j < W.c) :
    W.get i j = .fin (if ∀ D ∈ Ds, D.get i j = 0 then
      1 / ((countPoints W.c fun k => ∀ D ∈ Ds, D.get i k = 0 : ℕ) : K) else 0) := by
  obtain ⟨Ws, hWs, hsh, hu, hW⟩ := weightMatrix_master env he h hin
  have hl := dimWeights_length hWs
  have hval : ∀ k < W.c, prodK Ws i k = if ∀ D ∈ Ds, D.get i k = 0 then 1 else 0 := by
    intro k hkc
    have hone : ∀ d (hd : d < Ws.length), (Ws[d].get i k).toK =
        if (Ds[d]'(hl ▸ hd)).get i k = 0 then 1 else 0 := by
      intro d hd
      obtain ⟨name, b, hname, hbb, hb0, hnm, hv⟩ :=
        dimWeights_given hWs hin hfix (hl ▸ hd : d < Ds.length)
      obtain ⟨h1, h2⟩ := hsh _ (List.getElem_mem (hl ▸ hd : d < Ds.length))
      rw [hv i (by omega) k (by omega)]
      split
      · rename_i h0
        rw [h0, kval_self env he name hb0]
      · rename_i h0
        refine kval_far (hk name (List.mem_of_getElem? hname)) ?_
        exact (hb d b _ hbb (List.getElem?_eq_getElem _) k hkc).resolve_left h0
    split
    · rename_i hall
      refine List.prod_eq_one fun y hy => ?_
      obtain ⟨V, hV, rfl⟩ := List.mem_map.1 hy
      obtain ⟨d, hd, rfl⟩ := List.getElem_of_mem hV
      rw [hone d hd, if_pos (hall _ (List.getElem_mem _))]
    · rename_i hall
      rw [not_forall] at hall
      obtain ⟨D, hD⟩ := hall
      rw [Classical.not_imp] at hD
      obtain ⟨d, hd, rfl⟩ := List.getElem_of_mem hD.1
      refine List.prod_eq_zero (List.mem_map.2 ⟨Ws[d]'(by omega), List.getElem_mem _, ?_⟩)
      rw [hone d (by omega), if_neg hD.2]
  have hsum : ∑ k ∈ Finset.range W.c, prodK Ws i k =
      ((countPoints W.c fun k => ∀ D ∈ Ds, D.get i k = 0 : ℕ) : K) := by
    rw [Finset.sum_congr rfl fun k hk => hval k (Finset.mem_range.1 hk), Finset.sum_ite,
      Finset.sum_const_zero, add_zero, Finset.sum_const, nsmul_eq_mul, mul_one]
    congr 1
  have hpos : 0 < countPoints W.c fun k => ∀ D ∈ Ds, D.get i k = 0 := by
    unfold countPoints
    exact List.length_pos_of_mem (List.mem_filter.2 ⟨List.mem_range.2 ht, by simpa using ht0⟩)
  have hn : normK Ws W.c i = ((countPoints W.c fun k => ∀ D ∈ Ds, D.get i k = 0 : ℕ) : K) := by
    unfold normK
    rw [hsum, if_neg (by exact_mod_cast hpos.ne')]
  rw [hW i hi j hj, hval j hj, hn]
  congr 1
  split <;> simp

/-- C142: very wide bandwidths, with a rate. If no distance is above `δ`, and every dimension has a
fixed bandwidth of at least `b0 ≥ δ`, every weight is within a factor `1 - η` of the equal weight `1 / N`,
where `η = dims · 9/4 · δ / b0`. -/
theorem C142_wide (fmax : ℝ) (lazy : Bool) (Ds : List (Mat ℝ)) (p : WParams ℝ) (W : Mat (Num ℝ))
    (h : weightMatrixFromDistance (realEnv fmax) lazy Ds p = .ok W) (hin : NonnegInput Ds p) (δ b0 : ℝ)
    (hδ : ∀ D ∈ Ds, ∀ i < W.r, ∀ j < W.c, D.get i j ≤ δ) (hb0 : 0 < b0) (hb : δ ≤ b0)
    (hbw : ∀ b ∈ p.bandwidth.expand Ds.length, ∃ x, b = some x ∧ b0 ≤ x)
    (hη : Ds.length * (9 / 4 * (δ / b0)) < 1) (i : Nat) (hi : i < W.r) (j : Nat) (hj : j < W.c) :
    ∃ x, W.get i j = .fin x ∧ (1 - Ds.length * (9 / 4 * (δ / b0))) / W.c ≤ x ∧
      x ≤ 1 / (W.c * (1 - Ds.length * (9 / 4 * (δ / b0)))) := by
  have he := (realEnv_pos fmax).toOk
  obtain ⟨Ws, hWs, hsh, hu, hW⟩ := weightMatrix_master _ he h hin
  have hl := dimWeights_length hWs
  generalize hηe : (Ds.length : ℝ) * (9 / 4 * (δ / b0)) = η at *
  have hone : ∀ k < W.c, 1 - η ≤ prodK Ws i k := by
    intro k hk
    have hd : ∀ V ∈ Ws, |(V.get i k).toK - 1| ≤ 9 / 4 * (δ / b0) := by
      intro V hV
      obtain ⟨d, hd, rfl⟩ := List.getElem_of_mem hV
      have hd' : d < Ds.length := hl ▸ hd
      obtain ⟨name, b, hname, hnm, hbb, hbx, hv⟩ := dimWeights_fixed _ hWs hin.dist hb0 hbw hd'
      obtain ⟨h1, h2⟩ := hsh _ (List.getElem_mem hd')
      have hdk := hin.dist _ (List.getElem_mem hd') i (by omega) k (by omega)
      have hdδ := hδ _ (List.getElem_mem hd') i hi k hk
      have hbp : 0 < b := hb0.trans_le hbx
      have hq : Ds[d].get i k / b ≤ δ / b0 :=
        div_le_div₀ (hdk.trans hdδ) hdδ hb0 hbx
      have hq0 : 0 ≤ Ds[d].get i k / b := div_nonneg hdk hbp.le
      rw [hv i (by omega) k (by omega)]
      by_cases hbox : name = "boxcar"
      · have : ¬ 1 < Ds[d].get i k / b :=
          not_lt.2 (hq.trans ((div_le_one hb0).2 hb))
        subst hbox
        have e : kshape (realEnv fmax) "boxcar" (Ds[d].get i k / b) = 1 := by simp [kshape, this]
        rw [e]
        have := hq0.trans hq
        simp only [Num.toK, sub_self, abs_zero]
        linarith
      · have := kshape_lipschitz fmax hnm hbox hq0 le_rfl
        rw [kshape_zero _ he, sub_zero, abs_of_nonneg hq0] at this
        refine this.trans ?_
        exact mul_le_mul (kernelSlope_le name) hq hq0 (by norm_num)
    have := prod_sub_le Ws (fun V => (V.get i k).toK) (fun _ => 1) _
      (fun V hV => by
        obtain ⟨y, hy, h0, h1⟩ := hu V hV i hi k hk
        simp [hy, Num.toK, h0, h1]) (fun V _ => by norm_num) hd
    rw [hl, hηe] at this
    have hp1 : (Ws.map fun _ => (1 : ℝ)).prod = 1 := by simp
    rw [hp1] at this
    have h2 := (abs_le.1 this).1
    unfold prodK
    linarith
  have hn : (0 : ℝ) < W.c := by
    have : 0 < W.c := by omega
    exact_mod_cast this
  have h1 : 0 < 1 - η := by linarith
  have hlo : W.c * (1 - η) ≤ ∑ k ∈ Finset.range W.c, prodK Ws i k := by
    have := Finset.card_nsmul_le_sum (Finset.range W.c) (prodK Ws i) (1 - η)
      fun k hk => hone k (Finset.mem_range.1 hk)
    simpa [nsmul_eq_mul] using this
  have hhi : ∑ k ∈ Finset.range W.c, prodK Ws i k ≤ W.c := by
    have := Finset.sum_le_card_nsmul (Finset.range W.c) (prodK Ws i) 1
      fun k hk => (hu.prodK_unit hi (Finset.mem_range.1 hk)).2
    simpa [nsmul_eq_mul] using this
  have hpos : 0 < ∑ k ∈ Finset.range W.c, prodK Ws i k := (mul_pos hn h1).trans_le hlo
  have hnk : normK Ws W.c i = ∑ k ∈ Finset.range W.c, prodK Ws i k := by
    unfold normK
    rw [if_neg hpos.ne']
  refine ⟨_, hW i hi j hj, ?_, ?_⟩
  · rw [hnk]
    exact div_le_div₀ (h1.le.trans (hone j hj)) (hone j hj) hpos hhi
  · rw [hnk]
    exact div_le_div₀ zero_le_one (hu.prodK_unit hi hj).2 (mul_pos hn h1) hlo

/-- Finitely many distances are bounded. -/
theorem exists_dist_bound (Ds : List (Mat ℝ)) :
    ∃ δ : ℝ, 0 ≤ δ ∧ ∀ D ∈ Ds, ∀ i < D.r, ∀ j < D.c, D.get i j ≤ δ := by
  induction Ds with
  | nil => exact ⟨0, le_rfl, fun D hD => by simp at hD⟩
  | cons D Ds ih =>
    obtain ⟨δ, h0, h⟩ := ih
    have hs : 0 ≤ ∑ i ∈ Finset.range D.r, ∑ j ∈ Finset.range D.c, |D.get i j| :=
      Finset.sum_nonneg fun i _ => Finset.sum_nonneg fun j _ => abs_nonneg _
    refine ⟨δ + ∑ i ∈ Finset.range D.r, ∑ j ∈ Finset.range D.c, |D.get i j|, by linarith, ?_⟩
    intro E hE i hi j hj
    rcases List.mem_cons.1 hE with rfl | hE
    · have a1 : |E.get i j| ≤ ∑ j ∈ Finset.range E.c, |E.get i j| :=
        Finset.single_le_sum (f := fun j => |E.get i j|) (fun j _ => abs_nonneg _)
          (Finset.mem_range.2 hj)
      have a2 : ∑ j ∈ Finset.range E.c, |E.get i j| ≤
          ∑ i ∈ Finset.range E.r, ∑ j ∈ Finset.range E.c, |E.get i j| :=
        Finset.single_le_sum (f := fun i => ∑ j ∈ Finset.range E.c, |E.get i j|)
          (fun i _ => Finset.sum_nonneg fun j _ => abs_nonneg _) (Finset.mem_range.2 hi)
      have := le_abs_self (E.get i j)
      linarith
    · have := h E hE i hi j hj
      linarith

/-- C142: the limit of wide bandwidths. For all distances and every tolerance there is a bandwidth from
which on (in every dimension, whatever the kernels) all weights are within the tolerance of the equal
weight `1 / N`. -/
theorem C142_wide_limit (fmax : ℝ) (lazy : Bool) (Ds : List (Mat ℝ)) (ε : ℝ) (hε : 0 < ε) :
    ∃ B : ℝ, 0 < B ∧ ∀ (p : WParams ℝ) (W : Mat (Num ℝ)),
      weightMatrixFromDistance (realEnv fmax) lazy Ds p = .ok W → NonnegInput Ds p →
      (∀ b ∈ p.bandwidth.expand Ds.length, ∃ x, b = some x ∧ B ≤ x) →
      ∀ i < W.r, ∀ j < W.c, ∃ x, W.get i j = .fin x ∧ |x - 1 / W.c| ≤ ε := by
  obtain ⟨δ, hδ0, hδ⟩ := exists_dist_bound Ds
  have hη0 : 0 < ε / (1 + ε) := by positivity
  have hη1 : ε / (1 + ε) < 1 := by rw [div_lt_one (by linarith)]; linarith
  have hA : 0 ≤ Ds.length * (9 / 4 * δ) / (ε / (1 + ε)) := by positivity
  refine ⟨δ + Ds.length * (9 / 4 * δ) / (ε / (1 + ε)) + 1, by linarith, fun p W h hin hbw i hi j hj => ?_⟩
  have hB0 : 0 < δ + Ds.length * (9 / 4 * δ) / (ε / (1 + ε)) + 1 := by linarith
  generalize hBe : δ + Ds.length * (9 / 4 * δ) / (ε / (1 + ε)) + 1 = B at *
  have hη : Ds.length * (9 / 4 * (δ / B)) ≤ ε / (1 + ε) := by
    have h1 : Ds.length * (9 / 4 * δ) / (ε / (1 + ε)) ≤ B := by linarith
    rw [div_le_iff₀ hη0] at h1
    have : Ds.length * (9 / 4 * (δ / B)) = Ds.length * (9 / 4 * δ) / B := by ring
    rw [this, div_le_iff₀ hB0]
    linarith
  obtain ⟨-, -, Ws, -, -, hsh, -⟩ := weightMatrix_unfold h
  obtain ⟨x, hx, h1, h2⟩ := C142_wide fmax lazy Ds p W h hin δ B
    (fun D hD i hi j hj => hδ D hD i ((hsh D hD).1 ▸ hi) j ((hsh D hD).2 ▸ hj)) hB0 (by linarith) hbw
    (hη.trans_lt hη1) i hi j hj
  refine ⟨x, hx, ?_⟩
  have hη00 : 0 ≤ Ds.length * (9 / 4 * (δ / B)) := by positivity
  generalize (Ds.length : ℝ) * (9 / 4 * (δ / B)) = η at *
  have hn : (1 : ℝ) ≤ W.c := by
    have : 1 ≤ W.c := by omega
    exact_mod_cast this
  have hinv : 1 / (W.c : ℝ) ≤ 1 := by rw [div_le_one (by linarith)]; exact hn
  have hinv0 : 0 ≤ 1 / (W.c : ℝ) := by positivity
  have hηε : η * (1 + ε) ≤ ε := by rwa [le_div_iff₀ (by linarith)] at hη
  have h1η : 0 < 1 - η := by linarith
  have hεη : η ≤ ε := by nlinarith
  have e1 : (1 - η) / (W.c : ℝ) = (1 - η) * (1 / W.c) := by ring
  have e2 : 1 / (W.c * (1 - η)) = 1 / (1 - η) * (1 / (W.c : ℝ)) := by
    field_simp
  have h3 : 1 / (1 - η) ≤ 1 + ε := by
    rw [div_le_iff₀ h1η]
    nlinarith
  rw [e1] at h1
  rw [e2] at h2
  rw [abs_le]
  constructor
  · nlinarith
  · have := mul_le_mul_of_nonneg_right h3 hinv0
    nlinarith

/-! ### Examples for C142 -/

/-- The parameters of `nbP`, in squared units. -/
def nbW (b : ℚ) (name : String) : WParams ℚ := { kernel := .scalar name, bandwidth := .scalar (some b) }

/-- The hypotheses of `C142_nested` and `C142_fit`: both matrices exist, the second parameters are
wider, and the neighbourhoods do grow. -/
example : (nbW 5 "bisquare").Wider (nbW 50 "bisquare") 1 :=
  fun d hd => ⟨rfl, .inl ⟨5, 50, by simp [nbW, Param.expand, hd], by simp [nbW, Param.expand, hd], by norm_num⟩⟩

example :
    (wmFit meanLearner countRng (nbP 50 "bisquare") {} 0 exX5 exY5 (some tsPlaces) none).result = .ok () ∧
    (wmFit meanLearner countRng (nbP 100 "bisquare") {} 0 exX5 exY5 (some tsPlaces) none).result = .ok () ∧
    (wmFit meanLearner countRng (nbP 50 "bisquare") {} 0 exX5 exY5 (some tsPlaces) none).state.weightMatrix.map
      (fun W => (W.toMat.get 0 3 = 0 : Bool)) = some true ∧
    (wmFit meanLearner countRng (nbP 100 "bisquare") {} 0 exX5 exY5 (some tsPlaces) none).state.weightMatrix.map
      (fun W => (W.toMat.get 0 3 = 0 : Bool)) = some false := by
  refine ⟨?_, ?_, ?_, ?_⟩ <;> decide +kernel

/-- Narrow bandwidths with two observations in the same place (`C142_narrow`): they share the weight. -/
example : okAnd (weightMatrixFromDistance ratEnv false
      [⟨3, 3, fun i j => if i / 2 = j / 2 then 0 else 7⟩] (nbW 3 "bisquare"))
    (fun W => W.get 0 0 = .fin (1 / 2) ∧ W.get 0 1 = .fin (1 / 2) ∧ W.get 0 2 = .fin 0 ∧
      W.get 2 2 = .fin 1) := by
  decide +kernel

/-- The hypotheses of `C142_wide`: the matrix exists for two points one unit apart and any bandwidth,
here 100, with which the weights are within 3 % of one half. -/
example (fmax : ℝ) : ∃ W : Mat (Num ℝ), ∃ x, weightMatrixFromDistance (realEnv fmax) false [twoPoints 0]
      { kernel := .scalar "gaussian", bandwidth := .scalar (some 100) } = .ok W ∧
    W.get 0 1 = .fin x ∧ (1 - 9 / 400) / 2 ≤ x ∧ x ≤ 1 / (2 * (1 - 9 / 400)) := by
  have hW : ∃ W, weightMatrixFromDistance (realEnv fmax) false [twoPoints 0]
      { kernel := .scalar "gaussian", bandwidth := .scalar (some 100) } = .ok W ∧ W.r = 2 ∧ W.c = 2 :=
    ⟨_, rfl, rfl, rfl⟩
  obtain ⟨W, hW, hr, hc⟩ := hW
  obtain ⟨x, h1, h2, h3⟩ := C142_wide fmax false [twoPoints 0]
    { kernel := .scalar "gaussian", bandwidth := .scalar (some 100) } W hW
    { dist := (twoPoints_input (e := 0) le_rfl).dist
      bandwidth := by intro b hb; simp [Param.expand] at hb; rw [hb]; norm_num
      sorted := by intro S hS; simp [Param.expand] at hS }
    1 100 (by intro D hD i _ j _; simp at hD; subst hD; simp only [twoPoints]; split <;> norm_num)
    (by norm_num) (by norm_num) (by intro b hb; simp [Param.expand] at hb; exact ⟨100, hb, le_rfl⟩)
    (by norm_num) 0 (by omega) 1 (by omega)
  rw [hc] at h2 h3
  refine ⟨W, x, hW, h1, ?_, ?_⟩
  · refine le_trans (le_of_eq ?_) h2
    norm_num
  · refine h3.trans (le_of_eq ?_)
    norm_num

end Geo
