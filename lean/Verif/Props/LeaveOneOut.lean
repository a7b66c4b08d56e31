import Verif.Props.Dimensions
import Verif.Props.GlobalLimit
import Verif.Props.Refit
/-
C149: what the leave-one-out predictions of a fit tell about predictions at new places. With
`leave_local_out` the prediction at an observation is the one a model without this observation gives
at its place with `predict_by_fit`, if the weights are handed over as a matrix with the new place as
source, and `neighbour_count` is lowered by one, because in the fit every observation counts as its
own nearest neighbour.
-/
set_option linter.unusedSectionVars false
namespace Geo
variable {K : Type} [Field K] [LinearOrder K] [IsStrictOrderedRing K] [FloorRing K]
variable {F C S : Type}

/-- The old number of row `k` once row `i` is taken out. -/
def skip (i k : Nat) : Nat := if k < i then k else k + 1

/-- The data without row `i`. -/
def withoutRow (i : Nat) (A : Mat K) : Mat K := ⟨A.r - 1, A.c, fun k j => A.get (skip i k) j⟩

/-- Row `i` on its own. -/
def onlyRow (i : Nat) (A : Mat K) : Mat K := ⟨1, A.c, fun _ j => A.get i j⟩

theorem skip_ne (i k : Nat) : skip i k ≠ i := by
  unfold skip
  split <;> omega

theorem skip_lt {i k n : Nat} (hk : k < n - 1) : skip i k < n := by
  unfold skip
  split <;> omega

theorem range_skip {n i : Nat} (hi : i < n) :
    (List.range (n - 1)).map (skip i) = (List.range n).filter fun j => j ≠ i := by
  have e1 : List.range n = List.range i ++ i :: (List.range (n - 1 - i)).map (· + (i + 1)) := by
    have : n = i + (1 + (n - 1 - i)) := by omega
    conv_lhs => rw [this]
    rw [List.range_add, List.range_add]
    simp only [List.range_one, List.map_cons, List.map_map, Nat.add_zero, List.singleton_append]
    congr 2
    apply List.map_congr_left
    intro k _
    simp only [Function.comp]
    omega
  have e2 : List.range (n - 1) = List.range i ++ (List.range (n - 1 - i)).map (· + i) := by
    have : n - 1 = i + (n - 1 - i) := by omega
    conv_lhs => rw [this]
    rw [List.range_add]
    congr 1
    apply List.map_congr_left
    intro k _
    omega
  rw [e1, e2, List.map_append, List.map_map, List.filter_append, List.filter_cons, if_neg (by simp)]
  congr 1
  · rw [List.filter_eq_self.2]
    · conv_rhs => rw [← List.map_id (List.range i)]
      apply List.map_congr_left
      intro k hk
      simp [skip, List.mem_range.1 hk]
    · intro k hk
      have := List.mem_range.1 hk
      simp
      omega
  · rw [List.filter_eq_self.2]
    · apply List.map_congr_left
      intro k _
      simp only [Function.comp, skip]
      rw [if_neg (by omega)]
      omega
    · intro k hk
      obtain ⟨m, -, rfl⟩ := List.mem_map.1 hk
      simp
      omega

theorem nonzeroIdx_skip {n i : Nat} (hi : i < n) {g h : Nat → K} (h0 : g i = 0)
    (hgh : ∀ k < n - 1, (h k ≠ 0 ↔ g (skip i k) ≠ 0)) :
    nonzeroIdx n g = (nonzeroIdx (n - 1) h).map (skip i) := by
  unfold nonzeroIdx
  have e : (List.range n).filter (fun j => decide (g j ≠ 0)) =
      ((List.range n).filter fun j => j ≠ i).filter fun j => decide (g j ≠ 0) := by
    rw [List.filter_filter]
    apply List.filter_congr
    intro j _
    by_cases hj : j = i
    · subst hj; simp [h0]
    · simp [hj]
  rw [e, ← range_skip hi, List.filter_map]
  congr 1
  apply List.filter_congr
  intro k hk
  have := hgh k (List.mem_range.1 hk)
  simp only [Function.comp]
  exact decide_eq_decide.2 this.symm

theorem yfun_erase (y : List K) (i k : Nat) : yfun (y.eraseIdx i) k = yfun y (skip i k) := by
  unfold yfun skip
  simp only [List.getD_eq_getElem?_getD, List.getElem?_eraseIdx]
  split <;> rfl

/-- C149: the leave-one-out prediction at observation `i` is what `predict_by_fit` gives at its place
for a model fitted to the other observations, when the weights handed over are proportional to those
of the fit. (The regressor must ignore the scale of its weights, and be the same for every location.) -/
theorem C149_given_weights (L : Learner K F) (hclone : ∀ e e', L.fit e = L.fit e') (hscale : ScaleFree L)
    (rng : Rng S) (p : WMParams K C) (hlo : p.leaveLocalOut = true) (hs : p.sampleRate = none)
    (st : WMState K F C) (s : S) (X : Mat K) (y : List K) (coords : Option C) (W : Option (WMat K))
    (hok : (wmFit L rng p st s X y coords W).result = .ok ())
    (D : Mat K) (hD : chosenWeights p coords W = .ok (.dense D)) (i : Nat) (hi : i < X.r)
    (rng' : Rng S) (p' : WMParams K C) (hc' : p'.cacheData = true) (hcpu : 0 < p'.cpu)
    (st' : WMState K F C) (s' : S) (coords' : Option C) (W' : Option (WMat K))
    (hok' : (wmFit L rng' p' st' s' (withoutRow i X) (y.eraseIdx i) coords' W').result = .ok ())
    (P : Mat K) (hPr : P.r = 1) (hPc : P.c = X.r - 1) (a : K) (ha : 0 < a)
    (hP : ∀ k < X.r - 1, P.get 0 k = a * D.get i (skip i k)) (c : C) :
    ∃ v, (wmFit L rng p st s X y coords W).state.localPredict.bind (·[i]?) = some v ∧
      predictByFit L p' (wmFit L rng' p' st' s' (withoutRow i X) (y.eraseIdx i) coords' W').state
        (onlyRow i X) (some c) (some P) = .ok [v] := by
  obtain ⟨W0, idx, s1, res, score, -, hW0, hsl, hf, hl, -, -, hout⟩ := wmFit_ok hok
  have hal := aligned_of hW0 hsl (.inr (.inl hs))
  rw [hs] at hsl
  have hidx := sampleLocations_all hsl
  subst hidx
  have hm := fitAll_ok hf hal hl
  obtain ⟨h1, h2, -⟩ := fit_cached hc' hok'
  rw [predictByFit_eq hc' hcpu h1 h2, hPr]
  rw [hD] at hW0
  cases hW0
  have hg := mapE_get hm (i := i) (by simpa using hi)
  simp only [List.getElem_range] at hg
  have hlk := locTask_ok hg
  rw [locTask_eq hlk] at hg
  simp only [leaveOut, hlo, if_true, WMat.clearDiag, denseTask] at hg
  by_cases hc : D.c = X.r
  swap
  · rw [if_pos hc] at hg
    cases hg
  rw [if_neg (not_not.2 hc)] at hg
  have hidx : nonzeroIdx X.r (fun j => if i = j then 0 else D.get i j) =
      (nonzeroIdx (X.r - 1) (P.get 0)).map (skip i) := by
    refine nonzeroIdx_skip hi (by simp) fun k hk => ?_
    rw [hP k hk, if_neg (Ne.symm (skip_ne i k))]
    constructor
    · intro h h0
      exact h (by rw [h0, mul_zero])
    · intro h
      exact mul_ne_zero ha.ne' h
  have hx : ∀ k, X.row (skip i k) = (withoutRow i X).row k := fun k => rfl
  have hfit : L.fit i ((nonzeroIdx X.r fun j => if i = j then 0 else D.get i j).map X.row)
      ((nonzeroIdx X.r fun j => if i = j then 0 else D.get i j).map (yfun y))
      ((nonzeroIdx X.r fun j => if i = j then 0 else D.get i j).map fun j => if i = j then 0 else D.get i j) =
      L.fit 0 ((nonzeroIdx (X.r - 1) (P.get 0)).map (withoutRow i X).row)
        ((nonzeroIdx (X.r - 1) (P.get 0)).map (yfun (y.eraseIdx i)))
        ((nonzeroIdx (X.r - 1) (P.get 0)).map (P.get 0)) := by
    rw [hclone i 0, hidx]
    simp only [List.map_map]
    have e : (nonzeroIdx (X.r - 1) (P.get 0)).map (P.get 0) =
        ((nonzeroIdx (X.r - 1) (P.get 0)).map
          ((fun j => if i = j then 0 else D.get i j) ∘ skip i)).map (a * ·) := by
      rw [List.map_map]
      apply List.map_congr_left
      intro k hk
      have hk := List.mem_range.1 (List.mem_filter.1 hk).1
      simp only [Function.comp]
      rw [hP k hk, if_neg (Ne.symm (skip_ne i k))]
    rw [e, hscale _ _ _ _ a ha]
    congr 1
    apply List.map_congr_left
    intro k _
    exact (yfun_erase y i k).symm
  rw [hc] at hg
  simp only [fitLocal] at hg
  rw [hfit] at hg
  cases hF : L.fit 0 ((nonzeroIdx (X.r - 1) (P.get 0)).map (withoutRow i X).row)
        ((nonzeroIdx (X.r - 1) (P.get 0)).map (yfun (y.eraseIdx i)))
        ((nonzeroIdx (X.r - 1) (P.get 0)).map (P.get 0)) with
  | error e => rw [hF] at hg; cases hg
  | ok f =>
  rw [hF] at hg
  have hg := Except.ok.inj hg
  have hil : i < res.length := by rw [hl]; simpa using hi
  refine ⟨L.predict f (X.row i), ?_, ?_⟩
  · rw [hout]
    simp [hil, ← hg]
  · have ht : locTask L (withoutRow i X) (yfun (y.eraseIdx i)) (onlyRow i X) (.dense P) (onlyRow i X).r 0 =
        .ok (L.predict f (X.row i), f) := by
      rw [locTask_eq (W := .dense P) ⟨show 0 < (onlyRow i X).r from Nat.one_pos, show 0 < P.r by omega,
        show 0 < (onlyRow i X).r from Nat.one_pos⟩]
      simp only [denseTask]
      rw [if_neg (not_not.2 (by rw [hPc]; rfl)), hPc]
      simp only [fitLocal, hF]
      rfl
    simp only [List.range_one, mapE, ht]
    rfl

/-! ### The weights -/

/-- One neighbour fewer. -/
def fewer : Count K → Count K
  | .int k => .int (k - 1)
  | q => q

/-- A dimension of the fit (the observations against themselves) turned into the dimension of a
prediction at the place of observation `i` from the other observations. -/
def CoordDim.heldOut (i : Nat) (d : CoordDim K) : CoordDim K :=
  { d with src := onlyRow i d.src, tgt := withoutRow i d.tgt, count := d.count.map fewer }

theorem sortL_zero_cons {l : List K} (h : ∀ x ∈ l, 0 ≤ x) : sortL (0 :: l) = 0 :: sortL l := by
  have hp : (sortL (0 :: l)).Perm (0 :: sortL l) := (sortL_perm _).trans ((sortL_perm l).symm.cons 0)
  refine hp.eq_of_pairwise (fun a b _ _ h1 h2 => le_antisymm h1 h2) (sortL_pairwise _) ?_
  rw [List.pairwise_cons]
  exact ⟨fun x hx => h x ((sortL_perm l).mem_iff.1 hx), sortL_pairwise l⟩

theorem row_perm {n i : Nat} (hi : i < n) (g : Nat → K) :
    ((List.range n).map g).Perm (g i :: (List.range (n - 1)).map fun k => g (skip i k)) := by
  have h1 : (List.range (n - 1)).map (fun k => g (skip i k)) = ((List.range n).filter fun j => j ≠ i).map g := by
    rw [← range_skip hi, List.map_map]
    rfl
  rw [h1, ← List.map_cons]
  refine List.Perm.map g ?_
  have h2 : ((List.range n).filter fun j => j ≠ i) = (List.range n).erase i := by
    rw [List.nodup_range.erase_eq_filter]
    apply List.filter_congr
    intro j _
    by_cases hj : j = i <;> simp [hj]
  rw [h2]
  exact List.perm_cons_erase (List.mem_range.2 hi)

/-- One dimension. -/
theorem heldOut_weights {lib : Lib K} (hlib : lib.Nonneg) {env : Env K} {d : CoordDim K} {i n : Nat} (hi : i < n)
    (hn : 2 ≤ n) (hsrc : d.src.r = n) (htgt : d.tgt = d.src)
    (hself : metricFun lib d.measure (d.src.row i) (d.src.row i) = 0)
    (hcount : d.count = none ∨ ∃ k : ℤ, 2 ≤ k ∧ d.count = some (.int k)) {V : Mat (Num K)}
    (hV : (d.spec lib).weights env false = .ok V) :
    ∃ V', ((d.heldOut i).spec lib).weights env false = .ok V' ∧ ∀ k, V'.get 0 k = V.get i (skip i k) := by
  have hrow : ∀ k, (((d.heldOut i).spec lib).dist).get 0 k = ((d.spec lib).dist).get i (skip i k) := fun k => rfl
  have key : ∀ bw bw' : Nat → K, bw' 0 = bw i → kernelFunction env false (d.spec lib).dist bw d.kernel = .ok V →
      ∃ V', kernelFunction env false ((d.heldOut i).spec lib).dist bw' d.kernel = .ok V' ∧
        ∀ k, V'.get 0 k = V.get i (skip i k) := by
    intro bw bw' hb h
    unfold kernelFunction at h ⊢
    cases hk : kernelElem env false d.kernel with
    | error e => rw [hk] at h; cases h
    | ok w =>
      rw [hk] at h
      cases h
      refine ⟨_, rfl, fun k => ?_⟩
      simp only [hrow, hb]
  unfold DimSpec.weights weightByDistance at hV ⊢
  simp only [Bool.false_eq_true, if_false] at hV ⊢
  have e1 : (d.spec lib).bandwidth = d.bandwidth := rfl
  have e2 : (d.spec lib).count = d.count := rfl
  have e3 : ((d.heldOut i).spec lib).bandwidth = d.bandwidth := rfl
  have e4 : ((d.heldOut i).spec lib).count = d.count.map fewer := rfl
  rw [e1, e2] at hV
  rw [e3, e4]
  rcases hcount with hc | ⟨k, hk, hc⟩
  · rw [hc] at hV ⊢
    cases hb : d.bandwidth with
    | none => rw [hb] at hV; cases hV
    | some b =>
      rw [hb] at hV
      exact key _ _ rfl hV
  · rw [hc] at hV ⊢
    cases hb : d.bandwidth with
    | some b => rw [hb] at hV; cases hV
    | none =>
      rw [hb] at hV
      simp only [adaptiveKernel, adaptiveBandwidth, Bool.false_eq_true, if_false, adaptiveBandwidthEager,
        Option.map_some, fewer] at hV ⊢
      have hc1 : (d.spec lib).dist.c = n := by
        show d.tgt.r = n
        rw [htgt, hsrc]
      have hc2 : ((d.heldOut i).spec lib).dist.c = n - 1 := by
        show d.tgt.r - 1 = n - 1
        rw [htgt, hsrc]
      rw [if_neg (by omega : ¬ k ≤ 0)] at hV
      rw [if_neg (by omega : ¬ k - 1 ≤ 0)]
      by_cases hlt : (k - 1).toNat < (d.spec lib).dist.c
      swap
      · rw [if_neg hlt] at hV; cases hV
      rw [if_pos hlt] at hV
      rw [if_pos (by omega : (k - 1 - 1).toNat < ((d.heldOut i).spec lib).dist.c)]
      refine key _ _ ?_ hV
      have hz : (d.spec lib).dist.get i i = 0 := by
        show metricFun lib d.measure (d.src.row i) (d.tgt.row i) = 0
        rw [htgt, hself]
      have hp := row_perm hi ((d.spec lib).dist.get i)
      rw [hz] at hp
      have hr1 : (d.spec lib).dist.row i = (List.range n).map ((d.spec lib).dist.get i) := by
        unfold Mat.row
        rw [hc1]
      have hr2 : ((d.heldOut i).spec lib).dist.row 0 =
          (List.range (n - 1)).map fun k => (d.spec lib).dist.get i (skip i k) := by
        unfold Mat.row
        rw [hc2]
        rfl
      rw [hr1, hr2, sortL_eq_of_perm hp, sortL_zero_cons]
      · have : (k - 1).toNat = (k - 1 - 1).toNat + 1 := by omega
        rw [this]
        rfl
      · intro x hx
        obtain ⟨k, -, rfl⟩ := List.mem_map.1 hx
        exact hlib.metricFun _ _ _

theorem mapE_pair {α β γ : Type} {f : α → Except Err β} {g : α → Except Err γ} {R : β → γ → Prop} {l : List α}
    (h : ∀ x ∈ l, ∀ b, f x = .ok b → ∃ c, g x = .ok c ∧ R b c) {bs : List β} (hb : mapE f l = .ok bs) :
    ∃ cs, mapE g l = .ok cs ∧ List.Forall₂ R bs cs := by
  induction l generalizing bs with
  | nil =>
    cases hb
    exact ⟨[], rfl, .nil⟩
  | cons x l ih =>
    simp only [mapE] at hb
    cases hx : f x with
    | error e => rw [hx] at hb; cases hb
    | ok b =>
      rw [hx] at hb
      cases hm : mapE f l with
      | error e => rw [hm] at hb; cases hb
      | ok bs' =>
        rw [hm] at hb
        cases hb
        obtain ⟨c, hc, hr⟩ := h x (by simp) b hx
        obtain ⟨cs, hcs, hrs⟩ := ih (fun x hx => h x (by simp [hx])) hm
        exact ⟨c :: cs, by simp only [mapE, hc, hcs], .cons hr hrs⟩

/-- C149: `weight_matrix_from_points` with the place of observation `i` as the only source, the other
observations as targets, the same bandwidths and neighbour counts lowered by one gives weights
proportional to row `i` of the weight matrix of the fit without the observation itself. -/
theorem C149_weights (lib : Lib K) (hlib : lib.Nonneg) (env : Env K) (he : env.Ok) (fs : Disk K)
    (l : List (CoordDim K)) (hr : ∀ d ∈ l, 0 < d.src.r) (hb : ∀ d ∈ l, ∀ b, d.bandwidth = some b → 0 ≤ b)
    (htgt : ∀ d ∈ l, d.tgt = d.src)
    (hcount : ∀ d ∈ l, d.count = none ∨ ∃ k : ℤ, 2 ≤ k ∧ d.count = some (.int k))
    (M : Mat K) (h : coordWeights lib env fs l = .ok M) (i : Nat) (hi : i < M.r) (hn : 2 ≤ M.r)
    (hself : ∀ d ∈ l, metricFun lib d.measure (d.src.row i) (d.src.row i) = 0) :
    ∃ P, coordWeights lib env fs (l.map (CoordDim.heldOut i)) = .ok P ∧ P.r = 1 ∧ P.c = M.r - 1 ∧ M.c = M.r ∧
      ∃ a > 0, ∀ k < M.r - 1, P.get 0 k = a * M.get i (skip i k) := by
  obtain ⟨hg, W, hW, hf, rfl⟩ := (coordWeights_iff lib env fs l hr M).1 h
  replace hi : i < W.r := hi
  replace hn : 2 ≤ W.r := hn
  obtain ⟨Ws, hWs, hne, hsh, hu, -, -, -, hv⟩ := weightsOf_ok he (by
    intro e he
    obtain ⟨d, hd, rfl⟩ := List.mem_map.1 he
    exact d.spec_nonneg hlib (hb d hd)) hW
  have hsr : ∀ d ∈ l, d.src.r = W.r := fun d hd =>
    (hsh (d.spec lib).dist (List.mem_map.2 ⟨_, List.mem_map.2 ⟨d, hd, rfl⟩, rfl⟩)).1
  have hcr : W.c = W.r := by
    cases l with
    | nil => exact absurd rfl hne
    | cons d l =>
      have h1 : d.tgt.r = W.c := (hsh (d.spec lib).dist (by simp)).2
      rw [htgt d (by simp), hsr d (by simp)] at h1
      exact h1.symm
  have hcomp : ∀ (f : CoordDim K → DimSpec K) (m : List (CoordDim K)),
      mapE (DimSpec.weights env false) (m.map f) = mapE (fun d => (f d).weights env false) m := by
    intro f m
    induction m with
    | nil => rfl
    | cons d m ih => simp only [List.map_cons, mapE, ih]
  rw [hcomp] at hWs
  obtain ⟨Us, hUs, hR⟩ := mapE_pair (g := fun d => ((d.heldOut i).spec lib).weights env false)
    (R := fun V V' => ∀ k, V'.get 0 k = V.get i (skip i k)) (by
      intro d hd V hV
      exact heldOut_weights hlib hi hn (hsr d hd) (htgt d hd) (hself d hd) (hcount d hd) hV) hWs
  have hprod : ∀ k, prodK Us 0 k = prodK Ws i (skip i k) := by
    intro k
    clear hUs hWs hv hu
    unfold prodK
    induction hR with
    | nil => rfl
    | cons h _ ih => simp only [List.map_cons, List.prod_cons, h k, ih]
  have hne' : (l.map (CoordDim.heldOut i)).map (CoordDim.spec lib) ≠ [] := by
    simpa using hne
  have hshape : AllShape (((l.map (CoordDim.heldOut i)).map (CoordDim.spec lib)).map (·.dist)) 1 (W.r - 1) := by
    intro D hD
    obtain ⟨e1, he1, rfl⟩ := List.mem_map.1 hD
    obtain ⟨e2, he2, rfl⟩ := List.mem_map.1 he1
    obtain ⟨d, hd, rfl⟩ := List.mem_map.1 he2
    refine ⟨rfl, ?_⟩
    show d.tgt.r - 1 = W.r - 1
    rw [htgt d hd, hsr d hd]
  have hUs' : mapE (DimSpec.weights env false) ((l.map (CoordDim.heldOut i)).map (CoordDim.spec lib)) = .ok Us := by
    rw [List.map_map, hcomp]
    exact hUs
  have hbuild := weightsOf_build hne' hshape hUs' (by
    rw [logStats_ok_iff]
    show 1 * (W.r - 1) ≠ 0
    omega)
  obtain ⟨Us2, hUs2, -, -, hu', -, -, -, hv'⟩ := weightsOf_ok he (by
    intro e he
    obtain ⟨e2, he2, rfl⟩ := List.mem_map.1 he
    obtain ⟨d, hd, rfl⟩ := List.mem_map.1 he2
    exact CoordDim.spec_nonneg hlib (d := d.heldOut i) (hb d hd)) hbuild
  rw [hUs'] at hUs2
  cases hUs2
  replace hv' : ∀ i < 1, ∀ j < W.r - 1, (normalizeRows ⟨1, W.r - 1, prodEntry Us⟩).get i j =
    .fin (prodK Us i j / normK Us (W.r - 1) i) := hv'
  have hpos := hu.normK_pos hi
  have hpos' : 0 < normK Us (W.r - 1) 0 := hu'.normK_pos (i := 0) Nat.one_pos
  refine ⟨(normalizeRows ⟨1, W.r - 1, prodEntry Us⟩).map Num.toK, (coordWeights_iff lib env fs _ ?_ _).2
    ⟨?_, _, hbuild, ?_, rfl⟩, rfl, rfl, hcr, normK Ws W.c i / normK Us (W.r - 1) 0, div_pos hpos hpos', ?_⟩
  · intro e he
    obtain ⟨d, hd, rfl⟩ := List.mem_map.1 he
    exact Nat.one_pos
  · intro e he
    obtain ⟨d, hd, rfl⟩ := List.mem_map.1 he
    exact hg d hd
  · intro k hk j hj
    rw [hv' k hk j hj]
    rfl
  · intro k hk
    replace hk : k < W.r - 1 := hk
    have hsk : skip i k < W.c := by
      rw [hcr]
      exact skip_lt hk
    show ((normalizeRows ⟨1, W.r - 1, prodEntry Us⟩).get 0 k).toK = _ * (W.get i (skip i k)).toK
    rw [hv' 0 Nat.one_pos k hk, hv i hi _ hsk, hprod k]
    show _ / _ = _ / _ * (_ / _)
    field_simp

theorem fit_cols {L : Learner K F} {rng : Rng S} {p : WMParams K C} {st : WMState K F C} {s : S} {X : Mat K}
    {y : List K} {coords : Option C} {W : Option (WMat K)} (hs : p.sampleRate = none)
    (hok : (wmFit L rng p st s X y coords W).result = .ok ()) {D : Mat K}
    (hD : chosenWeights p coords W = .ok (.dense D)) : D.c = X.r ∧ 2 ≤ X.r := by
  obtain ⟨W0, idx, s1, res, score, -, hW0, hsl, hf, hl, hl2, -, -⟩ := wmFit_ok hok
  have hal := aligned_of hW0 hsl (.inr (.inl hs))
  rw [hs] at hsl
  have hidx := sampleLocations_all hsl
  subst hidx
  rw [List.length_range] at hl2
  refine ⟨?_, hl2⟩
  have hm := fitAll_ok hf hal hl
  rw [hD] at hW0
  cases hW0
  have hg := mapE_get hm (i := 0) (by simp; omega)
  simp only [List.getElem_range] at hg
  rw [locTask_eq (locTask_ok hg)] at hg
  by_contra hc
  cases hlo : p.leaveLocalOut with
  | true =>
    simp only [leaveOut, hlo, if_true, WMat.clearDiag, denseTask] at hg
    rw [if_pos hc] at hg
    cases hg
  | false =>
    simp only [leaveOut, hlo, Bool.false_eq_true, if_false, denseTask] at hg
    rw [if_pos hc] at hg
    cases hg

/-- C149: a fit on coordinates, with fixed bandwidths or integer neighbour counts of at least two. The
weights from the place of observation `i` to the other observations, computed with every neighbour
count lowered by one and handed to `predict_by_fit` of a model fitted to the other observations, give
exactly the leave-one-out prediction of the fit at `i`. -/
theorem C149_leave_one_out (L : Learner K F) (hclone : ∀ e e', L.fit e = L.fit e') (hscale : ScaleFree L)
    (lib : Lib K) (hlib : lib.Nonneg) (env : Env K) (he : env.Ok) (fs : Disk K)
    (l : List (CoordDim K)) (hr : ∀ d ∈ l, 0 < d.src.r) (hb : ∀ d ∈ l, ∀ b, d.bandwidth = some b → 0 ≤ b)
    (htgt : ∀ d ∈ l, d.tgt = d.src)
    (hcount : ∀ d ∈ l, d.count = none ∨ ∃ k : ℤ, 2 ≤ k ∧ d.count = some (.int k))
    (rng : Rng S) (p : WMParams K (List (Mat K))) (hlo : p.leaveLocalOut = true) (hs : p.sampleRate = none)
    (hp : p.weights = pointSource lib env fs (.list (l.map (·.measure)))
      { kernel := .list (l.map (·.kernel)), bandwidth := .list (l.map (·.bandwidth)), count := .list (l.map (·.count)) })
    (st : WMState K F (List (Mat K))) (s : S) (X : Mat K) (y : List K)
    (hok : (wmFit L rng p st s X y (some (l.map (·.src))) none).result = .ok ())
    (i : Nat) (hi : i < X.r) (hself : ∀ d ∈ l, metricFun lib d.measure (d.src.row i) (d.src.row i) = 0) :
    ∃ P v, coordWeights lib env fs (l.map (CoordDim.heldOut i)) = .ok P ∧
      (wmFit L rng p st s X y (some (l.map (·.src))) none).state.localPredict.bind (·[i]?) = some v ∧
      ∀ (rng' : Rng S) (p' : WMParams K (List (Mat K))), p'.cacheData = true → 0 < p'.cpu →
        ∀ (st' : WMState K F (List (Mat K))) (s' : S) (coords' : Option (List (Mat K))) (W' : Option (WMat K)),
          (wmFit L rng' p' st' s' (withoutRow i X) (y.eraseIdx i) coords' W').result = .ok () →
          ∀ c, predictByFit L p' (wmFit L rng' p' st' s' (withoutRow i X) (y.eraseIdx i) coords' W').state
            (onlyRow i X) (some c) (some P) = .ok [v] := by
  have hcw : p.weights (l.map (·.src)) (l.map (·.src)) = coordWeights lib env fs l := by
    have : l.map (·.src) = l.map (·.tgt) := List.map_congr_left fun d hd => (htgt d hd).symm
    rw [hp]
    unfold coordWeights
    rw [← this]
  obtain ⟨W0, -, -, -, -, -, hW0, -, -, -, -, -, -⟩ := wmFit_ok hok
  have hM : ∃ M, coordWeights lib env fs l = .ok M ∧ W0 = .dense M := by
    rw [← hcw]
    simp only [chosenWeights] at hW0
    cases hM : p.weights (l.map (·.src)) (l.map (·.src)) with
    | error e => rw [hM] at hW0; cases hW0
    | ok M =>
      rw [hM] at hW0
      exact ⟨M, rfl, (Except.ok.inj hW0).symm⟩
  obtain ⟨M, hM, rfl⟩ := hM
  obtain ⟨hMc, h2⟩ := fit_cols hs hok hW0
  have hsq : M.c = M.r := by
    obtain ⟨-, W, hW, -, rfl⟩ := (coordWeights_iff lib env fs l hr M).1 hM
    obtain ⟨-, -, hne, hsh, -⟩ := weightsOf_ok he (by
      intro e he
      obtain ⟨d, hd, rfl⟩ := List.mem_map.1 he
      exact d.spec_nonneg hlib (hb d hd)) hW
    cases l with
    | nil => exact absurd rfl hne
    | cons d l =>
      have h1 := hsh (d.spec lib).dist (by simp)
      show W.c = W.r
      rw [← h1.1, ← h1.2]
      show d.tgt.r = d.src.r
      rw [htgt d (by simp)]
  have hMr : M.r = X.r := by omega
  obtain ⟨P, hP, hPr, hPc, -, a, ha, hw⟩ := C149_weights lib hlib env he fs l hr hb htgt hcount M hM i
    (by omega) (by omega) hself
  rw [hMr] at hPc hw
  obtain ⟨v, hv⟩ : ∃ v, (wmFit L rng p st s X y (some (l.map (·.src))) none).state.localPredict.bind (·[i]?) =
      some v := by
    obtain ⟨W0, idx, s1, res, score, -, -, hsl, -, hl, -, -, hout⟩ := wmFit_ok hok
    rw [hs] at hsl
    rw [sampleLocations_all hsl, List.length_range] at hl
    exact ⟨(res[i]'(by omega)).1, by rw [hout]; simp [show i < res.length by omega]⟩
  refine ⟨P, v, hP, hv, fun rng' p' hc' hcpu st' s' coords' W' hok' c => ?_⟩
  obtain ⟨v', h1, h2⟩ := C149_given_weights L hclone hscale rng p hlo hs st s X y _ none hok M hW0 i hi rng' p' hc'
    hcpu st' s' coords' W' hok' P hPr hPc a ha hw c
  rw [hv] at h1
  cases h1
  exact h2

/-! ### Concrete cases -/

def looDim (n : ℤ) : CoordDim ℚ where
  src := ⟨5, 1, fun i _ => i⟩
  tgt := ⟨5, 1, fun i _ => i⟩
  measure := some "sqeuclidean"
  kernel := "bisquare"
  count := some (.int n)

def looP (n : ℤ) : WMParams ℚ (List (Mat ℚ)) :=
  { exPc with weights := pointSource exLib ratEnv (fun _ => none) (.list [some "sqeuclidean"])
                { kernel := .list ["bisquare"], bandwidth := .list [none], count := .list [some (.int n)] } }

/-- The fit of the five observations. -/
def looFit := wmFit meanLearner countRng (looP 4) {} 0 exX5 exY5 (some [(looDim 4).src]) none

/-- The fit without the first observation. -/
def looRest :=
  wmFit meanLearner countRng (looP 4) {} 0 (withoutRow 0 exX5) (exY5.eraseIdx 0) (some [withoutRow 0 (looDim 4).src]) none

/-- The hypotheses of `C149_leave_one_out` are met, by a regressor that ignores the scale. -/
example : looFit.result = .ok () ∧ looRest.result = .ok () ∧ ScaleFree meanLearner ∧
    metricFun exLib (looDim 4).measure ((looDim 4).src.row 0) ((looDim 4).src.row 0) = 0 :=
  ⟨by decide +kernel, by decide +kernel, meanLearner_scaleFree, by decide +kernel⟩

/-- C149: the lowered count gives the leave-one-out prediction, the count of the fit does not. -/
theorem C149_count_lowered :
    okAnd (coordWeights exLib ratEnv (fun _ => none) [(looDim 4).heldOut 0])
      (fun P => okAnd (predictByFit meanLearner (looP 4) looRest.state (onlyRow 0 exX5) (some []) (some P))
        fun ps => decide (looFit.state.localPredict.bind (·[0]?) = ps[0]?)) = true ∧
    okAnd (coordWeights exLib ratEnv (fun _ => none) [{ (looDim 4).heldOut 0 with count := some (.int 4) }])
      (fun P => okAnd (predictByFit meanLearner (looP 4) looRest.state (onlyRow 0 exX5) (some []) (some P))
        fun ps => decide (looFit.state.localPredict.bind (·[0]?) ≠ ps[0]?)) = true := by
  refine ⟨by decide +kernel, by decide +kernel⟩

/-- C149: with the coordinates of the place in place of the weights, `predict_by_fit` gives something
else, even with a fixed bandwidth. -/
theorem C149_not_by_coordinates :
    let fit := wmFit meanLearner countRng exPc {} 0 exX5 exY5 (some exTrain) none
    let rest := wmFit meanLearner countRng exPc {} 0 (withoutRow 0 exX5) (exY5.eraseIdx 0)
      (some (exTrain.map (withoutRow 0))) none
    fit.result = .ok () ∧ rest.result = .ok () ∧
    okAnd (predictByFit meanLearner exPc rest.state (onlyRow 0 exX5) (some (exTrain.map (onlyRow 0))) none)
      (fun ps => decide (fit.state.localPredict.bind (·[0]?) ≠ ps[0]?)) = true ∧
    okAnd (exSource (exTrain.map (onlyRow 0)) (exTrain.map (withoutRow 0)))
      (fun P => okAnd (predictByFit meanLearner exPc rest.state (onlyRow 0 exX5) (some []) (some P))
        fun ps => decide (fit.state.localPredict.bind (·[0]?) = ps[0]?)) = true := by
  refine ⟨by decide +kernel, by decide +kernel, by decide +kernel, by decide +kernel⟩

end Geo
