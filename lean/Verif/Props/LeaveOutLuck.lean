import Verif.Props.FitSucceeds
import Verif.Props.Neighbourhoods
import Verif.Props.StackingExamples
/-
C173: what leaving out neighbours leaves to the base regressors of a stacking model: how many training rows
together, when none at all, and when that depends on luck.
-/
set_option linter.unusedSectionVars false
namespace Geo
variable {K : Type} [Field K] [LinearOrder K] [IsStrictOrderedRing K] [FloorRing K]
  {F G C S : Type}

theorem IsUsed.shape {W W' : Mat K} {shrink : Option K} (h : IsUsed W shrink W') :
    W'.r = W.r ∧ W'.c = W.c := by
  cases shrink with
  | none => simp only [IsUsed] at h; subst h; exact ⟨rfl, rfl⟩
  | some q =>
    have : shrinkMetaDense (some q) W = .ok W' := h
    exact shrinkMetaDense_shape this

/-- If row `k` draws as many others as it has, it draws all of them. -/
theorem sample_all (rng : Rng S) (hv : rng.Valid) (s : S) (W W' : Mat K) (rate : K) (hrate : 0 ≤ rate)
    (shrink : Option K) (hu : IsUsed W shrink W') (Sm : Mat Bool)
    (hSm : (sampleNeighbourDense rng s W rate shrink).result = .ok Sm) (k j : Nat) (hk : k < W'.r)
    (hj : j < W'.c) (hpos : 0 < W'.get k j)
    (hall : (positiveOthers W' k).length ≤ max 1 ⌈((positiveOthers W' k).length : K) * rate⌉₊) :
    Sm.get k j = true := by
  obtain ⟨M, h1, -, h3, h4, h5⟩ := C30_sample_dense rng hv s W W' rate hrate shrink hu
  rw [h1] at hSm
  cases hSm
  obtain ⟨hd, hsub, hlen⟩ := h5 k hk
  by_cases hjk : j = k
  · rw [hjk]; exact hd
  rw [min_eq_left hall] at hlen
  have hsl : (List.range Sm.c).filter (fun j => Sm.get k j && k != j) =
      (positiveOthers W' k) := by
    have hs : ((List.range Sm.c).filter (fun j => Sm.get k j && k != j)).Sublist (positiveOthers W' k) := by
      unfold positiveOthers
      rw [h4]
      refine List.monotone_filter_right _ fun j hj => ?_
      simp only [Bool.and_eq_true, bne_iff_ne, ne_eq, decide_eq_true_eq] at hj ⊢
      exact ⟨(hsub j hj.1 (Ne.symm hj.2)).2, hj.2⟩
    exact hs.eq_of_length hlen
  have hm : j ∈ positiveOthers W' k := by
    unfold positiveOthers
    simp only [List.mem_filter, List.mem_range, Bool.and_eq_true, decide_eq_true_eq, bne_iff_ne, ne_eq]
    exact ⟨hj, hpos, Ne.symm hjk⟩
  rw [← hsl] at hm
  simp only [List.mem_filter, Bool.and_eq_true] at hm
  exact hm.2.1

/-- C173: a stacking fit with a regressor that refuses an empty training set always raises, whatever is drawn,
if some location's neighbours all draw all their own neighbours, that location among them. -/
theorem C173_no_training (L : Learner K F) (hL : ∀ e f, L.fit e [] [] [] ≠ .ok f) (M Mn : Learner K G)
    (rng : Rng S) (hv : rng.Valid) (p : SParams K C) (st : SState K F G C) (s : S) (X : Mat K)
    (y : List K) (coords : Option C) (W : Option (WMat K))
    (hest : p.estimatorRate = none ∨ ∃ A, W = some (.sparse A)) (hW : SparseFine rng p W)
    (W0 : WMat K) (hW0 : chosenWeights p.toWMParams coords W = .ok W0)
    (hr : W0.toMat.r = X.r) (hc : W0.toMat.c = X.r)
    (rate : K) (hrate : p.leaveOutRate = some rate) (h0 : 0 ≤ rate)
    (Wu : Mat K) (hu : IsUsed W0.toMat p.leaveOutShrink Wu) (j : Nat) (hj : j < X.r)
    (hall : ∀ k < X.r, k ≠ j → W0.toMat.get j k ≠ 0 → 0 < Wu.get k j ∧
      (positiveOthers Wu k).length ≤ max 1 ⌈((positiveOthers Wu k).length : K) * rate⌉₊) :
    (stackFit L M Mn rng p st s X y coords W).result ≠ .ok () := by
  intro hok
  obtain ⟨V0, rate', Sm, V1, fs, ps, es, q1, q2, q3, -, -, -, -, q8⟩ :=
    C50_genuine_predictions L M Mn rng p st s X y coords W hest hW hok
  rw [hW0] at q1
  cases q1
  rw [hrate] at q2
  cases q2
  obtain ⟨b, -, hb⟩ := q8.base j hj
  have hself := q8.self j hj
  have hT : ((List.range X.r).filter fun k => decide (W0.toMat.get j k ≠ 0 ∧
      j ∉ (List.range X.r).filter (fun j => Sm.get k j) ∧ ¬ (p.leaveLocalOut = true ∧ k = j))) = [] := by
    rw [List.filter_eq_nil_iff]
    intro k hk hd
    obtain ⟨d1, d2, -⟩ := of_decide_eq_true hd
    apply d2
    by_cases hkj : k = j
    · rw [hkj]; exact hself
    · have hk' := List.mem_range.1 hk
      obtain ⟨a1, a2⟩ := hall k hk' hkj d1
      obtain ⟨s1, s2⟩ := hu.shape
      simp only [List.mem_filter, List.mem_range]
      exact ⟨hj, sample_all rng hv s W0.toMat Wu rate h0 p.leaveOutShrink hu Sm q3 k j (by omega) (by omega) a1 a2⟩
  simp only at hb
  rw [hT] at hb
  exact hL j b hb

/-- C173: with a leave-out rate of one (or more) a stacking fit always raises if the neighbours of some location
have that location as a neighbour. -/
theorem C173_rate_one (L : Learner K F) (hL : ∀ e f, L.fit e [] [] [] ≠ .ok f) (M Mn : Learner K G)
    (rng : Rng S) (hv : rng.Valid) (p : SParams K C) (st : SState K F G C) (s : S) (X : Mat K)
    (y : List K) (coords : Option C) (W : Option (WMat K))
    (hest : p.estimatorRate = none ∨ ∃ A, W = some (.sparse A)) (hW : SparseFine rng p W)
    (W0 : WMat K) (hW0 : chosenWeights p.toWMParams coords W = .ok W0)
    (hr : W0.toMat.r = X.r) (hc : W0.toMat.c = X.r)
    (rate : K) (hrate : p.leaveOutRate = some rate) (h1 : 1 ≤ rate)
    (Wu : Mat K) (hu : IsUsed W0.toMat p.leaveOutShrink Wu) (j : Nat) (hj : j < X.r)
    (hmut : ∀ k < X.r, k ≠ j → W0.toMat.get j k ≠ 0 → 0 < Wu.get k j) :
    (stackFit L M Mn rng p st s X y coords W).result ≠ .ok () := by
  refine C173_no_training L hL M Mn rng hv p st s X y coords W hest hW W0 hW0 hr hc rate hrate
    (zero_le_one.trans h1) Wu hu j hj fun k hk hkj hne => ⟨hmut k hk hkj hne, ?_⟩
  refine le_max_of_le_right ?_
  have : ((positiveOthers Wu k).length : K) ≤ ⌈((positiveOthers Wu k).length : K) * rate⌉₊ :=
    (le_mul_of_one_le_right (Nat.cast_nonneg _) h1).trans (Nat.le_ceil _)
  exact_mod_cast this

/-- C173: two locations that have only each other as neighbours make every stacking fit raise, at any rate. -/
theorem C173_pair (L : Learner K F) (hL : ∀ e f, L.fit e [] [] [] ≠ .ok f) (M Mn : Learner K G)
    (rng : Rng S) (hv : rng.Valid) (p : SParams K C) (st : SState K F G C) (s : S) (X : Mat K)
    (y : List K) (coords : Option C) (W : Option (WMat K))
    (hest : p.estimatorRate = none ∨ ∃ A, W = some (.sparse A)) (hW : SparseFine rng p W)
    (W0 : WMat K) (hW0 : chosenWeights p.toWMParams coords W = .ok W0)
    (hr : W0.toMat.r = X.r) (hc : W0.toMat.c = X.r)
    (hrate : ∀ rate ∈ p.leaveOutRate, 0 ≤ rate)
    (Wu : Mat K) (hu : IsUsed W0.toMat p.leaveOutShrink Wu) (a b : Nat) (ha : a < X.r)
    (hab : 0 < Wu.get b a) (hao : ∀ k < X.r, k ≠ a → k ≠ b → W0.toMat.get a k = 0)
    (hbo : ∀ k < X.r, k ≠ a → k ≠ b → Wu.get b k ≤ 0) :
    (stackFit L M Mn rng p st s X y coords W).result ≠ .ok () := by
  intro hok
  obtain ⟨V0, rate, Sm, V1, fs, ps, es, -, q2, -, -, -, -, -, -⟩ :=
    C50_genuine_predictions L M Mn rng p st s X y coords W hest hW hok
  refine C173_no_training L hL M Mn rng hv p st s X y coords W hest hW W0 hW0 hr hc rate q2
    (hrate rate q2) Wu hu a ha (fun k hk hka hne => ?_) hok
  by_cases hkb : k = b
  · subst hkb
    refine ⟨hab, le_max_of_le_left ?_⟩
    have hsub : positiveOthers Wu k ⊆ [a] := by
      intro i hi
      unfold positiveOthers at hi
      simp only [List.mem_filter, List.mem_range, Bool.and_eq_true, decide_eq_true_eq, bne_iff_ne, ne_eq] at hi
      by_contra hia
      have hia' : i ≠ a := by simpa using hia
      have := hbo i (by have := hu.shape.2; omega) hia' (Ne.symm hi.2.2)
      exact absurd hi.2.1 (not_lt.2 this)
    have hnd : (positiveOthers Wu k).Nodup := List.nodup_range.filter _
    have := (hnd.subperm hsub).length_le
    simpa using this
  · exact absurd (hao k hk hka hkb) hne

/-- C173: coordinates and fixed bandwidths: neighbours are mutual, so a leave-out rate of one always raises. -/
theorem C173_fixed_bandwidth (L : Learner K F) (hL : ∀ e f, L.fit e [] [] [] ≠ .ok f) (M Mn : Learner K G)
    (rng : Rng S) (hv : rng.Valid) (lib : Lib K) (hl : lib.Nonneg)
    (hsym : ∀ m a b, metricFun lib m a b = metricFun lib m b a)
    (env : Env K) (he : env.Ok) (fs : Disk K) (ms : Param (Option String)) (wp : WParams K)
    (p : SParams K (List (Mat K))) (hp : p.weights = pointSource lib env fs ms wp)
    (st : SState K F G (List (Mat K))) (s : S) (X : Mat K) (y : List K)
    (c : List (Mat K)) (hm : c.length ≤ (ms.expand c.length).length) (hcr : ∀ t ∈ c, t.r = X.r)
    (hfix : wp.Fixed c.length) (hest : p.estimatorRate = none) (hsh : p.leaveOutShrink = none)
    (rate : K) (hrate : p.leaveOutRate = some rate) (h1 : 1 ≤ rate) :
    (stackFit L M Mn rng p st s X y (some c) none).result ≠ .ok () := by
  intro hok
  obtain ⟨W0, rate', hck, hW0, -, -⟩ := stackFit_ok hok
  have hX : 0 < X.r := by
    have := of_decide_eq_true hck
    omega
  have hpos : ∀ t ∈ c, 0 < t.r := fun t ht => by rw [hcr t ht]; exact hX
  have hW0' := hW0
  simp only [chosenWeights, hp] at hW0'
  cases hM : pointSource lib env fs ms wp c c with
  | error e => rw [hM] at hW0'; cases hW0'
  | ok D =>
  rw [hM] at hW0'
  cases hW0'
  have hMr := pointSource_r lib env fs ms wp c c hm hpos D hM hcr
  have hMc := pointSource_c lib env fs ms wp c c hm hpos D hM hcr
  have hg := pointSource_fixed lib hl env he fs ms wp c c hm hpos hfix D hM
  rw [hMr, hMc] at hg
  have hP : ∀ i j, wp.product env c.length (fun d => pointDist lib (ms.expand c.length) c c d i j) =
      wp.product env c.length (fun d => pointDist lib (ms.expand c.length) c c d j i) := by
    intro i j
    congr 1
    funext d
    exact hsym _ _ _
  have hP0 : ∀ i j, 0 ≤ wp.product env c.length
      (fun d => pointDist lib (ms.expand c.length) c c d i j) := by
    intro i j
    refine List.prod_nonneg' fun x hx => ?_
    obtain ⟨d, hd, rfl⟩ := List.mem_map.1 hx
    refine (kval_unit env he _ (hl.metricFun _ _ _) ?_).1
    obtain ⟨b, hb⟩ := hfix.1 d (List.mem_range.1 hd)
    have : wp.bandwidthOf c.length d = b := by
      simp [WParams.bandwidthOf, List.getD_eq_getElem?_getD, hb]
    rw [this]
    exact hfix.2 b (List.mem_of_getElem? hb)
  refine C173_rate_one L hL M Mn rng hv p st s X y (some c) none (Or.inl hest) (fun A h => by cases h) (.dense D)
    hW0 hMr hMc rate hrate h1 D (by rw [hsh]; rfl) 0 hX (fun k hk _ hne => ?_) hok
  change D.get 0 k ≠ 0 at hne
  rw [hg 0 hX k hk] at hne
  have hne0 : wp.product env c.length (fun d => pointDist lib (ms.expand c.length) c c d 0 k) ≠ 0 := by
    intro h0
    rw [h0, zero_div] at hne
    exact hne rfl
  have hpos' : 0 < wp.product env c.length (fun d => pointDist lib (ms.expand c.length) c c d k 0) := by
    rw [hP]
    exact lt_of_le_of_ne (hP0 _ _) (Ne.symm hne0)
  rw [hg k hk 0 hX]
  refine div_pos hpos' ?_
  split
  · exact one_pos
  · rename_i hs
    exact lt_of_le_of_ne (Finset.sum_nonneg fun j _ => hP0 k j) (Ne.symm hs)

/-- The rows left for base regressor `j` of `N` after leaving out. -/
def rowsLeft (N : Nat) (D : Mat K) (Sm : Mat Bool) (j : Nat) : List Nat :=
  (List.range N).filter fun k => decide (D.get j k ≠ 0 ∧ Sm.get k j = false)

theorem sum_range_nat (N : Nat) (f : Nat → Nat) : ((List.range N).map f).sum = ∑ i ∈ Finset.range N, f i := by
  induction N with
  | zero => simp
  | succ N ih => rw [List.range_succ, Finset.sum_range_succ, ← ih]; simp

theorem length_filter_sum (N : Nat) (q : Nat → Bool) :
    ((List.range N).filter q).length = ∑ i ∈ Finset.range N, if q i then 1 else 0 := by
  induction N with
  | zero => simp
  | succ N ih =>
    rw [List.range_succ, Finset.sum_range_succ, ← ih, List.filter_append, List.length_append]
    cases h : q N <;> simp [h]

theorem rowsLeft_total (rng : Rng S) (hv : rng.Valid) (s : S) (N : Nat) (D Wu : Mat K) (hr : D.r = N) (hc : D.c = N)
    (rate : K) (h0 : 0 ≤ rate) (shrink : Option K) (hu : IsUsed D shrink Wu)
    (hmut : ∀ i < N, ∀ j < N, i ≠ j → (D.get i j ≠ 0 ↔ 0 < Wu.get j i)) (Sm : Mat Bool)
    (hSm : (sampleNeighbourDense rng s D rate shrink).result = .ok Sm) :
    ((List.range N).map fun j => (rowsLeft N D Sm j).length).sum +
      ((List.range N).map fun k => min (positiveOthers Wu k).length
        (max 1 ⌈((positiveOthers Wu k).length : K) * rate⌉₊)).sum =
      ((List.range N).map fun k => (positiveOthers Wu k).length).sum := by
  obtain ⟨M, h1, -, h3, h4, h5⟩ := C30_sample_dense rng hv s D Wu rate h0 shrink hu
  rw [h1] at hSm
  cases hSm
  obtain ⟨s1, s2⟩ := hu.shape
  have hpick : ∀ k < N, min (positiveOthers Wu k).length (max 1 ⌈((positiveOthers Wu k).length : K) * rate⌉₊) =
      ∑ j ∈ Finset.range N, if Sm.get k j && k != j then 1 else 0 := by
    intro k hk
    rw [← (h5 k (by omega)).2.2, length_filter_sum, h4, s2, hc]
  rw [sum_range_nat, sum_range_nat, sum_range_nat]
  have e1 : ∑ j ∈ Finset.range N, (rowsLeft N D Sm j).length =
      ∑ k ∈ Finset.range N, ∑ j ∈ Finset.range N, if D.get j k ≠ 0 ∧ Sm.get k j = false then 1 else 0 := by
    rw [Finset.sum_comm]
    refine Finset.sum_congr rfl fun j _ => ?_
    unfold rowsLeft
    rw [length_filter_sum]
    simp
  rw [e1, Finset.sum_congr rfl fun k hk => hpick k (Finset.mem_range.1 hk), ← Finset.sum_add_distrib]
  refine Finset.sum_congr rfl fun k hk => ?_
  have hk' := Finset.mem_range.1 hk
  unfold positiveOthers
  rw [length_filter_sum, s2, hc, ← Finset.sum_add_distrib]
  refine Finset.sum_congr rfl fun j hj => ?_
  have hj' := Finset.mem_range.1 hj
  obtain ⟨a1, a2, -⟩ := h5 k (by omega)
  by_cases hjk : k = j
  · subst hjk
    simp [a1]
  · have hm := hmut j hj' k hk' (Ne.symm hjk)
    cases hS : Sm.get k j with
    | true =>
      have := (a2 j hS (Ne.symm hjk)).2
      simp [hjk, this]
    | false =>
      simp only [hm]
      simp [hjk]

/-- C173: the training rows of all base regressors together. If neighbours are mutual and the selection is made
among all of them, every location with `n` other neighbours takes exactly `min (n, max (1, ⌈n · rate⌉))`
training rows away, from whichever base regressors it draws. -/
theorem C173_total (L : Learner K F) (M Mn : Learner K G)
    (rng : Rng S) (hv : rng.Valid) (p : SParams K C) (st : SState K F G C) (s : S) (X : Mat K)
    (y : List K) (coords : Option C) (W : Option (WMat K))
    (hest : p.estimatorRate = none ∨ ∃ A, W = some (.sparse A)) (hW : SparseFine rng p W)
    (W0 : WMat K) (hW0 : chosenWeights p.toWMParams coords W = .ok W0)
    (hr : W0.toMat.r = X.r) (hc : W0.toMat.c = X.r)
    (rate : K) (hrate : p.leaveOutRate = some rate) (h0 : 0 ≤ rate)
    (Wu : Mat K) (hu : IsUsed W0.toMat p.leaveOutShrink Wu)
    (hmut : ∀ i < X.r, ∀ j < X.r, i ≠ j → (W0.toMat.get i j ≠ 0 ↔ 0 < Wu.get j i))
    (hok : (stackFit L M Mn rng p st s X y coords W).result = .ok ()) :
    ∃ (fs : List F) (T : Nat → List Nat), (stackFit L M Mn rng p st s X y coords W).state.base = some fs ∧
      (∀ j < X.r, (T j).Nodup ∧ (∀ k ∈ T j, k < X.r ∧ k ≠ j ∧ W0.toMat.get j k ≠ 0) ∧
        ∃ f, fs[j]? = some f ∧
          L.fit j ((T j).map X.row) ((T j).map fun k => y.getD k 0) ((T j).map (W0.toMat.get j)) = .ok f) ∧
      ((List.range X.r).map fun j => (T j).length).sum +
        ((List.range X.r).map fun k => min (positiveOthers Wu k).length
          (max 1 ⌈((positiveOthers Wu k).length : K) * rate⌉₊)).sum =
        ((List.range X.r).map fun k => (positiveOthers Wu k).length).sum := by
  obtain ⟨V0, rate', Sm, V1, fs, ps, es, q1, q2, q3, -, q5, -, -, q8⟩ :=
    C50_genuine_predictions L M Mn rng p st s X y coords W hest hW hok
  rw [hW0] at q1
  cases q1
  rw [hrate] at q2
  cases q2
  have hself : ∀ j < X.r, Sm.get j j = true := by
    intro j hj
    have := q8.self j hj
    simp only [List.mem_filter] at this
    exact this.2
  have hT : ∀ j < X.r, ((List.range X.r).filter fun k => decide (W0.toMat.get j k ≠ 0 ∧
      j ∉ (List.range X.r).filter (fun j => Sm.get k j) ∧ ¬ (p.leaveLocalOut = true ∧ k = j))) =
      rowsLeft X.r W0.toMat Sm j := by
    intro j hj
    unfold rowsLeft
    refine List.filter_congr fun k _ => decide_eq_decide.2 ?_
    have e : (j ∉ (List.range X.r).filter (fun j => Sm.get k j)) ↔ Sm.get k j = false := by
      simp [hj]
    rw [e]
    refine ⟨fun h => ⟨h.1, h.2.1⟩, fun h => ⟨h.1, h.2, fun hk => ?_⟩⟩
    rw [hk.2, hself j hj] at h
    exact absurd h.2 (by simp)
  refine ⟨fs, rowsLeft X.r W0.toMat Sm, q5, fun j hj => ⟨List.nodup_range.filter _, fun k hk => ?_, ?_⟩, ?_⟩
  · unfold rowsLeft at hk
    simp only [List.mem_filter, List.mem_range, decide_eq_true_eq] at hk
    refine ⟨hk.1, fun h => ?_, hk.2.1⟩
    rw [h, hself j hj] at hk
    exact absurd hk.2.2 (by simp)
  · obtain ⟨b, hb1, hb2⟩ := q8.base j hj
    simp only at hb2
    rw [hT j hj] at hb2
    exact ⟨b, hb1, hb2⟩
  · exact rowsLeft_total rng hv s X.r W0.toMat Wu hr hc rate h0 p.leaveOutShrink hu hmut Sm q3

/-- A generator that draws `j` whenever it can. -/
def pickRng (s : S) (j : Nat) : Rng S := ⟨s, fun s l k =>
  (if 0 ≤ k ∧ k ≤ l.length then
    .ok (if j ∈ l ∧ 0 < k then j :: (l.erase j).take (k.toNat - 1) else l.take k.toNat)
  else .error .valueError, s)⟩

theorem pickRng_valid (s : S) (j : Nat) : (pickRng s j).Valid := by
  intro s' l k hk
  by_cases h : j ∈ l ∧ (0 : ℤ) < k
  · refine ⟨j :: (l.erase j).take (k - 1), ?_, ?_, ?_⟩
    · simp [pickRng, hk, h.1]
      intro h0
      have := h.2
      omega
    · have := List.length_erase_of_mem h.1
      have h1 := List.length_pos_of_mem h.1
      have := h.2
      simp only [List.length_cons, List.length_take]
      omega
    · refine List.Subperm.trans ?_ (List.perm_cons_erase h.1).symm.subperm
      exact ((List.take_sublist _ _).cons_cons j).subperm
  · refine ⟨l.take k, ?_, by simp [hk], (List.take_sublist k l).subperm⟩
    simp only [pickRng]
    rw [if_pos ⟨by omega, by exact_mod_cast hk⟩, if_neg h]
    simp

theorem pickRng_loop (s : S) (j : Nat) (rate : K) (h0 : 0 ≤ rate) (rows : List (List Nat)) :
    ∃ chosen, sampleLoop (pickRng s j) rate s rows = (.ok chosen, s) ∧
      List.Forall₂ (fun c l => j ∈ l → j ∈ c) chosen rows := by
  induction rows with
  | nil => exact ⟨[], rfl, .nil⟩
  | cons l rows ih =>
    obtain ⟨cs, h1, h2⟩ := ih
    have hc := sampleCount_eq rate h0 l.length
    have hle : sampleCount rate l.length ≤ (l.length : ℤ) := by
      rw [hc]
      exact_mod_cast min_le_left _ _
    have hge : 0 ≤ sampleCount rate l.length := by
      rw [hc]
      exact_mod_cast Nat.zero_le _
    refine ⟨(if j ∈ l ∧ 0 < sampleCount rate l.length then
        j :: (l.erase j).take ((sampleCount rate l.length).toNat - 1)
      else l.take (sampleCount rate l.length).toNat) :: cs, ?_, .cons (fun hj => ?_) h2⟩
    · unfold sampleLoop
      simp only [pickRng, if_pos (And.intro hge hle)]
      rw [show sampleLoop ⟨s, _⟩ rate s rows = _ from h1]
    · have hp : 0 < sampleCount rate l.length := by
        rw [hc]
        have := List.length_pos_of_mem hj
        have : 0 < min l.length (max 1 ⌈(l.length : K) * rate⌉₊) := by
          simp [this]
        exact_mod_cast this
      rw [if_pos ⟨hj, hp⟩]
      exact List.mem_cons_self ..

theorem pickRng_sample (s t : S) (j : Nat) (W W' : Mat K) (rate : K) (h0 : 0 ≤ rate) (shrink : Option K)
    (hu : IsUsed W shrink W') :
    ∃ Sm, (sampleNeighbourDense (pickRng s j) t W rate shrink).result = .ok Sm ∧
      ∀ k < W'.r, j < W'.c → 0 < W'.get k j → Sm.get k j = true := by
  obtain ⟨chosen, h1, h2⟩ := pickRng_loop s j rate h0 ((List.range W'.r).map (candidatesDense (gt0 W')))
  refine ⟨⟨W'.r, W'.c, fun i j => decide (j ∈ chosen.getD i []) || i == j⟩, ?_, fun k hk hj hpos => ?_⟩
  · unfold sampleNeighbourDense
    rw [sampleMask_used hu]
    simp only
    have : (gt0 W').r = W'.r := rfl
    rw [this, show (pickRng s j).seed0 = s from rfl, h1]
    rfl
  · by_cases hkj : k = j
    · simp [hkj]
    have := forall₂_getD h2 (i := k) (by simpa using hk) []
    rw [List.getElem_map, List.getElem_range] at this
    have hm : j ∈ candidatesDense (gt0 W') k := by
      unfold candidatesDense
      simp only [List.mem_filter, List.mem_range, Bool.and_eq_true, bne_iff_ne, ne_eq]
      exact ⟨hj, decide_eq_true hpos, hkj⟩
    simp only [Bool.or_eq_true, decide_eq_true_eq]
    exact Or.inl (this hm)

/-- C173: when a stacking fit cannot fail by bad luck. Let the regressors take every non-empty training set and
refuse an empty one, and everything else be in order. The fit succeeds whatever is drawn if and only if every
location has a neighbour that cannot draw it, because it is not a neighbour of that neighbour. So where
neighbours are mutual no leave-out rate is safe. -/
theorem C173_luck (L : Learner K F) (M Mn : Learner K G) (hM : TakesTables M)
    (p : SParams K C) (st : SState K F G C) (s t : S) (X : Mat K) (y : List K) (coords : Option C)
    (W : Option (WMat K)) (hest : p.estimatorRate = none) (hsr : p.sampleRate = none)
    (hnb : p.useNumba = false) (n : ℤ) (hn : p.storedPatches = some n) (hn0 : 0 < n)
    (D : Mat K) (hD : chosenWeights p.toWMParams coords W = .ok (.dense D)) (rate : K)
    (hrate : p.leaveOutRate = some rate) (h0 : 0 ≤ rate)
    (Wu : Mat K) (hu : IsUsed D p.leaveOutShrink Wu)
    (W1 : Mat K) (hW1 : shrinkMetaDense p.metaShrink D = .ok W1)
    (hshape : X.r = y.length ∧ 0 < X.r ∧ 0 < X.c ∧ D.r = X.r ∧ D.c = X.r)
    (hmeta : ∀ i < X.r, ∃ k < X.r, k ≠ i ∧ 0 < W1.get i k)
    (hL0 : ∀ e f, L.fit e [] [] [] ≠ .ok f)
    (hL1 : ∀ (j : Nat) (T : List Nat), T ≠ [] → (∀ k ∈ T, k < X.r ∧ D.get j k ≠ 0) →
      ∃ f, L.fit j (T.map X.row) (T.map fun k => y.getD k 0) (T.map (D.get j)) = .ok f) :
    (∀ rng : Rng S, rng.Valid → (stackFit L M Mn rng p st t X y coords W).result = .ok ()) ↔
      ∀ j < X.r, ∃ k < X.r, k ≠ j ∧ D.get j k ≠ 0 ∧ Wu.get k j ≤ 0 := by
  obtain ⟨s1, s2⟩ := hu.shape
  constructor
  · intro hall j hj
    by_contra hno
    push Not at hno
    obtain ⟨Sm, hSm, hpick⟩ := pickRng_sample s t j D Wu rate h0 p.leaveOutShrink hu
    have hok := hall (pickRng s j) (pickRng_valid s j)
    obtain ⟨M', m1, -, m3, m4, m5⟩ := C30_sample_dense (pickRng s j) (pickRng_valid s j) t D Wu rate h0
      p.leaveOutShrink hu
    rw [hSm] at m1
    cases m1
    rw [C138_dense_fit L M Mn hM (pickRng s j) p st t X y coords W hest hsr hnb n hn hn0 D hD rate hrate Sm hSm
      W1 hW1] at hok
    obtain ⟨f, hf⟩ := hok.2.1 j hj
    have hT : ((List.range X.r).filter fun k =>
        decide (D.get j k ≠ 0 ∧ Sm.get k j = false ∧ ¬ (p.leaveLocalOut = true ∧ k = j))) = [] := by
      rw [List.filter_eq_nil_iff]
      intro k hk hd
      obtain ⟨d1, d2, -⟩ := of_decide_eq_true hd
      have hk' := List.mem_range.1 hk
      by_cases hkj : k = j
      · rw [hkj, (m5 j (by omega)).1] at d2
        exact absurd d2 (by simp)
      · rw [hpick k (by omega) (by omega) (hno k hk' hkj d1)] at d2
        exact absurd d2 (by simp)
    simp only at hf
    rw [hT] at hf
    exact hL0 j f hf
  · intro hall rng hv
    obtain ⟨Sm, m1, -, m3, m4, m5⟩ := C30_sample_dense rng hv t D Wu rate h0 p.leaveOutShrink hu
    rw [C138_dense_fit L M Mn hM rng p st t X y coords W hest hsr hnb n hn hn0 D hD rate hrate Sm m1 W1 hW1]
    refine ⟨hshape, fun j hj => ?_, hmeta⟩
    refine hL1 j _ ?_ ?_
    · obtain ⟨k, hk, hkj, hne, hle⟩ := hall j hj
      refine List.ne_nil_of_mem (a := k) ?_
      simp only [List.mem_filter, List.mem_range, decide_eq_true_eq]
      refine ⟨hk, hne, ?_, fun h => hkj h.2⟩
      cases hS : Sm.get k j with
      | false => rfl
      | true => exact absurd ((m5 k (by omega)).2.1 j hS (Ne.symm hkj)).2 (not_lt.2 hle)
    · intro k hk
      simp only [List.mem_filter, List.mem_range, decide_eq_true_eq] at hk
      exact ⟨hk.1, hk.2.1⟩

/-! ### Examples -/

theorem meanLearner_empty (e : Nat) (f : ℚ) : meanLearner.fit e [] [] [] ≠ .ok f := by
  intro h
  simp [meanLearner] at h

theorem meanLearner_positive (e : Nat) (rows : List (List ℚ)) (ys ws : List ℚ) (h0 : ws ≠ [])
    (h : ∀ w ∈ ws, 0 < w) : ∃ f, meanLearner.fit e rows ys ws = .ok f := by
  have : 0 < ws.sum := List.sum_pos ws h h0
  exact ⟨_, if_neg this.ne'⟩

/-- Two pairs of locations. -/
def pairsW : Mat ℚ := ⟨4, 4, fun i j => if i / 2 = j / 2 then 1 else 0⟩

/-- Four locations on a one-way circle: each has itself and the next one as neighbours. -/
def circleW : Mat ℚ := ⟨4, 4, fun i j => if i = j then 1 else if (i + 1) % 4 = j then 1 / 2 else 0⟩

/-- The hypotheses of `C173_rate_one` and `C173_pair` are met, and these fits do raise; at the rate of a quarter
the fit on the first weights succeeds with one generator and raises with another. -/
example : (∀ k < seX.r, k ≠ 0 → seW.get 0 k ≠ 0 → 0 < seW.get k 0) ∧
    (stackFit meanLearner meanLearner meanLearner rotRng { seP with leaveOutRate := some 1 }
      ({} : SState ℚ ℚ ℚ Unit) 0 seX seY none (some (.dense seW))).result = .error .valueError ∧
    0 < pairsW.get 1 0 ∧ (∀ k < seX.r, k ≠ 0 → k ≠ 1 → pairsW.get 0 k = 0 ∧ pairsW.get 1 k ≤ 0) ∧
    (stackFit meanLearner meanLearner meanLearner rotRng seP
      ({} : SState ℚ ℚ ℚ Unit) 0 seX seY none (some (.dense pairsW))).result = .error .valueError ∧
    (stackFit meanLearner meanLearner meanLearner rotRng seP
      ({} : SState ℚ ℚ ℚ Unit) 0 seX seY none (some (.dense seW))).result = .ok () ∧
    (stackFit meanLearner meanLearner meanLearner (pickRng 0 2) seP
      ({} : SState ℚ ℚ ℚ Unit) 0 seX seY none (some (.dense seW))).result = .error .valueError := by
  refine ⟨by decide +kernel, by decide +kernel, by decide +kernel, by decide +kernel, by decide +kernel,
    by decide +kernel, by decide +kernel⟩

/-- The hypotheses of `C173_luck` are met, on either side of its equivalence: on the circle every fit succeeds,
on the mutual neighbourhoods of the other example not every fit does. -/
theorem luck_example (D : Mat ℚ) (hr : D.r = 4) (hc : D.c = 4) (h0 : ∀ i j, 0 ≤ D.get i j)
    (hm : ∀ i < 4, ∃ k < 4, k ≠ i ∧ 0 < D.get i k) :
    (∀ rng : Rng Nat, rng.Valid → (stackFit meanLearner meanLearner meanLearner rng seP
      ({} : SState ℚ ℚ ℚ Unit) 0 seX seY none (some (.dense D))).result = .ok ()) ↔
      ∀ j < 4, ∃ k < 4, k ≠ j ∧ D.get j k ≠ 0 ∧ D.get k j ≤ 0 := by
  refine C173_luck meanLearner meanLearner meanLearner ?_ seP {} 0 0 seX seY none (some (.dense D)) rfl rfl rfl
    2 rfl (by decide) D rfl (1 / 4) rfl (by norm_num) D rfl D rfl
    ⟨rfl, by decide, by decide, hr, hc⟩ hm meanLearner_empty fun j T hT hk => ?_
  · intro rows ys ws n h1 _ _ _ h5 h6
    refine meanLearner_positive _ _ _ _ ?_ h6
    rintro rfl
    exact h1 (List.eq_nil_of_length_eq_zero h5.symm)
  · refine meanLearner_positive _ _ _ _ (by simpa using hT) fun w hw => ?_
    obtain ⟨k, hkT, rfl⟩ := List.mem_map.1 hw
    exact lt_of_le_of_ne (h0 _ _) (Ne.symm (hk k hkT).2)

example : (∀ rng : Rng Nat, rng.Valid → (stackFit meanLearner meanLearner meanLearner rng seP
      ({} : SState ℚ ℚ ℚ Unit) 0 seX seY none (some (.dense circleW))).result = .ok ()) ∧
    ¬ (∀ rng : Rng Nat, rng.Valid → (stackFit meanLearner meanLearner meanLearner rng seP
      ({} : SState ℚ ℚ ℚ Unit) 0 seX seY none (some (.dense seW))).result = .ok ()) := by
  rw [luck_example circleW rfl rfl (fun i j => by unfold circleW; dsimp only; split_ifs <;> norm_num)
      (by decide +kernel),
    luck_example seW rfl rfl (fun i j => by unfold seW; dsimp only; split_ifs <;> positivity)
      (by decide +kernel)]
  decide +kernel

/-- The hypotheses of `C173_total` are met: of the twelve rows four are taken away. -/
example : (∀ i < seX.r, ∀ j < seX.r, i ≠ j → (seW.get i j ≠ 0 ↔ 0 < seW.get j i)) ∧
    ((List.range 4).map fun k => (positiveOthers seW k).length).sum = 12 ∧
    ((List.range 4).map fun k => min (positiveOthers seW k).length
      (max 1 ⌈((positiveOthers seW k).length : ℚ) * (1 / 4)⌉₊)).sum = 4 := by
  decide +kernel

theorem sqDist_comm (a b : List ℚ) : sqDist a b = sqDist b a := by
  unfold sqDist
  rw [List.zipWith_comm]
  congr 2
  funext x y
  ring

theorem exLib_symm (m : Option String) (a b : List ℚ) : metricFun exLib m a b = metricFun exLib m b a := by
  unfold metricFun
  split
  · exact sqDist_comm a b
  · simp only [exLib]
    split <;> simp [sqDist_comm a b]

/-- The hypotheses of `C173_fixed_bandwidth` are met, and the fit raises; at the rate of a quarter it does not. -/
example : exLib.Nonneg ∧ (∀ m a b, metricFun exLib m a b = metricFun exLib m b a) ∧ ratEnv.Ok ∧
    ({ kernel := .scalar "bisquare", bandwidth := .scalar (some 500) } : WParams ℚ).Fixed 1 ∧
    (∀ t ∈ tsPlaces, t.r = exX5.r) ∧
    [1, 1 / 4].map (fun r => (stackFit meanLearner meanLearner meanLearner rotRng
      { leaveOutRate := some r, nPatches := some 2, weights := (nbP 500 "bisquare").weights }
      ({} : SState ℚ ℚ ℚ (List (Mat ℚ))) 0 exX5 exY5 (some tsPlaces) none).result) =
      [.error .valueError, .ok ()] := by
  refine ⟨exLib_nonneg, exLib_symm, ratEnv_pos.toOk, ?_, ?_, ?_⟩
  · refine ⟨fun d hd => ⟨500, ?_⟩, fun b hb => ?_⟩
    · interval_cases d
      rfl
    · simp only [Param.expand, List.replicate, List.mem_singleton, Option.some.injEq] at hb
      rw [hb]
      norm_num
  · decide +kernel
  · decide +kernel

end Geo
