import Verif.Props.Refit
import Verif.Props.RowOrder
/-
C108: how far an observation can reach. With fixed bandwidths and kernels of compact support, a local
model depends on nothing beyond the bandwidth, and a prediction by weight on nothing beyond two
bandwidths: whatever observations are added, removed, moved or changed there.
-/
set_option linter.unusedSectionVars false
namespace Geo
variable {K : Type} [Field K] [LinearOrder K] [IsStrictOrderedRing K] [FloorRing K]
variable {F C S : Type}

/-- The name of the kernel of dimension `d` of `n`. -/
def WParams.kernelOf (p : WParams K) (n d : Nat) : String := (p.kernel.expand n).getD d ""

/-- The fixed bandwidth of dimension `d` of `n`. -/
def WParams.bandwidthOf (p : WParams K) (n d : Nat) : K := ((p.bandwidth.expand n).getD d none).getD 0

/-- The unnormalised weight of a pair of points at the distances `δ d`. -/
def WParams.product (env : Env K) (p : WParams K) (n : Nat) (δ : Nat → K) : K :=
  ((List.range n).map fun d => kval env (p.kernelOf n d) (δ d) (p.bandwidthOf n d)).prod

/-- Every one of `n` dimensions has a fixed bandwidth, and none is negative. -/
def WParams.Fixed (p : WParams K) (n : Nat) : Prop :=
  (∀ d < n, ∃ b, (p.bandwidth.expand n)[d]? = some (some b)) ∧
  ∀ b, some b ∈ p.bandwidth.expand n → 0 ≤ b

/-- The weights of all dimensions, with fixed bandwidths. -/
theorem prodK_fixed (env : Env K) {Ds : List (Mat K)} {p : WParams K} {Ws : List (Mat (Num K))}
    (h : dimWeights env false Ds p = .ok Ws) (hfix : p.Fixed Ds.length) {r c : Nat}
    (hsh : AllShape Ds r c) (hin : NonnegInput Ds p) {i j : Nat} (hi : i < r) (hj : j < c) :
    prodK Ws i j = p.product env Ds.length fun d => (Ds.getD d ⟨0, 0, fun _ _ => 0⟩).get i j := by
  unfold prodK WParams.product
  congr 1
  have hlen := dimWeights_length h
  apply List.ext_getElem
  · simp [hlen]
  intro d h1 h2
  have hd : d < Ds.length := by simpa using h2
  obtain ⟨D, name, b, n, S, hD, hname, hb, -, -, hw⟩ := dimWeight_unfold (dimWeights_get h hd)
  obtain ⟨b', hb'⟩ := hfix.1 d hd
  have hb0 := hfix.2 b' (List.mem_of_getElem? hb')
  rw [hb'] at hb
  cases hb
  have hDm : D ∈ Ds := List.mem_of_getElem? hD
  obtain ⟨hr, hc⟩ := hsh D hDm
  unfold weightByDistance at hw
  cases n with
  | some n => cases hw
  | none =>
  simp only [kernelFunction] at hw
  cases hk : kernelElem env false name with
  | error e => rw [hk] at hw; cases hw
  | ok w =>
  rw [hk] at hw
  have hw := Except.ok.inj hw
  have hn : name ∈ kernelTypeEnum := by
    by_contra hn
    simp only [mem_kernelTypeEnum, not_or] at hn
    obtain ⟨h1, h2, h3, h4, h5, h6, h7⟩ := hn
    simp [kernelElem, h1, h2, h3, h4, h5, h6, h7] at hk
  have hv := kernelWeight_eq env false hn (hin.dist D hDm i (hr ▸ hi) j (hc ▸ hj)) hb0
  simp only [kernelWeight, hk, Except.ok.injEq] at hv
  have e1 : p.kernelOf Ds.length d = name := by
    simp [WParams.kernelOf, List.getD_eq_getElem?_getD, hname]
  have e2 : p.bandwidthOf Ds.length d = b' := by
    simp [WParams.bandwidthOf, List.getD_eq_getElem?_getD, hb']
  have e3 : Ds.getD d ⟨0, 0, fun _ _ => 0⟩ = D := by
    simp [List.getD_eq_getElem?_getD, hD]
  simp only [List.getElem_map, List.getElem_range, e1, e2, e3, ← hw, hv]
  rfl

/-- The distance of two points in dimension `d`. -/
def pointDist (lib : Lib K) (ms : List (Option String)) (src tgt : List (Mat K)) (d i j : Nat) : K :=
  metricFun lib (ms.getD d none) ((src.getD d ⟨0, 0, fun _ _ => 0⟩).row i)
    ((tgt.getD d ⟨0, 0, fun _ _ => 0⟩).row j)

theorem dims_get {src tgt : List (Mat K)} {ms : List (Option String)} {d : Nat}
    (h1 : d < src.length) (h2 : src.length = tgt.length) (h3 : src.length ≤ ms.length) :
    (dims src tgt ms)[d]? = some (src.getD d ⟨0, 0, fun _ _ => 0⟩, tgt.getD d ⟨0, 0, fun _ _ => 0⟩,
      ms.getD d none) := by
  induction src generalizing tgt ms d with
  | nil => simp at h1
  | cons s src ih =>
    cases tgt with
    | nil => simp at h2
    | cons t tgt =>
      cases ms with
      | nil => simp at h3
      | cons m ms =>
        cases d with
        | zero => rfl
        | succ d =>
          simp only [dims, List.getElem?_cons_succ, List.getD_cons_succ]
          exact ih (by simpa using h1) (by simpa using h2) (by simpa using h3)

/-- Weights from coordinates with fixed bandwidths. -/
theorem pointSource_fixed (lib : Lib K) (hl : lib.Nonneg) (env : Env K) (he : env.Ok) (fs : Disk K)
    (ms : Param (Option String)) (p : WParams K) (src tgt : List (Mat K))
    (hm : src.length ≤ (ms.expand src.length).length) (hr : ∀ s ∈ src, 0 < s.r)
    (hfix : p.Fixed src.length) (M : Mat K) (h : pointSource lib env fs ms p src tgt = .ok M) :
    ∀ i < M.r, ∀ j < M.c, M.get i j =
      p.product env src.length (fun d => pointDist lib (ms.expand src.length) src tgt d i j) /
      (if ∑ k ∈ Finset.range M.c, p.product env src.length
          (fun d => pointDist lib (ms.expand src.length) src tgt d i k) = 0 then 1
        else ∑ k ∈ Finset.range M.c, p.product env src.length
          (fun d => pointDist lib (ms.expand src.length) src tgt d i k)) := by
  obtain ⟨⟨hlen, -⟩, W, hW, hfin, rfl⟩ := (pointSource_iff lib env fs ms p src tgt hm hr M).1 h
  intro i hi j hj
  have hdl := dims_length _ _ _ hlen hm
  have hel : (eagerDists lib src tgt (ms.expand src.length)).length = src.length := by
    simp [eagerDists, hdl]
  have hin := eagerDists_nonneg hl src tgt (ms.expand src.length) p hdl hfix.2
  obtain ⟨Ws, hWs, hsh, hu, hg⟩ := weightMatrix_master env he hW hin
  have hp : ∀ j < W.c, prodK Ws i j = p.product env src.length
      (fun d => pointDist lib (ms.expand src.length) src tgt d i j) := by
    intro j hj
    rw [prodK_fixed env hWs (by rw [hel]; exact hfix) hsh hin hi hj, hel]
    unfold WParams.product
    congr 1
    apply List.map_congr_left
    intro d hd
    have hd : d < src.length := List.mem_range.1 hd
    have e : (eagerDists lib src tgt (ms.expand src.length)).getD d ⟨0, 0, fun _ _ => 0⟩ =
        cdistMat (metricFun lib ((ms.expand src.length).getD d none))
          (src.getD d ⟨0, 0, fun _ _ => 0⟩) (tgt.getD d ⟨0, 0, fun _ _ => 0⟩) := by
      rw [List.getD_eq_getElem?_getD, eagerDists, List.getElem?_map, dims_get hd hlen hm]
      rfl
    simp only [e]
    rfl
  have hs : ∑ k ∈ Finset.range W.c, prodK Ws i k = ∑ k ∈ Finset.range W.c,
      p.product env src.length (fun d => pointDist lib (ms.expand src.length) src tgt d i k) :=
    Finset.sum_congr rfl fun k hk => hp k (Finset.mem_range.1 hk)
  show (W.get i j).toK = _
  rw [hg i hi j hj]
  unfold normK
  rw [hp j hj, hs]
  rfl

/-! ### Out of reach -/

/-- Point `j` of `tgt` is farther from point `i` of `src` than the bandwidth of some dimension. -/
def OutOfReach (lib : Lib K) (ms : Param (Option String)) (p : WParams K) (src tgt : List (Mat K))
    (i j : Nat) : Prop :=
  ∃ (d : Nat) (s t : Mat K) (m : Option String) (b : K), src[d]? = some s ∧ tgt[d]? = some t ∧ (ms.expand src.length)[d]? = some m ∧
    (p.bandwidth.expand src.length)[d]? = some (some b) ∧ b < metricFun lib m (s.row i) (t.row j)

/-- Every one of `n` dimensions has a kernel of compact support. -/
def WParams.Compact (p : WParams K) (n : Nat) : Prop :=
  ∀ d < n, ∃ k ∈ ["linear", "boxcar", "bisquare", "tricube"], (p.kernel.expand n)[d]? = some k

/-- The points `j` and `j'` have the same coordinates. -/
def SamePlace (c c' : List (Mat K)) (j j' : Nat) : Prop :=
  ∀ (d : Nat) (t t' : Mat K), c[d]? = some t → c'[d]? = some t' → t.row j = t'.row j'

theorem product_far {lib : Lib K} {ms : Param (Option String)} {p : WParams K}
    {src tgt : List (Mat K)} {i j : Nat} (env : Env K) (hc : p.Compact src.length)
    (h : OutOfReach lib ms p src tgt i j) :
    p.product env src.length (fun d => pointDist lib (ms.expand src.length) src tgt d i j) = 0 := by
  obtain ⟨d, s, t, m, b, hs, ht, hm, hb, hlt⟩ := h
  have hd : d < src.length := (List.getElem?_eq_some_iff.1 hs).1
  obtain ⟨k, hk, hk'⟩ := hc d hd
  apply List.prod_eq_zero
  refine List.mem_map.2 ⟨d, List.mem_range.2 hd, ?_⟩
  have e1 : p.kernelOf src.length d = k := by
    simp [WParams.kernelOf, List.getD_eq_getElem?_getD, hk']
  have e2 : p.bandwidthOf src.length d = b := by
    simp [WParams.bandwidthOf, List.getD_eq_getElem?_getD, hb]
  have e3 : pointDist lib (ms.expand src.length) src tgt d i j = metricFun lib m (s.row i) (t.row j) := by
    simp [pointDist, List.getD_eq_getElem?_getD, hs, ht, hm]
  simp only [e1, e2, e3]
  unfold kval
  rcases (by simpa using hk : k = "linear" ∨ k = "boxcar" ∨ k = "bisquare" ∨ k = "tricube") with
    rfl | rfl | rfl | rfl <;> simp [hlt]

theorem pointDist_same {lib : Lib K} {ms : List (Option String)} {src src' tgt tgt' : List (Mat K)}
    (hs : src'.length = src.length) (ht : tgt'.length = tgt.length) {d i i' j j' : Nat}
    (hd : d < src.length) (hd' : d < tgt.length)
    (h1 : SamePlace src src' i i') (h2 : SamePlace tgt tgt' j j') :
    pointDist lib ms src tgt d i j = pointDist lib ms src' tgt' d i' j' := by
  have a1 := List.getElem?_eq_getElem hd
  have a2 := List.getElem?_eq_getElem (hs ▸ hd : d < src'.length)
  have a3 := List.getElem?_eq_getElem hd'
  have a4 := List.getElem?_eq_getElem (ht ▸ hd' : d < tgt'.length)
  have b1 := h1 d _ _ a1 a2
  have b2 := h2 d _ _ a3 a4
  simp only [pointDist, List.getD_eq_getElem?_getD, a1, a2, a3, a4, Option.getD_some, b1, b2]

/-- A sum over `n` terms and one over `n'` terms that agree up to terms that vanish. -/
theorem sum_range_agree {n n' : Nat} {g g' : Nat → K}
    (h : ∀ j, (j < n ∧ j < n' ∧ g j = g' j) ∨ ((j < n → g j = 0) ∧ (j < n' → g' j = 0))) :
    ∑ j ∈ Finset.range n, g j = ∑ j ∈ Finset.range n', g' j := by
  have e : ∀ (m N : Nat) (f : Nat → K), m ≤ N →
      ∑ j ∈ Finset.range m, f j = ∑ j ∈ Finset.range N, if j < m then f j else 0 := by
    intro m N f hmN
    rw [← Finset.sum_filter]
    congr 1
    ext j
    simp only [Finset.mem_range, Finset.mem_filter]
    omega
  rw [e n (max n n') g (le_max_left _ _), e n' (max n n') g' (le_max_right _ _)]
  apply Finset.sum_congr rfl
  intro j _
  rcases h j with ⟨h1, h2, h3⟩ | ⟨h1, h2⟩
  · rw [if_pos h1, if_pos h2, h3]
  · split <;> split <;> simp_all

/-- C108: the weights of a point. Let two sets of points agree except for points that are out of
reach of the point `i` (which may also be there in one set and missing in the other). Then `i` gets
the same weights with respect to both, and the points out of reach get none. -/
theorem C108_weights (lib : Lib K) (hl : lib.Nonneg) (env : Env K) (he : env.Ok) (fs fs' : Disk K)
    (ms : Param (Option String)) (p : WParams K) (src src' tgt tgt' : List (Mat K)) (n n' : Nat)
    (hm : src.length ≤ (ms.expand src.length).length)
    (hr : ∀ s ∈ src, 0 < s.r) (hr' : ∀ s ∈ src', 0 < s.r) (hs : src'.length = src.length)
    (hn : ∀ t ∈ tgt, t.r = n) (hn' : ∀ t ∈ tgt', t.r = n')
    (hfix : p.Fixed src.length) (hc : p.Compact src.length) (M M' : Mat K)
    (h : pointSource lib env fs ms p src tgt = .ok M)
    (h' : pointSource lib env fs' ms p src' tgt' = .ok M') (i i' : Nat) (hi : i < M.r) (hi' : i' < M'.r)
    (hii : SamePlace src src' i i')
    (hagree : ∀ j, (j < n ∧ j < n' ∧ SamePlace tgt tgt' j j) ∨
      ((j < n → OutOfReach lib ms p src tgt i j) ∧ (j < n' → OutOfReach lib ms p src' tgt' i' j))) :
    M.c = n ∧ M'.c = n' ∧
    ∀ j, (j < n → OutOfReach lib ms p src tgt i j → M.get i j = 0) ∧
      ((j < n ∧ j < n' ∧ M.get i j = M'.get i' j) ∨
        ((j < n → M.get i j = 0) ∧ (j < n' → M'.get i' j = 0))) := by
  have hm' : src'.length ≤ (ms.expand src'.length).length := by rw [hs]; exact hm
  have hMc := pointSource_c lib env fs ms p src tgt hm hr M h hn
  have hMc' := pointSource_c lib env fs' ms p src' tgt' hm' hr' M' h' hn'
  have g := pointSource_fixed lib hl env he fs ms p src tgt hm hr hfix M h i hi
  have g' := pointSource_fixed lib hl env he fs' ms p src' tgt' hm' hr' (by rw [hs]; exact hfix) M' h'
    i' hi'
  obtain ⟨⟨hlen, -⟩, -⟩ := (pointSource_iff lib env fs ms p src tgt hm hr M).1 h
  obtain ⟨⟨hlen', -⟩, -⟩ := (pointSource_iff lib env fs' ms p src' tgt' hm' hr' M').1 h'
  rw [hMc] at g
  rw [hMc'] at g'
  have hg : ∀ j, (j < n ∧ j < n' ∧
      p.product env src.length (fun d => pointDist lib (ms.expand src.length) src tgt d i j) =
      p.product env src'.length (fun d => pointDist lib (ms.expand src'.length) src' tgt' d i' j)) ∨
      ((j < n → p.product env src.length
        (fun d => pointDist lib (ms.expand src.length) src tgt d i j) = 0) ∧
      (j < n' → p.product env src'.length
        (fun d => pointDist lib (ms.expand src'.length) src' tgt' d i' j) = 0)) := by
    intro j
    rcases hagree j with ⟨h1, h2, h3⟩ | ⟨h1, h2⟩
    · left
      refine ⟨h1, h2, ?_⟩
      rw [hs]
      unfold WParams.product
      congr 1
      apply List.map_congr_left
      intro d hd
      have hd := List.mem_range.1 hd
      simp only
      rw [pointDist_same hs (by omega) hd (by omega) hii h3]
    · right
      exact ⟨fun hj => product_far env hc (h1 hj),
        fun hj => product_far env (by rw [hs]; exact hc) (h2 hj)⟩
  have hsum := sum_range_agree hg
  refine ⟨hMc, hMc', fun j => ⟨fun hj hfar => ?_, ?_⟩⟩
  · rw [g j hj, product_far env hc hfar, zero_div]
  · rcases hg j with ⟨h1, h2, h3⟩ | ⟨h1, h2⟩
    · left
      exact ⟨h1, h2, by rw [g j h1, g' j h2, h3, hsum]⟩
    · right
      exact ⟨fun hj => by rw [g j hj, h1 hj, zero_div], fun hj => by rw [g' j hj, h2 hj, zero_div]⟩

theorem filter_range_agree {n n' : Nat} {P P' : Nat → Bool}
    (h : ∀ j, (j < n ∧ P j = true) ↔ (j < n' ∧ P' j = true)) :
    (List.range n).filter P = (List.range n').filter P' := by
  have e : ∀ (m N : Nat) (Q : Nat → Bool), m ≤ N →
      (List.range m).filter Q = (List.range N).filter fun j => decide (j < m) && Q j := by
    intro m N Q hmN
    obtain ⟨k, rfl⟩ := Nat.exists_eq_add_of_le hmN
    rw [List.range_add, List.filter_append]
    have h1 : (List.range m).filter (fun j => decide (j < m) && Q j) = (List.range m).filter Q :=
      List.filter_congr fun j hj => by simp [List.mem_range.1 hj]
    have h2 : ((List.range k).map fun x => m + x).filter (fun j => decide (j < m) && Q j) = [] := by
      rw [List.filter_eq_nil_iff]
      intro j hj
      obtain ⟨x, -, rfl⟩ := List.mem_map.1 hj
      simp
    rw [h1, h2, List.append_nil]
  rw [e n (max n n') P (le_max_left _ _), e n' (max n n') P' (le_max_right _ _)]
  apply List.filter_congr
  intro j _
  rw [Bool.eq_iff_iff]
  simpa using h j

/-- The task of a location, with rows of weights that agree up to zeros. -/
theorem denseTask_agree {L : Learner K F} {X X' : Mat K} {y y' : Nat → K} {Xp Xp' : Mat K}
    {W W' : Mat K} {i : Nat} {v v' : K × F} (h : denseTask L X y Xp W i i = .ok v)
    (h' : denseTask L X' y' Xp' W' i i = .ok v')
    (hagree : ∀ j, (j < X.r ∧ j < X'.r ∧ W.get i j = W'.get i j ∧ X.row j = X'.row j ∧ y j = y' j) ∨
      ((j < X.r → W.get i j = 0) ∧ (j < X'.r → W'.get i j = 0))) :
    v.2 = v'.2 ∧ (Xp.row i = Xp'.row i → v = v') := by
  unfold denseTask at h h'
  split at h
  · cases h
  rename_i hc
  split at h'
  · cases h'
  rename_i hc'
  have hc : W.c = X.r := not_not.1 hc
  have hc' : W'.c = X'.r := not_not.1 hc'
  have hidx : nonzeroIdx W.c (W.get i) = nonzeroIdx W'.c (W'.get i) := by
    apply filter_range_agree
    intro j
    rw [hc, hc']
    simp only [decide_eq_true_eq, ne_eq]
    rcases hagree j with ⟨h1, h2, h3, -⟩ | ⟨h1, h2⟩
    · simp [h1, h2, h3]
    · constructor
      · rintro ⟨a, b⟩; exact absurd (h1 a) b
      · rintro ⟨a, b⟩; exact absurd (h2 a) b
  have hag : ∀ j ∈ nonzeroIdx W'.c (W'.get i), W.get i j = W'.get i j ∧ X.row j = X'.row j ∧
      y j = y' j := by
    intro j hj
    obtain ⟨hj1, hj2⟩ := mem_nonzeroIdx.1 hj
    rcases hagree j with ⟨-, -, h3⟩ | ⟨-, h2⟩
    · exact h3
    · exact absurd (h2 (hc' ▸ hj1)) hj2
  simp only [hidx] at h h'
  rw [show (nonzeroIdx W'.c (W'.get i)).map (W.get i) = (nonzeroIdx W'.c (W'.get i)).map (W'.get i) from
    List.map_congr_left fun j hj => (hag j hj).1] at h
  have hf := fitLocal_congr (L := L) (X := X) (X' := X') (y := y) (y' := y') (e := i)
    (idx := nonzeroIdx W'.c (W'.get i)) (ws := (nonzeroIdx W'.c (W'.get i)).map (W'.get i))
    (x := Xp.row i) (x' := Xp'.row i) fun j hj => (hag j hj).2
  constructor
  · have := hf.1
    rw [h, h'] at this
    exact Except.ok.inj this
  · intro hx
    have := hf.2 hx
    rw [h, h'] at this
    exact Except.ok.inj this

theorem leaveOut_dense (p : WMParams K C) (D : Mat K) :
    ∃ E, leaveOut p (.dense D) = .dense E ∧ E.r = D.r ∧ E.c = D.c ∧ ∀ i j, E.get i j =
      if p.leaveLocalOut = true ∧ i = j then 0 else D.get i j := by
  unfold leaveOut
  cases p.leaveLocalOut with
  | false => exact ⟨D, by simp, rfl, rfl, by simp⟩
  | true =>
    exact ⟨⟨D.r, D.c, fun i j => if i = j then 0 else D.get i j⟩, by simp [WMat.clearDiag], rfl, rfl,
      by simp⟩

/-- The two data sets agree at `j`: predictors, target and coordinates. -/
def SameObservation (X X' : Mat K) (y y' : List K) (c c' : List (Mat K)) (j : Nat) : Prop :=
  j < X.r ∧ j < X'.r ∧ X.row j = X'.row j ∧ y[j]? = y'[j]? ∧ SamePlace c c' j j

/-- C108: the local model of location `i` and its prediction depend only on the observations within
reach of `i`. Fit the same model to two data sets that contain the same observation `i` and otherwise
agree except for observations out of reach of `i`, which may have been changed, moved, added or
removed. Then the `i`-th local model and the `i`-th prediction are the same. -/
theorem C108_local_models (L : Learner K F) (rng : Rng S) (lib : Lib K) (hl : lib.Nonneg)
    (env : Env K) (he : env.Ok) (fs : Disk K) (ms : Param (Option String)) (wp : WParams K)
    (p : WMParams K (List (Mat K))) (hp : p.weights = pointSource lib env fs ms wp)
    (hrate : p.sampleRate = none) (st st' : WMState K F (List (Mat K))) (s s' : S) (X X' : Mat K)
    (y y' : List K) (c c' : List (Mat K)) (hcl : c'.length = c.length)
    (hm : c.length ≤ (ms.expand c.length).length) (hcr : ∀ t ∈ c, t.r = X.r)
    (hcr' : ∀ t ∈ c', t.r = X'.r) (hfix : wp.Fixed c.length) (hk : wp.Compact c.length)
    (hok : (wmFit L rng p st s X y (some c) none).result = .ok ())
    (hok' : (wmFit L rng p st' s' X' y' (some c') none).result = .ok ()) (i : Nat)
    (hi : SameObservation X X' y y' c c' i)
    (hagree : ∀ j, SameObservation X X' y y' c c' j ∨
      ((j < X.r → OutOfReach lib ms wp c c i j) ∧ (j < X'.r → OutOfReach lib ms wp c' c' i j))) :
    (∃ e, (wmFit L rng p st s X y (some c) none).state.estimators.bind (·[i]?) = some e ∧
      (wmFit L rng p st' s' X' y' (some c') none).state.estimators.bind (·[i]?) = some e) ∧
    ∃ v, (wmFit L rng p st s X y (some c) none).state.localPredict.bind (·[i]?) = some v ∧
      (wmFit L rng p st' s' X' y' (some c') none).state.localPredict.bind (·[i]?) = some v := by
  obtain ⟨W0, idx, s1, res, sc, hck, hW0, hsl, hf, hlen, -, -, hout⟩ := wmFit_ok hok
  obtain ⟨W0', idx', s1', res', sc', hck', hW0', hsl', hf', hlen', -, -, hout'⟩ := wmFit_ok hok'
  have hal := aligned_of hW0 hsl (.inr (.inl hrate))
  have hal' := aligned_of hW0' hsl' (.inr (.inl hrate))
  rw [hrate] at hsl hsl'
  obtain rfl := sampleLocations_all hsl
  obtain rfl := sampleLocations_all hsl'
  have hmE := fitAll_ok hf hal hlen
  have hmE' := fitAll_ok hf' hal' hlen'
  rw [List.length_range] at hlen hlen'
  obtain ⟨D, hD, rfl⟩ : ∃ D, p.weights c c = .ok D ∧ W0 = .dense D := by
    simp only [chosenWeights] at hW0
    cases hw : p.weights c c with
    | error e => rw [hw] at hW0; cases hW0
    | ok D => rw [hw] at hW0; cases hW0; exact ⟨D, rfl, rfl⟩
  obtain ⟨D', hD', rfl⟩ : ∃ D, p.weights c' c' = .ok D ∧ W0' = .dense D := by
    simp only [chosenWeights] at hW0'
    cases hw : p.weights c' c' with
    | error e => rw [hw] at hW0'; cases hW0'
    | ok D => rw [hw] at hW0'; cases hW0'; exact ⟨D, rfl, rfl⟩
  rw [hp] at hD hD'
  have hX0 : 0 < X.r := (of_decide_eq_true hck).2.1
  have hX0' : 0 < X'.r := (of_decide_eq_true hck').2.1
  have hpos : ∀ t ∈ c, 0 < t.r := fun t ht => by rw [hcr t ht]; exact hX0
  have hpos' : ∀ t ∈ c', 0 < t.r := fun t ht => by rw [hcr' t ht]; exact hX0'
  have hDr := pointSource_r lib env fs ms wp c c hm hpos D hD hcr
  have hDr' := pointSource_r lib env fs ms wp c' c' (by rw [hcl]; exact hm) hpos' D' hD' hcr'
  obtain ⟨hi1, hi2, hix, -, hip⟩ := hi
  obtain ⟨-, -, hw⟩ := C108_weights lib hl env he fs fs ms wp c c' c c' X.r X'.r hm hpos hpos' hcl hcr
    hcr' hfix hk D D' hD hD' i i (by omega) (by omega) hip (by
      intro j
      rcases hagree j with ⟨h1, h2, -, -, h5⟩ | h
      · exact .inl ⟨h1, h2, h5⟩
      · exact .inr h)
  obtain ⟨E, hE, -, -, hEg⟩ := leaveOut_dense p D
  obtain ⟨E', hE', -, -, hEg'⟩ := leaveOut_dense p D'
  rw [hE] at hmE
  rw [hE'] at hmE'
  have h1 := mapE_get hmE (i := i) (by simpa using hi1)
  have h2 := mapE_get hmE' (i := i) (by simpa using hi2)
  simp only [List.getElem_range] at h1 h2
  rw [locTask_eq (locTask_ok h1)] at h1
  rw [locTask_eq (locTask_ok h2)] at h2
  have hfin := denseTask_agree h1 h2 (by
    intro j
    rw [hEg i j, hEg' i j]
    rcases hagree j with ⟨a1, a2, a3, a4, -⟩ | ⟨b1, b2⟩
    · rcases (hw j).2 with ⟨-, -, h5⟩ | ⟨h5, h6⟩
      · left
        exact ⟨a1, a2, by rw [h5], a3, by simp only [yfun, List.getD_eq_getElem?_getD, a4]⟩
      · right
        exact ⟨fun hj => by rw [h5 hj, ite_self], fun hj => by rw [h6 hj, ite_self]⟩
    · right
      rcases (hw j).2 with ⟨h3, h4, h5⟩ | ⟨h5, h6⟩
      · have := (hw j).1 h3 (b1 h3)
        exact ⟨fun hj => by rw [this, ite_self], fun hj => by rw [← h5, this, ite_self]⟩
      · exact ⟨fun hj => by rw [h5 hj, ite_self], fun hj => by rw [h6 hj, ite_self]⟩)
  have hv := hfin.2 hix
  rw [hout, hout']
  have hr1 : i < res.length := by omega
  have hr2 : i < res'.length := by omega
  refine ⟨⟨if p.cacheEstimator then some res[i].2 else none, ?_, ?_⟩, ⟨res[i].1, ?_, ?_⟩⟩
  · simp [hr1]
  · simp [hr2, hv]
  · simp [hr1]
  · simp [hr2, hv]

/-- The estimators stored by a fit at all locations. -/
theorem fit_estimators {L : Learner K F} {rng : Rng S} {p : WMParams K C} {st : WMState K F C} {s : S}
    {X : Mat K} {y : List K} {coords : Option C} {W : Option (WMat K)} (hce : p.cacheEstimator = true)
    (hrate : p.sampleRate = none) (hok : (wmFit L rng p st s X y coords W).result = .ok ()) :
    ∃ ests : List F, ests.length = X.r ∧
      (wmFit L rng p st s X y coords W).state.estimators = some (ests.map some) := by
  obtain ⟨W0, idx, s1, res, sc, -, -, hsl, -, hlen, -, -, hout⟩ := wmFit_ok hok
  rw [hrate] at hsl
  obtain rfl := sampleLocations_all hsl
  refine ⟨res.map Prod.snd, by simpa using hlen, ?_⟩
  rw [hout]
  simp [hce]

/-- C108: a prediction by weight depends only on the observations within two bandwidths: let the two
data sets agree on every observation `j` within reach of the new point, and on everything within
reach of such a `j`. Then the two fitted models predict the same value at the new point. -/
theorem C108_predictions (L : Learner K F) (rng : Rng S) (lib : Lib K) (hl : lib.Nonneg)
    (env : Env K) (he : env.Ok) (fs : Disk K) (ms : Param (Option String)) (wp : WParams K)
    (p : WMParams K (List (Mat K))) (hp : p.weights = pointSource lib env fs ms wp)
    (hrate : p.sampleRate = none) (hd : p.cacheData = true) (hce : p.cacheEstimator = true)
    (st st' : WMState K F (List (Mat K))) (s s' : S) (X X' : Mat K)
    (y y' : List K) (c c' : List (Mat K)) (hcl : c'.length = c.length)
    (hm : c.length ≤ (ms.expand c.length).length) (hcr : ∀ t ∈ c, t.r = X.r)
    (hcr' : ∀ t ∈ c', t.r = X'.r) (hfix : wp.Fixed c.length) (hk : wp.Compact c.length)
    (hok : (wmFit L rng p st s X y (some c) none).result = .ok ())
    (hok' : (wmFit L rng p st' s' X' y' (some c') none).result = .ok ())
    (Xq : Mat K) (q : List (Mat K)) (hql : q.length = c.length) (hqr : ∀ t ∈ q, t.r = Xq.r)
    (ps ps' : List K)
    (h : predictByWeight L p (wmFit L rng p st s X y (some c) none).state Xq (some q) none = .ok ps)
    (h' : predictByWeight L p (wmFit L rng p st' s' X' y' (some c') none).state Xq (some q) none =
      .ok ps') (k : Nat) (hkr : k < Xq.r)
    (hagree : ∀ j, (SameObservation X X' y y' c c' j ∧
        ∀ l, SameObservation X X' y y' c c' l ∨
          ((l < X.r → OutOfReach lib ms wp c c j l) ∧ (l < X'.r → OutOfReach lib ms wp c' c' j l))) ∨
      ((j < X.r → OutOfReach lib ms wp q c k j) ∧ (j < X'.r → OutOfReach lib ms wp q c' k j))) :
    ∃ v, ps[k]? = some v ∧ ps'[k]? = some v := by
  obtain ⟨ests, hel, hest⟩ := fit_estimators hce hrate hok
  obtain ⟨ests', hel', hest'⟩ := fit_estimators hce hrate hok'
  obtain ⟨-, -, hco⟩ := fit_cached hd hok
  obtain ⟨-, -, hco'⟩ := fit_cached hd hok'
  obtain ⟨-, -, -, -, -, hck, -⟩ := wmFit_ok hok
  obtain ⟨-, -, -, -, -, hck', -⟩ := wmFit_ok hok'
  have hX0 : 0 < X.r := (of_decide_eq_true hck).2.1
  have hX0' : 0 < X'.r := (of_decide_eq_true hck').2.1
  have hqpos : ∀ t ∈ q, 0 < t.r := fun t ht => by rw [hqr t ht]; omega
  have hqm : q.length ≤ (ms.expand q.length).length := by rw [hql]; exact hm
  have hMex : ∀ (st : WMState K F (List (Mat K))) (c : List (Mat K)) (ps : List K),
      st.coords = some c → predictByWeight L p st Xq (some q) none = .ok ps →
      ∃ M, p.weights q c = .ok M := by
    intro st c ps hc h
    unfold predictByWeight at h
    rw [hd, hce] at h
    simp only [Bool.not_true, Bool.or_self, Bool.false_eq_true, if_false, guard, predictWeights, hc,
      bind, Except.bind] at h
    cases h1 : storedEstimators st with
    | error e => rw [h1] at h; cases h
    | ok es =>
    rw [h1] at h
    simp only at h
    cases h2 : unzipNonempty es with
    | error e => rw [h2] at h; cases h
    | ok es' =>
    rw [h2] at h
    simp only at h
    cases h3 : p.weights q c with
    | error e => rw [h3] at h; cases h
    | ok M => exact ⟨M, rfl⟩
  obtain ⟨M, hM⟩ := hMex _ c ps hco h
  obtain ⟨M', hM'⟩ := hMex _ c' ps' hco' h'
  have hMp := hM
  have hMp' := hM'
  rw [hp] at hMp hMp'
  have hMr := pointSource_r lib env fs ms wp q c hqm hqpos M hMp hqr
  have hMr' := pointSource_r lib env fs ms wp q c' hqm hqpos M' hMp' hqr
  have hMc := pointSource_c lib env fs ms wp q c hqm hqpos M hMp hcr
  have hMc' := pointSource_c lib env fs ms wp q c' hqm hqpos M' hMp' hcr'
  have hne : ests ≠ [] := by rintro rfl; simp at hel; omega
  have hne' : ests' ≠ [] := by rintro rfl; simp at hel'; omega
  rw [C43_weighted_sum L p _ Xq q c M ests hd hce hest hne hco hM hMr (by omega)] at h
  rw [C43_weighted_sum L p _ Xq q c' M' ests' hd hce hest' hne' hco' hM' hMr' (by omega)] at h'
  cases h
  cases h'
  have hsum : ∀ (M : Mat K) (es : List F), M.c = es.length →
      (List.zipWith (fun w f => w * L.predict f (Xq.row k)) (M.row k) es).sum =
      ∑ j ∈ Finset.range es.length, M.get k j * ((es[j]?.map fun f => L.predict f (Xq.row k)).getD 0) := by
    intro M es hc
    rw [← list_sum_range]
    congr 1
    apply List.ext_getElem
    · simp [hc]
    · intro j h1 h2
      have hj : j < es.length := by simpa [hc] using h1
      simp [Mat.row, hj]
  obtain ⟨-, -, hw⟩ := C108_weights lib hl env he fs fs ms wp q q c c' X.r X'.r hqm hqpos hqpos rfl hcr
    hcr' (by rw [hql]; exact hfix) (by rw [hql]; exact hk) M M' hMp hMp' k k (by omega) (by omega)
    (by intro d t t' h1 h2; rw [h1] at h2; cases h2; rfl) (by
      intro j
      rcases hagree j with ⟨⟨h1, h2, -, -, h5⟩, -⟩ | h
      · exact .inl ⟨h1, h2, h5⟩
      · exact .inr h)
  refine ⟨_, by rw [List.getElem?_map, List.getElem?_range hkr]; rfl, ?_⟩
  rw [List.getElem?_map, List.getElem?_range hkr]
  refine congrArg some ?_
  simp only
  rw [hsum M ests (by omega), hsum M' ests' (by omega), hel, hel']
  symm
  apply sum_range_agree
  intro j
  rcases hagree j with ⟨hj, hl2⟩ | ⟨b1, b2⟩
  · rcases (hw j).2 with ⟨h1, h2, h3⟩ | ⟨h1, h2⟩
    · left
      obtain ⟨⟨e, he1, he2⟩, -⟩ := C108_local_models L rng lib hl env he fs ms wp p hp hrate st st' s s'
        X X' y y' c c' hcl hm hcr hcr' hfix hk hok hok' j hj hl2
      rw [hest] at he1
      rw [hest'] at he2
      have e1 : j < ests.length := by omega
      have e2 : j < ests'.length := by omega
      simp [e1] at he1
      simp [e2] at he2
      refine ⟨h1, h2, ?_⟩
      rw [h3, List.getElem?_eq_getElem e1, List.getElem?_eq_getElem e2]
      rw [← he2] at he1
      rw [Option.some.inj he1]
    · right
      exact ⟨fun hj => by rw [h1 hj, zero_mul], fun hj => by rw [h2 hj, zero_mul]⟩
  · right
    rcases (hw j).2 with ⟨h1, h2, h3⟩ | ⟨h1, h2⟩
    · have := (hw j).1 h1 (b1 h1)
      exact ⟨fun _ => by rw [this, zero_mul], fun _ => by rw [← h3, this, zero_mul]⟩
    · exact ⟨fun hj => by rw [h1 hj, zero_mul], fun hj => by rw [h2 hj, zero_mul]⟩

/-! ### Example: five places on a line, the fifth changed and a sixth added -/

def exX6 : Mat ℚ := ⟨6, 1, fun i _ => if i = 4 then 100 else i * i⟩
def exY6 : List ℚ := [1, 5, 2, 7, 99, 4]
def exTrain6 : List (Mat ℚ) := [⟨6, 1, fun i _ => if i = 5 then 4 else i⟩]

theorem exWp_fixed : exWp.Fixed 1 ∧ exWp.Compact 1 := by
  refine ⟨⟨fun d hd => ⟨10, ?_⟩, ?_⟩, fun d hd => ⟨"bisquare", by simp, ?_⟩⟩
  · obtain rfl : d = 0 := by omega
    rfl
  · intro b hb
    simp only [exWp, Param.expand, List.replicate, List.mem_singleton, Option.some.injEq] at hb
    rw [hb]
    norm_num
  · obtain rfl : d = 0 := by omega
    rfl

/-- The first location reaches the first four only; both fits succeed, and the models of the later
locations do change. -/
example :
    (wmFit meanLearner countRng exPc {} 0 exX5 exY5 (some exTrain) none).result = .ok () ∧
    (wmFit meanLearner countRng exPc {} 0 exX6 exY6 (some exTrain6) none).result = .ok () ∧
    (∀ j, SameObservation exX5 exX6 exY5 exY6 exTrain exTrain6 j ∨
      ((j < exX5.r → OutOfReach exLib (.scalar (some "sqeuclidean")) exWp exTrain exTrain 0 j) ∧
       (j < exX6.r → OutOfReach exLib (.scalar (some "sqeuclidean")) exWp exTrain6 exTrain6 0 j))) ∧
    (wmFit meanLearner countRng exPc {} 0 exX5 exY5 (some exTrain) none).state.localPredict.bind (·[3]?) ≠
    (wmFit meanLearner countRng exPc {} 0 exX6 exY6 (some exTrain6) none).state.localPredict.bind
      (·[3]?) := by
  refine ⟨by decide +kernel, by decide +kernel, ?_, by decide +kernel⟩
  intro j
  by_cases hj : j < 4
  · left
    have hs : SamePlace exTrain exTrain6 j j := by
      intro d t t' h1 h2
      cases d with
      | zero =>
        cases h1
        cases h2
        have : j ≠ 5 := by omega
        simp [Mat.row, this]
      | succ d => cases h1
    refine ⟨show j < 5 by omega, show j < 6 by omega, ?_, ?_, hs⟩
    · have : j ≠ 4 := by omega
      simp [Mat.row, exX5, exX6, this]
    · rcases (by omega : j = 0 ∨ j = 1 ∨ j = 2 ∨ j = 3) with rfl | rfl | rfl | rfl <;> rfl
  · right
    constructor
    · intro h
      have h : j < 5 := h
      obtain rfl : j = 4 := by omega
      exact ⟨0, _, _, _, 10, rfl, rfl, rfl, rfl, by decide +kernel⟩
    · intro h
      have h : j < 6 := h
      obtain rfl | rfl : j = 4 ∨ j = 5 := by omega
      · exact ⟨0, _, _, _, 10, rfl, rfl, rfl, rfl, by decide +kernel⟩
      · exact ⟨0, _, _, _, 10, rfl, rfl, rfl, rfl, by decide +kernel⟩

end Geo
