import Verif.Props.WeightModelPredict
import Verif.Props.TrainingSets
import Verif.Props.Neighbourhoods
import Verif.Props.Reach
/-
C148: what the dimensions of the coordinates (space, time, ...) contribute to the weights: their
order does not matter, dimensions in which nothing differs do not matter, and listing a dimension
twice sharpens its kernel.
-/
set_option linter.unusedSectionVars false
namespace Geo
variable {K : Type} [Field K] [LinearOrder K] [IsStrictOrderedRing K] [FloorRing K]

/-- What a call of `weight_matrix_from_distance` says about one dimension. -/
structure DimSpec (K : Type) where
  dist : Mat K
  kernel : String
  bandwidth : Option K := none
  count : Option (Count K) := none
  sorted : Option (Mat K) := none

/-- The other arguments of the call, written as lists with one entry per dimension. -/
def dimArgs (l : List (DimSpec K)) : WParams K where
  kernel := .list (l.map (·.kernel))
  bandwidth := .list (l.map (·.bandwidth))
  count := .list (l.map (·.count))
  sorted := .list (l.map (·.sorted))

/-- The call. -/
def weightsOf (env : Env K) (lazy : Bool) (l : List (DimSpec K)) : Except Err (Mat (Num K)) :=
  weightMatrixFromDistance env lazy (l.map (·.dist)) (dimArgs l)

/-- Distances and bandwidths of a dimension are not negative. -/
structure DimSpec.Nonneg (d : DimSpec K) : Prop where
  dist : ∀ i < d.dist.r, ∀ j < d.dist.c, 0 ≤ d.dist.get i j
  bandwidth : ∀ b, d.bandwidth = some b → 0 ≤ b
  sorted : ∀ S, d.sorted = some S → ∀ i < d.dist.r, ∀ j < S.c, 0 ≤ S.get i j

/-- Two results are the same matrix. -/
def SameMat {α : Type} (A B : Mat α) : Prop := A.r = B.r ∧ A.c = B.c ∧ ∀ i < A.r, ∀ j < A.c, A.get i j = B.get i j

/-- The weights of one dimension. -/
def DimSpec.weights (env : Env K) (lazy : Bool) (d : DimSpec K) : Except Err (Mat (Num K)) :=
  weightByDistance env lazy d.dist d.kernel d.bandwidth d.count (if lazy then d.sorted else none)

theorem mapE_range_get {α β : Type} {f : Nat → Except Err β} {g : α → Except Err β} {l : List α}
    (h : ∀ (i : Nat) (hi : i < l.length), f i = g l[i]) : mapE f (List.range l.length) = mapE g l := by
  induction l generalizing f with
  | nil => rfl
  | cons a l ih =>
    have hm : ∀ (f : Nat → Except Err β) (m : List Nat), mapE f (m.map Nat.succ) = mapE (fun i => f (i + 1)) m := by
      intro f m
      induction m with
      | nil => rfl
      | cons b m ihm => simp only [List.map_cons, mapE, ihm]
    rw [List.length_cons, List.range_succ_eq_map]
    simp only [mapE]
    have h0 := h 0 (by simp)
    simp only [List.getElem_cons_zero] at h0
    rw [h0, hm, ih fun i hi => h (i + 1) (by simp; omega)]

theorem dimWeights_args (env : Env K) (lazy : Bool) (l : List (DimSpec K)) :
    dimWeights env lazy (l.map (·.dist)) (dimArgs l) = mapE (DimSpec.weights env lazy) l := by
  unfold dimWeights
  rw [List.length_map]
  refine mapE_range_get fun i hi => ?_
  have hp : ∀ {α : Type} (g : DimSpec K → α), pyGet (l.map g) i = .ok (g l[i]) := by
    intro α g
    rw [pyGet_ok]
    simp [hi]
  unfold dimWeight DimSpec.weights sortedArg dimArgs
  simp only [Param.expand, hp]
  cases lazy <;> rfl

theorem dims_nonneg {l : List (DimSpec K)} (h : ∀ d ∈ l, d.Nonneg) {r c : Nat} (hs : AllShape (l.map (·.dist)) r c) :
    NonnegInput (l.map (·.dist)) (dimArgs l) := by
  refine ⟨?_, ?_, ?_⟩
  · intro D hD
    obtain ⟨d, hd, rfl⟩ := List.mem_map.1 hD
    exact (h d hd).dist
  · intro b hb
    simp only [dimArgs, Param.expand, List.mem_map] at hb
    obtain ⟨d, hd, hb⟩ := hb
    exact (h d hd).bandwidth b hb
  · intro S hS D hD i hi
    simp only [dimArgs, Param.expand, List.mem_map] at hS
    obtain ⟨d, hd, hS⟩ := hS
    refine (h d hd).sorted S hS i ?_
    rw [(hs _ (List.mem_map.2 ⟨d, hd, rfl⟩)).1, ← (hs D hD).1]
    exact hi

/-- Everything about a successful call. -/
theorem weightsOf_ok {env : Env K} (he : env.Ok) {lazy : Bool} {l : List (DimSpec K)} {W : Mat (Num K)}
    (hl : ∀ d ∈ l, d.Nonneg) (h : weightsOf env lazy l = .ok W) :
    ∃ Ws, mapE (DimSpec.weights env lazy) l = .ok Ws ∧ l ≠ [] ∧ AllShape (l.map (·.dist)) W.r W.c ∧
      UnitWs Ws W.r W.c ∧ 0 < W.r ∧ 0 < W.c ∧ logStats lazy W = .ok () ∧
      ∀ i < W.r, ∀ j < W.c, W.get i j = .fin (prodK Ws i j / normK Ws W.c i) := by
  obtain ⟨-, -, Ws, hWs, hne, hsh, hr, hc, hW, hlog⟩ := weightMatrix_unfold h
  obtain ⟨Ws', hWs', -, hu, hv⟩ := weightMatrix_master env he h (dims_nonneg hl hsh)
  have : Ws' = Ws := by
    rw [hWs] at hWs'
    injection hWs' with e
    exact e.symm
  subst this
  rw [dimWeights_args] at hWs
  exact ⟨Ws', hWs, by simpa using hne, hsh, hu, hr, hc, hlog, hv⟩

theorem logStats_congr {lazy : Bool} {A B : Mat (Num K)} (h : SameMat A B) : logStats lazy A = logStats lazy B := by
  have : A.toLists = B.toLists := by
    unfold Mat.toLists
    rw [← h.1]
    refine List.map_congr_left fun i hi => ?_
    unfold Mat.row
    rw [← h.2.1]
    exact List.map_congr_left fun j hj => h.2.2 i (List.mem_range.1 hi) j (List.mem_range.1 hj)
  unfold logStats
  rw [this, h.1, h.2.1]

/-- A call that gets as far as the log statement, and passes it, returns. -/
theorem weightsOf_build {env : Env K} {lazy : Bool} {l : List (DimSpec K)} {Ws : List (Mat (Num K))} {r c : Nat}
    (hne : l ≠ []) (hsh : AllShape (l.map (·.dist)) r c) (hWs : mapE (DimSpec.weights env lazy) l = .ok Ws)
    (hlog : logStats lazy (normalizeRows ⟨r, c, prodEntry Ws⟩) = .ok ()) :
    weightsOf env lazy l = .ok (normalizeRows ⟨r, c, prodEntry Ws⟩) := by
  unfold weightsOf weightMatrixFromDistance
  have hd : ((l.map (·.dist)).map fun D => (D.r, D.c)).dedup.length = 1 := by
    have : (l.map (·.dist)).map (fun D => (D.r, D.c)) = List.replicate l.length (r, c) := by
      rw [List.eq_replicate_iff]
      refine ⟨by simp, fun s hs => ?_⟩
      obtain ⟨D, hD, rfl⟩ := List.mem_map.1 hs
      rw [(hsh D hD).1, (hsh D hD).2]
    rw [this, List.replicate_dedup (by simpa using hne)]
    rfl
  rw [if_neg (not_not.2 hd), if_neg (by simp [dimArgs, Param.isNone])]
  show (dimWeights env lazy (l.map (·.dist)) (dimArgs l) >>= _) = _
  rw [dimWeights_args, hWs]
  cases l with
  | nil => exact absurd rfl hne
  | cons d l =>
    have h1 := hsh d.dist (by simp)
    show (logStats lazy (normalizeRows ⟨d.dist.r, d.dist.c, prodEntry Ws⟩) >>= fun _ =>
      .ok (normalizeRows ⟨d.dist.r, d.dist.c, prodEntry Ws⟩)) = _
    rw [h1.1, h1.2, hlog]
    rfl

/-- Another list of dimensions with the same products gives the same weights. -/
theorem weightsOf_transfer {env : Env K} {lazy : Bool} {l : List (DimSpec K)} {W : Mat (Num K)}
    {Ws Ws' : List (Mat (Num K))} (hlog : logStats lazy W = .ok ())
    (hv : ∀ i < W.r, ∀ j < W.c, W.get i j = .fin (prodK Ws i j / normK Ws W.c i))
    (hne : l ≠ []) (hsh : AllShape (l.map (·.dist)) W.r W.c) (hWs' : mapE (DimSpec.weights env lazy) l = .ok Ws')
    (hu : UnitWs Ws' W.r W.c) (hp : ∀ i < W.r, ∀ j < W.c, prodK Ws' i j = prodK Ws i j) :
    ∃ W', weightsOf env lazy l = .ok W' ∧ SameMat W' W := by
  have hsame : SameMat (normalizeRows ⟨W.r, W.c, prodEntry Ws'⟩) W := by
    refine ⟨rfl, rfl, fun i hi j hj => ?_⟩
    rw [hu.normalized hi hj, hv i hi j hj, hp i hi j hj]
    have : normK Ws' W.c i = normK Ws W.c i := by
      unfold normK
      rw [Finset.sum_congr rfl fun j hj => hp i hi j (Finset.mem_range.1 hj)]
    rw [this]
  exact ⟨_, weightsOf_build hne hsh hWs' (by rw [logStats_congr hsame, hlog]), hsame⟩

theorem logStats_ok_iff {lazy : Bool} {A : Mat (Num K)} :
    logStats lazy A = .ok () ↔ if lazy then ∃ i < A.r, ∃ j < A.c, A.get i j ≠ .fin 0 else A.r * A.c ≠ 0 := by
  unfold logStats
  cases lazy with
  | false => simp
  | true =>
    simp only [if_true]
    have : (A.toLists.flatten.filter fun w => w ≠ .fin 0).length = 0 ↔ ¬ ∃ i < A.r, ∃ j < A.c, A.get i j ≠ .fin 0 := by
      rw [List.length_eq_zero_iff, List.filter_eq_nil_iff]
      simp only [Mat.toLists, Mat.row, List.mem_flatten, List.mem_map, List.mem_range]
      constructor
      · rintro h ⟨i, hi, j, hj, hne⟩
        exact h (A.get i j) ⟨_, ⟨i, hi, rfl⟩, List.mem_map.2 ⟨j, List.mem_range.2 hj, rfl⟩⟩ (by simpa using hne)
      · rintro h w ⟨row, ⟨i, hi, rfl⟩, hw⟩
        obtain ⟨j, hj, rfl⟩ := List.mem_map.1 hw
        intro hne
        exact h ⟨i, hi, j, List.mem_range.1 hj, by simpa using hne⟩
    by_cases h0 : (A.toLists.flatten.filter fun w => w ≠ .fin 0).length = 0
    · simp only [h0, if_true]
      constructor
      · intro h; cases h
      · intro h; exact absurd h (this.1 h0)
    · simp only [h0, if_false, true_iff]
      exact not_not.1 fun hc => h0 (this.2 hc)

/-- Writing a scalar argument as a list of as many copies as there are dimensions does not change
the call. -/
theorem C148_scalar (env : Env K) (lazy : Bool) (Ds : List (Mat K)) (p : WParams K) (hratio : p.ratio = none)
    (W : Mat (Num K)) (h : weightMatrixFromDistance env lazy Ds p = .ok W) :
    weightMatrixFromDistance env lazy Ds { p with
      kernel := .list (p.kernel.expand Ds.length)
      bandwidth := .list (p.bandwidth.expand Ds.length)
      count := .list (p.count.expand Ds.length)
      sorted := .list (p.sorted.expand Ds.length) } = .ok W := by
  rw [← h]
  unfold weightMatrixFromDistance at h ⊢
  by_cases h1 : (Ds.map fun D => (D.r, D.c)).dedup.length ≠ 1
  · rw [if_pos h1] at h
    cases h
  rw [if_neg h1] at h ⊢
  rw [if_neg h1]
  by_cases h2 : (p.bandwidth.isNone && p.count.isNone) = true
  · rw [if_pos h2] at h
    cases h
  rw [if_neg h2, if_neg (by simp [Param.isNone])]
  simp only [hratio, effectiveDistances]
  rfl

/-- C148: the order of the dimensions does not matter. -/
theorem C148_order (env : Env K) (he : env.Ok) (lazy : Bool) (l l' : List (DimSpec K)) (hl : ∀ d ∈ l, d.Nonneg)
    (hp : l'.Perm l) (W : Mat (Num K)) (h : weightsOf env lazy l = .ok W) :
    ∃ W', weightsOf env lazy l' = .ok W' ∧ SameMat W' W := by
  obtain ⟨Ws, hWs, hne, hsh, hu, -, -, hlog, hv⟩ := weightsOf_ok he hl h
  obtain ⟨g, hg⟩ : ∃ g : DimSpec K → Mat (Num K), ∀ d ∈ l, DimSpec.weights env lazy d = .ok (g d) := by
    refine ⟨fun d => (DimSpec.weights env lazy d).toOption.getD ⟨0, 0, fun _ _ => .nan⟩, fun d hd => ?_⟩
    obtain ⟨i, hi, rfl⟩ := List.getElem_of_mem hd
    simp only [mapE_get hWs hi]
    rfl
  have e : Ws = l.map g := by
    have := mapE_of_forall hg
    rw [hWs] at this
    injection this
  subst e
  have hperm : (l'.map g).Perm (l.map g) := hp.map g
  refine weightsOf_transfer hlog hv (fun h0 => hne (by subst h0; exact hp.symm.eq_nil))
    (fun D hD => hsh D ((hp.map _).mem_iff.1 hD)) (mapE_of_forall fun d hd => hg d (hp.mem_iff.1 hd))
    (fun V hV => hu V (hperm.mem_iff.1 hV)) fun i _ j _ => ?_
  unfold prodK
  exact (hperm.map _).prod_eq

/-- The weights of a dimension by its kernel. -/
theorem DimSpec.weights_val {env : Env K} {lazy : Bool} {d : DimSpec K} {V : Mat (Num K)} (hd : d.Nonneg)
    (h : d.weights env lazy = .ok V) :
    V.r = d.dist.r ∧ V.c = d.dist.c ∧ d.kernel ∈ kernelTypeEnum ∧ ∃ bw : Nat → K, ∀ i < d.dist.r, 0 ≤ bw i ∧
      ∀ j < d.dist.c, V.get i j = .fin (kval env d.kernel (d.dist.get i j) (bw i)) := by
  refine weightByDistance_val env h hd.dist hd.bandwidth ?_
  intro S hS
  cases lazy with
  | false => cases hS
  | true => exact hd.sorted S hS

theorem kval_uniform (env : Env K) (d b : K) : kval env "uniform" d b = 1 := by
  simp [kval]

/-- The weights of a dimension in which nothing differs, or whose kernel is `uniform`, are one. -/
theorem DimSpec.weights_one {env : Env K} (he : env.Ok) {lazy : Bool} {d : DimSpec K} {V : Mat (Num K)} (hd : d.Nonneg)
    (h0 : (∀ i < d.dist.r, ∀ j < d.dist.c, d.dist.get i j = 0) ∨ d.kernel = "uniform")
    (h : d.weights env lazy = .ok V) : ∀ i < d.dist.r, ∀ j < d.dist.c, V.get i j = .fin 1 := by
  obtain ⟨-, -, -, bw, hv⟩ := d.weights_val hd h
  intro i hi j hj
  rw [(hv i hi).2 j hj]
  rcases h0 with h0 | h0
  · rw [h0 i hi j hj, kval_self env he _ (hv i hi).1]
  · rw [h0, kval_uniform]

/-- C148: a dimension in which nothing differs (all distances zero), or with the kernel `uniform`,
has no influence: adding it does not change the weights, whatever its kernel, bandwidth or
neighbour count, as long as these are acceptable for it. -/
theorem C148_add (env : Env K) (he : env.Ok) (lazy : Bool) (d : DimSpec K) (l : List (DimSpec K))
    (hd : d.Nonneg) (hl : ∀ d ∈ l, d.Nonneg)
    (h0 : (∀ i < d.dist.r, ∀ j < d.dist.c, d.dist.get i j = 0) ∨ d.kernel = "uniform")
    (W : Mat (Num K)) (h : weightsOf env lazy l = .ok W) (hs : d.dist.r = W.r ∧ d.dist.c = W.c)
    (V : Mat (Num K)) (hV : weightByDistance env lazy d.dist d.kernel d.bandwidth d.count
      (if lazy then d.sorted else none) = .ok V) :
    ∃ W', weightsOf env lazy (d :: l) = .ok W' ∧ SameMat W' W := by
  obtain ⟨Ws, hWs, hne, hsh, hu, -, -, hlog, hv⟩ := weightsOf_ok he hl h
  have h1 := DimSpec.weights_one he hd h0 hV
  have hV' : d.weights env lazy = .ok V := hV
  refine weightsOf_transfer (Ws' := V :: Ws) hlog hv (by simp) ?_ ?_ ?_ ?_
  · intro D hD
    rw [List.map_cons] at hD
    rcases List.mem_cons.1 hD with rfl | hD
    · exact hs
    · exact hsh D hD
  · simp only [mapE, hV', hWs]
  · intro U hU i hi j hj
    rcases List.mem_cons.1 hU with rfl | hU
    · exact ⟨1, h1 i (hs.1 ▸ hi) j (hs.2 ▸ hj), zero_le_one, le_rfl⟩
    · exact hu U hU i hi j hj
  · intro i hi j hj
    simp [prodK, h1 i (hs.1 ▸ hi) j (hs.2 ▸ hj), Num.toK]

/-- C148: and leaving such a dimension out does not change the weights, unless it is the only one. -/
theorem C148_drop (env : Env K) (he : env.Ok) (lazy : Bool) (d : DimSpec K) (l : List (DimSpec K)) (hne : l ≠ [])
    (hd : d.Nonneg) (hl : ∀ d ∈ l, d.Nonneg)
    (h0 : (∀ i < d.dist.r, ∀ j < d.dist.c, d.dist.get i j = 0) ∨ d.kernel = "uniform")
    (W : Mat (Num K)) (h : weightsOf env lazy (d :: l) = .ok W) :
    ∃ W', weightsOf env lazy l = .ok W' ∧ SameMat W' W := by
  obtain ⟨Ws, hWs, -, hsh, hu, -, -, hlog, hv⟩ := weightsOf_ok he
    (fun e he => by rcases List.mem_cons.1 he with rfl | he; exacts [hd, hl e he]) h
  simp only [mapE] at hWs
  cases hV : d.weights env lazy with
  | error e => rw [hV] at hWs; cases hWs
  | ok V =>
    rw [hV] at hWs
    cases hm : mapE (DimSpec.weights env lazy) l with
    | error e => rw [hm] at hWs; cases hWs
    | ok Us =>
      rw [hm] at hWs
      cases hWs
      have hs := hsh d.dist (by simp)
      have h1 := DimSpec.weights_one he hd h0 hV
      refine weightsOf_transfer (Ws' := Us) hlog hv hne ?_ hm ?_ ?_
      · intro D hD
        exact hsh D (by simpa using Or.inr (by simpa using hD))
      · intro U hU
        exact hu U (by simp [hU])
      · intro i hi j hj
        simp [prodK, h1 i (hs.1 ▸ hi) j (hs.2 ▸ hj), Num.toK]

/-- C148: listing a dimension twice multiplies its kernel with itself: the same neighbours, and for
`boxcar` even the same weights. -/
theorem C148_twice (env : Env K) (he : env.Ok) (lazy : Bool) (d : DimSpec K) (l : List (DimSpec K))
    (hd : d.Nonneg) (hl : ∀ d ∈ l, d.Nonneg)
    (W : Mat (Num K)) (h : weightsOf env lazy (d :: l) = .ok W) :
    ∃ W', weightsOf env lazy (d :: d :: l) = .ok W' ∧ W'.r = W.r ∧ W'.c = W.c ∧
      (∀ i < W.r, ∀ j < W.c, 0 < (W'.get i j).toK ↔ 0 < (W.get i j).toK) ∧
      (d.kernel = "boxcar" → SameMat W' W) := by
  obtain ⟨Ws, hWs, -, hsh, hu, hr, hc, hlog, hv⟩ := weightsOf_ok he
    (fun e he => by rcases List.mem_cons.1 he with rfl | he; exacts [hd, hl e he]) h
  simp only [mapE] at hWs
  cases hV : d.weights env lazy with
  | error e => rw [hV] at hWs; cases hWs
  | ok V =>
  rw [hV] at hWs
  cases hm : mapE (DimSpec.weights env lazy) l with
  | error e => rw [hm] at hWs; cases hWs
  | ok Us =>
  rw [hm] at hWs
  cases hWs
  have hs := hsh d.dist (by simp)
  have hsh' : AllShape ((d :: d :: l).map (·.dist)) W.r W.c := by
    intro D hD
    refine hsh D ?_
    simp only [List.map_cons, List.mem_cons] at hD ⊢
    tauto
  have hu' : UnitWs (V :: V :: Us) W.r W.c := by
    intro U hU
    refine hu U ?_
    simp only [List.mem_cons] at hU ⊢
    tauto
  have hWs' : mapE (DimSpec.weights env lazy) (d :: d :: l) = .ok (V :: V :: Us) := by
    simp only [mapE, hV, hm]
  have hpos : ∀ i < W.r, ∀ j < W.c, 0 < prodK (V :: V :: Us) i j ↔ 0 < prodK (V :: Us) i j := by
    intro i hi j hj
    rw [hu.prodK_pos hi hj, hu'.prodK_pos hi hj]
    simp only [List.mem_cons, forall_eq_or_imp]
    tauto
  have hw : ∀ i < W.r, ∀ j < W.c, 0 < (W.get i j).toK ↔ 0 < prodK (V :: Us) i j := by
    intro i hi j hj
    rw [hv i hi j hj]
    exact div_pos_iff_of_pos_right (hu.normK_pos hi)
  have hw' : ∀ i < W.r, ∀ j < W.c, 0 < ((normalizeRows ⟨W.r, W.c, prodEntry (V :: V :: Us)⟩).get i j).toK ↔
      0 < prodK (V :: V :: Us) i j := by
    intro i hi j hj
    rw [hu'.normalized hi hj]
    exact div_pos_iff_of_pos_right (hu'.normK_pos hi)
  have hbuild := weightsOf_build (r := W.r) (c := W.c) (by simp) hsh' hWs' (by
    rw [logStats_ok_iff] at hlog ⊢
    cases lazy with
    | false => exact hlog
    | true =>
      simp only [if_true] at hlog ⊢
      obtain ⟨i, hi, j, hj, hne⟩ := hlog
      refine ⟨i, hi, j, hj, fun h0 => hne ?_⟩
      have h1 : ¬ 0 < prodK (V :: V :: Us) i j := fun hp => by
        have := (hw' i hi j hj).2 hp
        rw [h0] at this
        simp [Num.toK] at this
      rw [hpos i hi j hj] at h1
      have h2 : prodK (V :: Us) i j = 0 := le_antisymm (not_lt.1 h1) (hu.prodK_unit hi hj).1
      rw [hv i hi j hj, h2, zero_div])
  refine ⟨_, hbuild, rfl, rfl, fun i hi j hj => ?_, fun hbox => ?_⟩
  · rw [hw i hi j hj, hw' i hi j hj, hpos i hi j hj]
  · obtain ⟨-, -, -, bw, hval⟩ := d.weights_val hd hV
    obtain ⟨W'', h1, h2⟩ := weightsOf_transfer (Ws' := V :: V :: Us) hlog hv (by simp) hsh' hWs' hu' (by
      intro i hi j hj
      have hk := (hval i (hs.1 ▸ hi)).2 j (hs.2 ▸ hj)
      have hid : ∀ x b : K, kval env "boxcar" x b * kval env "boxcar" x b = kval env "boxcar" x b := by
        intro x b
        by_cases hx : b < x <;> simp [kval, hx]
      rw [hbox] at hk
      simp only [prodK, List.map_cons, List.prod_cons, hk, Num.toK]
      rw [← mul_assoc, hid])
    rw [hbuild] at h1
    cases h1
    exact h2

/-- C148: one dimension with a fixed bandwidth, or several whose distances are never larger (such as
the separate axes of a map), with the same kernel and bandwidth: a neighbour in the one is a
neighbour in the several. -/
theorem C148_split (env : Env K) (he : env.Ok) (lazy : Bool) (d : DimSpec K) (l : List (DimSpec K)) (b : K)
    (hd : d.Nonneg) (hl : ∀ d ∈ l, d.Nonneg) (hb : d.bandwidth = some b)
    (hle : ∀ e ∈ l, e.kernel = d.kernel ∧ e.bandwidth = some b ∧
      ∀ i < d.dist.r, ∀ j < d.dist.c, e.dist.get i j ≤ d.dist.get i j)
    (W W' : Mat (Num K)) (h : weightsOf env lazy [d] = .ok W) (h' : weightsOf env lazy l = .ok W')
    (hs : W'.r = W.r ∧ W'.c = W.c) :
    ∀ i < W.r, ∀ j < W.c, 0 < (W.get i j).toK → 0 < (W'.get i j).toK := by
  obtain ⟨Ws, hWs, -, hsh, hu, -, -, -, hv⟩ := weightsOf_ok he (by simpa using hd) h
  obtain ⟨Us, hUs, -, hsh', hu', -, -, -, hv'⟩ := weightsOf_ok he hl h'
  have hsd := hsh d.dist (by simp)
  have hb0 := hd.bandwidth b hb
  intro i hi j hj hpos
  have hi' : i < W'.r := by omega
  have hj' : j < W'.c := by omega
  rw [hv i hi j hj] at hpos
  have hpos := (div_pos_iff_of_pos_right (hu.normK_pos hi)).1 (show 0 < prodK Ws i j / normK Ws W.c i from hpos)
  have hfix : ∀ (e : DimSpec K) (V : Mat (Num K)), e.Nonneg → e.bandwidth = some b → e.weights env lazy = .ok V →
      i < e.dist.r → j < e.dist.c → (V.get i j).toK = kval env e.kernel (e.dist.get i j) b := by
    intro e V hen heb hV hi hj
    obtain ⟨-, bw, hbw, hval⟩ := weightByDistance_rule hV
    rcases hbw with ⟨x, h1, -, rfl⟩ | ⟨c, h1, -, -⟩
    · rw [heb] at h1
      cases h1
      rw [hval i j (hen.dist i hi j hj) hb0]
      rfl
    · rw [heb] at h1
      cases h1
  simp only [mapE] at hWs
  cases hV : d.weights env lazy with
  | error e => rw [hV] at hWs; cases hWs
  | ok V =>
  rw [hV] at hWs
  cases hWs
  have hk : 0 < kval env d.kernel (d.dist.get i j) b := by
    rw [← hfix d V hd hb hV (hsd.1 ▸ hi) (hsd.2 ▸ hj)]
    simpa [prodK] using hpos
  rw [hv' i hi' j hj']
  refine (div_pos_iff_of_pos_right (hu'.normK_pos hi')).2 ((hu'.prodK_pos hi' hj').2 fun U hU => ?_)
  obtain ⟨k, hk1, rfl⟩ := List.getElem_of_mem hU
  have hk2 : k < l.length := by
    rw [← mapE_length hUs]
    exact hk1
  have hget := mapE_get hUs hk2
  have hmem : l[k] ∈ l := List.getElem_mem hk2
  obtain ⟨e1, e2, e3⟩ := hle _ hmem
  have hse := hsh' l[k].dist (List.mem_map.2 ⟨_, hmem, rfl⟩)
  have hik : i < l[k].dist.r := by omega
  have hjk : j < l[k].dist.c := by omega
  rw [hfix _ _ (hl _ hmem) e2 hget hik hjk, e1]
  exact lt_of_lt_of_le hk (kval_anti env he _ ((hl _ hmem).dist i hik j hjk)
    (e3 i (hsd.1 ▸ hi) j (hsd.2 ▸ hj)) hb0)

/-! ### The same for coordinates -/

/-- What a user says about one dimension of the coordinates. -/
structure CoordDim (K : Type) where
  src : Mat K
  tgt : Mat K
  measure : Option String
  kernel : String
  bandwidth : Option K := none
  count : Option (Count K) := none

/-- Weights from coordinates, every argument given as a list. -/
def coordWeights (lib : Lib K) (env : Env K) (fs : Disk K) (l : List (CoordDim K)) : Except Err (Mat K) :=
  pointSource lib env fs (.list (l.map (·.measure)))
    { kernel := .list (l.map (·.kernel)), bandwidth := .list (l.map (·.bandwidth)), count := .list (l.map (·.count)) }
    (l.map (·.src)) (l.map (·.tgt))

def CoordDim.spec (lib : Lib K) (d : CoordDim K) : DimSpec K where
  dist := cdistMat (metricFun lib d.measure) d.src d.tgt
  kernel := d.kernel
  bandwidth := d.bandwidth
  count := d.count

theorem dims_map (l : List (CoordDim K)) :
    dims (l.map (·.src)) (l.map (·.tgt)) (l.map (·.measure)) = l.map fun d => (d.src, d.tgt, d.measure) := by
  induction l with
  | nil => rfl
  | cons d l ih => simp only [List.map_cons, dims, ih]

theorem sorted_none (env : Env K) (Ds : List (Mat K)) (p : WParams K) (hr : p.ratio = none)
    (q : Param (Option (Mat K))) :
    weightMatrixFromDistance env false Ds { p with sorted := q } = weightMatrixFromDistance env false Ds p := by
  unfold weightMatrixFromDistance
  simp only [hr, effectiveDistances]
  rfl

theorem coordWeights_iff (lib : Lib K) (env : Env K) (fs : Disk K) (l : List (CoordDim K))
    (hr : ∀ d ∈ l, 0 < d.src.r) (M : Mat K) :
    coordWeights lib env fs l = .ok M ↔ (∀ d ∈ l, GoodPair lib d.src d.tgt d.measure) ∧
      ∃ W, weightsOf env false (l.map (CoordDim.spec lib)) = .ok W ∧
        (∀ i < W.r, ∀ j < W.c, W.get i j = .fin (W.get i j).toK) ∧ M = W.map Num.toK := by
  unfold coordWeights
  rw [pointSource_iff lib env fs _ _ _ _ (by simp [Param.expand]) (by
    intro s hs
    obtain ⟨d, hd, rfl⟩ := List.mem_map.1 hs
    exact hr d hd)]
  have e : eagerDists lib (l.map (·.src)) (l.map (·.tgt)) (l.map (·.measure)) =
      (l.map (CoordDim.spec lib)).map (·.dist) := by
    unfold eagerDists
    rw [dims_map, List.map_map, List.map_map]
    rfl
  have e2 : weightsOf env false (l.map (CoordDim.spec lib)) =
      weightMatrixFromDistance env false ((l.map (CoordDim.spec lib)).map (·.dist))
        { kernel := .list (l.map (·.kernel)), bandwidth := .list (l.map (·.bandwidth)),
          count := .list (l.map (·.count)), sorted := .scalar none } := by
    unfold weightsOf dimArgs
    simp only [List.map_map]
    exact sorted_none env _ ⟨.list (l.map (·.kernel)), none, .list (l.map (·.bandwidth)), .list (l.map (·.count)),
      .scalar none⟩ rfl _
  simp only [Param.expand, dims_map, e, e2]
  simp

theorem CoordDim.spec_nonneg {lib : Lib K} (hl : lib.Nonneg) {d : CoordDim K} (hb : ∀ b, d.bandwidth = some b → 0 ≤ b) :
    (d.spec lib).Nonneg where
  dist i _ j _ := hl.metricFun _ _ _
  bandwidth := hb
  sorted S hS := by cases hS

theorem SameMat.toK {A B : Mat (Num K)} (h : SameMat A B) (hf : ∀ i < B.r, ∀ j < B.c, B.get i j = .fin (B.get i j).toK) :
    (∀ i < A.r, ∀ j < A.c, A.get i j = .fin (A.get i j).toK) ∧ SameMat (A.map Num.toK) (B.map Num.toK) := by
  obtain ⟨h1, h2, h3⟩ := h
  refine ⟨fun i hi j hj => ?_, h1, h2, fun i hi j hj => ?_⟩
  · rw [h3 i hi j hj]
    exact hf i (h1 ▸ hi) j (h2 ▸ hj)
  · exact congrArg Num.toK (h3 i hi j hj)

/-- C148: weights from coordinates do not depend on the order in which the dimensions are listed. -/
theorem C148_coordinates (lib : Lib K) (hlib : lib.Nonneg) (env : Env K) (he : env.Ok) (fs : Disk K)
    (l l' : List (CoordDim K)) (hr : ∀ d ∈ l, 0 < d.src.r) (hb : ∀ d ∈ l, ∀ b, d.bandwidth = some b → 0 ≤ b)
    (hp : l'.Perm l) (M : Mat K) (h : coordWeights lib env fs l = .ok M) :
    ∃ M', coordWeights lib env fs l' = .ok M' ∧ SameMat M' M := by
  obtain ⟨hg, W, hW, hf, rfl⟩ := (coordWeights_iff lib env fs l hr M).1 h
  obtain ⟨W', hW', hs⟩ := C148_order env he false _ _ (by
    intro e he
    obtain ⟨d, hd, rfl⟩ := List.mem_map.1 he
    exact d.spec_nonneg hlib (hb d hd)) (hp.map (CoordDim.spec lib)) W hW
  exact ⟨_, (coordWeights_iff lib env fs l' (fun d hd => hr d (hp.mem_iff.1 hd)) _).2
    ⟨fun d hd => hg d (hp.mem_iff.1 hd), W', hW', (hs.toK hf).1, rfl⟩, (hs.toK hf).2⟩

/-- C148: a dimension in which all observations and all places asked about have the same coordinates
(one year of data, say) can be left out, if its metric finds no distance between equal coordinates. -/
theorem C148_constant (lib : Lib K) (hlib : lib.Nonneg) (env : Env K) (he : env.Ok) (fs : Disk K)
    (d : CoordDim K) (l : List (CoordDim K)) (hne : l ≠ []) (hr : ∀ e ∈ d :: l, 0 < e.src.r)
    (hb : ∀ e ∈ d :: l, ∀ b, e.bandwidth = some b → 0 ≤ b) (v : List K)
    (hs : ∀ i < d.src.r, d.src.row i = v) (ht : ∀ j < d.tgt.r, d.tgt.row j = v)
    (hz : metricFun lib d.measure v v = 0) (M : Mat K) (h : coordWeights lib env fs (d :: l) = .ok M) :
    ∃ M', coordWeights lib env fs l = .ok M' ∧ SameMat M' M := by
  obtain ⟨hg, W, hW, hf, rfl⟩ := (coordWeights_iff lib env fs (d :: l) hr M).1 h
  rw [List.map_cons] at hW
  obtain ⟨W', hW', hs⟩ := C148_drop env he false _ _ (by simpa using hne)
    (d.spec_nonneg hlib (hb d (by simp))) (by
    intro e he
    obtain ⟨d, hd, rfl⟩ := List.mem_map.1 he
    exact d.spec_nonneg hlib (hb d (by simp [hd]))) (Or.inl (by
      intro i hi j hj
      show metricFun lib d.measure (d.src.row i) (d.tgt.row j) = 0
      rw [hs i hi, ht j hj, hz])) W hW
  exact ⟨_, (coordWeights_iff lib env fs l (fun d hd => hr d (by simp [hd])) _).2
    ⟨fun d hd => hg d (by simp [hd]), W', hW', (hs.toK hf).1, rfl⟩, (hs.toK hf).2⟩

/-! ### Concrete cases -/

def dmD (s : ℚ) : Mat ℚ := ⟨3, 3, fun i j => s * |(i : ℚ) - j|⟩
def dmSpace : DimSpec ℚ := { dist := dmD 1, kernel := "bisquare", bandwidth := some 2 }
def dmTime : DimSpec ℚ := { dist := dmD 2, kernel := "boxcar", count := some (.int 2) }
def dmFlat : DimSpec ℚ := { dist := ⟨3, 3, fun _ _ => 0⟩, kernel := "boxcar", bandwidth := some 1 }

/-- Space and time in either order give the same weights, not all equal. -/
example : (weightsOf ratEnv false [dmSpace, dmTime]).toOption.map Mat.toLists =
      (weightsOf ratEnv false [dmTime, dmSpace]).toOption.map Mat.toLists ∧
    (weightsOf ratEnv false [dmSpace, dmTime]).toOption.map (fun W => W.row 1) =
      some [.fin (9 / 34), .fin (16 / 34), .fin (9 / 34)] := by decide +kernel

/-- One dimension alone gives different weights, a flat dimension changes nothing. -/
example : (weightsOf ratEnv false [dmSpace, dmFlat]).toOption.map Mat.toLists =
      (weightsOf ratEnv false [dmSpace]).toOption.map Mat.toLists ∧
    (weightsOf ratEnv false [dmFlat]).toOption.map (fun W => W.row 1) =
      some [.fin (1 / 3), .fin (1 / 3), .fin (1 / 3)] := by decide +kernel

/-- Listing space twice sharpens its kernel, but not the boxcar of time. -/
example : (weightsOf ratEnv false [dmSpace, dmSpace]).toOption.map (fun W => W.row 1) ≠
      (weightsOf ratEnv false [dmSpace]).toOption.map (fun W => W.row 1) ∧
    (weightsOf ratEnv false [dmTime, dmTime]).toOption.map Mat.toLists =
      (weightsOf ratEnv false [dmTime]).toOption.map Mat.toLists := by decide +kernel

theorem dmSpace_nonneg : dmSpace.Nonneg where
  dist i _ j _ := by
    show 0 ≤ 1 * |(i : ℚ) - j|
    positivity
  bandwidth b hb := by
    cases hb
    norm_num
  sorted S hS := by cases hS

/-- The hypotheses of `C148_split` are met: the whole, and two axes with half the distances. -/
example : ∀ e ∈ [{ dmSpace with dist := dmD (1 / 2) }, { dmSpace with dist := dmD (1 / 2) }],
    e.kernel = dmSpace.kernel ∧ e.bandwidth = some 2 ∧
      ∀ i < dmSpace.dist.r, ∀ j < dmSpace.dist.c, e.dist.get i j ≤ dmSpace.dist.get i j := by
  intro e he
  simp only [List.mem_cons, List.not_mem_nil, or_false, or_self] at he
  subst he
  refine ⟨rfl, rfl, fun i _ j _ => ?_⟩
  show 1 / 2 * |(i : ℚ) - j| ≤ 1 * |(i : ℚ) - j|
  nlinarith [abs_nonneg ((i : ℚ) - j)]

/-- The converse of `C148_split` fails: two places can be neighbours on both axes and too far apart
on the map. -/
example : (weightsOf ratEnv false [dmSpace]).toOption.map (fun W => W.get 0 2) = some (.fin 0) ∧
    (weightsOf ratEnv false [{ dmSpace with dist := dmD (1 / 2) }, { dmSpace with dist := dmD (1 / 2) }]).toOption.map
      (fun W => decide (W.get 0 2 = .fin 0)) = some false := by decide +kernel

/-- Coordinates with a constant second dimension: it can be left out. -/
def dmPlace : CoordDim ℚ where
  src := ⟨3, 1, fun i _ => i⟩
  tgt := ⟨3, 1, fun i _ => i⟩
  measure := some "sqeuclidean"
  kernel := "bisquare"
  bandwidth := some 3

def dmYear : CoordDim ℚ where
  src := ⟨3, 1, fun _ _ => 2020⟩
  tgt := ⟨3, 1, fun _ _ => 2020⟩
  measure := some "sqeuclidean"
  kernel := "boxcar"
  bandwidth := some 1

example : (coordWeights exLib ratEnv (fun _ => none) [dmYear, dmPlace]).toOption.map Mat.toLists =
      (coordWeights exLib ratEnv (fun _ => none) [dmPlace]).toOption.map Mat.toLists ∧
    (coordWeights exLib ratEnv (fun _ => none) [dmPlace]).toOption.map (fun M => M.row 0) =
      some [81 / 145, 64 / 145, 0] ∧
    metricFun exLib dmYear.measure [2020] [2020] = 0 ∧ (∀ i < 3, dmYear.src.row i = [2020]) := by
  decide +kernel

end Geo
