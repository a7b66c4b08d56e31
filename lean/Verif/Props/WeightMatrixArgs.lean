import Verif.Props.WeightMatrix
set_option linter.unusedSectionVars false
/-
Properties C15-C18: argument validation, relabelling, row independence.
-/
namespace Geo
variable {K : Type} [Field K] [LinearOrder K] [IsStrictOrderedRing K] [FloorRing K]

/-- `neighbour_count` values that the eager path accepts for rows of `c` distances. -/
def CountOk (c : Nat) : Count K → Prop
  | .int k => 1 ≤ k ∧ k ≤ c
  | .float q => 0 < q ∧ q ≤ 1
  | .npInt _ => False

/-- The parameters of dimension `d` are valid: a published kernel, and exactly one of a
bandwidth and an acceptable neighbour count. -/
def ValidDim (n c : Nat) (p : WParams K) (d : Nat) : Prop :=
  (∃ name ∈ kernelTypeEnum, (p.kernel.expand n)[d]? = some name) ∧
  ((∃ b, (p.bandwidth.expand n)[d]? = some (some b)) ∧ (p.count.expand n)[d]? = some none ∨
    (p.bandwidth.expand n)[d]? = some none ∧
      ∃ m, (p.count.expand n)[d]? = some (some m) ∧ CountOk c m)

theorem kernelFunction_ok_iff (env : Env K) (lazy : Bool) (D : Mat K) (bw : Nat → K)
    (name : String) : (∃ W, kernelFunction env lazy D bw name = .ok W) ↔ name ∈ kernelTypeEnum := by
  constructor
  · rintro ⟨W, h⟩
    by_contra hn
    simp only [mem_kernelTypeEnum, not_or] at hn
    obtain ⟨h1, h2, h3, h4, h5, h6, h7⟩ := hn
    simp [kernelFunction, kernelElem, h1, h2, h3, h4, h5, h6, h7] at h
  · intro h
    rcases mem_kernelTypeEnum.1 h with rfl | rfl | rfl | rfl | rfl | rfl | rfl <;>
      cases lazy <;> simp [kernelFunction, kernelElem]

theorem adaptiveEager_ok_iff (D : Mat K) (hc : 0 < D.c) (m : Count K) :
    (∃ bw, adaptiveBandwidth false D m none = .ok bw) ↔ CountOk D.c m := by
  cases m with
  | int k =>
    simp only [adaptiveBandwidth, adaptiveBandwidthEager, Bool.false_eq_true, if_false, CountOk]
    by_cases h1 : k ≤ 0
    · simp only [h1, if_true]
      constructor
      · rintro ⟨_, h⟩; cases h
      · intro h; omega
    · by_cases h2 : (k - 1).toNat < D.c
      · simp only [h1, h2, if_true, if_false]
        exact ⟨fun _ => by omega, fun _ => ⟨_, rfl⟩⟩
      · simp only [h1, h2, if_false]
        constructor
        · rintro ⟨_, h⟩; cases h
        · intro h; omega
  | float q =>
    simp only [adaptiveBandwidth, adaptiveBandwidthEager, Bool.false_eq_true, if_false, CountOk,
      hc.ne']
    by_cases h1 : q ≤ 0
    · simp only [h1, if_true]
      constructor
      · rintro ⟨_, h⟩; cases h
      · intro h; exact absurd h.1 (not_lt.2 h1)
    · by_cases h2 : q < 0 ∨ 1 < q
      · simp only [h1, h2, if_true, if_false]
        constructor
        · rintro ⟨_, h⟩; cases h
        · rintro ⟨h3, h4⟩
          rcases h2 with h2 | h2
          · exact absurd h2.le h1
          · exact absurd h4 (not_le.2 h2)
      · simp only [h1, h2, if_false]
        simp only [not_or, not_lt] at h2
        exact ⟨fun _ => ⟨not_le.1 h1, h2.2⟩, fun _ => ⟨_, rfl⟩⟩
  | npInt k => simp [adaptiveBandwidth, adaptiveBandwidthEager, CountOk]

theorem weightByDistance_eager_ok_iff (env : Env K) (D : Mat K) (hc : 0 < D.c) (name : String)
    (b : Option K) (n : Option (Count K)) :
    (∃ W, weightByDistance env false D name b n none = .ok W) ↔
      name ∈ kernelTypeEnum ∧
        ((∃ b', b = some b') ∧ n = none ∨ b = none ∧ ∃ m, n = some m ∧ CountOk D.c m) := by
  cases b with
  | some b' =>
    cases n with
    | none => simp [weightByDistance, kernelFunction_ok_iff]
    | some m => simp [weightByDistance]
  | none =>
    cases n with
    | none => simp [weightByDistance]
    | some m =>
      simp only [weightByDistance, adaptiveKernel]
      have hm := adaptiveEager_ok_iff D hc m
      cases hb : adaptiveBandwidth false D m none with
      | error e =>
        have : ¬ CountOk D.c m := by rw [← hm, hb]; rintro ⟨_, h⟩; cases h
        simp [this]
      | ok bw =>
        have : CountOk D.c m := by rw [← hm, hb]; exact ⟨_, rfl⟩
        simp [this, kernelFunction_ok_iff]

/-- C15: on the eager path a matrix is returned exactly when there is at least one distance
matrix, all have one common non-empty shape, no `distance_ratio` is given, and in each
dimension the kernel is known and exactly one of bandwidth and a valid neighbour count is
given. -/
theorem C15_accepted_iff (env : Env K) (Ds : List (Mat K)) (p : WParams K) :
    (∃ W, weightMatrixFromDistance env false Ds p = .ok W) ↔
      Ds ≠ [] ∧ p.ratio = none ∧ ∃ r c, 0 < r ∧ 0 < c ∧ AllShape Ds r c ∧
        ∀ d < Ds.length, ValidDim Ds.length c p d := by
  constructor
  · rintro ⟨W, h⟩
    obtain ⟨hr, hbn, Ws, hWs, hne, hsh, hr0, hc0, -, -⟩ := weightMatrix_unfold h
    refine ⟨hne, hr, W.r, W.c, hr0, hc0, hsh, fun d hd => ?_⟩
    obtain ⟨D, name, b, n, S, hD, hname, hb, hn, hS, hw⟩ := dimWeight_unfold (dimWeights_get hWs hd)
    obtain ⟨-, rfl⟩ : false = false ∧ S = none := by
      rcases hS with ⟨h, -⟩ | h
      · cases h
      · exact h
    have hDm : D ∈ Ds := List.mem_of_getElem? hD
    have hDc := (hsh D hDm).2
    obtain ⟨h1, h2⟩ := (weightByDistance_eager_ok_iff env D (hDc ▸ hc0) name b n).1 ⟨_, hw⟩
    refine ⟨⟨name, h1, hname⟩, ?_⟩
    rcases h2 with ⟨⟨b', rfl⟩, rfl⟩ | ⟨rfl, m, rfl, hm⟩
    · exact .inl ⟨⟨b', hb⟩, hn⟩
    · exact .inr ⟨hb, m, hn, hDc ▸ hm⟩
  · rintro ⟨hne, hr, r, c, hr0, hc0, hsh, hv⟩
    have hdim : ∀ d ∈ List.range Ds.length, ∃ W, dimWeight env false Ds p d = .ok W := by
      intro d hd
      rw [List.mem_range] at hd
      obtain ⟨⟨name, hname, hk⟩, hbn⟩ := hv d hd
      have hD : Ds[d]? = some Ds[d] := List.getElem?_eq_getElem hd
      obtain ⟨hDr, hDc⟩ := hsh Ds[d] (List.getElem_mem hd)
      obtain ⟨b, n, hb, hn, hok⟩ : ∃ b n, (p.bandwidth.expand Ds.length)[d]? = some b ∧
          (p.count.expand Ds.length)[d]? = some n ∧
          ((∃ b', b = some b') ∧ n = none ∨ b = none ∧ ∃ m, n = some m ∧ CountOk Ds[d].c m) := by
        rcases hbn with ⟨⟨b, hb⟩, hn⟩ | ⟨hb, m, hn, hm⟩
        · exact ⟨_, _, hb, hn, .inl ⟨⟨b, rfl⟩, rfl⟩⟩
        · exact ⟨_, _, hb, hn, .inr ⟨rfl, m, rfl, hDc ▸ hm⟩⟩
      obtain ⟨W, hW⟩ := (weightByDistance_eager_ok_iff env Ds[d] (hDc ▸ hc0) name b n).2 ⟨hname, hok⟩
      refine ⟨W, ?_⟩
      unfold dimWeight
      rw [pyGet_ok.2 hD, pyGet_ok.2 hk, pyGet_ok.2 hb, pyGet_ok.2 hn]
      exact hW
    have : ∃ Ws, dimWeights env false Ds p = .ok Ws := by
      have : Nonempty (Mat (Num K)) := ⟨⟨0, 0, fun _ _ => .nan⟩⟩
      choose! g hg using hdim
      exact ⟨_, mapE_of_forall hg⟩
    obtain ⟨Ws, hWs⟩ := this
    obtain ⟨D0, Ds', rfl⟩ : ∃ D0 Ds', Ds = D0 :: Ds' := by
      cases Ds with
      | nil => exact absurd rfl hne
      | cons a l => exact ⟨a, l, rfl⟩
    have h1 : ((D0 :: Ds').map fun D => (D.r, D.c)).dedup.length = 1 := by
      have : ((D0 :: Ds').map fun D => (D.r, D.c)) = List.replicate (Ds'.length + 1) (r, c) := by
        rw [List.eq_replicate_iff]
        refine ⟨by simp, ?_⟩
        intro x hx
        obtain ⟨D, hD, rfl⟩ := List.mem_map.1 hx
        obtain ⟨h1, h2⟩ := hsh D hD
        rw [h1, h2]
      rw [this, List.replicate_dedup (by simp)]
      rfl
    have h2 : ¬ (p.bandwidth.isNone && p.count.isNone) = true := by
      intro hb
      rw [Bool.and_eq_true] at hb
      obtain ⟨-, hbn⟩ := hv 0 (by simp)
      have hb1 : p.bandwidth = .scalar none := by
        have := hb.1; unfold Param.isNone at this; split at this
        · assumption
        · cases this
      have hb2 : p.count = .scalar none := by
        have := hb.2; unfold Param.isNone at this; split at this
        · assumption
        · cases this
      rcases hbn with ⟨⟨b, hb⟩, -⟩ | ⟨-, m, hm, -⟩
      · rw [hb1] at hb; simp [Param.expand] at hb
      · rw [hb2] at hm; simp [Param.expand] at hm
    have hD0 := hsh D0 (by simp)
    refine ⟨normalizeRows ⟨D0.r, D0.c, prodEntry Ws⟩, ?_⟩
    unfold weightMatrixFromDistance
    rw [if_neg (by rw [h1]; simp), if_neg h2, hr]
    simp only [effectiveDistances]
    refine bind_ok.2 ⟨_, rfl, bind_ok.2 ⟨Ws, hWs, bind_ok.2 ⟨(), ?_, rfl⟩⟩⟩
    have : D0.r * D0.c ≠ 0 := by
      rw [hD0.1, hD0.2]; exact Nat.mul_ne_zero hr0.ne' hc0.ne'
    simp [logStats, normalizeRows, this]

example : ∃ W, weightMatrixFromDistance ratEnv false [exSpace, exTime] exParams = .ok W :=
  (of_okAnd (p := fun _ => true) (by decide +kernel)).imp fun _ h => h.1

/-- C15: giving neither bandwidth nor neighbour count raises, on both paths. -/
theorem C15_neither_raises (env : Env K) (lazy : Bool) (Ds : List (Mat K)) (p : WParams K)
    (hb : p.bandwidth = .scalar none) (hc : p.count = .scalar none) :
    weightMatrixFromDistance env lazy Ds p = .error .exception := by
  unfold weightMatrixFromDistance
  rw [hb, hc]
  split <;> simp [Param.isNone]

/-- C15, negation of the README's "bandwidth takes precedence": giving both a bandwidth and a
neighbour count raises for every input, on both paths. -/
theorem C15_both_raises (env : Env K) (lazy : Bool) (Ds : List (Mat K)) (p : WParams K)
    (b : K) (n : Count K)
    (hb : p.bandwidth = .scalar (some b)) (hc : p.count = .scalar (some n)) :
    ∃ e, weightMatrixFromDistance env lazy Ds p = .error e := by
  cases h : weightMatrixFromDistance env lazy Ds p with
  | error e => exact ⟨e, rfl⟩
  | ok W =>
    exfalso
    obtain ⟨-, -, Ws, hWs, hne, -⟩ := weightMatrix_unfold h
    have h0 : 0 < Ds.length := List.length_pos_iff.2 hne
    obtain ⟨D, name, b', n', S, -, -, hb', hn', -, hw⟩ := dimWeight_unfold (dimWeights_get hWs h0)
    rw [hb] at hb'
    rw [hc] at hn'
    simp [Param.expand, h0] at hb' hn'
    subst hb' hn'
    simp [weightByDistance] at hw

/-- C15, lists of arguments: a coordinate vector that has both a bandwidth and a neighbour count, or
neither, makes the call raise, on both paths and wherever it stands in the list. -/
theorem C15_each_dimension_one (env : Env K) (lazy : Bool) (Ds : List (Mat K)) (p : WParams K)
    (d : Nat) (hd : d < Ds.length)
    (h : (∃ b n, (p.bandwidth.expand Ds.length)[d]? = some (some b) ∧
        (p.count.expand Ds.length)[d]? = some (some n)) ∨
      ((p.bandwidth.expand Ds.length)[d]? = some none ∧
        (p.count.expand Ds.length)[d]? = some none)) :
    ∃ e, weightMatrixFromDistance env lazy Ds p = .error e := by
  cases hW : weightMatrixFromDistance env lazy Ds p with
  | error e => exact ⟨e, rfl⟩
  | ok W =>
    exfalso
    obtain ⟨-, -, Ws, hWs, hne, -⟩ := weightMatrix_unfold hW
    obtain ⟨D, name, b', n', S, -, -, hb', hn', -, hw⟩ := dimWeight_unfold (dimWeights_get hWs hd)
    rcases h with ⟨b, n, hb, hn⟩ | ⟨hb, hn⟩
    · rw [hb] at hb'
      rw [hn] at hn'
      injection hb' with hb'
      injection hn' with hn'
      subst hb' hn'
      simp [weightByDistance] at hw
    · rw [hb] at hb'
      rw [hn] at hn'
      injection hb' with hb'
      injection hn' with hn'
      subst hb' hn'
      simp [weightByDistance] at hw

/-- The second coordinate vector has neither, or both. -/
example : (∃ e, weightMatrixFromDistance ratEnv false [exSpace, exTime]
      { exParams with count := .list [none, none] } = .error e) ∧
    ∃ e, weightMatrixFromDistance ratEnv true [exSpace, exTime]
      { exParams with bandwidth := .list [some 2, some 1] } = .error e :=
  ⟨C15_each_dimension_one _ _ _ _ 1 (by simp) (.inr ⟨rfl, rfl⟩),
    C15_each_dimension_one _ _ _ _ 1 (by simp) (.inl ⟨1, .int 2, rfl, rfl⟩)⟩

/-- C16, negation: with `distance_ratio` the function raises for every input. -/
theorem C16_distance_ratio_always_raises (env : Env K) (lazy : Bool) (Ds : List (Mat K))
    (p : WParams K) (ratio : Param K) (hr : p.ratio = some ratio) :
    ∃ e, weightMatrixFromDistance env lazy Ds p = .error e := by
  cases h : weightMatrixFromDistance env lazy Ds p with
  | error e => exact ⟨e, rfl⟩
  | ok W =>
    have := (weightMatrix_unfold h).1
    rw [hr] at this
    cases this

/-- C16: with otherwise valid arguments the exception is the `IndexError` of the assignment
into an empty list. -/
theorem C16_distance_ratio_index_error :
    (match weightMatrixFromDistance ratEnv false [exSpace, exTime]
        { kernel := .scalar "gaussian", ratio := some (.scalar 2), bandwidth := .scalar (some 1) } with
      | .error e => e = .indexError
      | .ok _ => False) := by
  simp [weightMatrixFromDistance, effectiveDistances, mergeDistances, Param.isNone, exSpace, exTime,
    bind, Except.bind]

/-- Reorder the columns. -/
def permCols {α : Type} (σ : Nat → Nat) (A : Mat α) : Mat α := ⟨A.r, A.c, fun i j => A.get i (σ j)⟩

theorem Num.add_right_comm (a b c : Num K) : Num.add (Num.add a b) c = Num.add (Num.add a c) b := by
  cases a <;> cases b <;> cases c <;> simp [Num.add, _root_.add_right_comm]

theorem Num.sum_perm {l l' : List (Num K)} (h : l.Perm l') : Num.sum l = Num.sum l' := by
  unfold Num.sum
  have : RightCommutative (Num.add (K := K)) := ⟨Num.add_right_comm⟩
  exact h.foldl_eq _

/-- `σ` permutes the indices below `c`. -/
def PermBelow (σ : Nat → Nat) (c : Nat) : Prop :=
  (∀ j < c, σ j < c) ∧ ∀ j < c, ∀ k < c, σ j = σ k → j = k

theorem PermBelow.range_perm {σ : Nat → Nat} {c : Nat} (h : PermBelow σ c) :
    ((List.range c).map σ).Perm (List.range c) := by
  have hnd : ((List.range c).map σ).Nodup := by
    apply List.Nodup.map_on _ List.nodup_range
    intro x hx y hy
    exact h.2 x (by simpa using hx) y (by simpa using hy)
  apply (List.subperm_of_subset hnd _).perm_of_length_le (by simp)
  intro x hx
  obtain ⟨j, hj, rfl⟩ := List.mem_map.1 hx
  simpa using h.1 j (by simpa using hj)

theorem permCols_row_perm {α : Type} {σ : Nat → Nat} {A : Mat α} (h : PermBelow σ A.c) (i : Nat) :
    ((permCols σ A).row i).Perm (A.row i) := by
  have : (permCols σ A).row i = ((List.range A.c).map σ).map (A.get i) := by
    simp [Mat.row, permCols]
  rw [this]
  exact h.range_perm.map _

theorem adaptiveBandwidth_permCols {σ : Nat → Nat} {D : Mat K} (h : PermBelow σ D.c) (lazy : Bool)
    (n : Count K) (S : Option (Mat K)) :
    adaptiveBandwidth lazy (permCols σ D) n S = adaptiveBandwidth lazy D n S := by
  have hr : (permCols σ D).r = D.r := rfl
  have hc : (permCols σ D).c = D.c := rfl
  have hs : ∀ i, sortL ((permCols σ D).row i) = sortL (D.row i) := fun i =>
    sortL_eq_of_perm (permCols_row_perm h i)
  have hq : ∀ virt i q, quantileVal virt ((permCols σ D).row i) q = quantileVal virt (D.row i) q :=
    fun virt i q => quantileVal_perm (permCols_row_perm h i) q
  unfold adaptiveBandwidth adaptiveBandwidthLazy adaptiveBandwidthEager
  simp only [hr, hc, hs, hq]

theorem weightByDistance_permCols (env : Env K) {σ : Nat → Nat} {D : Mat K} (h : PermBelow σ D.c)
    (lazy : Bool) (name : String) (b : Option K) (n : Option (Count K)) (S : Option (Mat K)) :
    weightByDistance env lazy (permCols σ D) name b n S =
      (weightByDistance env lazy D name b n S).map (permCols σ) := by
  have hk : ∀ bw, kernelFunction env lazy (permCols σ D) bw name =
      (kernelFunction env lazy D bw name).map (permCols σ) := by
    intro bw
    unfold kernelFunction
    split <;> rfl
  unfold weightByDistance adaptiveKernel
  split
  · exact hk _
  · rw [adaptiveBandwidth_permCols h]
    split
    · rfl
    · exact hk _
  · rfl

theorem mapE_map {α β γ : Type} (f : α → Except Err β) (g : β → γ) (l : List α) :
    mapE (fun a => (f a).map g) l = (mapE f l).map (List.map g) := by
  induction l with
  | nil => rfl
  | cons a l ih =>
    simp only [mapE, ih]
    cases f a with
    | error e => rfl
    | ok b =>
      simp only [Except.map]
      cases mapE f l <;> rfl

theorem bind_map_cols {α β : Type} (x : Except Err α) (f : α → Except Err β) (g : β → β) :
    (x >>= fun a => (f a).map g) = (x >>= f).map g := by
  cases x <;> rfl

/-- C17, columns: permuting the targets permutes the columns of the result and changes nothing
else; in particular it does not change whether (and how) the call fails. -/
theorem C17_target_relabelling (env : Env K) (lazy : Bool) (Ds : List (Mat K)) (p : WParams K)
    (σ : Nat → Nat) (hσ : ∀ D ∈ Ds, PermBelow σ D.c) :
    weightMatrixFromDistance env lazy (Ds.map (permCols σ)) p =
      (weightMatrixFromDistance env lazy Ds p).map (permCols σ) := by
  have hdim : dimWeights env lazy (Ds.map (permCols σ)) p =
      (dimWeights env lazy Ds p).map (List.map (permCols σ)) := by
    unfold dimWeights
    rw [← mapE_map]
    simp only [List.length_map]
    apply mapE_congr
    intro d hd
    rw [List.mem_range] at hd
    have h1 : pyGet (Ds.map (permCols σ)) d = .ok (permCols σ Ds[d]) := by
      rw [pyGet_ok]; simp [hd]
    have h2 : pyGet Ds d = .ok Ds[d] := by rw [pyGet_ok]; simp [hd]
    unfold dimWeight sortedArg
    rw [h1, h2]
    simp only [List.length_map]
    simp only [bind, Except.bind]
    cases pyGet (p.kernel.expand Ds.length) d with
    | error e => rfl
    | ok name =>
      cases pyGet (p.bandwidth.expand Ds.length) d with
      | error e => rfl
      | ok b =>
        cases pyGet (p.count.expand Ds.length) d with
        | error e => rfl
        | ok n =>
          simp only
          split
          · rfl
          · exact weightByDistance_permCols env (hσ _ (List.getElem_mem hd)) lazy name b n _
  have hshape : ((Ds.map (permCols σ)).map fun D => (D.r, D.c)) = Ds.map fun D => (D.r, D.c) := by
    rw [List.map_map]; rfl
  unfold weightMatrixFromDistance
  rw [hshape]
  split
  · rfl
  · split
    · rfl
    · cases hr : p.ratio with
      | some ratio =>
        simp only [effectiveDistances, List.length_map]
        unfold mergeDistances
        cases ratio with
        | scalar a => simp only; split <;> rfl
        | list l => simp only; split <;> rfl
      | none =>
        simp only [effectiveDistances]
        show (dimWeights env lazy (Ds.map (permCols σ)) p >>= _) =
          Except.map _ (dimWeights env lazy Ds p >>= _)
        rw [hdim]
        cases hW : dimWeights env lazy Ds p with
        | error e => rfl
        | ok Ws =>
          cases Ds with
          | nil => simp at *
          | cons D0 Ds =>
            have hp := hσ D0 (by simp)
            have hprod : ∀ i j, prodEntry (Ws.map (permCols σ)) i j = prodEntry Ws i (σ j) := by
              intro i j; simp [prodEntry]; rfl
            have hN : normalizeRows ⟨D0.r, D0.c, prodEntry (Ws.map (permCols σ))⟩ =
                permCols σ (normalizeRows ⟨D0.r, D0.c, prodEntry Ws⟩) := by
              have hpe : (⟨D0.r, D0.c, prodEntry (Ws.map (permCols σ))⟩ : Mat (Num K)) =
                  permCols σ ⟨D0.r, D0.c, prodEntry Ws⟩ := by
                unfold permCols
                congr 1
                funext i j
                exact hprod i j
              rw [hpe]
              have hs : ∀ i, rowSum (permCols σ ⟨D0.r, D0.c, prodEntry Ws⟩) i =
                  rowSum ⟨D0.r, D0.c, prodEntry Ws⟩ i := by
                intro i
                unfold rowSum
                rw [Num.sum_perm (permCols_row_perm (A := ⟨D0.r, D0.c, prodEntry Ws⟩) hp i)]
              unfold normalizeRows
              simp only [hs]
              rfl
            have hlog : ∀ N : Mat (Num K), N.c = D0.c → logStats lazy (permCols σ N) = logStats lazy N := by
              intro N hN
              unfold logStats
              have : ((permCols σ N).toLists.flatten.filter fun w => w ≠ .fin 0).length =
                  (N.toLists.flatten.filter fun w => w ≠ .fin 0).length := by
                apply List.Perm.length_eq
                apply List.Perm.filter
                unfold Mat.toLists
                show ((List.range N.r).map (permCols σ N).row).flatten.Perm _
                rw [← List.flatMap_def, ← List.flatMap_def]
                exact List.Perm.flatMap_left _ fun i _ => permCols_row_perm (by rw [hN]; exact hp) i
              rw [this]
              rfl
            show (logStats lazy (normalizeRows ⟨D0.r, D0.c, prodEntry (Ws.map (permCols σ))⟩) >>= _) =
              Except.map _ (logStats lazy (normalizeRows ⟨D0.r, D0.c, prodEntry Ws⟩) >>= _)
            rw [hN, hlog _ rfl]
            cases logStats lazy (normalizeRows ⟨D0.r, D0.c, prodEntry Ws⟩) with
            | error e => rfl
            | ok u => exact congrArg Except.ok hN

/-- The condition of C17 is met by swapping the three targets of the running example. -/
example : ∀ D ∈ [exSpace, exTime], PermBelow (fun j => 2 - j) D.c := by
  intro D hD
  have : D.c = 3 := by
    rcases List.mem_pair.1 hD with rfl | rfl <;> rfl
  rw [this]
  exact ⟨fun j hj => by simp only; omega, fun j hj k hk h => by simp only at h; omega⟩

/-- The matrix whose row `i` is row `ρ i` of `A`, with `m` rows. -/
def selRows {α : Type} (ρ : Nat → Nat) (m : Nat) (A : Mat α) : Mat α :=
  ⟨m, A.c, fun i j => A.get (ρ i) j⟩

theorem selRows_row {α : Type} (ρ : Nat → Nat) (m : Nat) (A : Mat α) (i : Nat) :
    (selRows ρ m A).row i = A.row (ρ i) := rfl

theorem weightByDistance_selRows (env : Env K) (ρ : Nat → Nat) (m : Nat) (D : Mat K)
    (name : String) (b : Option K) (n : Option (Count K)) :
    weightByDistance env false (selRows ρ m D) name b n none =
      (weightByDistance env false D name b n none).map (selRows ρ m) := by
  have hk : ∀ bw bw' : Nat → K, (∀ i, bw' i = bw (ρ i)) →
      kernelFunction env false (selRows ρ m D) bw' name =
      (kernelFunction env false D bw name).map (selRows ρ m) := by
    intro bw bw' h
    obtain rfl : bw' = fun i => bw (ρ i) := funext h
    unfold kernelFunction
    split <;> rfl
  have hb : ∀ n : Count K, adaptiveBandwidth false (selRows ρ m D) n none =
      (adaptiveBandwidth false D n none).map fun bw i => bw (ρ i) := by
    intro n
    unfold adaptiveBandwidth adaptiveBandwidthEager
    have hc : (selRows ρ m D).c = D.c := rfl
    simp only [selRows_row, hc, Bool.false_eq_true, if_false]
    cases n with
    | int k => simp only; split_ifs <;> rfl
    | float q => simp only; split_ifs <;> rfl
    | npInt k => rfl
  unfold weightByDistance adaptiveKernel
  split
  · exact hk _ _ fun _ => rfl
  · rw [hb]
    cases adaptiveBandwidth false D _ none with
    | error e => rfl
    | ok bw => exact hk _ _ fun _ => rfl
  · rfl

/-- C18 (and the row half of C17): on the eager path, computing the weights for any selection
of the sources (reordered, repeated or dropped) is the same as selecting rows of the full
result. So a row of the result is a function of that row of the distances alone. -/
theorem C18_row_independence (env : Env K) (Ds : List (Mat K)) (p : WParams K) (r c m : Nat)
    (hsh : AllShape Ds r c) (hr : 0 < r) (hm : 0 < m) (ρ : Nat → Nat) (_hρ : ∀ i < m, ρ i < r) :
    weightMatrixFromDistance env false (Ds.map (selRows ρ m)) p =
      (weightMatrixFromDistance env false Ds p).map (selRows ρ m) := by
  have hdim : dimWeights env false (Ds.map (selRows ρ m)) p =
      (dimWeights env false Ds p).map (List.map (selRows ρ m)) := by
    unfold dimWeights
    rw [← mapE_map]
    simp only [List.length_map]
    apply mapE_congr
    intro d hd
    rw [List.mem_range] at hd
    have h1 : pyGet (Ds.map (selRows ρ m)) d = .ok (selRows ρ m Ds[d]) := by
      rw [pyGet_ok]; simp [hd]
    have h2 : pyGet Ds d = .ok Ds[d] := by rw [pyGet_ok]; simp [hd]
    unfold dimWeight sortedArg
    rw [h1, h2]
    simp only [List.length_map]
    simp only [bind, Except.bind]
    cases pyGet (p.kernel.expand Ds.length) d with
    | error e => rfl
    | ok name =>
      cases pyGet (p.bandwidth.expand Ds.length) d with
      | error e => rfl
      | ok b =>
        cases pyGet (p.count.expand Ds.length) d with
        | error e => rfl
        | ok n => exact weightByDistance_selRows env ρ m Ds[d] name b n
  have hrep : ∀ (Es : List (Mat K)) (a : Nat), AllShape Es a c →
      (Es.map fun D => (D.r, D.c)) = List.replicate Es.length (a, c) := by
    intro Es a h
    rw [List.eq_replicate_iff]
    refine ⟨by simp, ?_⟩
    intro x hx
    obtain ⟨D, hD, rfl⟩ := List.mem_map.1 hx
    obtain ⟨h1, h2⟩ := h D hD
    rw [h1, h2]
  have hsh' : AllShape (Ds.map (selRows ρ m)) m c := by
    intro D hD
    obtain ⟨E, hE, rfl⟩ := List.mem_map.1 hD
    exact ⟨rfl, (hsh E hE).2⟩
  have hlen : ((Ds.map (selRows ρ m)).map fun D => (D.r, D.c)).dedup.length =
      (Ds.map fun D => (D.r, D.c)).dedup.length := by
    rw [hrep _ _ hsh', hrep _ _ hsh, List.length_map]
    cases Ds with
    | nil => rfl
    | cons a l => rw [List.replicate_dedup (by simp), List.replicate_dedup (by simp)]; rfl
  unfold weightMatrixFromDistance
  rw [hlen]
  split
  · rfl
  · split
    · rfl
    · cases hr : p.ratio with
      | some ratio =>
        simp only [effectiveDistances, List.length_map]
        unfold mergeDistances
        cases ratio with
        | scalar a => simp only; split <;> rfl
        | list l => simp only; split <;> rfl
      | none =>
        simp only [effectiveDistances]
        show (dimWeights env false (Ds.map (selRows ρ m)) p >>= _) =
          Except.map _ (dimWeights env false Ds p >>= _)
        rw [hdim]
        cases hW : dimWeights env false Ds p with
        | error e => rfl
        | ok Ws =>
          cases Ds with
          | nil => simp at *
          | cons D0 Ds =>
            have hN : normalizeRows ⟨m, D0.c, prodEntry (Ws.map (selRows ρ m))⟩ =
                selRows ρ m (normalizeRows ⟨D0.r, D0.c, prodEntry Ws⟩) := by
              have hprod : ∀ i j, prodEntry (Ws.map (selRows ρ m)) i j = prodEntry Ws (ρ i) j := by
                intro i j; simp [prodEntry]; rfl
              have hpe : (⟨m, D0.c, prodEntry (Ws.map (selRows ρ m))⟩ : Mat (Num K)) =
                  selRows ρ m ⟨D0.r, D0.c, prodEntry Ws⟩ := by
                unfold selRows
                congr 1
                funext i j
                exact hprod i j
              rw [hpe]
              rfl
            have hlog : logStats false (selRows ρ m (normalizeRows ⟨D0.r, D0.c, prodEntry Ws⟩)) =
                logStats false (normalizeRows ⟨D0.r, D0.c, prodEntry Ws⟩) := by
              have h0 := (hsh D0 (by simp)).1
              unfold logStats
              have : (m * D0.c = 0) ↔ (D0.r * D0.c = 0) := by
                rw [h0, Nat.mul_eq_zero, Nat.mul_eq_zero]; omega
              simp only [selRows, normalizeRows, Bool.false_eq_true, if_false, this]
            show (logStats false (normalizeRows ⟨m, D0.c, prodEntry (Ws.map (selRows ρ m))⟩) >>= _) =
              Except.map _ (logStats false (normalizeRows ⟨D0.r, D0.c, prodEntry Ws⟩) >>= _)
            rw [hN, hlog]
            cases logStats false (normalizeRows ⟨D0.r, D0.c, prodEntry Ws⟩) with
            | error e => rfl
            | ok u => exact congrArg Except.ok hN

example : AllShape [exSpace, exTime] 3 3 ∧ ∀ i < 2, (fun i => 2 * i) i < 3 := by
  refine ⟨?_, fun i hi => by simp only; omega⟩
  intro D hD
  rcases List.mem_pair.1 hD with rfl | rfl <;> exact ⟨rfl, rfl⟩

/-- C18, negation on the dask path with sorted distances: the count is compared with the
number of sources, so dropping a source can turn success into failure. -/
theorem C18_lazy_depends_on_other_rows :
    let D : Mat ℚ := ⟨2, 2, fun i j => if i = j then 0 else 1⟩
    let S : Mat ℚ := ⟨2, 2, fun _ j => if j = 0 then 0 else 1⟩
    let p : WParams ℚ :=
      { kernel := .scalar "boxcar", count := .scalar (some (.int 2)), sorted := .scalar (some S) }
    let p' : WParams ℚ := { p with sorted := .scalar (some (selRows id 1 S)) }
    (∃ W, weightMatrixFromDistance ratEnv true [D] p = .ok W) ∧
      weightMatrixFromDistance ratEnv true [selRows id 1 D] p' = .error .exception := by
  refine ⟨?_, ?_⟩
  · exact (of_okAnd (p := fun _ => true) (by decide +kernel)).imp fun _ h => h.1
  · simp [weightMatrixFromDistance, Param.isNone, effectiveDistances, dimWeights, mapE, dimWeight,
      pyGet, Param.expand, sortedArg, weightByDistance, adaptiveKernel, adaptiveBandwidth,
      adaptiveBandwidthLazy, Count.ceil, selRows, bind, Except.bind]

end Geo
