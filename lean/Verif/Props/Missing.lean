import Verif.Model.Missing
import Verif.Lemmas.WeightMatrix
import Verif.Props.Dimensions
import Verif.Props.GlobalLimit
/-
C159: what missing and infinite coordinates do to the weights.
-/
set_option linter.unusedSectionVars false
namespace Geo
variable {K : Type} [Field K] [LinearOrder K] [IsStrictOrderedRing K] [FloorRing K]

/-! ### One weight -/

theorem kernelElemAny_known {env : Env K} {lazy : Bool} {name : String}
    {w : Num K → Num K → Num K} (h : kernelElemAny env lazy name = .ok w) : name ∈ kernelTypeEnum := by
  by_contra hn
  simp only [mem_kernelTypeEnum, not_or] at hn
  obtain ⟨h1, h2, h3, h4, h5, h6, h7⟩ := hn
  simp [kernelElemAny, h1, h2, h3, h4, h5, h6, h7] at h

/-- For finite numbers it is the kernel of the rest of the model. -/
theorem kernelElemAny_fin (env : Env K) (lazy : Bool) (name : String) :
    (kernelElemAny env lazy name).map (fun w d b => w (.fin d) (.fin b)) = kernelElem env lazy name := by
  have hc : ∀ (d b : K) (w : Num K), cutSupportAny (.fin d) (.fin b) w = cutSupport d b w := by
    intro d b w
    simp [cutSupportAny, cutSupport, Num.lt]
  have hn : ∀ d b : K, normalizeAny env (.fin d) (.fin b) = normalizeDistance env d b := fun _ _ => rfl
  unfold kernelElemAny kernelElem
  repeat' split
  all_goals simp only [Except.map, hc, hn]

/-- C159: whatever the kernel, a distance that is NaN gets weight one, the weight of distance zero,
whatever the bandwidth; and a bandwidth that is NaN gives weight one to every distance. Lazy and
eager. -/
theorem C159_kernel (env : Env K) (he : env.Ok) (lazy : Bool) (name : String)
    (hn : name ∈ kernelTypeEnum) :
    ∃ w, kernelElemAny env lazy name = .ok w ∧ (∀ b, w .nan b = .fin 1) ∧ ∀ d, w d .nan = .fin 1 := by
  have h0 := he.exp_zero
  have h1 : ∀ b : Num K, normalizeAny env .nan b = .fin 0 := by
    intro b; cases b <;> rfl
  have h2 : ∀ d : Num K, normalizeAny env d .nan = .fin 0 := by
    intro d; cases d <;> rfl
  have h3 : ∀ (b w : Num K), cutSupportAny .nan b w = w := by
    intro b w; cases b <;> rfl
  have h4 : ∀ (d w : Num K), cutSupportAny d .nan w = w := by
    intro d w; cases d <;> rfl
  have h5 : ¬ (1 : K) < 0 := not_lt.2 zero_le_one
  rcases mem_kernelTypeEnum.1 hn with rfl | rfl | rfl | rfl | rfl | rfl | rfl <;> cases lazy <;>
    refine ⟨_, rfl, fun b => ?_, fun d => ?_⟩ <;>
    simp [h1, h2, h3, h4, h5, Num.exp, Num.sq, Num.mul, Num.abs, Num.cube, Num.sub, Num.add, Num.neg,
      Num.lt, h0]

/-- A float that a distance can be: not negative, or NaN. -/
def OkDist : Num K → Prop
  | .fin x => 0 ≤ x
  | .ninf => False
  | _ => True

/-- Weights are finite and between zero and one whatever the distance. -/
theorem kernelElemAny_unit {env : Env K} (he : env.Ok) {lazy : Bool} {name : String}
    {w : Num K → Num K → Num K} (h : kernelElemAny env lazy name = .ok w) {d b : Num K}
    (hd : OkDist d) (hb : OkDist b) : ∃ y, w d b = .fin y ∧ 0 ≤ y ∧ y ≤ 1 := by
  have hn := kernelElemAny_known h
  have h20 : ¬ (2 : K) < 0 := not_lt.2 zero_le_two
  have h5 : ¬ (1 : K) < 0 := not_lt.2 zero_le_one
  obtain ⟨w', hw', h1, h2⟩ := C159_kernel env he lazy name hn
  obtain rfl : w' = w := by rw [h] at hw'; injection hw' with e; exact e.symm
  cases d with
  | nan => exact ⟨1, h1 b, zero_le_one, le_rfl⟩
  | ninf => exact absurd hd id
  | fin x =>
    cases b with
    | nan => exact ⟨1, h2 _, zero_le_one, le_rfl⟩
    | ninf => exact absurd hb id
    | fin y =>
      have hk := kernelWeight_eq env lazy hn (d := x) (b := y) hd hb
      have hf := kernelElemAny_fin env lazy name
      rw [h] at hf
      simp only [kernelWeight, ← hf, Except.map] at hk
      injection hk with hk
      exact ⟨_, hk, kval_unit env he name hd hb⟩
    | pinf =>
      refine ⟨1, ?_, zero_le_one, le_rfl⟩
      rcases mem_kernelTypeEnum.1 hn with rfl | rfl | rfl | rfl | rfl | rfl | rfl <;> cases lazy <;>
        injection h with h <;> subst h <;>
        simp [normalizeAny, cutSupportAny, Num.div, h5, Num.exp, Num.sq, Num.mul, Num.abs, Num.cube,
          Num.sub, Num.add, Num.neg, Num.lt, he.exp_zero]
  | pinf =>
    cases b with
    | nan => exact ⟨1, h2 _, zero_le_one, le_rfl⟩
    | ninf => exact absurd hb id
    | fin y =>
      have hy : ¬ y < 0 := not_lt.2 hb
      have hy0 : (0 : K) ≤ 0 := le_rfl
      by_cases hu : name = "uniform"
      · subst hu
        injection h with h
        subst h
        exact ⟨1, rfl, zero_le_one, le_rfl⟩
      refine ⟨0, ?_, le_rfl, zero_le_one⟩
      rcases mem_kernelTypeEnum.1 hn with rfl | rfl | rfl | rfl | rfl | rfl | rfl <;> cases lazy <;>
        first | exact absurd rfl hu | skip
      all_goals
        injection h with h
        subst h
        simp [normalizeAny, cutSupportAny, Num.div, hy, h20, Num.exp, Num.sq, Num.mul, Num.abs, Num.cube,
          Num.sub, Num.add, Num.neg, Num.lt, Num.infSign]
    | pinf =>
      refine ⟨1, ?_, zero_le_one, le_rfl⟩
      rcases mem_kernelTypeEnum.1 hn with rfl | rfl | rfl | rfl | rfl | rfl | rfl <;> cases lazy <;>
        injection h with h <;> subst h <;>
        simp [normalizeAny, cutSupportAny, Num.div, h5, Num.exp, Num.sq, Num.mul, Num.abs, Num.cube,
          Num.sub, Num.add, Num.neg, Num.lt, he.exp_zero]

/-- C159: an infinite distance gets weight zero with a finite bandwidth, for every kernel but
`uniform`. -/
theorem C159_infinite (env : Env K) (lazy : Bool) (name : String) (hn : name ∈ kernelTypeEnum)
    (hu : name ≠ "uniform") (b : K) (hb : 0 ≤ b) :
    ∃ w, kernelElemAny env lazy name = .ok w ∧ w .pinf (.fin b) = .fin 0 := by
  have h20 : ¬ (2 : K) < 0 := not_lt.2 zero_le_two
  have hy : ¬ b < 0 := not_lt.2 hb
  rcases mem_kernelTypeEnum.1 hn with rfl | rfl | rfl | rfl | rfl | rfl | rfl <;> cases lazy <;>
    first | exact absurd rfl hu | skip
  all_goals
    refine ⟨_, rfl, ?_⟩
    simp [normalizeAny, cutSupportAny, Num.div, hy, h20, Num.exp, Num.sq, Num.mul, Num.abs, Num.cube,
      Num.sub, Num.add, Num.neg, Num.lt, Num.infSign]

/-! ### Sorting and quantiles -/

theorem sortsBefore_total (a b : Num K) : sortsBefore a b = true ∨ sortsBefore b a = true := by
  cases a <;> cases b <;> simp [sortsBefore, Num.lt, le_total]

theorem sortsBefore_trans {a b c : Num K} (h1 : sortsBefore a b = true) (h2 : sortsBefore b c = true) :
    sortsBefore a c = true := by
  cases a <;> cases b <;> cases c <;> simp_all [sortsBefore, Num.lt]
  exact h1.trans h2

instance : Std.Total (fun a b : Num K => sortsBefore a b = true) := ⟨sortsBefore_total⟩
instance : IsTrans (Num K) (fun a b : Num K => sortsBefore a b = true) := ⟨fun _ _ _ => sortsBefore_trans⟩

theorem sortAny_perm (l : List (Num K)) : (sortAny l).Perm l := List.perm_insertionSort _ l

theorem sortAny_pairwise (l : List (Num K)) : (sortAny l).Pairwise (sortsBefore · ·) :=
  List.pairwise_insertionSort (r := fun a b : Num K => sortsBefore a b = true) l

theorem sortAny_fin (l : List K) : sortAny (l.map Num.fin) = (sortL l).map .fin := by
  unfold sortAny sortL
  rw [List.map_insertionSort (r := (· ≤ ·)) (s := fun a b : Num K => sortsBefore a b = true)]
  intro a _ b _
  simp [sortsBefore, Num.lt]

theorem finites_fin (l : List K) : finites (l.map Num.fin) = some l := by
  induction l with
  | nil => rfl
  | cons a l ih => simp [finites, ih]

theorem quantileAny_fin (inf : List (Num K) → K → Num K) (virt : Nat → K → K) (l : List K) (q : K) :
    quantileAny inf virt (l.map Num.fin) q = .fin (quantileVal virt l q) := by
  have : (l.map Num.fin).any isNan = false := by simp [isNan]
  simp [quantileAny, this, finites_fin]

theorem quantileAny_nan (inf : List (Num K) → K → Num K) (virt : Nat → K → K) {l : List (Num K)}
    (h : Num.nan ∈ l) (q : K) : quantileAny inf virt l q = .nan := by
  have : l.any isNan = true := List.any_eq_true.2 ⟨_, h, rfl⟩
  simp [quantileAny, this]

theorem finites_some {l : List (Num K)} {m : List K} (h : finites l = some m) : l = m.map .fin := by
  induction l generalizing m with
  | nil => simp [finites] at h; simp [← h]
  | cons a l ih =>
    cases a with
    | fin x =>
      simp only [finites, Option.map_eq_some_iff] at h
      obtain ⟨m', h1, rfl⟩ := h
      simp [← ih h1]
    | _ => simp [finites] at h

theorem quantileAny_ok {inf : List (Num K) → K → Num K}
    (hinf : ∀ l q, (∀ x ∈ l, OkDist x) → OkDist (inf l q)) (virt : Nat → K → K) {l : List (Num K)}
    (hl : ∀ x ∈ l, OkDist x) (h0 : l ≠ []) (q : K) : OkDist (quantileAny inf virt l q) := by
  unfold quantileAny
  split
  · trivial
  · split
    · rename_i m hm
      have e := finites_some hm
      obtain ⟨a, ha, -, -, h1, -⟩ := quantileVal_between virt (l := m) q (by
        rcases m with _ | ⟨a, m⟩
        · exact absurd e h0
        · simp)
      have := hl (.fin a) (by rw [e]; exact List.mem_map_of_mem ha)
      exact le_trans this h1
    · exact hinf _ _ hl

theorem sortsBefore_isNan {a b : Num K} (h : sortsBefore a b = true) (hb : isNan b = false) :
    isNan a = false := by
  cases a <;> cases b <;> simp_all [sortsBefore, isNan]

theorem sortsBefore_lt {a b : Num K} (h : sortsBefore a b = true) : Num.lt b a = false := by
  cases a <;> cases b <;> simp_all [sortsBefore, Num.lt]

theorem isNan_iff {a : Num K} : isNan a = true ↔ a = .nan := by cases a <;> simp [isNan]

theorem sortsBefore_refl (a : Num K) : sortsBefore a a = true := (sortsBefore_total a a).elim id id

/-- The values that are not missing. -/
def presentCount (l : List (Num K)) : Nat := l.countP fun x => !isNan x

/-- The entry `np.partition` finds: NaN if fewer values are present; otherwise at least that many
values are at most as large and fewer are smaller. -/
theorem sortAny_kth {l : List (Num K)} {k : Nat} (hk : 0 < k) (hkl : k ≤ l.length) :
    (presentCount l < k → (sortAny l).getD (k - 1) (.fin 0) = .nan) ∧
    (k ≤ presentCount l → ∃ b, (sortAny l).getD (k - 1) (.fin 0) = b ∧ isNan b = false ∧ b ∈ l ∧
      l.countP (fun x => Num.lt x b) < k ∧ k ≤ l.countP (fun x => !isNan x && !Num.lt b x)) := by
  have hp := sortAny_perm l
  have hs := sortAny_pairwise l
  have hlen : (sortAny l).length = l.length := hp.length_eq
  generalize hsl : sortAny l = s at hp hs hlen
  have hks : k - 1 < s.length := by omega
  rw [List.getD_eq_getElem _ _ hks]
  have hle : ∀ i (hi : i < s.length), i ≤ k - 1 → sortsBefore s[i] s[k - 1] = true := by
    intro i hi h
    rcases Nat.eq_or_lt_of_le h with e | h
    · subst e; exact sortsBefore_refl _
    · exact List.pairwise_iff_getElem.1 hs i (k - 1) hi hks h
  have hge : ∀ i (hi : i < s.length), k - 1 ≤ i → sortsBefore s[k - 1] s[i] = true := by
    intro i hi h
    rcases Nat.eq_or_lt_of_le h with e | h
    · subst e; exact sortsBefore_refl _
    · exact List.pairwise_iff_getElem.1 hs (k - 1) i hks hi h
  have hbm : s[k - 1] ∈ l := hp.mem_iff.1 (List.getElem_mem hks)
  have hcount : ∀ P : Num K → Bool, (∀ i (hi : i < s.length), i ≤ k - 1 → P s[i] = true) → k ≤ l.countP P := by
    intro P h
    rw [← hp.countP_eq, ← List.take_append_drop k s, List.countP_append]
    have h1 : (s.take k).countP P = (s.take k).length := by
      rw [List.countP_eq_length]
      intro a ha
      obtain ⟨i, hi, rfl⟩ := List.getElem_of_mem ha
      have hi' := hi
      simp only [List.length_take] at hi'
      rw [List.getElem_take]
      exact h i (by omega) (by omega)
    have h2 : (s.take k).length = k := by simp; omega
    omega
  have hfew : ∀ P : Num K → Bool, (∀ i (hi : i < s.length), k - 1 ≤ i → P s[i] = false) → l.countP P < k := by
    intro P h
    rw [← hp.countP_eq, ← List.take_append_drop (k - 1) s, List.countP_append]
    have h1 : (s.drop (k - 1)).countP P = 0 := by
      rw [List.countP_eq_zero]
      intro a ha
      obtain ⟨i, hi, rfl⟩ := List.getElem_of_mem ha
      have hi' := hi
      simp only [List.length_drop] at hi'
      rw [List.getElem_drop, h (k - 1 + i) (by omega) (by omega)]
      simp
    have h2 : (s.take (k - 1)).countP P ≤ k - 1 := List.countP_le_length.trans (by simp)
    omega
  generalize s[k - 1] = b at hle hge hbm ⊢
  constructor
  · intro h
    by_contra hb
    have hb : isNan b = false := by
      rw [← Bool.not_eq_true, isNan_iff]; exact hb
    refine absurd h (not_lt.2 (hcount _ fun i hi h1 => ?_))
    rw [sortsBefore_isNan (hle i hi h1) hb]
    rfl
  · intro h
    have hb : isNan b = false := by
      by_contra hb
      refine absurd h (not_le.2 (hfew _ fun i hi h1 => ?_))
      cases hi' : isNan s[i] with
      | true => rfl
      | false => exact absurd (sortsBefore_isNan (hge i hi h1) hi') hb
    refine ⟨b, rfl, hb, hbm, hfew _ fun i hi h1 => sortsBefore_lt (hge i hi h1),
      hcount _ fun i hi h1 => ?_⟩
    rw [sortsBefore_isNan (hle i hi h1) hb, sortsBefore_lt (hle i hi h1)]
    rfl

/-! ### Finite distances -/

/-- A dimension whose distances are all finite. -/
def DimSpec.any (d : DimSpec K) : DimAny K where
  dist := d.dist.map .fin
  kernel := d.kernel
  bandwidth := d.bandwidth
  count := d.count
  sorted := d.sorted.map (Mat.map .fin)

theorem map_fin_row (D : Mat K) (i : Nat) : (D.map Num.fin).row i = (D.row i).map Num.fin := by
  simp [Mat.row, Mat.map]

theorem kernelFunctionAny_fin (env : Env K) (lazy : Bool) (D : Mat K) (bw : Nat → K) (name : String) :
    kernelFunctionAny env lazy (D.map .fin) (fun i => .fin (bw i)) name = kernelFunction env lazy D bw name := by
  unfold kernelFunctionAny kernelFunction
  rw [← kernelElemAny_fin]
  cases kernelElemAny env lazy name <;> rfl

theorem bandwidthEagerAny_fin (inf : List (Num K) → K → Num K) (D : Mat K) (n : Count K) :
    adaptiveBandwidthEagerAny inf (D.map .fin) n =
      (adaptiveBandwidthEager D n).map fun bw i => .fin (bw i) := by
  cases n with
  | int k =>
    simp only [adaptiveBandwidthEagerAny, adaptiveBandwidthEager, map_fin_row, sortAny_fin]
    have hg : ∀ (l : List K) (k : Nat), (l.map Num.fin).getD k (.fin 0) = .fin (l.getD k 0) :=
      fun l k => List.getD_map (f := Num.fin) ..
    have hc : (D.map (Num.fin (K := K))).c = D.c := rfl
    rw [hc]
    split
    · rfl
    · split
      · simp only [hg]; rfl
      · rfl
  | float q =>
    simp only [adaptiveBandwidthEagerAny, adaptiveBandwidthEager, map_fin_row, quantileAny_fin]
    have hc : (D.map (Num.fin (K := K))).c = D.c := rfl
    rw [hc]
    split
    · rfl
    · split
      · rfl
      · split <;> rfl
  | npInt k => rfl

theorem bandwidthLazyAny_fin (inf : List (Num K) → K → Num K) (D : Mat K) (n : Count K)
    (S : Option (Mat K)) :
    adaptiveBandwidthLazyAny inf (D.map .fin) n (S.map (Mat.map .fin)) =
      (adaptiveBandwidthLazy D n S).map fun bw i => .fin (bw i) := by
  have hc : (D.map (Num.fin (K := K))).c = D.c := rfl
  have hr : (D.map (Num.fin (K := K))).r = D.r := rfl
  cases S with
  | none =>
    simp only [adaptiveBandwidthLazyAny, adaptiveBandwidthLazy, map_fin_row, quantileAny_fin,
      Option.map_none, hc]
    split
    · rfl
    · split <;> rfl
  | some S =>
    have hs : (S.map (Num.fin (K := K))).c = S.c := rfl
    simp only [adaptiveBandwidthLazyAny, adaptiveBandwidthLazy, Option.map_some, hr, hs]
    split
    · rfl
    · split
      · rfl
      · split <;> rfl

theorem DimAny_weights_fin (env : Env K) (inf : List (Num K) → K → Num K) (lazy : Bool) (d : DimSpec K) :
    d.any.weights env inf lazy = d.weights env lazy := by
  unfold DimAny.weights DimSpec.weights weightByDistanceAny weightByDistance
  obtain ⟨D, name, b, n, S⟩ := d
  cases b with
  | some b =>
    cases n with
    | none => exact kernelFunctionAny_fin env lazy D (fun _ => b) name
    | some n => rfl
  | none =>
    cases n with
    | none => rfl
    | some n =>
      simp only [DimSpec.any, adaptiveKernelAny, adaptiveKernel, adaptiveBandwidth]
      cases lazy with
      | false =>
        simp only [Bool.false_eq_true, if_false, bandwidthEagerAny_fin]
        cases adaptiveBandwidthEager D n with
        | error e => rfl
        | ok bw => exact kernelFunctionAny_fin env false D bw name
      | true =>
        simp only [if_true, bandwidthLazyAny_fin]
        cases adaptiveBandwidthLazy D n S with
        | error e => rfl
        | ok bw => exact kernelFunctionAny_fin env true D bw name

/-- C159: on finite distances the model used here is the model of `weight_matrix_from_distance` used
everywhere else. -/
theorem C159_same_program (env : Env K) (inf : List (Num K) → K → Num K) (lazy : Bool)
    (l : List (DimSpec K)) : weightMatrixAny env inf lazy (l.map DimSpec.any) = weightsOf env lazy l := by
  have hw : mapE (DimAny.weights env inf lazy) (l.map DimSpec.any) = mapE (DimSpec.weights env lazy) l := by
    induction l with
    | nil => rfl
    | cons d l ih => simp only [List.map_cons, mapE, DimAny_weights_fin, ih]
  have hs : ((l.map DimSpec.any).map fun d => (d.dist.r, d.dist.c)) =
      ((l.map (·.dist)).map fun D => (D.r, D.c)) := by
    simp only [List.map_map]; rfl
  unfold weightMatrixAny weightsOf weightMatrixFromDistance
  rw [hs, hw]
  have e1 : effectiveDistances (l.map (·.dist)) (dimArgs l).ratio = .ok (l.map (·.dist)) := rfl
  have e2 : (dimArgs l).bandwidth.isNone = false := rfl
  rw [e1, e2]
  simp only [Bool.false_and, Bool.false_eq_true, if_false, bind, Except.bind, dimWeights_args]
  cases l with
  | nil => rfl
  | cons d l => rfl

/-! ### The matrix -/

/-- The numbers given for a dimension are possible distances and bandwidths. -/
structure DimAny.Ok (d : DimAny K) : Prop where
  dist : ∀ i < d.dist.r, ∀ j < d.dist.c, OkDist (d.dist.get i j)
  bandwidth : ∀ b, d.bandwidth = some b → 0 ≤ b
  sorted : ∀ S, d.sorted = some S → ∀ i < d.dist.r, ∀ j < S.c, OkDist (S.get i j)

/-- Quantiles of distances are not negative. -/
def InfOk (inf : List (Num K) → K → Num K) : Prop := ∀ l q, (∀ x ∈ l, OkDist x) → OkDist (inf l q)

theorem bandwidthAny_ok {inf : List (Num K) → K → Num K} (hinf : InfOk inf) {lazy : Bool}
    {D : Mat (Num K)} {n : Count K} {S : Option (Mat (Num K))} {bw : Nat → Num K}
    (h : (if lazy then adaptiveBandwidthLazyAny inf D n S else adaptiveBandwidthEagerAny inf D n) = .ok bw)
    {i : Nat} (hD : ∀ j < D.c, OkDist (D.get i j))
    (hS : ∀ S', S = some S' → ∀ j < S'.c, OkDist (S'.get i j)) : OkDist (bw i) := by
  have hrow : ∀ x ∈ D.row i, OkDist x := by
    intro x hx
    obtain ⟨j, hj, rfl⟩ := Mat.mem_row.1 hx
    exact hD j hj
  have hq : ∀ virt q, 0 < D.c → OkDist (quantileAny inf virt (D.row i) q) := by
    intro virt q hc
    refine quantileAny_ok hinf virt hrow ?_ q
    intro e
    have := congrArg List.length e
    simp at this
    omega
  split at h
  · unfold adaptiveBandwidthLazyAny at h
    split at h
    · split at h
      · cases h
      · split at h
        · rename_i hc; injection h with h; rw [← h]; exact hS _ rfl _ (by omega)
        · split at h
          · rename_i hc; injection h with h; rw [← h]; exact hS _ rfl _ (by omega)
          · cases h
    · split at h
      · cases h
      · split at h
        · cases h
        · injection h with h; rw [← h]; exact hq _ _ (by omega)
  · unfold adaptiveBandwidthEagerAny at h
    split at h
    · split at h
      · cases h
      · split at h
        · rename_i hk
          injection h with h; rw [← h]
          have hs := hk
          rw [← Mat.row_length D i, ← (sortAny_perm (D.row i)).length_eq] at hs
          simp only [List.getD_eq_getElem _ _ hs]
          exact hrow _ ((sortAny_perm _).mem_iff.1 (List.getElem_mem hs))
        · cases h
    · split at h
      · cases h
      · split at h
        · cases h
        · split at h
          · cases h
          · injection h with h; rw [← h]; exact hq _ _ (by omega)
    · cases h

/-- The weights of a dimension: a kernel and a bandwidth for every row. -/
theorem DimAny_weights_ok {env : Env K} {inf : List (Num K) → K → Num K} {lazy : Bool} {d : DimAny K}
    {W : Mat (Num K)} (h : d.weights env inf lazy = .ok W) :
    ∃ w bw, kernelElemAny env lazy d.kernel = .ok w ∧
      W = ⟨d.dist.r, d.dist.c, fun i j => w (d.dist.get i j) (bw i)⟩ ∧
      ((∃ b, d.bandwidth = some b ∧ d.count = none ∧ bw = fun _ => .fin b) ∨
        ∃ n, d.bandwidth = none ∧ d.count = some n ∧
          (if lazy then adaptiveBandwidthLazyAny inf d.dist n (if lazy then d.sorted else none)
            else adaptiveBandwidthEagerAny inf d.dist n) = .ok bw) := by
  have key : ∀ bw, kernelFunctionAny env lazy d.dist bw d.kernel = .ok W →
      ∃ w, kernelElemAny env lazy d.kernel = .ok w ∧
        W = ⟨d.dist.r, d.dist.c, fun i j => w (d.dist.get i j) (bw i)⟩ := by
    intro bw h
    unfold kernelFunctionAny at h
    split at h
    · cases h
    · rename_i w hw
      injection h with h
      exact ⟨w, hw, h.symm⟩
  unfold DimAny.weights weightByDistanceAny at h
  split at h
  · rename_i b n hb hn
    obtain ⟨w, hw, e⟩ := key _ h
    exact ⟨w, _, hw, e, .inl ⟨_, hb, hn, rfl⟩⟩
  · rename_i b n hb hn
    unfold adaptiveKernelAny at h
    split at h
    · cases h
    · rename_i bw hbw
      obtain ⟨w, hw, e⟩ := key _ h
      exact ⟨w, bw, hw, e, .inr ⟨_, hb, hn, hbw⟩⟩
  · cases h

theorem DimAny_weights_unit {env : Env K} (he : env.Ok) {inf : List (Num K) → K → Num K}
    (hinf : InfOk inf) {lazy : Bool} {d : DimAny K} (hd : d.Ok) {W : Mat (Num K)}
    (h : d.weights env inf lazy = .ok W) {i j : Nat} (hi : i < d.dist.r) (hj : j < d.dist.c) :
    ∃ y, W.get i j = .fin y ∧ 0 ≤ y ∧ y ≤ 1 := by
  obtain ⟨w, bw, hw, rfl, hbw⟩ := DimAny_weights_ok h
  refine kernelElemAny_unit he hw (hd.dist i hi j hj) ?_
  rcases hbw with ⟨b, hb, -, rfl⟩ | ⟨n, -, -, hbw⟩
  · exact hd.bandwidth b hb
  · refine bandwidthAny_ok hinf hbw (hd.dist i hi) ?_
    intro S' hS'
    cases lazy with
    | false => cases hS'
    | true => exact hd.sorted S' hS' i hi

/-- Everything about a successful call. -/
theorem weightMatrixAny_ok {env : Env K} (he : env.Ok) {inf : List (Num K) → K → Num K}
    (hinf : InfOk inf) {lazy : Bool} {l : List (DimAny K)} {W : Mat (Num K)}
    (hl : ∀ d ∈ l, d.Ok) (h : weightMatrixAny env inf lazy l = .ok W) :
    ∃ Ws, mapE (DimAny.weights env inf lazy) l = .ok Ws ∧ l ≠ [] ∧
      (∀ d ∈ l, d.dist.r = W.r ∧ d.dist.c = W.c) ∧ UnitWs Ws W.r W.c ∧ 0 < W.r ∧ 0 < W.c ∧
      logStats lazy W = .ok () ∧
      ∀ i < W.r, ∀ j < W.c, W.get i j = .fin (prodK Ws i j / normK Ws W.c i) := by
  unfold weightMatrixAny at h
  split at h
  · cases h
  rename_i hs
  rw [not_not, List.length_eq_one_iff] at hs
  obtain ⟨Ws, hWs, h⟩ := bind_ok.1 h
  cases l with
  | nil => simp at hs
  | cons d0 l =>
    simp only at h
    obtain ⟨u, hu, h⟩ := bind_ok.1 h
    injection h with h
    have hsh : ∀ d ∈ d0 :: l, d.dist.r = d0.dist.r ∧ d.dist.c = d0.dist.c := by
      intro d hd
      obtain ⟨s, hs⟩ := hs
      have h1 : (d.dist.r, d.dist.c) ∈ ((d0 :: l).map fun d => (d.dist.r, d.dist.c)).dedup :=
        List.mem_dedup.2 (List.mem_map.2 ⟨d, hd, rfl⟩)
      have h2 : (d0.dist.r, d0.dist.c) ∈ ((d0 :: l).map fun d => (d.dist.r, d.dist.c)).dedup :=
        List.mem_dedup.2 (List.mem_map.2 ⟨d0, by simp, rfl⟩)
      rw [hs, List.mem_singleton] at h1 h2
      have := h1.trans h2.symm
      simp only [Prod.mk.injEq] at this
      exact this
    have hunit : UnitWs Ws d0.dist.r d0.dist.c := by
      intro V hV i hi j hj
      obtain ⟨k, hk, rfl⟩ := List.getElem_of_mem hV
      have hk' : k < (d0 :: l).length := mapE_length hWs ▸ hk
      have hm : (d0 :: l)[k] ∈ d0 :: l := List.getElem_mem hk'
      have := mapE_get hWs hk'
      exact DimAny_weights_unit he hinf (hl _ hm) this ((hsh _ hm).1 ▸ hi) ((hsh _ hm).2 ▸ hj)
    have hr : W.r = d0.dist.r := by rw [← h]; rfl
    have hc : W.c = d0.dist.c := by rw [← h]; rfl
    rw [hr, hc]
    have hlog : logStats lazy W = .ok () := by rw [← h]; exact hu
    have hpos : 0 < d0.dist.r ∧ 0 < d0.dist.c := by
      rw [← hr, ← hc]
      by_contra hc
      have h0 : W.r = 0 ∨ W.c = 0 := by omega
      have hl : W.toLists.flatten = [] := by
        rcases h0 with h0 | h0 <;> simp [Mat.toLists, Mat.row, h0]
      have hm : W.r * W.c = 0 := Nat.mul_eq_zero.2 h0
      cases lazy <;> simp [logStats, hl, hm] at hlog
    refine ⟨Ws, hWs, by simp, hsh, hunit, hpos.1, hpos.2, hlog, fun i hi j hj => ?_⟩
    rw [← h]
    exact hunit.normalized hi hj

/-- C159: nothing in the result gives missing values away. Whenever the call returns, every weight is a
finite number between zero and one, and every row with a non-zero weight sums to one, however many of
the distances are NaN or infinite. -/
theorem C159_no_trace (env : Env K) (he : env.Ok) (inf : List (Num K) → K → Num K) (hinf : InfOk inf)
    (lazy : Bool) (l : List (DimAny K)) (hl : ∀ d ∈ l, d.Ok) (W : Mat (Num K))
    (h : weightMatrixAny env inf lazy l = .ok W) (i : Nat) (hi : i < W.r) :
    (∀ j < W.c, ∃ x, W.get i j = .fin x ∧ 0 ≤ x ∧ x ≤ 1) ∧
    ((∃ j < W.c, W.get i j ≠ .fin 0) → ∑ j ∈ Finset.range W.c, (W.get i j).toK = 1) := by
  obtain ⟨Ws, -, -, -, hu, -, -, -, hW⟩ := weightMatrixAny_ok he hinf hl h
  have hnp := hu.normK_pos hi
  have hsum : ∀ j < W.c, prodK Ws i j ≤ normK Ws W.c i := by
    intro j hj
    have h1 : prodK Ws i j ≤ ∑ j ∈ Finset.range W.c, prodK Ws i j :=
      Finset.single_le_sum (f := fun j => prodK Ws i j)
        (fun k hk => (hu.prodK_unit hi (Finset.mem_range.1 hk)).1) (Finset.mem_range.2 hj)
    unfold normK
    split
    · exact (hu.prodK_unit hi hj).2
    · exact h1
  refine ⟨fun j hj => ⟨_, hW i hi j hj, div_nonneg (hu.prodK_unit hi hj).1 hnp.le,
    (div_le_one hnp).2 (hsum j hj)⟩, ?_⟩
  rintro ⟨j, hj, hne⟩
  rw [Finset.sum_congr rfl fun j hj => by rw [hW i hi j (Finset.mem_range.1 hj)]]
  simp only [Num.toK]
  rw [← Finset.sum_div]
  have hs : ∑ j ∈ Finset.range W.c, prodK Ws i j ≠ 0 := by
    intro h0
    have := (Finset.sum_eq_zero_iff_of_nonneg
      (fun k hk => (hu.prodK_unit hi (Finset.mem_range.1 hk)).1)).1 h0 j (Finset.mem_range.2 hj)
    rw [hW i hi j hj, this] at hne
    simp at hne
  unfold normK
  rw [if_neg hs, div_self hs]

/-- The value a missing number is read as. -/
def zeroForNan : Num K → Num K
  | .nan => .fin 0
  | x => x

/-- C159: with fixed bandwidths a missing distance counts as distance zero. The call returns, for any
mixture of dimensions with fixed bandwidths, exactly what it returns when every NaN among the distances
is replaced by zero. -/
theorem C159_counts_as_zero (env : Env K) (he : env.Ok) (inf : List (Num K) → K → Num K) (lazy : Bool)
    (l : List (DimAny K)) (hl : ∀ d ∈ l, d.count = none ∧ ∃ b, d.bandwidth = some b ∧ 0 ≤ b) :
    weightMatrixAny env inf lazy l =
      weightMatrixAny env inf lazy (l.map fun d => { d with dist := d.dist.map zeroForNan }) := by
  have hw : ∀ d ∈ l, DimAny.weights env inf lazy d =
      DimAny.weights env inf lazy { d with dist := d.dist.map zeroForNan } := by
    intro d hd
    obtain ⟨hn, b, hb, hb0⟩ := hl d hd
    unfold DimAny.weights weightByDistanceAny
    simp only [hn, hb, kernelFunctionAny]
    cases hk : kernelElemAny env lazy d.kernel with
    | error e => rfl
    | ok w =>
      have hknown := kernelElemAny_known hk
      obtain ⟨w', hw', h1, h2⟩ := C159_kernel env he lazy d.kernel hknown
      obtain rfl : w' = w := by rw [hk] at hw'; injection hw' with e; exact e.symm
      have h0 : w' (.fin 0) (.fin b) = .fin 1 := by
        have hkw := kernelWeight_eq env lazy hknown (d := 0) (b := b) le_rfl hb0
        have hf := kernelElemAny_fin env lazy d.kernel
        rw [hk] at hf
        simp only [kernelWeight, ← hf, Except.map] at hkw
        injection hkw with hkw
        rw [hkw, kval_self env he _ hb0]
      simp only [Except.ok.injEq, Mat.mk.injEq, true_and, Mat.map]
      funext i j
      cases d.dist.get i j with
      | nan => simp only [zeroForNan, h0, h1]
      | _ => rfl
  have hm : mapE (DimAny.weights env inf lazy) l =
      mapE (DimAny.weights env inf lazy) (l.map fun d => { d with dist := d.dist.map zeroForNan }) := by
    clear hl
    induction l with
    | nil => rfl
    | cons d l ih =>
      simp only [List.map_cons, mapE]
      rw [hw d (by simp), ih fun d hd => hw d (by simp [hd])]
  unfold weightMatrixAny
  rw [← hm]
  have hs : ((l.map fun d => ({ d with dist := d.dist.map zeroForNan } : DimAny K)).map
      fun d => (d.dist.r, d.dist.c)) = l.map fun d => (d.dist.r, d.dist.c) := by
    simp only [List.map_map]; rfl
  rw [hs]
  split
  · rfl
  · cases l <;> rfl

theorem prodK_one {Ws : List (Mat (Num K))} {i j : Nat} (h : ∀ V ∈ Ws, V.get i j = .fin 1) :
    prodK Ws i j = 1 := by
  apply List.prod_eq_one
  intro x hx
  obtain ⟨V, hV, rfl⟩ := List.mem_map.1 hx
  rw [h V hV]
  rfl

/-- C159: an observation whose coordinates are missing is a neighbour of every location, and none is
heavier. If the distance of column `j` in row `i` is NaN in every dimension, column `j` has a positive
weight in row `i` that no other column exceeds, for every kernel, bandwidth and neighbour count. -/
theorem C159_heaviest (env : Env K) (he : env.Ok) (inf : List (Num K) → K → Num K) (hinf : InfOk inf)
    (lazy : Bool) (l : List (DimAny K)) (hl : ∀ d ∈ l, d.Ok) (W : Mat (Num K))
    (h : weightMatrixAny env inf lazy l = .ok W) (i j : Nat) (hi : i < W.r) (hj : j < W.c)
    (hnan : ∀ d ∈ l, d.dist.get i j = .nan) :
    0 < (W.get i j).toK ∧ ∀ k < W.c, (W.get i k).toK ≤ (W.get i j).toK := by
  obtain ⟨Ws, hWs, -, -, hu, -, -, -, hW⟩ := weightMatrixAny_ok he hinf hl h
  have hone : prodK Ws i j = 1 := by
    refine prodK_one fun V hV => ?_
    obtain ⟨d, hd, rfl⟩ := List.getElem_of_mem hV
    have hd' : d < l.length := mapE_length hWs ▸ hd
    obtain ⟨w, bw, hw, e, -⟩ := DimAny_weights_ok (mapE_get hWs hd')
    obtain ⟨w', hw', h1, -⟩ := C159_kernel env he lazy _ (kernelElemAny_known hw)
    obtain rfl : w' = w := by rw [hw] at hw'; injection hw' with e; exact e.symm
    rw [e]
    simp only [hnan _ (List.getElem_mem hd'), h1]
  have hnp := hu.normK_pos hi
  rw [hW i hi j hj, hone]
  refine ⟨div_pos one_pos hnp, fun k hk => ?_⟩
  rw [hW i hi k hk]
  exact div_le_div_of_nonneg_right (hu.prodK_unit hi hk).2 hnp.le

/-- Rows in which all products are one. -/
theorem uniform_row {Ws : List (Mat (Num K))} {W : Mat (Num K)} {i : Nat} (hc : 0 < W.c)
    (hone : ∀ j < W.c, prodK Ws i j = 1)
    (hW : ∀ j < W.c, W.get i j = .fin (prodK Ws i j / normK Ws W.c i)) (j : Nat) (hj : j < W.c) :
    W.get i j = .fin (1 / (W.c : K)) := by
  have hs : ∑ j ∈ Finset.range W.c, prodK Ws i j = (W.c : K) := by
    rw [Finset.sum_congr rfl fun j hj => hone j (Finset.mem_range.1 hj)]
    simp
  have hc0 : (W.c : K) ≠ 0 := by exact_mod_cast hc.ne'
  rw [hW j hj, hone j hj]
  unfold normK
  rw [hs, if_neg hc0]

/-- C159: a place without coordinates gets all observations as neighbours, all with the same weight,
whatever the kernel, bandwidth or neighbour count. -/
theorem C159_place_without_coordinates (env : Env K) (he : env.Ok) (inf : List (Num K) → K → Num K)
    (hinf : InfOk inf) (lazy : Bool) (l : List (DimAny K)) (hl : ∀ d ∈ l, d.Ok) (W : Mat (Num K))
    (h : weightMatrixAny env inf lazy l = .ok W) (i : Nat) (hi : i < W.r)
    (hnan : ∀ d ∈ l, ∀ j < W.c, d.dist.get i j = .nan) (j : Nat) (hj : j < W.c) :
    W.get i j = .fin (1 / (W.c : K)) := by
  obtain ⟨Ws, hWs, -, -, hu, -, hc, -, hW⟩ := weightMatrixAny_ok he hinf hl h
  refine uniform_row (Ws := Ws) hc (fun j hj => ?_) (hW i hi) j hj
  refine prodK_one fun V hV => ?_
  obtain ⟨d, hd, rfl⟩ := List.getElem_of_mem hV
  have hd' : d < l.length := mapE_length hWs ▸ hd
  obtain ⟨w, bw, hw, e, -⟩ := DimAny_weights_ok (mapE_get hWs hd')
  obtain ⟨w', hw', h1, -⟩ := C159_kernel env he lazy _ (kernelElemAny_known hw)
  obtain rfl : w' = w := by rw [hw] at hw'; injection hw' with e; exact e.symm
  rw [e]
  simp only [hnan _ (List.getElem_mem hd') j hj, h1]

/-- A dimension whose bandwidth is a quantile of the distances: a fractional neighbour count, computed
eagerly or lazily without sorted distances. -/
def DimAny.Fraction (lazy : Bool) (d : DimAny K) : Prop :=
  d.bandwidth = none ∧ (∃ q, d.count = some (.float q)) ∧ (lazy = true → d.sorted = none)

theorem fraction_nan {env : Env K} (he : env.Ok) {inf : List (Num K) → K → Num K} {lazy : Bool}
    {d : DimAny K} (hf : d.Fraction lazy) {V : Mat (Num K)} (h : d.weights env inf lazy = .ok V) {i k : Nat}
    (hk : k < d.dist.c) (hnan : d.dist.get i k = .nan) (j : Nat) : V.get i j = .fin 1 := by
  obtain ⟨w, bw, hw, rfl, hbw⟩ := DimAny_weights_ok h
  obtain ⟨w', hw', -, h2⟩ := C159_kernel env he lazy _ (kernelElemAny_known hw)
  obtain rfl : w' = w := by rw [hw] at hw'; injection hw' with e; exact e.symm
  obtain ⟨hb, ⟨q, hq⟩, hS⟩ := hf
  have hmem : Num.nan ∈ d.dist.row i := Mat.mem_row.2 ⟨k, hk, hnan⟩
  rcases hbw with ⟨b, hb', -, -⟩ | ⟨n, -, hn, hbw⟩
  · rw [hb] at hb'; cases hb'
  · rw [hq] at hn
    injection hn with hn
    subst hn
    have hbi : bw i = .nan := by
      cases lazy with
      | true =>
        simp only [if_true, hS rfl] at hbw
        unfold adaptiveBandwidthLazyAny at hbw
        simp only at hbw
        split at hbw
        · cases hbw
        · split at hbw
          · cases hbw
          · injection hbw with hbw; rw [← hbw]; exact quantileAny_nan inf _ hmem _
      | false =>
        simp only [Bool.false_eq_true, if_false] at hbw
        unfold adaptiveBandwidthEagerAny at hbw
        simp only at hbw
        split at hbw
        · cases hbw
        · split at hbw
          · cases hbw
          · split at hbw
            · cases hbw
            · injection hbw with hbw; rw [← hbw]; exact quantileAny_nan inf _ hmem _
    simp only [hbi, h2]

/-- C159: with a fractional neighbour count one observation without coordinates switches the weighting
off. If every row has a NaN in every dimension, as it does when one observation has no coordinates, all
weights of the matrix are equal. -/
theorem C159_fraction (env : Env K) (he : env.Ok) (inf : List (Num K) → K → Num K) (hinf : InfOk inf)
    (lazy : Bool) (l : List (DimAny K)) (hl : ∀ d ∈ l, d.Ok) (hf : ∀ d ∈ l, d.Fraction lazy)
    (W : Mat (Num K)) (h : weightMatrixAny env inf lazy l = .ok W) (i : Nat) (hi : i < W.r)
    (hnan : ∀ d ∈ l, ∃ k < W.c, d.dist.get i k = .nan) (j : Nat) (hj : j < W.c) :
    W.get i j = .fin (1 / (W.c : K)) := by
  obtain ⟨Ws, hWs, -, hsh, hu, -, hc, -, hW⟩ := weightMatrixAny_ok he hinf hl h
  refine uniform_row (Ws := Ws) hc (fun j hj => ?_) (hW i hi) j hj
  refine prodK_one fun V hV => ?_
  obtain ⟨d, hd, rfl⟩ := List.getElem_of_mem hV
  have hd' : d < l.length := mapE_length hWs ▸ hd
  have hm : l[d] ∈ l := List.getElem_mem hd'
  obtain ⟨k, hk, hkn⟩ := hnan _ hm
  exact fraction_nan he (hf _ hm) (mapE_get hWs hd') ((hsh _ hm).2 ▸ hk) hkn j

end Geo
