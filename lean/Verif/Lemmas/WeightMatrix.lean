import Verif.Lemmas.Kernel
import Verif.Spec.WeightMatrix
import Mathlib.Algebra.BigOperators.Group.Finset.Basic
import Mathlib.Algebra.Order.BigOperators.Group.Finset
import Mathlib.Algebra.Order.BigOperators.Ring.List
set_option linter.unusedSectionVars false
namespace Geo
variable {K : Type} [Field K] [LinearOrder K] [IsStrictOrderedRing K] [FloorRing K]

theorem bind_ok {α β : Type} {x : Except Err α} {f : α → Except Err β} {b : β} :
    (x >>= f) = .ok b ↔ ∃ a, x = .ok a ∧ f a = .ok b := by
  cases x with
  | error e =>
    constructor
    · intro h; cases h
    · rintro ⟨a, h, -⟩; cases h
  | ok a => exact ⟨fun h => ⟨a, rfl, h⟩, fun ⟨a', h, h'⟩ => by cases h; exact h'⟩

theorem pyGet_ok {α : Type} {l : List α} {i : Nat} {a : α} :
    pyGet l i = .ok a ↔ l[i]? = some a := by
  unfold pyGet
  split <;> rename_i h <;> simp [h]

theorem pyGet_mem {α : Type} {l : List α} {i : Nat} {a : α} (h : pyGet l i = .ok a) : a ∈ l :=
  List.mem_of_getElem? (pyGet_ok.1 h)

/-- The adaptive bandwidth of a row with non-negative distances is non-negative. -/
theorem adaptiveBandwidth_nonneg {lazy : Bool} {D : Mat K} {n : Count K} {S : Option (Mat K)}
    {bw : Nat → K} (h : adaptiveBandwidth lazy D n S = .ok bw) {i : Nat}
    (hD : ∀ j < D.c, 0 ≤ D.get i j) (hS : ∀ S', S = some S' → ∀ j < S'.c, 0 ≤ S'.get i j) :
    0 ≤ bw i := by
  have hq : ∀ virt q, 0 < D.c → 0 ≤ quantileVal virt (D.row i) q := by
    intro virt q hc
    obtain ⟨a, ha, -, -, h1, -⟩ := quantileVal_between virt (l := D.row i) q (by simpa using hc)
    obtain ⟨j, hj, rfl⟩ := Mat.mem_row.1 ha
    exact (hD j hj).trans h1
  unfold adaptiveBandwidth at h
  split at h
  · unfold adaptiveBandwidthLazy at h
    split at h
    · split at h
      · cases h
      · split at h
        · rename_i hc; injection h with h; rw [← h]; exact hS _ rfl _ (by omega)
        · split at h
          · rename_i hc; injection h with h; rw [← h]; exact hS _ rfl _ (by omega)
          · cases h
    · split at h
      · cases h
      · split at h
        · cases h
        · injection h with h; rw [← h]; exact hq _ _ (by omega)
  · unfold adaptiveBandwidthEager at h
    split at h
    · split at h
      · cases h
      · split at h
        · rename_i hk
          injection h with h; rw [← h]
          have hs := hk
          rw [← Mat.row_length D i, ← sortL_length] at hs
          simp only [List.getD_eq_getElem _ _ hs]
          obtain ⟨j, hj, he⟩ := Mat.mem_row.1 (mem_sortL.1 (List.getElem_mem hs))
          rw [← he]; exact hD j hj
        · cases h
    · split at h
      · cases h
      · split at h
        · cases h
        · split at h
          · cases h
          · injection h with h; rw [← h]; exact hq _ _ (by omega)
    · cases h

/-- The weights of one dimension are kernel values with a non-negative bandwidth per row. -/
theorem weightByDistance_val (env : Env K) {lazy : Bool} {D : Mat K} {name : String}
    {b : Option K} {n : Option (Count K)} {S : Option (Mat K)} {W : Mat (Num K)}
    (h : weightByDistance env lazy D name b n S = .ok W)
    (hD : ∀ i < D.r, ∀ j < D.c, 0 ≤ D.get i j) (hb : ∀ b', b = some b' → 0 ≤ b')
    (hS : ∀ S', S = some S' → ∀ i < D.r, ∀ j < S'.c, 0 ≤ S'.get i j) :
    W.r = D.r ∧ W.c = D.c ∧ name ∈ kernelTypeEnum ∧ ∃ bw : Nat → K, ∀ i < D.r, 0 ≤ bw i ∧
      ∀ j < D.c, W.get i j = .fin (kval env name (D.get i j) (bw i)) := by
  have key : ∀ bw : Nat → K, (∀ i < D.r, 0 ≤ bw i) → kernelFunction env lazy D bw name = .ok W →
      W.r = D.r ∧ W.c = D.c ∧ name ∈ kernelTypeEnum ∧ ∃ bw : Nat → K, ∀ i < D.r, 0 ≤ bw i ∧
      ∀ j < D.c, W.get i j = .fin (kval env name (D.get i j) (bw i)) := by
    intro bw hbw hk
    unfold kernelFunction at hk
    split at hk
    · cases hk
    · rename_i w hw
      injection hk with hk
      subst hk
      have hn : name ∈ kernelTypeEnum := by
        by_contra hn
        simp only [mem_kernelTypeEnum, not_or] at hn
        obtain ⟨h1, h2, h3, h4, h5, h6, h7⟩ := hn
        simp [kernelElem, h1, h2, h3, h4, h5, h6, h7] at hw
      refine ⟨rfl, rfl, hn, bw, fun i hi => ⟨hbw i hi, fun j hj => ?_⟩⟩
      have := kernelWeight_eq env lazy hn (hD i hi j hj) (hbw i hi)
      simp only [kernelWeight, hw] at this
      injection this
  unfold weightByDistance at h
  split at h
  · exact key _ (fun i _ => hb _ rfl) h
  · unfold adaptiveKernel at h
    split at h
    · cases h
    · rename_i bw hbw
      exact key bw (fun i hi => adaptiveBandwidth_nonneg hbw (hD i hi)
        (fun S' hS' => hS S' hS' i hi)) h
  · cases h

theorem dimWeight_unfold {env : Env K} {lazy : Bool} {Ds : List (Mat K)} {p : WParams K}
    {dim : Nat} {W : Mat (Num K)} (h : dimWeight env lazy Ds p dim = .ok W) :
    ∃ D name b n S, Ds[dim]? = some D ∧ (p.kernel.expand Ds.length)[dim]? = some name ∧
      (p.bandwidth.expand Ds.length)[dim]? = some b ∧ (p.count.expand Ds.length)[dim]? = some n ∧
      (lazy = true ∧ (p.sorted.expand Ds.length)[dim]? = some S ∨ lazy = false ∧ S = none) ∧
      weightByDistance env lazy D name b n S = .ok W := by
  unfold dimWeight at h
  obtain ⟨D, hD, h⟩ := bind_ok.1 h
  obtain ⟨name, hn, h⟩ := bind_ok.1 h
  obtain ⟨b, hb, h⟩ := bind_ok.1 h
  obtain ⟨n, hc, h⟩ := bind_ok.1 h
  obtain ⟨S, hS, h⟩ := bind_ok.1 h
  refine ⟨D, name, b, n, S, pyGet_ok.1 hD, pyGet_ok.1 hn, pyGet_ok.1 hb, pyGet_ok.1 hc, ?_, h⟩
  cases lazy
  · right; simp [sortedArg] at hS; exact ⟨rfl, hS.symm⟩
  · left; simp [sortedArg] at hS; exact ⟨rfl, pyGet_ok.1 hS⟩

/-- What is known when `weight_matrix_from_distance` succeeds. -/
theorem weightMatrix_unfold {env : Env K} {lazy : Bool} {Ds : List (Mat K)} {p : WParams K}
    {W : Mat (Num K)} (h : weightMatrixFromDistance env lazy Ds p = .ok W) :
    p.ratio = none ∧ (p.bandwidth.isNone && p.count.isNone) = false ∧
    ∃ Ws, dimWeights env lazy Ds p = .ok Ws ∧ Ds ≠ [] ∧ AllShape Ds W.r W.c ∧ 0 < W.r ∧ 0 < W.c ∧
      W = normalizeRows ⟨W.r, W.c, prodEntry Ws⟩ ∧ logStats lazy W = .ok () := by
  unfold weightMatrixFromDistance at h
  split at h
  · cases h
  · rename_i hs
    rw [not_not] at hs
    split at h
    · cases h
    · rename_i hbn
      obtain ⟨Ds', hDs', h2⟩ := bind_ok.1 h
      have hr : p.ratio = none ∧ Ds' = Ds := by
        cases hpr : p.ratio with
        | none => rw [hpr] at hDs'; injection hDs' with e; exact ⟨rfl, e.symm⟩
        | some ratio =>
          rw [hpr] at hDs'
          simp only [effectiveDistances, mergeDistances] at hDs'
          split at hDs' <;> split at hDs' <;> cases hDs'
      obtain ⟨hr, rfl⟩ := hr
      obtain ⟨Ws, hWs, h3⟩ := bind_ok.1 h2
      clear h h2
      cases Ds' with
      | nil => simp at hs
      | cons D0 Ds =>
        simp only at h3
        obtain ⟨u, hu, h4⟩ := bind_ok.1 h3
        injection h4 with h
        clear h3
        refine ⟨hr, by simpa using hbn, Ws, hWs, by simp, ?_, ?_⟩
        · intro D hD
          rw [List.length_eq_one_iff] at hs
          obtain ⟨s, hs⟩ := hs
          have h1 : (D.r, D.c) ∈ ((D0 :: Ds).map fun D => (D.r, D.c)).dedup :=
            List.mem_dedup.2 (List.mem_map.2 ⟨D, hD, rfl⟩)
          have h2 : (D0.r, D0.c) ∈ ((D0 :: Ds).map fun D => (D.r, D.c)).dedup :=
            List.mem_dedup.2 (List.mem_map.2 ⟨D0, by simp, rfl⟩)
          rw [hs, List.mem_singleton] at h1 h2
          have := h1.trans h2.symm
          rw [← h]
          simp only [Prod.mk.injEq] at this
          exact this
        · have hpos : 0 < W.r ∧ 0 < W.c := by
            have hu' := hu
            rw [h] at hu'
            by_contra hc
            have h0 : W.r = 0 ∨ W.c = 0 := by omega
            have hl : W.toLists.flatten = [] := by
              rcases h0 with h0 | h0 <;> simp [Mat.toLists, Mat.row, h0]
            have hm : W.r * W.c = 0 := Nat.mul_eq_zero.2 h0
            cases lazy <;> simp [logStats, hl, hm] at hu'
          refine ⟨hpos.1, hpos.2, ?_, ?_⟩
          · rw [← h]; rfl
          · rw [← h]; exact hu

theorem dimWeights_length {env : Env K} {lazy : Bool} {Ds : List (Mat K)} {p : WParams K}
    {Ws : List (Mat (Num K))} (h : dimWeights env lazy Ds p = .ok Ws) :
    Ws.length = Ds.length := by simpa using mapE_length h

theorem dimWeights_get {env : Env K} {lazy : Bool} {Ds : List (Mat K)} {p : WParams K}
    {Ws : List (Mat (Num K))} (h : dimWeights env lazy Ds p = .ok Ws) {d : Nat}
    (hd : d < Ds.length) :
    dimWeight env lazy Ds p d = .ok (Ws[d]'(dimWeights_length h ▸ hd)) := by
  have := mapE_get h (i := d) (by simpa using hd)
  simpa using this

/-- Kernel value of dimension `d` at an entry of the unnormalised weights. -/
theorem dimWeights_val (env : Env K) {lazy : Bool} {Ds : List (Mat K)} {p : WParams K}
    {Ws : List (Mat (Num K))} (h : dimWeights env lazy Ds p = .ok Ws) (hin : NonnegInput Ds p)
    {r c : Nat} (hsh : AllShape Ds r c) :
    ∃ (name : Nat → String) (bw : Nat → Nat → K), Ws.length = Ds.length ∧
      ∀ d, ∀ hd : d < Ds.length, name d ∈ kernelTypeEnum ∧
        (p.kernel.expand Ds.length)[d]? = some (name d) ∧
        ∃ hd' : d < Ws.length, dimWeight env lazy Ds p d = .ok (Ws[d]) ∧
        ∀ i < r, 0 ≤ bw d i ∧ ∀ j < c,
          Ws[d].get i j = .fin (kval env (name d) (Ds[d].get i j) (bw d i)) := by
  have hlen : Ws.length = Ds.length := by simpa using mapE_length h
  have hget := fun d hd => dimWeights_get h (d := d) hd
  have hall : ∀ d, ∃ (name : String) (bw : Nat → K), ∀ hd : d < Ds.length,
      name ∈ kernelTypeEnum ∧ (p.kernel.expand Ds.length)[d]? = some name ∧
      ∀ i < r, 0 ≤ bw i ∧ ∀ j < c,
        (Ws[d]'(hlen ▸ hd)).get i j = .fin (kval env name (Ds[d].get i j) (bw i)) := by
    intro d
    by_cases hd : d < Ds.length
    · obtain ⟨D, name, b, n, S, hD, hname, hb, hn, hS, hw⟩ := dimWeight_unfold (hget d hd)
      have hDm : D ∈ Ds := List.mem_of_getElem? hD
      have hDe : D = Ds[d] := by rw [List.getElem?_eq_getElem hd] at hD; exact (Option.some.inj hD).symm
      obtain ⟨hr, hc⟩ := hsh D hDm
      obtain ⟨-, -, hk, bw, hbw⟩ := weightByDistance_val env hw (hin.dist D hDm)
        (fun b' hb' => hin.bandwidth b' (by rw [← hb']; exact List.mem_of_getElem? hb))
        (by
          intro S' hS'
          rcases hS with ⟨-, hS⟩ | ⟨-, hS⟩
          · exact hin.sorted S' (by rw [← hS']; exact List.mem_of_getElem? hS) D hDm
          · rw [hS] at hS'; cases hS')
      rw [hr, hc, hDe] at hbw
      exact ⟨name, bw, fun _ => ⟨hk, hname, hbw⟩⟩
    · exact ⟨"", fun _ => 0, fun h => absurd h hd⟩
  choose name bw hnb using hall
  exact ⟨name, bw, hlen, fun d hd => ⟨(hnb d hd).1, (hnb d hd).2.1, hlen ▸ hd, hget d hd,
    (hnb d hd).2.2⟩⟩


theorem list_sum_range (c : Nat) (f : Nat → K) :
    ((List.range c).map f).sum = ∑ j ∈ Finset.range c, f j := rfl

theorem List.prod_mem_unit {l : List K} (h : ∀ y ∈ l, 0 ≤ y ∧ y ≤ 1) :
    0 ≤ l.prod ∧ l.prod ≤ 1 := by
  induction l with
  | nil => simp
  | cons a l ih =>
    obtain ⟨h0, h1⟩ := ih fun y hy => h y (by simp [hy])
    obtain ⟨a0, a1⟩ := h a (by simp)
    rw [List.prod_cons]
    exact ⟨mul_nonneg a0 h0, mul_le_one₀ a1 h0 h1⟩

theorem List.prod_nonneg' {l : List K} (h : ∀ y ∈ l, 0 ≤ y) : 0 ≤ l.prod := by
  induction l with
  | nil => simp
  | cons a l ih =>
    rw [List.prod_cons]
    exact mul_nonneg (h a (by simp)) (ih fun y hy => h y (by simp [hy]))

theorem List.prod_pos_iff' {l : List K} (h : ∀ y ∈ l, 0 ≤ y) :
    0 < l.prod ↔ ∀ y ∈ l, 0 < y := by
  induction l with
  | nil => simp
  | cons a l ih =>
    have ih := ih fun y hy => h y (by simp [hy])
    have a0 := h a (by simp)
    have l0 : 0 ≤ l.prod := List.prod_nonneg' fun y hy => h y (by simp [hy])
    rw [List.prod_cons, List.forall_mem_cons, ← ih]
    constructor
    · intro hp
      exact ⟨lt_of_le_of_ne a0 fun e => by rw [← e, zero_mul] at hp; exact lt_irrefl _ hp,
        lt_of_le_of_ne l0 fun e => by rw [← e, mul_zero] at hp; exact lt_irrefl _ hp⟩
    · rintro ⟨h1, h2⟩; exact mul_pos h1 h2

/-- The product over the dimensions of the (finite) kernel weights at an entry. -/
def prodK (Ws : List (Mat (Num K))) (i j : Nat) : K := (Ws.map fun W => (W.get i j).toK).prod

/-- All weights of a list of dimensions are finite and in `[0,1]` inside the shape. -/
def UnitWs (Ws : List (Mat (Num K))) (r c : Nat) : Prop :=
  ∀ W ∈ Ws, ∀ i < r, ∀ j < c, ∃ y, W.get i j = .fin y ∧ 0 ≤ y ∧ y ≤ 1

theorem dimWeights_unit (env : Env K) (he : env.Ok) {lazy : Bool} {Ds : List (Mat K)}
    {p : WParams K} {Ws : List (Mat (Num K))} (h : dimWeights env lazy Ds p = .ok Ws)
    (hin : NonnegInput Ds p) {r c : Nat} (hsh : AllShape Ds r c) : UnitWs Ws r c := by
  obtain ⟨name, bw, hlen, hall⟩ := dimWeights_val env h hin hsh
  intro W hW i hi j hj
  obtain ⟨d, hd, rfl⟩ := List.getElem_of_mem hW
  have hd' : d < Ds.length := hlen ▸ hd
  obtain ⟨_, _, _, _, hv⟩ := hall d hd'
  obtain ⟨hb, hv⟩ := hv i hi
  have hm : Ds[d] ∈ Ds := List.getElem_mem hd'
  obtain ⟨hr, hc⟩ := hsh _ hm
  have h0 : 0 ≤ Ds[d].get i j := hin.dist _ hm i (hr ▸ hi) j (hc ▸ hj)
  exact ⟨_, hv j hj, kval_unit env he _ h0 hb⟩

theorem UnitWs.prodEntry_eq {Ws : List (Mat (Num K))} {r c : Nat} (h : UnitWs Ws r c) {i j : Nat}
    (hi : i < r) (hj : j < c) : prodEntry Ws i j = .fin (prodK Ws i j) := by
  unfold prodEntry prodK
  rw [← Num.prod_fin, List.map_map]
  congr 1
  apply List.map_congr_left
  intro W hW
  obtain ⟨y, hy, -⟩ := h W hW i hi j hj
  simp [hy, Num.toK]

theorem UnitWs.prodK_unit {Ws : List (Mat (Num K))} {r c : Nat} (h : UnitWs Ws r c) {i j : Nat}
    (hi : i < r) (hj : j < c) : 0 ≤ prodK Ws i j ∧ prodK Ws i j ≤ 1 := by
  apply List.prod_mem_unit
  intro y hy
  obtain ⟨W, hW, rfl⟩ := List.mem_map.1 hy
  obtain ⟨y, hy, h0, h1⟩ := h W hW i hi j hj
  simp [hy, Num.toK, h0, h1]

theorem UnitWs.prodK_pos {Ws : List (Mat (Num K))} {r c : Nat} (h : UnitWs Ws r c) {i j : Nat}
    (hi : i < r) (hj : j < c) : 0 < prodK Ws i j ↔ ∀ W ∈ Ws, 0 < (W.get i j).toK := by
  unfold prodK
  rw [List.prod_pos_iff']
  · simp
  · intro y hy
    obtain ⟨W, hW, rfl⟩ := List.mem_map.1 hy
    obtain ⟨y, hy, h0, h1⟩ := h W hW i hi j hj
    simpa [hy, Num.toK] using h0

/-- The normaliser of a row. -/
def normK (Ws : List (Mat (Num K))) (c i : Nat) : K :=
  if ∑ j ∈ Finset.range c, prodK Ws i j = 0 then 1 else ∑ j ∈ Finset.range c, prodK Ws i j

theorem UnitWs.sum_nonneg {Ws : List (Mat (Num K))} {r c : Nat} (h : UnitWs Ws r c) {i : Nat}
    (hi : i < r) : 0 ≤ ∑ j ∈ Finset.range c, prodK Ws i j :=
  Finset.sum_nonneg fun j hj => (h.prodK_unit hi (by simpa using hj)).1

theorem UnitWs.normK_pos {Ws : List (Mat (Num K))} {r c : Nat} (h : UnitWs Ws r c) {i : Nat}
    (hi : i < r) : 0 < normK Ws c i := by
  unfold normK
  split
  · exact one_pos
  · rename_i hne; exact lt_of_le_of_ne (h.sum_nonneg hi) (Ne.symm hne)

theorem UnitWs.normalized {Ws : List (Mat (Num K))} {r c : Nat} (h : UnitWs Ws r c) {i j : Nat}
    (hi : i < r) (hj : j < c) :
    (normalizeRows ⟨r, c, prodEntry Ws⟩).get i j = .fin (prodK Ws i j / normK Ws c i) := by
  have hrow : (⟨r, c, prodEntry Ws⟩ : Mat (Num K)).row i
      = ((List.range c).map (prodK Ws i)).map .fin := by
    unfold Mat.row
    rw [List.map_map]
    exact List.map_congr_left fun j hj => h.prodEntry_eq hi (by simpa using hj)
  have hsum : rowSum ⟨r, c, prodEntry Ws⟩ i = .fin (normK Ws c i) := by
    unfold rowSum normK
    simp only
    rw [hrow, Num.sum_fin, list_sum_range]
    split
    · rename_i hz; rw [Num.fin.injEq] at hz; simp [hz]
    · rename_i hz; rw [Num.fin.injEq] at hz; simp [hz]
  unfold normalizeRows
  simp only
  rw [hsum, h.prodEntry_eq hi hj]
  simp [Num.div, (h.normK_pos hi).ne']

/-- Everything needed about a successful result, for non-negative input. -/
theorem weightMatrix_master (env : Env K) (he : env.Ok) {lazy : Bool} {Ds : List (Mat K)}
    {p : WParams K} {W : Mat (Num K)} (h : weightMatrixFromDistance env lazy Ds p = .ok W)
    (hin : NonnegInput Ds p) :
    ∃ Ws, dimWeights env lazy Ds p = .ok Ws ∧ AllShape Ds W.r W.c ∧ UnitWs Ws W.r W.c ∧
      ∀ i < W.r, ∀ j < W.c, W.get i j = .fin (prodK Ws i j / normK Ws W.c i) := by
  obtain ⟨-, -, Ws, hWs, -, hsh, -, -, hW, -⟩ := weightMatrix_unfold h
  have hu := dimWeights_unit env he hWs hin hsh
  refine ⟨Ws, hWs, hsh, hu, fun i hi j hj => ?_⟩
  conv_lhs => rw [hW]
  exact hu.normalized hi hj

end Geo
