import Verif.Lemmas.WeightMatrix
import Mathlib.Tactic.NormNum
import Mathlib.Algebra.BigOperators.Field
import Mathlib.Algebra.BigOperators.Fin
set_option linter.unusedSectionVars false
/-
Properties C11-C18: weight matrices from distances.
-/
namespace Geo
variable {K : Type} [Field K] [LinearOrder K] [IsStrictOrderedRing K] [FloorRing K]

/-- Example input: three points on a line at 0, 1, 3 and at times 0, 0, 2. -/
def exSpace : Mat ℚ := ⟨3, 3, fun i j => |[0, 1, 3].getD i 0 - [0, 1, 3].getD j (0:ℚ)|⟩
def exTime : Mat ℚ := ⟨3, 3, fun i j => |[0, 0, 2].getD i 0 - [0, 0, 2].getD j (0:ℚ)|⟩
/-- Fixed bandwidth in space, adaptive in time. -/
def exParams : WParams ℚ :=
  { kernel := .list ["bisquare", "boxcar"]
    bandwidth := .list [some 2, none]
    count := .list [none, some (.int 2)] }

theorem exNonneg : NonnegInput [exSpace, exTime] exParams where
  dist := by
    intro D hD i _ j _
    rcases (by simpa using hD) with rfl | rfl
    · exact abs_nonneg _
    · exact abs_nonneg _
  bandwidth := by
    intro b hb
    have : b = 2 := by simpa [exParams, Param.expand] using hb
    rw [this]; norm_num
  sorted := by intro S hS; simp [exParams, Param.expand] at hS

example : okAnd (weightMatrixFromDistance ratEnv false [exSpace, exTime] exParams) (fun W =>
    W.toLists = [[.fin (16/25), .fin (9/25), .fin 0], [.fin (9/25), .fin (16/25), .fin 0],
      [.fin 0, .fin 0, .fin 1]]) = true := by decide +kernel

/-- C11: every row is made of finite numbers in `[0,1]` and sums to 1, or is all zero; and it
is all zero only if, for every target, the kernel weight is zero in some dimension. -/
theorem C11_rows_normalised (env : Env K) (he : env.Ok) (lazy : Bool) (Ds : List (Mat K))
    (p : WParams K) (W : Mat (Num K)) (h : weightMatrixFromDistance env lazy Ds p = .ok W)
    (hin : NonnegInput Ds p) (i : Nat) (hi : i < W.r) :
    ∃ x : Nat → K, (∀ j < W.c, W.get i j = .fin (x j) ∧ 0 ≤ x j ∧ x j ≤ 1) ∧
      (∑ j ∈ Finset.range W.c, x j = 1 ∨
        (∀ j < W.c, x j = 0) ∧
        ∀ j < W.c, ∃ d < Ds.length, ∃ Wd, dimWeight env lazy Ds p d = .ok Wd ∧
          Wd.get i j = .fin 0) := by
  obtain ⟨Ws, hWs, hsh, hu, hW⟩ := weightMatrix_master env he h hin
  have hS := hu.sum_nonneg hi
  have hle : ∀ j < W.c, prodK Ws i j ≤ ∑ j ∈ Finset.range W.c, prodK Ws i j := fun j hj =>
    Finset.single_le_sum (f := prodK Ws i)
      (fun j hj => (hu.prodK_unit hi (by simpa using hj)).1) (by simpa using hj)
  refine ⟨fun j => prodK Ws i j / normK Ws W.c i, fun j hj => ⟨hW i hi j hj, ?_, ?_⟩, ?_⟩
  · exact div_nonneg (hu.prodK_unit hi hj).1 (hu.normK_pos hi).le
  · rw [div_le_one (hu.normK_pos hi)]
    unfold normK
    split
    · exact (hu.prodK_unit hi hj).2
    · exact hle j hj
  · by_cases hz : ∑ j ∈ Finset.range W.c, prodK Ws i j = 0
    · right
      have hp0 : ∀ j < W.c, prodK Ws i j = 0 := fun j hj =>
        le_antisymm (hz ▸ hle j hj) (hu.prodK_unit hi hj).1
      refine ⟨fun j hj => by simp [hp0 j hj], fun j hj => ?_⟩
      have hnp : ¬ 0 < prodK Ws i j := by rw [hp0 j hj]; exact lt_irrefl _
      rw [hu.prodK_pos hi hj] at hnp
      push Not at hnp
      obtain ⟨Wd, hWd, hle0⟩ := hnp
      obtain ⟨d, hd, rfl⟩ := List.getElem_of_mem hWd
      have hlen : Ws.length = Ds.length := by simpa using mapE_length hWs
      refine ⟨d, hlen ▸ hd, Ws[d], ?_, ?_⟩
      · exact dimWeights_get hWs (hlen ▸ hd)
      · obtain ⟨y, hy, h0, -⟩ := hu _ hWd i hi j hj
        rw [hy] at hle0 ⊢
        rw [Num.fin.injEq]
        exact le_antisymm hle0 h0
    · left
      rw [← Finset.sum_div]
      simp only [normK, hz, if_false]
      exact div_self hz

/-- C12: an entry is positive exactly when the kernel weight is positive in every dimension. -/
theorem C12_neighbour_in_every_dimension (env : Env K) (he : env.Ok) (lazy : Bool)
    (Ds : List (Mat K)) (p : WParams K) (W : Mat (Num K))
    (h : weightMatrixFromDistance env lazy Ds p = .ok W)
    (hin : NonnegInput Ds p) (i j : Nat) (hi : i < W.r) (hj : j < W.c) :
    ∃ x, W.get i j = .fin x ∧
      (0 < x ↔ ∀ d < Ds.length, ∃ Wd y, dimWeight env lazy Ds p d = .ok Wd ∧
        Wd.get i j = .fin y ∧ 0 < y) := by
  obtain ⟨Ws, hWs, hsh, hu, hW⟩ := weightMatrix_master env he h hin
  have hlen : Ws.length = Ds.length := by simpa using mapE_length hWs
  have hget := fun d hd => dimWeights_get hWs (d := d) hd
  refine ⟨_, hW i hi j hj, ?_⟩
  rw [div_pos_iff_of_pos_right (hu.normK_pos hi), hu.prodK_pos hi hj]
  constructor
  · intro hall d hd
    have hm := List.getElem_mem (hlen ▸ hd : d < Ws.length)
    obtain ⟨y, hy, -⟩ := hu _ hm i hi j hj
    refine ⟨_, y, hget d hd, hy, ?_⟩
    have := hall _ hm
    rwa [hy] at this
  · intro hall Wd hWd
    obtain ⟨d, hd, rfl⟩ := List.getElem_of_mem hWd
    obtain ⟨Wd', y, h1, h2, h3⟩ := hall d (hlen ▸ hd)
    rw [hget d (hlen ▸ hd)] at h1
    injection h1 with h1
    rw [h1, h2]
    exact h3

/-- C13: within a row the returned weights are proportional to the products over the
dimensions of the kernel weights, and vanish exactly with them. -/
theorem C13_proportions_kept (env : Env K) (he : env.Ok) (lazy : Bool) (Ds : List (Mat K))
    (p : WParams K) (W : Mat (Num K)) (h : weightMatrixFromDistance env lazy Ds p = .ok W)
    (hin : NonnegInput Ds p) (i : Nat) (hi : i < W.r) :
    ∃ (x P : Nat → K) (y : Nat → Nat → K),
      (∀ j < W.c, W.get i j = .fin (x j)) ∧
      (∀ d < Ds.length, ∃ Wd, dimWeight env lazy Ds p d = .ok Wd ∧
        ∀ j < W.c, Wd.get i j = .fin (y d j)) ∧
      (∀ j, P j = ∏ d ∈ Finset.range Ds.length, y d j) ∧
      (∀ j < W.c, ∀ k < W.c, x j * P k = x k * P j) ∧
      (∀ j < W.c, x j = 0 ↔ P j = 0) := by
  obtain ⟨Ws, hWs, hsh, hu, hW⟩ := weightMatrix_master env he h hin
  have hlen : Ws.length = Ds.length := by simpa using mapE_length hWs
  have hget := fun d hd => dimWeights_get hWs (d := d) hd
  have hn := (hu.normK_pos hi).ne'
  refine ⟨fun j => prodK Ws i j / normK Ws W.c i, prodK Ws i,
    fun d j => (Ws.map fun W => (W.get i j).toK).getD d 1, fun j hj => hW i hi j hj, ?_, ?_, ?_, ?_⟩
  · intro d hd
    have hd' : d < Ws.length := hlen ▸ hd
    refine ⟨_, hget d hd, fun j hj => ?_⟩
    obtain ⟨y, hy, -⟩ := hu _ (List.getElem_mem hd') i hi j hj
    have hd'' : d < (Ws.map fun W => (W.get i j).toK).length := by simpa using hd'
    simp only [List.getD_eq_getElem _ _ hd'']
    simp [hy, Num.toK]
  · intro j
    rw [← hlen]
    unfold prodK
    have : ∀ l : List K, l.prod = ∏ d ∈ Finset.range l.length, l.getD d 1 := by
      intro l
      rw [Finset.prod_range, ← List.prod_ofFn]
      congr 1
      apply List.ext_getElem
      · simp
      · intro n h1 h2
        simp
    rw [this]
    simp
  · intro j _ k _
    ring
  · intro j _
    rw [div_eq_zero_iff]
    simp [hn]

/-- C14: with zero self-distances every row sums to one and its diagonal entry is positive and
the largest of the row. -/
theorem C14_self_is_heaviest (env : Env K) (he : env.Ok) (lazy : Bool) (Ds : List (Mat K))
    (p : WParams K) (W : Mat (Num K)) (h : weightMatrixFromDistance env lazy Ds p = .ok W)
    (hin : NonnegInput Ds p) (i : Nat) (hi : i < W.r) (hic : i < W.c)
    (hself : ∀ D ∈ Ds, D.get i i = 0) :
    ∃ x : Nat → K, (∀ j < W.c, W.get i j = .fin (x j)) ∧
      ∑ j ∈ Finset.range W.c, x j = 1 ∧ 0 < x i ∧ ∀ j < W.c, x j ≤ x i := by
  obtain ⟨Ws, hWs, hsh, hu, hW⟩ := weightMatrix_master env he h hin
  obtain ⟨name, bw, hlen, hall⟩ := dimWeights_val env hWs hin hsh
  have hone : prodK Ws i i = 1 := by
    unfold prodK
    apply List.prod_eq_one
    intro y hy
    obtain ⟨Wd, hWd, rfl⟩ := List.mem_map.1 hy
    obtain ⟨d, hd, rfl⟩ := List.getElem_of_mem hWd
    obtain ⟨_, _, _, _, hv⟩ := hall d (hlen ▸ hd)
    obtain ⟨hb, hv⟩ := hv i hi
    rw [hv i hic, hself _ (List.getElem_mem _), kval_self env he _ hb]
    rfl
  have hSpos : 0 < ∑ j ∈ Finset.range W.c, prodK Ws i j := by
    have : prodK Ws i i ≤ _ := Finset.single_le_sum (f := prodK Ws i)
      (fun j hj => (hu.prodK_unit hi (by simpa using hj)).1) (Finset.mem_range.2 hic)
    rw [hone] at this
    exact one_pos.trans_le this
  refine ⟨fun j => prodK Ws i j / normK Ws W.c i, fun j hj => hW i hi j hj, ?_, ?_, ?_⟩
  · rw [← Finset.sum_div]
    simp only [normK, hSpos.ne', if_false]
    exact div_self hSpos.ne'
  · simp only [hone]; exact div_pos one_pos (hu.normK_pos hi)
  · intro j hj
    apply div_le_div_of_nonneg_right _ (hu.normK_pos hi).le
    rw [hone]; exact (hu.prodK_unit hi hj).2

example : ∀ D ∈ [exSpace, exTime], D.get 2 2 = 0 := by decide +kernel

end Geo
