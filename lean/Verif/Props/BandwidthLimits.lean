import Verif.Props.KernelSmoother
import Verif.Props.TrainingSets
import Mathlib.Analysis.SpecialFunctions.Exp
import Mathlib.Topology.Algebra.Order.Field
/-
C168: the predictions of the kernel smoother for very small and very large bandwidths.
-/
set_option linter.unusedSectionVars false
namespace Geo
open Filter Topology

/-- The same dimension with its bandwidth multiplied by `t`. -/
noncomputable def DimSpec.scaled (t : ℝ) (d : DimSpec ℝ) : DimSpec ℝ :=
  { d with bandwidth := d.bandwidth.map (t * ·) }

/-- How far observation `j` is from `i` over all dimensions, in bandwidths: the sum of the squares for
gaussian kernels, the sum for exponential ones. -/
noncomputable def farness (name : String) (l : List (DimSpec ℝ)) (i j : Nat) : ℝ :=
  (l.map fun d => (d.dist.get i j / d.bandwidth.getD 0) ^ (if name = "gaussian" then 2 else 1)).sum

/-- The mean of `y` over the observations below `n` with `P`. -/
noncomputable def meanOver (n : Nat) (P : Nat → Prop) [DecidablePred P] (y : Nat → ℝ) : ℝ :=
  (∑ j ∈ (Finset.range n).filter P, y j) / ((Finset.range n).filter P).card

section limits
variable {n : Nat} {ρ v : Nat → ℝ} {out : Nat → Prop}
open scoped Classical in
/-- A mean with weights `exp (-s ρ)` tends to the mean over the smallest `ρ` as `s` grows. -/
theorem softmin_tendsto (n : Nat) (ρ v : Nat → ℝ) (out : Nat → Prop) :
    Tendsto (fun s : ℝ => (∑ j ∈ Finset.range n, if out j then 0 else Real.exp (-s * ρ j) * v j) /
      ∑ j ∈ Finset.range n, if out j then 0 else Real.exp (-s * ρ j)) atTop
      (𝓝 (meanOver n (fun j => ¬ out j ∧ ∀ k < n, ¬ out k → ρ j ≤ ρ k) v)) := by
  by_cases hJ : ∃ j < n, ¬ out j
  swap
  · have h0 : ∀ j ∈ Finset.range n, out j := by
      intro j hj
      by_contra h
      exact hJ ⟨j, Finset.mem_range.1 hj, h⟩
    have e : (Finset.range n).filter (fun j => ¬ out j ∧ ∀ k < n, ¬ out k → ρ j ≤ ρ k) = ∅ := by
      rw [Finset.filter_eq_empty_iff]
      exact fun j hj h => h.1 (h0 j hj)
    unfold meanOver
    rw [e]
    have : ∀ s : ℝ, (∑ j ∈ Finset.range n, if out j then 0 else Real.exp (-s * ρ j) * v j) = 0 :=
      fun s => Finset.sum_eq_zero fun j hj => if_pos (h0 j hj)
    simp only [this, zero_div, Finset.sum_empty]
    exact tendsto_const_nhds
  obtain ⟨j0, hj0, ho0⟩ := hJ
  obtain ⟨m, hm, hmin⟩ := Finset.exists_min_image ((Finset.range n).filter fun j => ¬ out j) ρ
    ⟨j0, by simp [hj0, ho0]⟩
  simp only [Finset.mem_filter, Finset.mem_range] at hm hmin
  have hA : ∀ j < n, ¬ out j → ((∀ k < n, ¬ out k → ρ j ≤ ρ k) ↔ ρ j = ρ m) := by
    intro j hj ho
    constructor
    · intro h
      exact le_antisymm (h m hm.1 hm.2) (hmin j ⟨hj, ho⟩)
    · intro h k hk hok
      rw [h]
      exact hmin k ⟨hk, hok⟩
  have hterm : ∀ j ∈ Finset.range n, Tendsto (fun s : ℝ => if out j then (0 : ℝ) else
      Real.exp (-s * (ρ j - ρ m))) atTop
      (𝓝 (if ¬ out j ∧ ∀ k < n, ¬ out k → ρ j ≤ ρ k then 1 else 0)) := by
    intro j hj
    have hj := Finset.mem_range.1 hj
    by_cases ho : out j
    · simp [ho]
    by_cases he : ρ j = ρ m
    · rw [if_pos ⟨ho, (hA j hj ho).2 he⟩]
      simp [ho, he]
    · rw [if_neg (fun h => he ((hA j hj ho).1 h.2))]
      simp only [ho, if_false]
      have hpos : 0 < ρ j - ρ m := sub_pos.2 (lt_of_le_of_ne (hmin j ⟨hj, ho⟩) (Ne.symm he))
      have : Tendsto (fun s : ℝ => -s * (ρ j - ρ m)) atTop atBot := by
        have := (tendsto_id (α := ℝ) (x := atTop)).atTop_mul_const hpos
        refine (tendsto_neg_atTop_atBot.comp this).congr fun s => ?_
        simp [neg_mul]
      exact Real.tendsto_exp_atBot.comp this
  have hden := tendsto_finsetSum (Finset.range n) hterm
  have hnum : Tendsto (fun s : ℝ => ∑ j ∈ Finset.range n, (if out j then (0 : ℝ) else
      Real.exp (-s * (ρ j - ρ m))) * v j) atTop
      (𝓝 (∑ j ∈ Finset.range n, (if ¬ out j ∧ ∀ k < n, ¬ out k → ρ j ≤ ρ k then 1 else 0) * v j)) :=
    tendsto_finsetSum (Finset.range n) fun j hj => (hterm j hj).mul_const _
  have hcard : (∑ j ∈ Finset.range n, if ¬ out j ∧ ∀ k < n, ¬ out k → ρ j ≤ ρ k then (1 : ℝ) else 0) =
      ((Finset.range n).filter fun j => ¬ out j ∧ ∀ k < n, ¬ out k → ρ j ≤ ρ k).card := by
    rw [Finset.sum_boole]
  have hne : (((Finset.range n).filter fun j => ¬ out j ∧ ∀ k < n, ¬ out k → ρ j ≤ ρ k).card : ℝ) ≠ 0 := by
    have : m ∈ (Finset.range n).filter fun j => ¬ out j ∧ ∀ k < n, ¬ out k → ρ j ≤ ρ k :=
      Finset.mem_filter.2 ⟨Finset.mem_range.2 hm.1, hm.2, fun k hk hok => hmin k ⟨hk, hok⟩⟩
    exact_mod_cast (Finset.card_pos.2 ⟨m, this⟩).ne'
  rw [hcard] at hden
  have hlim := hnum.div hden hne
  have hl : (∑ j ∈ Finset.range n, (if ¬ out j ∧ ∀ k < n, ¬ out k → ρ j ≤ ρ k then (1 : ℝ) else 0) * v j) =
      ∑ j ∈ (Finset.range n).filter (fun j => ¬ out j ∧ ∀ k < n, ¬ out k → ρ j ≤ ρ k), v j := by
    rw [Finset.sum_filter]
    exact Finset.sum_congr rfl fun j _ => by split <;> simp
  rw [hl] at hlim
  refine hlim.congr fun s => ?_
  have hE : Real.exp (s * ρ m) ≠ 0 := (Real.exp_pos _).ne'
  have e1 : ∀ j, (if out j then (0 : ℝ) else Real.exp (-s * (ρ j - ρ m))) =
      Real.exp (s * ρ m) * if out j then 0 else Real.exp (-s * ρ j) := by
    intro j
    split
    · simp
    · rw [← Real.exp_add]
      ring_nf
  simp only [e1, Pi.div_apply]
  simp only [mul_assoc]
  rw [← Finset.mul_sum, ← Finset.mul_sum, mul_div_mul_left _ _ hE]
  congr 1
  exact Finset.sum_congr rfl fun j _ => by split <;> simp

open scoped Classical in
/-- It tends to the plain mean as `s` goes to zero. -/
theorem softmin_zero (n : Nat) (ρ v : Nat → ℝ) (out : Nat → Prop) :
    Tendsto (fun s : ℝ => (∑ j ∈ Finset.range n, if out j then 0 else Real.exp (-s * ρ j) * v j) /
      ∑ j ∈ Finset.range n, if out j then 0 else Real.exp (-s * ρ j)) (𝓝 0)
      (𝓝 (meanOver n (fun j => ¬ out j) v)) := by
  have hterm : ∀ j ∈ Finset.range n, Tendsto (fun s : ℝ => if out j then (0 : ℝ) else
      Real.exp (-s * ρ j)) (𝓝 0) (𝓝 (if ¬ out j then 1 else 0)) := by
    intro j hj
    by_cases ho : out j
    · simp [ho]
    · simp only [ho, if_false, not_false_eq_true, if_true]
      have : Continuous fun s : ℝ => Real.exp (-s * ρ j) := by fun_prop
      simpa using this.tendsto 0
  have hden := tendsto_finsetSum (Finset.range n) hterm
  rw [Finset.sum_boole] at hden
  have hnum : Tendsto (fun s : ℝ => ∑ j ∈ Finset.range n, (if out j then (0 : ℝ) else
      Real.exp (-s * ρ j)) * v j) (𝓝 0)
      (𝓝 (∑ j ∈ Finset.range n, (if ¬ out j then 1 else 0) * v j)) :=
    tendsto_finsetSum (Finset.range n) fun j hj => (hterm j hj).mul_const _
  have hl : (∑ j ∈ Finset.range n, (if ¬ out j then (1 : ℝ) else 0) * v j) =
      ∑ j ∈ (Finset.range n).filter (fun j => ¬ out j), v j := by
    rw [Finset.sum_filter]
    exact Finset.sum_congr rfl fun j _ => by split <;> simp
  rw [hl] at hnum
  have e : ∀ s : ℝ, (∑ j ∈ Finset.range n, (if out j then (0 : ℝ) else Real.exp (-s * ρ j)) * v j) =
      ∑ j ∈ Finset.range n, if out j then 0 else Real.exp (-s * ρ j) * v j :=
    fun s => Finset.sum_congr rfl fun j _ => by split <;> simp
  simp only [e] at hnum
  by_cases h0 : ((Finset.range n).filter fun j => ¬ out j).card = 0
  · have h0' := Finset.card_eq_zero.1 h0
    rw [Finset.filter_eq_empty_iff] at h0'
    have : ∀ s : ℝ, (∑ j ∈ Finset.range n, if out j then 0 else Real.exp (-s * ρ j) * v j) = 0 :=
      fun s => Finset.sum_eq_zero fun j hj => if_pos (not_not.1 (h0' hj))
    unfold meanOver
    simp only [this, zero_div, h0, Nat.cast_zero, div_zero]
    exact tendsto_const_nhds
  · exact hnum.div hden (by exact_mod_cast h0)
end limits

/-- The kernels of row `i` when all bandwidths are multiplied by `t`. -/
theorem scaled_kernels {name : String} (hname : name = "gaussian" ∨ name = "exponential")
    {l : List (DimSpec ℝ)} (hk : ∀ d ∈ l, d.kernel = name) (t : ℝ) (i j : Nat) :
    ((l.map (DimSpec.scaled t)).map fun d =>
      publishedKernel Real.exp d.kernel (d.dist.get i j / d.bandwidth.getD 0)).prod =
      Real.exp (-((1 / t) ^ (if name = "gaussian" then 2 else 1)) * (farness name l i j / 2)) := by
  induction l with
  | nil => simp [farness]
  | cons d l ih =>
    rw [List.map_cons, List.map_cons, List.prod_cons, ih fun d hd => hk d (by simp [hd])]
    have h1 : (d.scaled t).bandwidth.getD 0 = t * d.bandwidth.getD 0 := by
      unfold DimSpec.scaled
      cases d.bandwidth <;> simp
    have h2 : publishedKernel Real.exp (d.scaled t).kernel ((d.scaled t).dist.get i j / (t * d.bandwidth.getD 0)) =
        Real.exp (-((1 / t) ^ (if name = "gaussian" then 2 else 1)) *
          ((d.dist.get i j / d.bandwidth.getD 0) ^ (if name = "gaussian" then 2 else 1) / 2)) := by
      have hkd : (d.scaled t).kernel = name := hk d (by simp)
      have hdd : (d.scaled t).dist = d.dist := rfl
      rw [hkd, hdd]
      rcases hname with rfl | rfl <;> simp [publishedKernel] <;> ring_nf
    rw [h1, h2, ← Real.exp_add]
    congr 1
    simp only [farness, List.map_cons, List.sum_cons]
    ring

/-- A mean with weights `exp (-s ρ)` of the values not left out. -/
noncomputable def softMean (n : Nat) (ρ v : Nat → ℝ) (out : Nat → Bool) (s : ℝ) : ℝ :=
  (∑ j ∈ Finset.range n, if out j then 0 else Real.exp (-s * ρ j) * v j) /
    ∑ j ∈ Finset.range n, if out j then 0 else Real.exp (-s * ρ j)

open scoped Classical in
/-- The mean of `v` over those not left out with the smallest `ρ`. -/
noncomputable def nearestMean (n : Nat) (ρ v : Nat → ℝ) (out : Nat → Bool) : ℝ :=
  meanOver n (fun j => ¬ out j = true ∧ ∀ k < n, ¬ out k = true → ρ j ≤ ρ k) v

/-- The mean of `v` over all those not left out. -/
noncomputable def othersMean (n : Nat) (v : Nat → ℝ) (out : Nat → Bool) : ℝ :=
  meanOver n (fun j => ¬ out j = true) v

theorem softMean_atTop (n : Nat) (ρ v : Nat → ℝ) (out : Nat → Bool) :
    Tendsto (softMean n ρ v out) atTop (𝓝 (nearestMean n ρ v out)) := by
  have h := softmin_tendsto n ρ v fun j => out j = true
  unfold nearestMean softMean
  convert h using 2 <;> congr!

theorem softMean_zero (n : Nat) (ρ v : Nat → ℝ) (out : Nat → Bool) :
    Tendsto (softMean n ρ v out) (𝓝 0) (𝓝 (othersMean n v out)) := by
  have h := softmin_zero n ρ v fun j => out j = true
  unfold othersMean softMean
  convert h using 2 <;> congr!

/-- All rows at once, in terms of the factor of the bandwidths. -/
theorem softMean_small {n r q : Nat} (hq : q ≠ 0) (ρ : Nat → Nat → ℝ) (v : Nat → ℝ) (out : Nat → Nat → Bool)
    {ε : ℝ} (hε : 0 < ε) : ∃ t0 > 0, ∀ t, 0 < t → t ≤ t0 → ∀ i < r,
      |softMean n (ρ i) v (out i) ((1 / t) ^ q) - nearestMean n (ρ i) v (out i)| ≤ ε := by
  have h1 : ∀ᶠ s : ℝ in atTop, ∀ i ∈ Finset.range r,
      |softMean n (ρ i) v (out i) s - nearestMean n (ρ i) v (out i)| ≤ ε := by
    rw [Filter.eventually_all_finset]
    intro i _
    exact (Metric.tendsto_nhds.1 (softMean_atTop n (ρ i) v (out i)) ε hε).mono fun s hs => le_of_lt hs
  obtain ⟨s0, hs0⟩ := Filter.eventually_atTop.1 h1
  have hm : 0 < max s0 1 := lt_of_lt_of_le one_pos (le_max_right _ _)
  refine ⟨1 / max s0 1, one_div_pos.2 hm, fun t ht ht0 i hi => hs0 _ ?_ i (Finset.mem_range.2 hi)⟩
  have h2 : max s0 1 ≤ 1 / t := by
    rw [le_div_iff₀ ht]
    rw [le_div_iff₀ hm] at ht0
    linarith
  calc s0 ≤ 1 / t := le_trans (le_max_left _ _) h2
    _ ≤ (1 / t) ^ q := le_self_pow₀ (le_trans (le_max_right _ _) h2) hq

theorem softMean_large {n r q : Nat} (hq : q ≠ 0) (ρ : Nat → Nat → ℝ) (v : Nat → ℝ) (out : Nat → Nat → Bool)
    {ε : ℝ} (hε : 0 < ε) : ∃ t1 > 0, ∀ t, t1 ≤ t → ∀ i < r,
      |softMean n (ρ i) v (out i) ((1 / t) ^ q) - othersMean n v (out i)| ≤ ε := by
  have h1 : ∀ᶠ s : ℝ in 𝓝 0, ∀ i ∈ Finset.range r,
      |softMean n (ρ i) v (out i) s - othersMean n v (out i)| ≤ ε := by
    rw [Filter.eventually_all_finset]
    intro i _
    exact (Metric.tendsto_nhds.1 (softMean_zero n (ρ i) v (out i)) ε hε).mono fun s hs => le_of_lt hs
  have h2 : Tendsto (fun t : ℝ => (1 / t) ^ q) atTop (𝓝 0) := by
    have : Tendsto (fun t : ℝ => 1 / t) atTop (𝓝 0) := by
      simpa using tendsto_inv_atTop_zero (𝕜 := ℝ)
    simpa [hq] using this.pow q
  obtain ⟨t1, ht1⟩ := Filter.eventually_atTop.1 (h2.eventually h1)
  exact ⟨max t1 1, lt_of_lt_of_le one_pos (le_max_right _ _), fun t ht i hi =>
    ht1 t (le_trans (le_max_left _ _) ht) i (Finset.mem_range.2 hi)⟩

/-- The dimensions have the kernel `name`, a fixed positive bandwidth, and distances that are not negative. -/
structure FixedDims (name : String) (l : List (DimSpec ℝ)) : Prop where
  kernel : ∀ d ∈ l, d.kernel = name
  count : ∀ d ∈ l, d.count = none
  bandwidth : ∀ d ∈ l, ∃ b, d.bandwidth = some b ∧ 0 < b
  nonneg : ∀ d ∈ l, d.Nonneg

/-- The weights of row `i` with all bandwidths multiplied by `t`. -/
theorem scaled_weights {name : String} (hname : name = "gaussian" ∨ name = "exponential")
    {l : List (DimSpec ℝ)} (hl : FixedDims name l) {fmax t : ℝ} (ht : 0 < t) {lazy : Bool} {W : Mat (Num ℝ)}
    (h : weightsOf (realEnv fmax) lazy (l.map (DimSpec.scaled t)) = .ok W) {i : Nat} (hi : i < W.r) :
    ∃ z, 0 < z ∧ ∀ j < W.c, W.get i j = .fin
      (Real.exp (-((1 / t) ^ (if name = "gaussian" then 2 else 1)) * (farness name l i j / 2)) / z) := by
  have hn : ∀ d ∈ l.map (DimSpec.scaled t), d.Nonneg := by
    intro d hd
    obtain ⟨d, hd', rfl⟩ := List.mem_map.1 hd
    refine ⟨(hl.nonneg d hd').dist, fun b hb => ?_, (hl.nonneg d hd').sorted⟩
    obtain ⟨b0, h1, h2⟩ := hl.bandwidth d hd'
    simp only [DimSpec.scaled, h1, Option.map_some, Option.some.injEq] at hb
    rw [← hb]
    positivity
  have hb : ∀ d ∈ l.map (DimSpec.scaled t), d.count = none ∧ ∃ b, d.bandwidth = some b ∧ 0 < b := by
    intro d hd
    obtain ⟨d, hd', rfl⟩ := List.mem_map.1 hd
    obtain ⟨b0, h1, h2⟩ := hl.bandwidth d hd'
    exact ⟨hl.count d hd', t * b0, by simp [DimSpec.scaled, h1], by positivity⟩
  obtain ⟨z, hz, hW⟩ := C161_weights (realEnv fmax) (realEnv_pos fmax).toOk lazy _ hn hb W h i hi
  refine ⟨z, hz, fun j hj => ?_⟩
  rw [hW j hj]
  congr 2
  exact scaled_kernels hname hl.kernel t i j

variable {F C S : Type}

/-- The local predictions of a fit whose weights come from the dimensions with all bandwidths multiplied
by `t`. -/
theorem smoother_local {name : String} (hname : name = "gaussian" ∨ name = "exponential")
    {l : List (DimSpec ℝ)} (hl : FixedDims name l) {fmax t : ℝ} (ht : 0 < t) {lazy : Bool} {W : Mat (Num ℝ)}
    (h : weightsOf (realEnv fmax) lazy (l.map (DimSpec.scaled t)) = .ok W)
    {L : Learner ℝ F} (hL : IsWeightedMean L) {rng : Rng S} {p : WMParams ℝ C}
    (hal : p.nJobs = none ∨ p.sampleRate = none) {st : WMState ℝ F C} {s : S} {X : Mat ℝ}
    {y : List ℝ} {coords : Option C} {Wg : Option (WMat ℝ)} {D : Mat ℝ}
    (hD : chosenWeights p coords Wg = .ok (.dense D)) (hr : W.r = X.r) (hc : W.c = X.r)
    (hDW : ∀ i < X.r, ∀ j < X.r, W.get i j = .fin (D.get i j))
    (hok : (wmFit L rng p st s X y coords Wg).result = .ok ()) :
    ∃ (idx : List Nat) (ps : List ℝ),
      (wmFit L rng p st s X y coords Wg).state.localIndices = some idx ∧
      (wmFit L rng p st s X y coords Wg).state.localPredict = some ps ∧ ps.length = idx.length ∧
      ∀ k i : Nat, idx[k]? = some i → i < X.r ∧ ps[k]? = some (softMean X.r
        (fun j => farness name l i j / 2) (fun j => y.getD j 0) (fun j => p.leaveLocalOut && j == i)
        ((1 / t) ^ (if name = "gaussian" then 2 else 1))) := by
  obtain ⟨idx, ps, h1, h2, h3, h4⟩ := C161_local_predictions L hL rng p hal st s X y coords Wg D hD hok
  refine ⟨idx, ps, h1, h2, h3, fun k i hk => ?_⟩
  have hi : i < X.r := by
    obtain ⟨W0, idx0, s', res, sc, hck, hW0, hs, hf, hl', -, hsc, hout⟩ := wmFit_ok hok
    rw [hout] at h1
    cases h1
    have hm := fitAll_ok hf (aligned_of hW0 hs (hal.imp id .inl)) hl'
    obtain ⟨hk', rfl⟩ := List.getElem?_eq_some_iff.1 hk
    exact (locTask_ok (mapE_get hm hk')).1
  refine ⟨hi, ?_⟩
  obtain ⟨z, hz, hW⟩ := scaled_weights hname hl ht h (hr ▸ hi)
  rw [h4 k i hk _ z hz.ne' fun j hj => by
    have := (hDW i hi j hj).symm.trans (hW j (hc ▸ hj))
    injection this]
  unfold softMean
  simp only [Bool.and_eq_true, beq_iff_eq]

/-- C168: very small bandwidths. With the weighted mean as regressor and gaussian (or exponential) kernels
in all dimensions, for every tolerance there is a factor such that after multiplying all bandwidths with it,
or anything smaller, every local prediction is within the tolerance of the plain mean of the targets of the
nearest observations (of the nearest others, under `leave_local_out`). -/
theorem C168_narrow (fmax : ℝ) (name : String) (hname : name = "gaussian" ∨ name = "exponential")
    (l : List (DimSpec ℝ)) (hl : FixedDims name l) (n : Nat) (y : List ℝ) (leave : Bool) (ε : ℝ) (hε : 0 < ε) :
    ∃ t0 > 0, ∀ t, 0 < t → t ≤ t0 → ∀ (lazy : Bool) (W : Mat (Num ℝ)),
      weightsOf (realEnv fmax) lazy (l.map (DimSpec.scaled t)) = .ok W → W.r = n → W.c = n →
      ∀ (L : Learner ℝ F) (rng : Rng S) (p : WMParams ℝ C) (st : WMState ℝ F C) (s : S) (X : Mat ℝ)
        (coords : Option C) (Wg : Option (WMat ℝ)) (D : Mat ℝ), IsWeightedMean L →
        (p.nJobs = none ∨ p.sampleRate = none) → p.leaveLocalOut = leave → X.r = n →
        chosenWeights p coords Wg = .ok (.dense D) →
        (∀ i < n, ∀ j < n, W.get i j = .fin (D.get i j)) →
        (wmFit L rng p st s X y coords Wg).result = .ok () →
        ∃ (idx : List Nat) (ps : List ℝ),
          (wmFit L rng p st s X y coords Wg).state.localIndices = some idx ∧
          (wmFit L rng p st s X y coords Wg).state.localPredict = some ps ∧ ps.length = idx.length ∧
          ∀ k i : Nat, idx[k]? = some i → ∃ v, ps[k]? = some v ∧
            |v - nearestMean n (farness name l i) (fun j => y.getD j 0) (fun j => leave && j == i)| ≤ ε := by
  have hq : (if name = "gaussian" then 2 else 1) ≠ 0 := by split <;> norm_num
  obtain ⟨t0, h0, ht0⟩ := softMean_small (n := n) (r := n) hq (fun i j => farness name l i j / 2)
    (fun j => y.getD j 0) (fun i j => leave && j == i) hε
  refine ⟨t0, h0, fun t ht htt lazy W hW hr hc L rng p st s X coords Wg D hL hal hlo hX hD hDW hok => ?_⟩
  subst hX
  subst hlo
  obtain ⟨idx, ps, h1, h2, h3, h4⟩ := smoother_local hname hl ht hW hL hal hD hr hc hDW hok
  refine ⟨idx, ps, h1, h2, h3, fun k i hk => ⟨_, (h4 k i hk).2, ?_⟩⟩
  have := ht0 t ht htt i (h4 k i hk).1
  have e : nearestMean X.r (fun j => farness name l i j / 2) (fun j => y.getD j 0)
      (fun j => p.leaveLocalOut && j == i) =
      nearestMean X.r (farness name l i) (fun j => y.getD j 0) (fun j => p.leaveLocalOut && j == i) := by
    unfold nearestMean
    simp only [div_le_div_iff_of_pos_right (zero_lt_two' ℝ)]
  rw [← e]
  exact this

/-- C168: very large bandwidths: every local prediction is within the tolerance of the plain mean of all
targets (of all others, under `leave_local_out`). -/
theorem C168_wide (fmax : ℝ) (name : String) (hname : name = "gaussian" ∨ name = "exponential")
    (l : List (DimSpec ℝ)) (hl : FixedDims name l) (n : Nat) (y : List ℝ) (leave : Bool) (ε : ℝ) (hε : 0 < ε) :
    ∃ t1 > 0, ∀ t, t1 ≤ t → ∀ (lazy : Bool) (W : Mat (Num ℝ)),
      weightsOf (realEnv fmax) lazy (l.map (DimSpec.scaled t)) = .ok W → W.r = n → W.c = n →
      ∀ (L : Learner ℝ F) (rng : Rng S) (p : WMParams ℝ C) (st : WMState ℝ F C) (s : S) (X : Mat ℝ)
        (coords : Option C) (Wg : Option (WMat ℝ)) (D : Mat ℝ), IsWeightedMean L →
        (p.nJobs = none ∨ p.sampleRate = none) → p.leaveLocalOut = leave → X.r = n →
        chosenWeights p coords Wg = .ok (.dense D) →
        (∀ i < n, ∀ j < n, W.get i j = .fin (D.get i j)) →
        (wmFit L rng p st s X y coords Wg).result = .ok () →
        ∃ (idx : List Nat) (ps : List ℝ),
          (wmFit L rng p st s X y coords Wg).state.localIndices = some idx ∧
          (wmFit L rng p st s X y coords Wg).state.localPredict = some ps ∧ ps.length = idx.length ∧
          ∀ k i : Nat, idx[k]? = some i → ∃ v, ps[k]? = some v ∧
            |v - othersMean n (fun j => y.getD j 0) (fun j => leave && j == i)| ≤ ε := by
  have hq : (if name = "gaussian" then 2 else 1) ≠ 0 := by split <;> norm_num
  obtain ⟨t1, h0, ht1⟩ := softMean_large (n := n) (r := n) hq (fun i j => farness name l i j / 2)
    (fun j => y.getD j 0) (fun i j => leave && j == i) hε
  refine ⟨t1, h0, fun t htt lazy W hW hr hc L rng p st s X coords Wg D hL hal hlo hX hD hDW hok => ?_⟩
  subst hX
  subst hlo
  obtain ⟨idx, ps, h1, h2, h3, h4⟩ := smoother_local hname hl (lt_of_lt_of_le h0 htt) hW hL hal hD hr hc hDW hok
  exact ⟨idx, ps, h1, h2, h3, fun k i hk => ⟨_, (h4 k i hk).2, ht1 t htt i (h4 k i hk).1⟩⟩

/-- C168: at new places, with the weights from the new places to the training observations: for small
bandwidths `predict_by_fit` is nearest-neighbour prediction. -/
theorem C168_predict_by_fit (fmax : ℝ) (name : String) (hname : name = "gaussian" ∨ name = "exponential")
    (l : List (DimSpec ℝ)) (hl : FixedDims name l) (n r : Nat) (y : List ℝ) (ε : ℝ) (hε : 0 < ε) :
    ∃ t0 > 0, ∀ t, 0 < t → t ≤ t0 → ∀ (lazy : Bool) (W : Mat (Num ℝ)),
      weightsOf (realEnv fmax) lazy (l.map (DimSpec.scaled t)) = .ok W → W.r = r → W.c = n →
      ∀ (L : Learner ℝ F) (p : WMParams ℝ C) (st : WMState ℝ F C) (X Xn : Mat ℝ) (cn : Option C)
        (V : Mat ℝ) (ps : List ℝ), IsWeightedMean L → st.X = some X → X.r = n → st.y = some y →
        V.r = r → (∀ i < r, ∀ j < n, W.get i j = .fin (V.get i j)) →
        predictByFit L p st Xn cn (some V) = .ok ps →
        ps.length = r ∧ ∀ m < r, ∃ v, ps[m]? = some v ∧
          |v - nearestMean n (farness name l m) (fun j => y.getD j 0) (fun _ => false)| ≤ ε := by
  have hq : (if name = "gaussian" then 2 else 1) ≠ 0 := by split <;> norm_num
  obtain ⟨t0, h0, ht0⟩ := softMean_small (n := n) (r := r) hq (fun i j => farness name l i j / 2)
    (fun j => y.getD j 0) (fun _ _ => false) hε
  refine ⟨t0, h0, fun t ht htt lazy W hW hr hc L p st X Xn cn V ps hL hX hXr hy hVr hVW h => ?_⟩
  subst hXr
  refine ⟨((predictByFit_given hX hy h).1).trans hVr, fun m hm => ?_⟩
  obtain ⟨z, hz, hWz⟩ := scaled_weights hname hl ht hW (hr.symm ▸ hm)
  refine ⟨_, C161_predict_by_fit_given L hL p st Xn cn ps X y hX hy V h m (hVr.symm ▸ hm) _ z hz.ne' fun j hj => by
    have := (hVW m hm j hj).symm.trans (hWz j (hc.symm ▸ hj))
    injection this, ?_⟩
  have := ht0 t ht htt m hm
  have e : nearestMean X.r (fun j => farness name l m j / 2) (fun j => y.getD j 0) (fun _ => false) =
      nearestMean X.r (farness name l m) (fun j => y.getD j 0) (fun _ => false) := by
    unfold nearestMean
    simp only [div_le_div_iff_of_pos_right (zero_lt_two' ℝ)]
  rw [e] at this
  simpa [softMean] using this

/-! ### The hypotheses can be met -/

/-- The weighted mean of the targets, in the real numbers. -/
noncomputable def realWeightedMean : Learner ℝ ℝ :=
  ⟨fun _ _ ys ws => .ok ((List.zipWith (· * ·) ws ys).sum / ws.sum), fun f _ => f⟩

/-- For every such list of dimensions between at least two observations, every factor, and every table and
targets, there are weights, and the fit with them succeeds. -/
theorem C168_applies (fmax : ℝ) (name : String) (hname : name = "gaussian" ∨ name = "exponential")
    (l : List (DimSpec ℝ)) (hl : FixedDims name l) (n : Nat) (hn : 2 ≤ n) (hne : l ≠ [])
    (hsh : AllShape (l.map (·.dist)) n n) (t : ℝ) (ht : 0 < t) (rng : Rng S) (p : WMParams ℝ C)
    (hj : p.JobsFine) (hsr : p.sampleRate = none) (s : S) (X : Mat ℝ) (hX : X.r = n) (hXc : 0 < X.c)
    (y : List ℝ) (hy : y.length = n) :
    IsWeightedMean realWeightedMean ∧
    ∃ (W : Mat (Num ℝ)) (D : Mat ℝ), weightsOf (realEnv fmax) false (l.map (DimSpec.scaled t)) = .ok W ∧
      W.r = n ∧ W.c = n ∧ (∀ i < n, ∀ j < n, W.get i j = .fin (D.get i j)) ∧
      (wmFit realWeightedMean rng p {} s X y none (some (.dense D))).result = .ok () := by
  refine ⟨fun e rows ys ws f h x => by injection h with h; exact h.symm, ?_⟩
  have hsh' : AllShape ((l.map (DimSpec.scaled t)).map (·.dist)) n n := by
    rw [List.map_map]
    exact hsh
  obtain ⟨Ws, hWs⟩ := mapE_goes (f := DimSpec.weights (realEnv fmax) false) (l := l.map (DimSpec.scaled t)) (by
    intro d hd
    obtain ⟨d, hd', rfl⟩ := List.mem_map.1 hd
    obtain ⟨b, hb, -⟩ := hl.bandwidth d hd'
    unfold DimSpec.weights weightByDistance
    simp only [DimSpec.scaled, hb, hl.count d hd', hl.kernel d hd', Option.map_some]
    rcases hname with rfl | rfl <;> exact ⟨_, rfl⟩)
  have hW := weightsOf_build (lazy := false) (by simpa using hne) hsh' hWs (by
    rw [logStats_ok_iff]
    show n * n ≠ 0
    positivity)
  set W := normalizeRows ⟨n, n, prodEntry Ws⟩ with hWdef
  have hr : W.r = n := rfl
  have hc : W.c = n := rfl
  have hfin : ∀ i < n, ∀ j < n, ∃ x, W.get i j = .fin x := by
    intro i hi j hj'
    obtain ⟨z, -, hz⟩ := scaled_weights hname hl ht hW (hr ▸ hi)
    exact ⟨_, hz j hj'⟩
  choose! g hg using hfin
  refine ⟨W, ⟨n, n, g⟩, hW, hr, hc, hg, ?_⟩
  rw [C139_fit realWeightedMean rng p hj hsr {} s X y none _ ⟨n, n, g⟩ rfl]
  exact ⟨⟨hX.trans hy.symm, hX ▸ hn, hXc, hX.le, hX.symm⟩, fun i hi => ⟨_, rfl⟩⟩

/-- Four places on a line. -/
noncomputable def limDims : List (DimSpec ℝ) :=
  [⟨⟨4, 4, fun i j => |([0, 1, -1, 2] : List ℝ).getD i 0 - ([0, 1, -1, 2] : List ℝ).getD j 0|⟩,
    "gaussian", some 1, none, none⟩]

open scoped Classical in
/-- Two observations at distance 1 from the first and one at distance 2: for narrow bandwidths the
prediction there tends to the mean of the two, for wide ones to the mean of all three. -/
example : FixedDims "gaussian" limDims ∧ AllShape (limDims.map (·.dist)) 4 4 ∧
    nearestMean 4 (farness "gaussian" limDims 0) (fun j => ([7, 1, 2, 6] : List ℝ).getD j 0)
      (fun j => true && j == 0) = 3 / 2 ∧
    othersMean 4 (fun j => ([7, 1, 2, 6] : List ℝ).getD j 0) (fun j => true && j == 0) = 3 := by
  refine ⟨⟨?_, ?_, ?_, ?_⟩, ?_, ?_, ?_⟩
  · simp [limDims]
  · simp [limDims]
  · simp [limDims]
  · intro d hd
    simp only [limDims, List.mem_singleton] at hd
    subst hd
    refine ⟨fun i _ j _ => abs_nonneg _, ?_, ?_⟩
    · intro b hb
      simp only [Option.some.injEq] at hb
      rw [← hb]
      exact zero_le_one
    · simp
  · simp [limDims, AllShape]
  · unfold nearestMean meanOver
    beta_reduce
    have e : ∀ inst, @Finset.filter ℕ (fun j => ¬ (true && j == 0) = true ∧ ∀ k < 4,
        ¬ (true && k == 0) = true → farness "gaussian" limDims 0 j ≤ farness "gaussian" limDims 0 k) inst
        (Finset.range 4) = {1, 2} := by
      intro inst
      ext j
      simp only [Finset.mem_filter, Finset.mem_range, Finset.mem_insert, Finset.mem_singleton]
      constructor
      · rintro ⟨h1, h2, h3⟩
        have := h3 1 (by norm_num) (by decide)
        interval_cases j
        · simp at h2
        · simp
        · simp
        · norm_num [farness, limDims] at this
      · rintro (rfl | rfl)
        · refine ⟨by norm_num, by decide, fun k hk ho => ?_⟩
          interval_cases k
          · simp at ho
          all_goals norm_num [farness, limDims]
        · refine ⟨by norm_num, by decide, fun k hk ho => ?_⟩
          interval_cases k
          · simp at ho
          all_goals norm_num [farness, limDims]
    rw [e]
    norm_num
  · unfold othersMean meanOver
    beta_reduce
    have e : (Finset.range 4).filter (fun j => ¬ (true && j == 0) = true) = {1, 2, 3} := by decide
    rw [e]
    norm_num

end Geo
