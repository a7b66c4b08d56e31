import Verif.Props.Kernel
import Verif.Props.WeightMatrix
/-
C174: how the kernels compare with each other, and what a wider kernel does to the weights.
-/
set_option linter.unusedSectionVars false
namespace Geo

/-- The pairs of kernels of which the second is at least as wide as the first. -/
def narrowerPairs : List (String × String) :=
  [("linear", "linear"), ("linear", "boxcar"), ("linear", "gaussian"), ("linear", "exponential"), ("linear", "uniform"),
   ("bisquare", "bisquare"), ("bisquare", "boxcar"), ("bisquare", "gaussian"), ("bisquare", "uniform"),
   ("tricube", "tricube"), ("tricube", "boxcar"), ("tricube", "uniform"),
   ("boxcar", "boxcar"), ("boxcar", "uniform"), ("gaussian", "gaussian"), ("gaussian", "uniform"),
   ("exponential", "exponential"), ("exponential", "uniform"), ("uniform", "uniform")]

theorem exp_neg_le (x : ℝ) (hx : 0 ≤ x) : Real.exp (-x) ≤ 1 / (1 + x) := by
  rw [Real.exp_neg, ← one_div]
  exact one_div_le_one_div_of_le (by linarith) (by linarith [Real.add_one_le_exp x])

theorem kshape_narrower (fmax : ℝ) (u : ℝ) (hu : 0 ≤ u) (n n' : String) (h : (n, n') ∈ narrowerPairs) :
    kshape (realEnv fmax) n u ≤ kshape (realEnv fmax) n' u := by
  have ok := (realEnv_pos fmax).toOk
  have g : ∀ n, 0 ≤ kshape (realEnv fmax) n u := fun n => kshape_nonneg _ ok n hu
  have one : ∀ n, kshape (realEnv fmax) n u ≤ 1 := by
    intro n
    rw [← kshape_zero (realEnv fmax) ok n]
    exact kshape_anti _ ok n le_rfl hu
  have hg : kshape (realEnv fmax) "gaussian" u = Real.exp (-(1 / 2) * (u * u)) := by simp [kshape, realEnv]
  have he : kshape (realEnv fmax) "exponential" u = Real.exp (-(1 / 2) * u) := by simp [kshape, realEnv]
  have hU : kshape (realEnv fmax) "uniform" u = 1 := by simp [kshape]
  by_cases h1 : 1 < u
  · have hl : kshape (realEnv fmax) "linear" u = 0 := by simp [kshape, h1]
    have hb : kshape (realEnv fmax) "bisquare" u = 0 := by simp [kshape, h1]
    have ht : kshape (realEnv fmax) "tricube" u = 0 := by simp [kshape, h1]
    have hB : kshape (realEnv fmax) "boxcar" u = 0 := by simp [kshape, h1]
    simp only [narrowerPairs, List.mem_cons, Prod.mk.injEq, List.not_mem_nil, or_false] at h
    rcases h with ⟨rfl, rfl⟩ | ⟨rfl, rfl⟩ | ⟨rfl, rfl⟩ | ⟨rfl, rfl⟩ | ⟨rfl, rfl⟩ | ⟨rfl, rfl⟩ | ⟨rfl, rfl⟩ | ⟨rfl, rfl⟩ |
      ⟨rfl, rfl⟩ | ⟨rfl, rfl⟩ | ⟨rfl, rfl⟩ | ⟨rfl, rfl⟩ | ⟨rfl, rfl⟩ | ⟨rfl, rfl⟩ | ⟨rfl, rfl⟩ | ⟨rfl, rfl⟩ | ⟨rfl, rfl⟩ |
      ⟨rfl, rfl⟩ | ⟨rfl, rfl⟩
    all_goals first
      | exact le_rfl
      | (rw [hU]; exact one _)
      | (rw [hl]; exact g _)
      | (rw [hb]; exact g _)
      | (rw [ht]; exact g _)
  · have hl : kshape (realEnv fmax) "linear" u = 1 - u := by simp [kshape, h1]
    have hb : kshape (realEnv fmax) "bisquare" u = (1 - u * u) * (1 - u * u) := by simp [kshape, h1]
    have hB : kshape (realEnv fmax) "boxcar" u = 1 := by simp [kshape, h1]
    have hu1 := not_lt.1 h1
    have b1 := Real.add_one_le_exp (-(1 / 2) * (u * u))
    have b2 := Real.add_one_le_exp (-(1 / 2) * u)
    simp only [narrowerPairs, List.mem_cons, Prod.mk.injEq, List.not_mem_nil, or_false] at h
    rcases h with ⟨rfl, rfl⟩ | ⟨rfl, rfl⟩ | ⟨rfl, rfl⟩ | ⟨rfl, rfl⟩ | ⟨rfl, rfl⟩ | ⟨rfl, rfl⟩ | ⟨rfl, rfl⟩ | ⟨rfl, rfl⟩ |
      ⟨rfl, rfl⟩ | ⟨rfl, rfl⟩ | ⟨rfl, rfl⟩ | ⟨rfl, rfl⟩ | ⟨rfl, rfl⟩ | ⟨rfl, rfl⟩ | ⟨rfl, rfl⟩ | ⟨rfl, rfl⟩ | ⟨rfl, rfl⟩ |
      ⟨rfl, rfl⟩ | ⟨rfl, rfl⟩
    all_goals first
      | exact le_rfl
      | (rw [hU]; exact one _)
      | (rw [hB]; exact one _)
      | (rw [hl, hg]; nlinarith)
      | (rw [hl, he]; nlinarith)
      | (rw [hb, hg]; nlinarith [mul_nonneg hu hu, mul_nonneg hu (sub_nonneg.2 hu1), mul_self_nonneg (u * u),
          mul_le_one₀ hu1 hu hu1, mul_nonneg (mul_nonneg hu hu) (sub_nonneg.2 (mul_le_one₀ hu1 hu hu1))])

/-- C174: how the kernels compare. With equal distances and bandwidths one kernel never gives more weight than
another if and only if the pair is in `narrowerPairs`. -/
theorem C174_order (fmax : ℝ) (lazy : Bool) (n n' : String) (hn : n ∈ kernelTypeEnum) (hn' : n' ∈ kernelTypeEnum) :
    (∀ d b : ℝ, 0 ≤ d → 0 ≤ b → ∃ w w', kernelWeight (realEnv fmax) lazy n d b = .ok (.fin w) ∧
      kernelWeight (realEnv fmax) lazy n' d b = .ok (.fin w') ∧ w ≤ w') ↔ (n, n') ∈ narrowerPairs := by
  have ok := (realEnv_pos fmax).toOk
  constructor
  · intro h
    have key : ∀ u : ℝ, 0 ≤ u → kshape (realEnv fmax) n u ≤ kshape (realEnv fmax) n' u := by
      intro u hu
      obtain ⟨w, w', h1, h2, h3⟩ := h u 1 hu zero_le_one
      rw [kernelWeight_eq _ lazy hn hu zero_le_one, kval_eq_kshape _ _ one_pos, div_one] at h1
      rw [kernelWeight_eq _ lazy hn' hu zero_le_one, kval_eq_kshape _ _ one_pos, div_one] at h2
      cases h1
      cases h2
      exact h3
    have vu : ∀ u, kshape (realEnv fmax) "uniform" u = 1 := fun u => by simp [kshape]
    have vg : ∀ u, kshape (realEnv fmax) "gaussian" u = Real.exp (-(1 / 2) * (u * u)) := fun u => by
      simp [kshape, realEnv]
    have ve : ∀ u, kshape (realEnv fmax) "exponential" u = Real.exp (-(1 / 2) * u) := fun u => by
      simp [kshape, realEnv]
    have vl : ∀ u, kshape (realEnv fmax) "linear" u = if 1 < u then 0 else 1 - u := fun u => by simp [kshape]
    have vB : ∀ u, kshape (realEnv fmax) "boxcar" u = if 1 < u then 0 else 1 := fun u => by simp [kshape]
    have vb : ∀ u, kshape (realEnv fmax) "bisquare" u = if 1 < u then 0 else (1 - u * u) * (1 - u * u) := fun u => by
      simp [kshape]
    have vt : ∀ u, kshape (realEnv fmax) "tricube" u = if 1 < u then 0 else
        (1 - u * u * u) * (1 - u * u * u) * (1 - u * u * u) := fun u => by simp [kshape]
    have c2 : (1 : ℝ) < 2 := by norm_num
    have c5 : ¬ (1 : ℝ) < 1 / 2 := by norm_num
    have c9 : ¬ (1 : ℝ) < 9 / 10 := by norm_num
    have c1 : ¬ (1 : ℝ) < 1 / 10 := by norm_num
    have g2 : (0 : ℝ) < Real.exp (-(1 / 2) * (2 * 2)) := Real.exp_pos _
    have g2' : Real.exp (-(1 / 2) * (2 * 2)) < Real.exp (-(1 / 2) * 2) := Real.exp_lt_exp.2 (by norm_num)
    have e2' : Real.exp (-(1 / 2) * 2) < 1 := by
      rw [Real.exp_lt_one_iff]
      norm_num
    have g5 : Real.exp (-(1 / 2) * (1 / 2 * (1 / 2))) < 1 := by
      rw [Real.exp_lt_one_iff]
      norm_num
    have g5' : Real.exp (-(1 / 2) * (1 / 2)) < Real.exp (-(1 / 2) * (1 / 2 * (1 / 2))) :=
      Real.exp_lt_exp.2 (by norm_num)
    have g1 : Real.exp (-(1 / 2) * (1 / 10 * (1 / 10))) ≤ 200 / 201 := by
      have := exp_neg_le (1 / 200) (by norm_num)
      norm_num at this ⊢
      exact this
    have e1 : Real.exp (-(1 / 2) * (1 / 10)) ≤ 20 / 21 := by
      have := exp_neg_le (1 / 20) (by norm_num)
      norm_num at this ⊢
      exact this
    rw [mem_kernelTypeEnum] at hn hn'
    rcases hn with rfl | rfl | rfl | rfl | rfl | rfl | rfl <;>
      rcases hn' with rfl | rfl | rfl | rfl | rfl | rfl | rfl
    · decide
    · decide
    · decide
    · decide
    · decide
    · have := key (9 / 10) (by norm_num)
      rw [vl, vb, if_neg c9, if_neg c9] at this
      linarith
    · have := key (9 / 10) (by norm_num)
      rw [vl, vt, if_neg c9, if_neg c9] at this
      linarith
    · have := key (2) (by norm_num)
      rw [vu, vl, if_pos c2] at this
      linarith
    · decide
    · have := key (2) (by norm_num)
      rw [vu, vg] at this
      linarith
    · have := key (2) (by norm_num)
      rw [vu, ve] at this
      linarith
    · have := key (2) (by norm_num)
      rw [vu, vB, if_pos c2] at this
      linarith
    · have := key (2) (by norm_num)
      rw [vu, vb, if_pos c2] at this
      linarith
    · have := key (2) (by norm_num)
      rw [vu, vt, if_pos c2] at this
      linarith
    · have := key (2) (by norm_num)
      rw [vg, vl, if_pos c2] at this
      linarith
    · decide
    · decide
    · have := key (1 / 2) (by norm_num)
      rw [vg, ve] at this
      linarith
    · have := key (2) (by norm_num)
      rw [vg, vB, if_pos c2] at this
      linarith
    · have := key (2) (by norm_num)
      rw [vg, vb, if_pos c2] at this
      linarith
    · have := key (2) (by norm_num)
      rw [vg, vt, if_pos c2] at this
      linarith
    · have := key (2) (by norm_num)
      rw [ve, vl, if_pos c2] at this
      linarith
    · decide
    · have := key (2) (by norm_num)
      rw [ve, vg] at this
      linarith
    · decide
    · have := key (2) (by norm_num)
      rw [ve, vB, if_pos c2] at this
      linarith
    · have := key (2) (by norm_num)
      rw [ve, vb, if_pos c2] at this
      linarith
    · have := key (2) (by norm_num)
      rw [ve, vt, if_pos c2] at this
      linarith
    · have := key (1 / 2) (by norm_num)
      rw [vB, vl, if_neg c5, if_neg c5] at this
      linarith
    · decide
    · have := key (1 / 2) (by norm_num)
      rw [vB, vg, if_neg c5] at this
      linarith
    · have := key (1 / 2) (by norm_num)
      rw [vB, ve, if_neg c5] at this
      linarith
    · decide
    · have := key (1 / 2) (by norm_num)
      rw [vB, vb, if_neg c5, if_neg c5] at this
      linarith
    · have := key (1 / 2) (by norm_num)
      rw [vB, vt, if_neg c5, if_neg c5] at this
      linarith
    · have := key (1 / 2) (by norm_num)
      rw [vb, vl, if_neg c5, if_neg c5] at this
      linarith
    · decide
    · decide
    · have := key (1 / 10) (by norm_num)
      rw [vb, ve, if_neg c1] at this
      linarith
    · decide
    · decide
    · have := key (9 / 10) (by norm_num)
      rw [vb, vt, if_neg c9, if_neg c9] at this
      linarith
    · have := key (1 / 2) (by norm_num)
      rw [vt, vl, if_neg c5, if_neg c5] at this
      linarith
    · decide
    · have := key (1 / 10) (by norm_num)
      rw [vt, vg, if_neg c1] at this
      linarith
    · have := key (1 / 10) (by norm_num)
      rw [vt, ve, if_neg c1] at this
      linarith
    · decide
    · have := key (1 / 2) (by norm_num)
      rw [vt, vb, if_neg c5, if_neg c5] at this
      linarith
    · decide
  · intro h d b hd hb
    refine ⟨_, _, kernelWeight_eq _ lazy hn hd hb, kernelWeight_eq _ lazy hn' hd hb, ?_⟩
    rcases hb.eq_or_lt with rfl | hb
    · rw [kval_bw_zero _ ok _ hd, kval_bw_zero _ ok _ hd]
      have hu : n = "uniform" → n' = "uniform" := by
        rintro rfl
        simpa [narrowerPairs] using h
      split_ifs with h1 h2
      · exact le_rfl
      · exact absurd (h1.imp id hu) h2
      · exact zero_le_one
      · exact le_rfl
    · rw [kval_eq_kshape _ _ hb, kval_eq_kshape _ _ hb]
      exact kshape_narrower fmax _ (div_nonneg hd hb.le) n n' h

/-- The weights of one dimension with two kernels: the bandwidths are the same. -/
theorem weightByDistance_two {K : Type} [Field K] [LinearOrder K] [IsStrictOrderedRing K] [FloorRing K]
    (env : Env K) {lazy : Bool} {D : Mat K} {name name' : String}
    {b : Option K} {n : Option (Count K)} {S : Option (Mat K)} {W W' : Mat (Num K)}
    (h : weightByDistance env lazy D name b n S = .ok W) (h' : weightByDistance env lazy D name' b n S = .ok W')
    (hD : ∀ i < D.r, ∀ j < D.c, 0 ≤ D.get i j) (hb : ∀ b', b = some b' → 0 ≤ b')
    (hS : ∀ S', S = some S' → ∀ i < D.r, ∀ j < S'.c, 0 ≤ S'.get i j) :
    ∃ bw : Nat → K, ∀ i < D.r, 0 ≤ bw i ∧ ∀ j < D.c, W.get i j = .fin (kval env name (D.get i j) (bw i)) ∧
      W'.get i j = .fin (kval env name' (D.get i j) (bw i)) := by
  have key : ∀ (bw : Nat → K) (name : String) (W : Mat (Num K)), (∀ i < D.r, 0 ≤ bw i) →
      kernelFunction env lazy D bw name = .ok W →
      ∀ i < D.r, ∀ j < D.c, W.get i j = .fin (kval env name (D.get i j) (bw i)) := by
    intro bw name W hbw hk i hi j hj
    unfold kernelFunction at hk
    split at hk
    · cases hk
    · rename_i w hw
      injection hk with hk
      subst hk
      have hn : name ∈ kernelTypeEnum := by
        by_contra hn
        simp only [mem_kernelTypeEnum, not_or] at hn
        obtain ⟨h1, h2, h3, h4, h5, h6, h7⟩ := hn
        simp [kernelElem, h1, h2, h3, h4, h5, h6, h7] at hw
      have := kernelWeight_eq env lazy hn (hD i hi j hj) (hbw i hi)
      simp only [kernelWeight, hw] at this
      injection this
  unfold weightByDistance at h h'
  split at h
  · rename_i b'
    simp only at h'
    have hb0 : ∀ i < D.r, 0 ≤ (fun _ : Nat => b') i := fun i _ => hb _ rfl
    exact ⟨_, fun i hi => ⟨hb0 i hi, fun j hj => ⟨key _ _ _ hb0 h i hi j hj, key _ _ _ hb0 h' i hi j hj⟩⟩⟩
  · simp only at h'
    unfold adaptiveKernel at h h'
    split at h
    · cases h
    · rename_i bw hbw
      rw [hbw] at h'
      simp only at h'
      have hb0 : ∀ i < D.r, 0 ≤ bw i := fun i hi => adaptiveBandwidth_nonneg hbw (hD i hi)
        (fun S' hS' => hS S' hS' i hi)
      exact ⟨_, fun i hi => ⟨hb0 i hi, fun j hj => ⟨key _ _ _ hb0 h i hi j hj, key _ _ _ hb0 h' i hi j hj⟩⟩⟩
  · cases h

theorem prod_le_forall₂ {l l' : List ℝ} (h : List.Forall₂ (fun a b => 0 ≤ a ∧ a ≤ b) l l') :
    0 ≤ l.prod ∧ l.prod ≤ l'.prod := by
  induction h with
  | nil => simp
  | cons hab _ ih =>
    rw [List.prod_cons, List.prod_cons]
    exact ⟨mul_nonneg hab.1 ih.1, mul_le_mul hab.2 ih.2 ih.1 (hab.1.trans hab.2)⟩

/-- C174: what a wider kernel does to the weights. The same distances, bandwidths or neighbour counts, and in every
dimension a kernel that is at least as wide. Every neighbour stays a neighbour; the own weight of a point does not
grow; and every other weight does not shrink in proportion to the own weight. -/
theorem C174_wider_kernel (fmax : ℝ) (lazy : Bool) (Ds : List (Mat ℝ)) (p : WParams ℝ) (k' : Param String)
    (hin : NonnegInput Ds p) (W W' : Mat (Num ℝ))
    (h : weightMatrixFromDistance (realEnv fmax) lazy Ds p = .ok W)
    (h' : weightMatrixFromDistance (realEnv fmax) lazy Ds { p with kernel := k' } = .ok W')
    (hk : ∀ d < Ds.length, ∀ n n', (p.kernel.expand Ds.length)[d]? = some n → (k'.expand Ds.length)[d]? = some n' →
      (n, n') ∈ narrowerPairs) :
    W'.r = W.r ∧ W'.c = W.c ∧ ∀ i < W.r, ∃ w w' : Nat → ℝ,
      (∀ j < W.c, W.get i j = .fin (w j) ∧ W'.get i j = .fin (w' j) ∧ (w j ≠ 0 → w' j ≠ 0)) ∧
      (i < W.c → (∀ D ∈ Ds, D.get i i = 0) → 0 < w' i ∧ w' i ≤ w i ∧ ∀ j < W.c, w j / w i ≤ w' j / w' i) := by
  have ok := (realEnv_pos fmax).toOk
  have hin' : NonnegInput Ds { p with kernel := k' } := ⟨hin.dist, hin.bandwidth, hin.sorted⟩
  obtain ⟨Ws, hWs, hsh, hu, hg⟩ := weightMatrix_master _ ok h hin
  obtain ⟨Ws', hWs', hsh', hu', hg'⟩ := weightMatrix_master _ ok h' hin'
  obtain ⟨-, -, -, -, hne, -⟩ := weightMatrix_unfold h
  obtain ⟨D0, hD0⟩ := List.exists_mem_of_ne_nil Ds hne
  have er : W'.r = W.r := (hsh' D0 hD0).1.symm.trans (hsh D0 hD0).1
  have ec : W'.c = W.c := (hsh' D0 hD0).2.symm.trans (hsh D0 hD0).2
  refine ⟨er, ec, fun i hi => ?_⟩
  rw [er, ec] at hg' hu'
  have hl : Ws.length = Ds.length := by simpa using mapE_length hWs
  have hl' : Ws'.length = Ds.length := by simpa using mapE_length hWs'
  -- entry by entry
  have hent : ∀ d, ∀ hd : d < Ds.length, ∀ j < W.c, 
      0 ≤ ((Ws[d]'(hl ▸ hd)).get i j).toK ∧
      ((Ws[d]'(hl ▸ hd)).get i j).toK ≤ ((Ws'[d]'(hl' ▸ hd)).get i j).toK ∧
      (Ds[d].get i j = 0 → ((Ws[d]'(hl ▸ hd)).get i j).toK = 1 ∧ ((Ws'[d]'(hl' ▸ hd)).get i j).toK = 1) := by
    intro d hd j hj
    obtain ⟨D, name, b, n, S, hD, hname, hb, hn, hS, hw⟩ := dimWeight_unfold (dimWeights_get hWs (d := d) hd)
    obtain ⟨D', name', b', n', S', hD', hname', hb', hn', hS', hw'⟩ := dimWeight_unfold (dimWeights_get hWs' (d := d) hd)
    have hDm : D ∈ Ds := List.mem_of_getElem? hD
    have hDe : D = Ds[d] := by rw [List.getElem?_eq_getElem hd] at hD; exact (Option.some.inj hD).symm
    rw [hD] at hD'
    cases hD'
    rw [hb] at hb'
    cases hb'
    rw [hn] at hn'
    cases hn'
    have hSS : S' = S := by
      rcases hS with ⟨l1, hS⟩ | ⟨l1, hS⟩ <;> rcases hS' with ⟨l2, hS'⟩ | ⟨l2, hS'⟩
      · rw [hS] at hS'; exact (Option.some.inj hS').symm
      · rw [l1] at l2; cases l2
      · rw [l1] at l2; cases l2
      · rw [hS, hS']
    subst hSS
    obtain ⟨hr, hc⟩ := hsh D hDm
    obtain ⟨bw, hbw⟩ := weightByDistance_two (realEnv fmax) hw hw' (hin.dist D hDm)
      (fun b' hb' => hin.bandwidth b' (by rw [← hb']; exact List.mem_of_getElem? hb))
      (by
        intro S'' hS''
        rcases hS with ⟨-, hS⟩ | ⟨-, hS⟩
        · exact hin.sorted S'' (by rw [← hS'']; exact List.mem_of_getElem? hS) D hDm
        · rw [hS] at hS''; cases hS'')
    obtain ⟨b0, hv⟩ := hbw i (hr ▸ hi)
    obtain ⟨v1, v2⟩ := hv j (hc ▸ hj)
    rw [v1, v2]
    have d0 : 0 ≤ D.get i j := hin.dist D hDm i (hr ▸ hi) j (hc ▸ hj)
    have hp := hk d hd name name' hname hname'
    have hmem : ∀ a b, (a, b) ∈ narrowerPairs → a ∈ kernelTypeEnum ∧ b ∈ kernelTypeEnum := by
      intro a b hab
      have : ∀ x ∈ narrowerPairs, x.1 ∈ kernelTypeEnum ∧ x.2 ∈ kernelTypeEnum := by decide
      exact this _ hab
    obtain ⟨m1, m2⟩ := hmem _ _ hp
    obtain ⟨x, x', hx, hx', hxx⟩ := (C174_order fmax false name name' m1 m2).2 hp (D.get i j) (bw i) d0 b0
    rw [kernelWeight_eq _ false m1 d0 b0] at hx
    rw [kernelWeight_eq _ false m2 d0 b0] at hx'
    cases hx
    cases hx'
    refine ⟨(kval_unit _ ok _ d0 b0).1, hxx, fun h0 => ?_⟩
    rw [← hDe] at h0
    rw [h0]
    exact ⟨kval_self _ ok _ b0, kval_self _ ok _ b0⟩
  have hP : ∀ j < W.c, 0 ≤ prodK Ws i j ∧ prodK Ws i j ≤ prodK Ws' i j := by
    intro j hj
    unfold prodK
    refine prod_le_forall₂ (List.forall₂_iff_get.2 ⟨by simp [hl, hl'], fun d hd hd' => ?_⟩)
    have hd0 : d < Ds.length := by simpa [hl] using hd
    have := hent d hd0 j hj
    simpa using ⟨this.1, this.2.1⟩
  have hP1 : i < W.c → (∀ D ∈ Ds, D.get i i = 0) → prodK Ws i i = 1 ∧ prodK Ws' i i = 1 := by
    intro hic h0
    unfold prodK
    constructor
    · refine List.prod_eq_one fun x hx => ?_
      obtain ⟨V, hV, rfl⟩ := List.mem_map.1 hx
      obtain ⟨d, hd, rfl⟩ := List.getElem_of_mem hV
      have hd0 : d < Ds.length := by omega
      exact ((hent d hd0 i hic).2.2 (h0 _ (List.getElem_mem hd0))).1
    · refine List.prod_eq_one fun x hx => ?_
      obtain ⟨V, hV, rfl⟩ := List.mem_map.1 hx
      obtain ⟨d, hd, rfl⟩ := List.getElem_of_mem hV
      have hd0 : d < Ds.length := by omega
      exact ((hent d hd0 i hic).2.2 (h0 _ (List.getElem_mem hd0))).2
  have hN := hu.normK_pos hi
  have hN' := hu'.normK_pos hi
  refine ⟨fun j => prodK Ws i j / normK Ws W.c i, fun j => prodK Ws' i j / normK Ws' W.c i, fun j hj => ?_, ?_⟩
  · refine ⟨hg i hi j hj, hg' i hi j hj, fun hne => ?_⟩
    have hp : prodK Ws i j ≠ 0 := fun h0 => hne (by simp [h0])
    exact (div_pos (lt_of_lt_of_le (lt_of_le_of_ne (hP j hj).1 (Ne.symm hp)) (hP j hj).2) hN').ne'
  · intro hic h0
    obtain ⟨o1, o2⟩ := hP1 hic h0
    have hs : ∀ V : List (Mat (Num ℝ)), (∀ j < W.c, 0 ≤ prodK V i j) → prodK V i i = 1 →
        normK V W.c i = ∑ j ∈ Finset.range W.c, prodK V i j := by
      intro V hV hi1
      unfold normK
      refine if_neg fun hz => ?_
      have := (Finset.sum_eq_zero_iff_of_nonneg fun j hj => hV j (Finset.mem_range.1 hj)).1 hz i
        (Finset.mem_range.2 hic)
      rw [hi1] at this
      exact one_ne_zero this
    have n1 := hs Ws (fun j hj => (hP j hj).1) o1
    have n2 := hs Ws' (fun j hj => (hP j hj).1.trans (hP j hj).2) o2
    have hle : normK Ws W.c i ≤ normK Ws' W.c i := by
      rw [n1, n2]
      exact Finset.sum_le_sum fun j hj => (hP j (Finset.mem_range.1 hj)).2
    simp only [o1, o2]
    refine ⟨by positivity, one_div_le_one_div_of_le hN hle, fun j hj => ?_⟩
    rw [div_div_div_cancel_right₀ hN.ne', div_div_div_cancel_right₀ hN'.ne', div_one, div_one]
    exact (hP j hj).2

/-- Three places on a line, one apart. -/
noncomputable def lineDist : Mat ℝ := ⟨3, 3, fun i j => |(i : ℝ) - j|⟩

/-- Two dimensions, one with a bandwidth and one with a neighbour count. -/
noncomputable def lineParams : WParams ℝ :=
  { kernel := .list ["bisquare", "linear"], bandwidth := .list [some 2, none],
    count := .list [none, some (.int 3)] }

/-- The hypotheses of `C174_wider_kernel` are met by three places on a line, two dimensions, one of them with a
bandwidth and one with a neighbour count, when `bisquare` and `linear` give way to `gaussian` and `exponential`. -/
example (fmax : ℝ) : ∃ W W', weightMatrixFromDistance (realEnv fmax) false [lineDist, lineDist] lineParams = .ok W ∧
    weightMatrixFromDistance (realEnv fmax) false [lineDist, lineDist]
      { lineParams with kernel := .list ["gaussian", "exponential"] } = .ok W' ∧
    ∃ w w' : Nat → ℝ, (∀ j < 3, W.get 1 j = .fin (w j) ∧ W'.get 1 j = .fin (w' j)) ∧
      w' 1 ≤ w 1 ∧ w 0 / w 1 ≤ w' 0 / w' 1 ∧ w 2 / w 1 ≤ w' 2 / w' 1 := by
  have hok : ∃ W W', weightMatrixFromDistance (realEnv fmax) false [lineDist, lineDist] lineParams = .ok W ∧
    weightMatrixFromDistance (realEnv fmax) false [lineDist, lineDist]
      { lineParams with kernel := .list ["gaussian", "exponential"] } = .ok W' ∧ W.r = 3 ∧ W.c = 3 :=
    ⟨_, _, rfl, rfl, rfl, rfl⟩
  obtain ⟨W, W', h, h', hr, hc⟩ := hok
  have hin : NonnegInput [lineDist, lineDist] lineParams := by
    constructor
    · intro D hD i _ j _
      simp only [List.mem_cons, List.not_mem_nil, or_false, or_self] at hD
      subst hD
      exact abs_nonneg _
    · intro b hb
      simp [lineParams, Param.expand] at hb
      rw [hb]; norm_num
    · intro S hS
      simp [lineParams, Param.expand] at hS
  obtain ⟨-, -, hall⟩ := C174_wider_kernel fmax false _ lineParams _ hin W W' h h' (by
    intro d hd n n' hn hn'
    have : d = 0 ∨ d = 1 := by simp at hd; omega
    rcases this with rfl | rfl <;> simp [lineParams, Param.expand] at hn hn' <;> subst hn hn' <;> decide)
  obtain ⟨w, w', h1, h2⟩ := hall 1 (by omega)
  obtain ⟨-, h3, h4⟩ := h2 (by omega) (by
    intro D hD
    simp only [List.mem_cons, List.not_mem_nil, or_false, or_self] at hD
    subst hD
    simp [lineDist])
  exact ⟨W, W', h, h', w, w', fun j hj => ⟨(h1 j (by omega)).1, (h1 j (by omega)).2.1⟩, h3, h4 0 (by omega), h4 2 (by omega)⟩

/-- `C174_order` at work: at the distance of half the bandwidth `bisquare` gives at most the weight `gaussian` gives. -/
example : ("bisquare", "gaussian") ∈ narrowerPairs ∧ ("gaussian", "exponential") ∉ narrowerPairs ∧
    ("bisquare", "tricube") ∉ narrowerPairs ∧ ("tricube", "bisquare") ∉ narrowerPairs := by decide

end Geo
