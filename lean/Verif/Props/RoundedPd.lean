import Verif.Model.RoundedPd
import Verif.Props.RoundedAle
import Verif.Props.LocalPd
import Verif.Props.RoundedPredict
import Verif.Lemmas.Stacking
set_option linter.unusedSectionVars false
/-
C184: partial dependence and weighted predictions in floating point.
-/
namespace Geo
section
variable {K : Type} [Field K] [LinearOrder K] [IsStrictOrderedRing K] {a : Arith K}
variable {shape : List (Num K) → SumTree K}

/-- not above: one of the two is NaN, or the first is at most the second -/
def Num.NotAbove (x y : Num K) : Prop := x = .nan ∨ y = .nan ∨ Num.le x y

theorem addR_notAbove (ha : a.Ok) {x y x' y' : Num K} (h : x.NotAbove x') (h' : y.NotAbove y') :
    (Num.rnd a.op (.add x y)).NotAbove (Num.rnd a.op (.add x' y')) := by
  have top : ∀ z : Num K, z.NotAbove .pinf := by
    intro z
    cases z with
    | nan => exact .inl rfl
    | _ => exact .inr (.inr trivial)
  have bot : ∀ z : Num K, Num.NotAbove .ninf z := by
    intro z
    cases z with
    | nan => exact .inr (.inl rfl)
    | _ => exact .inr (.inr trivial)
  cases x <;> cases y <;> cases x' <;> cases y' <;>
    first
    | exact .inl rfl
    | exact .inr (.inl rfl)
    | exact top _
    | exact bot _
    | exact (h.elim (fun h => by cases h) fun h => h.elim (fun h => by cases h) fun h => h.elim)
    | exact (h'.elim (fun h => by cases h) fun h => h.elim (fun h => by cases h) fun h => h.elim)
    | skip
  rename_i u v u' v'
  rcases h with h | h | h
  · cases h
  · cases h
  rcases h' with h' | h' | h'
  · cases h'
  · cases h'
  exact .inr (.inr (ha.op.mono _ _ (add_le_add h h')))

theorem SumTree.Below.notAbove (ha : a.Ok) {t t' : SumTree K} (h : t.Below t') :
    (t.value a).NotAbove (t'.value a) := by
  induction h with
  | leaf x y h => exact .inr (.inr h)
  | node l l' r r' _ _ ihl ihr => exact addR_notAbove ha ihl ihr

theorem sumR_notAbove (ha : a.Ok) (hb : SameBrackets shape) {ws vs : List (Num K)}
    (h : List.Forall₂ Num.le ws vs) : (sumR a shape ws).NotAbove (sumR a shape vs) := by
  unfold sumR
  cases h with
  | nil =>
    rw [if_pos rfl]
    exact .inr (.inr (le_refl (0 : K)))
  | cons h hl =>
    rw [if_neg (by simp), if_neg (by simp)]
    exact (hb _ _ (by simp) (.cons h hl)).notAbove ha

theorem divR_notAbove (ha : a.Ok) {x y s : Num K} (h : x.NotAbove y) (hs : s.NotNeg) (h0 : s ≠ .fin 0) :
    (Num.rnd a.op (.div x s)).NotAbove (Num.rnd a.op (.div y s)) := by
  rcases hs with rfl | rfl | ⟨w, rfl, hw⟩
  · cases x <;> exact .inl rfl
  · cases x <;> cases y <;>
      first
      | exact .inl rfl
      | exact .inr (.inl rfl)
      | exact .inr (.inr (ha.op.mono _ _ le_rfl))
  have w0 : w ≠ 0 := fun h => h0 (by rw [h])
  have wn : ¬ w < 0 := not_lt.2 hw
  have top : ∀ z : Num K, z.NotAbove .pinf := by
    intro z
    cases z with
    | nan => exact .inl rfl
    | _ => exact .inr (.inr trivial)
  have bot : ∀ z : Num K, Num.NotAbove .ninf z := by
    intro z
    cases z with
    | nan => exact .inr (.inl rfl)
    | _ => exact .inr (.inr trivial)
  cases x <;> cases y <;> simp only [Num.div, w0, wn, if_false, Num.rnd] <;>
    first
    | exact .inl rfl
    | exact .inr (.inl rfl)
    | exact top _
    | exact bot _
    | exact (h.elim (fun h => by cases h) fun h => h.elim (fun h => by cases h) fun h => h.elim)
    | skip
  rcases h with h | h | h
  · cases h
  · cases h
  exact .inr (.inr (ha.op.mono _ _ (div_le_div_of_nonneg_right h hw)))

theorem products_le (ha : a.Ok) (xs ys ws : List K) (hw : ∀ w ∈ ws, 0 ≤ w) (h : List.Forall₂ (· ≤ ·) xs ys) :
    List.Forall₂ Num.le (List.zipWith (fun x w => Num.rnd a.op (.mul (.fin x) (.fin w))) xs ws)
      (List.zipWith (fun x w => Num.rnd a.op (.mul (.fin x) (.fin w))) ys ws) := by
  induction h generalizing ws with
  | nil => simp
  | cons h _ ih =>
    cases ws with
    | nil => simp
    | cons w ws =>
      exact .cons (ha.op.mono _ _ (mul_le_mul_of_nonneg_right h (hw w (by simp))))
        (ih ws fun v hv => hw v (by simp [hv]))

/-- C184: a prediction by weight does not fall if no local prediction does: with the same non-negative weights, the
rounded weighted sum of larger local predictions is not smaller, unless one of the two sums is NaN. -/
theorem C184_by_weight (ha : a.Ok) (hb : SameBrackets shape) (ws ps qs : List K) (hw : ∀ w ∈ ws, 0 ≤ w)
    (h : List.Forall₂ (· ≤ ·) ps qs) (hne : ws ≠ []) (hp : ps ≠ []) :
    (predictEntryR a shape (ws.map Num.fin) (ps.map Num.fin)).NotAbove
      (predictEntryR a shape (ws.map Num.fin) (qs.map Num.fin)) := by
  have e : ∀ ps : List K, List.zipWith (fun w p => Num.rnd a.op (.mul w p)) (ws.map Num.fin) (ps.map Num.fin) =
      List.zipWith (fun x w => Num.rnd a.op (.mul (.fin x) (.fin w))) ps ws := by
    intro ps
    rw [List.zipWith_map, List.zipWith_comm]
    simp only [Num.mul, mul_comm]
  unfold predictEntryR
  rw [e, e]
  refine (hb _ _ ?_ (products_le ha ps qs ws hw h)).notAbove ha
  cases ps <;> cases ws <;> simp_all

end

section
variable {K : Type} [Field K] [LinearOrder K] [IsStrictOrderedRing K] [FloorRing K] {a : Arith K}
variable {shape : List (Num K) → SumTree K}

theorem pdFeatureR_ok {wide : List K → Except Err (List K)} {pred : List K → K} {X : Mat K} {ws : List K} {f : Nat}
    {r : List K × List (Num K)} (h : pdFeatureR a shape wide pred X ws f = .ok r) :
    pdGrid wide (X.col f) = .ok r.1 ∧ sumR a shape (ws.map Num.fin) ≠ .fin 0 ∧
    r.2 = r.1.map fun v => Num.rnd a.op (.div
      (sumR a shape (List.zipWith (fun x w => Num.rnd a.op (.mul (.fin x) (.fin w))) (icePoint X f pred v) ws))
      (sumR a shape (ws.map Num.fin))) := by
  unfold pdFeatureR at h
  split_ifs at h
  cases hg : pdGrid wide (X.col f) with
  | error e => simp [hg] at h
  | ok grid =>
    simp only [hg] at h
    unfold averageColumnsR at h
    split_ifs at h with h1 h2
    · cases h
    · cases h
    · cases h
      exact ⟨rfl, h2, by simp⟩

theorem localPdR_ok {wide : List K → Except Err (List K)} {pred : List K → K} {X : Mat K} {ws : List K} {nf : Nat}
    {l : List (List K × List (Num K))} (h : localPdR a shape wide pred X ws nf = .ok l) :
    l.length = nf ∧ ∀ f r, l[f]? = some r → pdFeatureR a shape wide pred X ws f = .ok r := by
  obtain ⟨hl, hr⟩ := mapE_range h
  refine ⟨hl, fun f r hf => ?_⟩
  obtain ⟨hlt, -⟩ := List.getElem?_eq_some_iff.1 hf
  obtain ⟨b, hb, hfb⟩ := hr f (hl ▸ hlt)
  rw [hf] at hb
  cases hb
  exact hfb

/-- C184: the curve has a value for every point of the grid, and if the local model does not use the feature, they are
all the same number: rounding does not make the curve of an unused feature wiggle. -/
theorem C184_flat (wide : List K → Except Err (List K)) (pred : List K → K) (X : Mat K) (ws : List K) (nf : Nat)
    (l : List (List K × List (Num K))) (h : localPdR a shape wide pred X ws nf = .ok l) (f : Nat) (grid : List K)
    (pd : List (Num K)) (hf : l[f]? = some (grid, pd))
    (hp : ∀ (row : List K) (u v : K), pred (row.set f u) = pred (row.set f v)) :
    pd.length = grid.length ∧ ∃ b, ∀ x ∈ pd, x = b := by
  obtain ⟨-, -, hr⟩ := pdFeatureR_ok ((localPdR_ok h).2 f _ hf)
  simp only at hr
  subst hr
  refine ⟨by simp, Num.rnd a.op (.div
      (sumR a shape (List.zipWith (fun x w => Num.rnd a.op (.mul (.fin x) (.fin w))) (icePoint X f pred 0) ws))
      (sumR a shape (ws.map Num.fin))), fun x hx => ?_⟩
  obtain ⟨v, -, rfl⟩ := List.mem_map.1 hx
  have : icePoint X f pred v = icePoint X f pred 0 := by
    unfold icePoint atValue
    exact List.map_congr_left fun i _ => hp _ _ _
  rw [this]

/-- C184: if the prediction of the local model does not fall when the feature grows and no weight is negative, the
curve does not fall either: the value at a larger grid point is not smaller, unless one of the two is NaN, for which
sums must have overflown. -/
theorem C184_monotone (ha : a.Ok) (hs : SumsAll shape) (hb : SameBrackets shape) (wide : List K → Except Err (List K))
    (pred : List K → K) (X : Mat K) (ws : List K) (hw : ∀ w ∈ ws, 0 ≤ w) (nf : Nat)
    (l : List (List K × List (Num K))) (h : localPdR a shape wide pred X ws nf = .ok l) (f : Nat) (grid : List K)
    (pd : List (Num K)) (hf : l[f]? = some (grid, pd))
    (hp : ∀ (row : List K) (u v : K), u ≤ v → pred (row.set f u) ≤ pred (row.set f v))
    (i j : Nat) (u v : K) (x y : Num K) (hi : grid[i]? = some u) (hj : grid[j]? = some v) (huv : u ≤ v)
    (hx : pd[i]? = some x) (hy : pd[j]? = some y) : x = .nan ∨ y = .nan ∨ Num.le x y := by
  obtain ⟨-, h0, hr⟩ := pdFeatureR_ok ((localPdR_ok h).2 f _ hf)
  simp only at hr
  subst hr
  rw [List.getElem?_map, hi] at hx
  rw [List.getElem?_map, hj] at hy
  cases hx
  cases hy
  refine divR_notAbove ha (sumR_notAbove ha hb (products_le ha _ _ _ hw ?_)) (sumR_notNeg ha hs _ ?_) h0
  · unfold icePoint atValue
    rw [List.forall₂_map_left_iff, List.forall₂_map_right_iff]
    exact List.forall₂_same.2 fun i _ => hp _ _ _ huv
  · intro z hz
    obtain ⟨w, hw', rfl⟩ := List.mem_map.1 hz
    exact .inr (.inr ⟨w, rfl, hw w hw'⟩)

/-- C184: with non-negative predictions and weights, no value of a curve is negative. -/
theorem C184_nonneg (ha : a.Ok) (hs : SumsAll shape) (wide : List K → Except Err (List K))
    (pred : List K → K) (X : Mat K) (ws : List K) (hw : ∀ w ∈ ws, 0 ≤ w) (nf : Nat)
    (l : List (List K × List (Num K))) (h : localPdR a shape wide pred X ws nf = .ok l) (f : Nat) (grid : List K)
    (pd : List (Num K)) (hf : l[f]? = some (grid, pd)) (hp : ∀ row, 0 ≤ pred row) :
    ∀ x ∈ pd, x = .nan ∨ x = .pinf ∨ ∃ v, x = .fin v ∧ 0 ≤ v := by
  obtain ⟨-, h0, hr⟩ := pdFeatureR_ok ((localPdR_ok h).2 f _ hf)
  simp only at hr
  subst hr
  intro x hx
  obtain ⟨v, -, rfl⟩ := List.mem_map.1 hx
  have e : List.zipWith (fun x w => Num.rnd a.op (.mul (.fin x) (.fin w))) (icePoint X f pred v) ws =
      List.zipWith (fun x w => Num.rnd a.op (.mul x w)) ((icePoint X f pred v).map Num.fin) (ws.map Num.fin) := by
    rw [List.zipWith_map]
  have hv : npAverageR a shape ((icePoint X f pred v).map Num.fin) (ws.map Num.fin) = .ok (Num.rnd a.op (.div
      (sumR a shape (List.zipWith (fun x w => Num.rnd a.op (.mul (.fin x) (.fin w))) (icePoint X f pred v) ws))
      (sumR a shape (ws.map Num.fin)))) := by
    rw [npAverageR, if_neg h0, e]
  refine (npAverageR_notNeg ha hs ?_ ?_ hv).1
  · intro z hz
    obtain ⟨p, hp', rfl⟩ := List.mem_map.1 hz
    obtain ⟨i, -, rfl⟩ := List.mem_map.1 hp'
    exact .inr (.inr ⟨_, rfl, hp _⟩)
  · intro z hz
    obtain ⟨w, hw', rfl⟩ := List.mem_map.1 hz
    exact .inr (.inr ⟨w, rfl, hw w hw'⟩)

/-- C184: without rounding these are the curves of C67, with the same failures. -/
theorem C184_exact (wide : List K → Except Err (List K)) (pred : List K → K) (X : Mat K) (ws : List K) (nf : Nat) :
    localPdR exactArith leftTree wide pred X ws nf =
      (localPd wide pred X ws nf).map fun l => l.map fun r => (r.1, r.2.map Num.fin) := by
  unfold localPdR localPd
  rw [← mapE_except_map]
  refine mapE_congr fun f _ => ?_
  unfold pdFeatureR pdFeature
  split_ifs
  · rfl
  cases pdGrid wide (X.col f) with
  | error e => rfl
  | ok grid =>
    simp only
    unfold averageColumnsR averageColumns
    rw [sumR_exact]
    by_cases hl : ws.length ≠ X.r
    · simp [hl, Except.map]
    · by_cases h0 : ws.sum = 0
      · simp [hl, h0, Except.map]
      · have e : ∀ c : List K, List.zipWith (fun x w => Num.rnd (exactArith : Arith K).op (.mul (.fin x) (.fin w))) c ws =
            (List.zipWith (· * ·) c ws).map Num.fin := by
          intro c
          rw [List.map_zipWith]
          rfl
        rw [if_neg hl, if_neg hl, if_neg h0, if_neg (by simpa using h0)]
        simp only [Except.map, e, sumR_exact]
        simp [h0, Num.div, rnd_exact]

/-- C184: the same for the function of the module `local_pd`, which drops observations without weight first. -/
theorem C184_module (ha : a.Ok) (hs : SumsAll shape) (hb : SameBrackets shape) (wide : List K → Except Err (List K))
    (pred : List K → K) (X : Mat K) (ws : List K) (l : List (List K × List (Num K)))
    (h : localPdModuleR a shape wide pred X ws = .ok l) (f : Nat) (grid : List K) (pd : List (Num K))
    (hf : l[f]? = some (grid, pd)) :
    l.length = X.c ∧ pd.length = grid.length ∧
    ((∀ (row : List K) (u v : K), pred (row.set f u) = pred (row.set f v)) → ∃ b, ∀ x ∈ pd, x = b) ∧
    ((∀ w ∈ ws, 0 ≤ w) → (∀ (row : List K) (u v : K), u ≤ v → pred (row.set f u) ≤ pred (row.set f v)) →
      ∀ (i j : Nat) (u v : K) (x y : Num K), grid[i]? = some u → grid[j]? = some v → u ≤ v →
        pd[i]? = some x → pd[j]? = some y → x = .nan ∨ y = .nan ∨ Num.le x y) := by
  unfold localPdModuleR at h
  split_ifs at h with hl
  refine ⟨(localPdR_ok h).1, ?_, fun hp => (C184_flat wide pred _ _ _ l h f grid pd hf hp).2, fun hw hp => ?_⟩
  · obtain ⟨-, -, hr⟩ := pdFeatureR_ok ((localPdR_ok h).2 f _ hf)
    simp only at hr
    rw [hr, List.length_map]
  · refine C184_monotone ha hs hb wide pred _ _ ?_ _ l h f grid pd hf hp
    intro w hw'
    obtain ⟨i, hi, rfl⟩ := List.mem_map.1 hw'
    have hi' : i < ws.length := List.mem_range.1 (List.mem_filter.1 hi).1
    rw [List.getD_eq_getElem?_getD, List.getElem?_eq_getElem hi']
    exact hw _ (List.getElem_mem hi')

/-- C184: without rounding it is the function of C67. -/
theorem C184_module_exact (wide : List K → Except Err (List K)) (pred : List K → K) (X : Mat K) (ws : List K) :
    localPdModuleR exactArith leftTree wide pred X ws =
      (localPdModule wide pred X ws).map fun l => l.map fun r => (r.1, r.2.map Num.fin) := by
  unfold localPdModuleR localPdModule
  split_ifs
  · rfl
  · exact C184_exact _ _ _ _ _

end

/-- Three observations with two features. -/
def pdTable : Mat ℚ := ⟨3, 2, fun i j => if j = 0 then (i : ℚ) else 5 - i⟩

/-- No grid of 100 points is needed for three observations. -/
def noWide : List ℚ → Except Err (List ℚ) := fun _ => .error .valueError

/-- C184: the value of a flat curve need not be the prediction: if the local model predicts 0.1 for everyone and the
weights are 0.1, 0.1 and 0.5, the curves show the next larger number, which no observation has as prediction. -/
theorem C184_constant :
    (localPdR double.arith leftTree noWide (fun _ => tenth) pdTable [tenth, tenth, 1 / 2] 2).toOption =
      some [([0, 1, 2], List.replicate 3 (.fin (tenth + 1 / 2 ^ 56))),
        ([3, 4, 5], List.replicate 3 (.fin (tenth + 1 / 2 ^ 56)))] := by
  decide +kernel

/-- The hypotheses of the theorems hold, with a curve that rises. -/
example : (double.arith : Arith ℚ).Ok ∧ SumsAll (leftTree : List (Num ℚ) → SumTree ℚ) ∧
    SameBrackets (leftTree : List (Num ℚ) → SumTree ℚ) ∧
    (∀ w ∈ [tenth, tenth, 1 / 2], 0 ≤ w) ∧
    (∀ (row : List ℚ) (u v : ℚ), u ≤ v → (row.set 0 u).getD 0 0 * tenth ≤ (row.set 0 v).getD 0 0 * tenth) ∧
    (∀ (row : List ℚ) (u v : ℚ), (row.set 1 u).getD 0 0 * tenth = (row.set 1 v).getD 0 0 * tenth) ∧
    okAnd (localPdR double.arith leftTree noWide (fun row => row.getD 0 0 * tenth) pdTable [tenth, tenth, 1 / 2] 2)
      (fun l => match l with
        | [([0, 1, 2], [.fin x, .fin y, .fin z]), ([3, 4, 5], [.fin u, .fin v, .fin w])] =>
          decide (x < y ∧ y < z ∧ u = v ∧ v = w ∧ 0 < u)
        | _ => false) = true := by
  refine ⟨(C175_ieee double double_ok).1, (C175_ieee double double_ok).2.2.1, (C175_ieee double double_ok).2.2.2, ?_, ?_, ?_, by decide +kernel⟩
  · decide +kernel
  · intro row u v h
    cases row with
    | nil => simp
    | cons x l => exact mul_le_mul_of_nonneg_right h (by decide +kernel)
  · intro row u v
    cases row <;> rfl

/-- The hypotheses of `C184_by_weight` hold, with predictions of both signs. -/
example : (∀ w ∈ [tenth, 1 / 2], 0 ≤ w) ∧ List.Forall₂ (· ≤ ·) [-tenth, 1] [tenth, (1 : ℚ)] ∧
    (predictEntryR double.arith leftTree ([tenth, 1 / 2].map Num.fin) ([-tenth, 1].map Num.fin)).NotAbove
      (predictEntryR double.arith leftTree ([tenth, 1 / 2].map Num.fin) ([tenth, 1].map Num.fin)) := by
  have hw : ∀ w ∈ [tenth, 1 / 2], 0 ≤ w := by decide +kernel
  have h : List.Forall₂ (· ≤ ·) [-tenth, 1] [tenth, (1 : ℚ)] := .cons (by decide +kernel) (.cons le_rfl .nil)
  exact ⟨hw, h, C184_by_weight (C175_ieee double double_ok).1 (C175_ieee double double_ok).2.2.2 _ _ _ hw h (by simp)
    (by simp)⟩

end Geo
