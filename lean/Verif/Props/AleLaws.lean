import Verif.Props.AleModel
import Verif.Props.TargetUnits
/-
Property C117: laws of the accumulated local effects.
-/
set_option linter.unusedSectionVars false
namespace Geo
variable {K : Type} [Field K] [LinearOrder K] [IsStrictOrderedRing K] [FloorRing K] {F C S : Type}

/-! ### The predictor -/

theorem groupAverages_any (idx : List Nat) (d d' w : Nat → K) :
    ERel (fun l l' : List K => l.length = l'.length) (groupAverages idx d w)
      (groupAverages idx d' w) := by
  unfold groupAverages
  refine (ERel.mapE (R := fun _ _ => True) fun k _ => ?_).mono fun a b h => h.length_eq
  unfold npAverage
  split
  · rfl
  · trivial

theorem aleFinish_any (q : List K) (b : Bool) (base base' : K) (counts : List Nat)
    {a a' : List K} (h : a.length = a'.length) :
    ERel (fun r r' : List K × List K => r.1 = r'.1) (aleFinish q b base counts a)
      (aleFinish q b base' counts a') := by
  unfold aleFinish
  cases b with
  | false => rfl
  | true =>
    simp only [if_true]
    unfold centre
    rw [h]
    split <;> rfl

/-- Whether a curve can be computed, and on which grid, does not depend on the predictor. -/
theorem weightedAle_any (X : Mat K) (feature : Nat) (p p' : List K → K) (w : Option (List K))
    (b : Bool) (m : ℤ) :
    ERel (fun r r' : List K × List K => r.1 = r'.1) (weightedAle X feature p w b m)
      (weightedAle X feature p' w b m) := by
  unfold weightedAle
  split
  · rfl
  cases adaptiveGrid (X.col feature) m with
  | error e => rfl
  | ok qn =>
    obtain ⟨q, n⟩ := qn
    simp only
    cases mapE (fun i => pyGet q (i - 1)) (aleIdx q (X.col feature)) with
    | error e => rfl
    | ok lows =>
      simp only
      cases mapE (fun i => pyGet q i) (aleIdx q (X.col feature)) with
      | error e => rfl
      | ok highs =>
        simp only
        unfold aleWeighted
        cases w with
        | none => rfl
        | some w =>
          simp only
          split
          · rfl
          unfold npAverage
          by_cases h0 : ((members (aleIdx q (X.col feature)) 1).map fun i => w.getD i 0).sum = 0
          · rw [if_pos h0, if_pos h0]
            rfl
          rw [if_neg h0, if_neg h0]
          simp only
          have h := groupAverages_any (aleIdx q (X.col feature))
            (fun i => p (withFeature X feature highs i) - p (withFeature X feature lows i))
            (fun i => p' (withFeature X feature highs i) - p' (withFeature X feature lows i))
            (fun i => w.getD i 0)
          cases hg : groupAverages (aleIdx q (X.col feature))
              (fun i => p (withFeature X feature highs i) - p (withFeature X feature lows i))
              (fun i => w.getD i 0) with
          | error e => rw [hg] at h; rw [h.error]; rfl
          | ok avg =>
            rw [hg] at h
            obtain ⟨avg', h', hl⟩ := h.ok
            rw [h']
            exact aleFinish_any _ _ _ _ _ (by simp [accumulate_length, hl])

theorem binSum_lin (X : Mat K) (feature : Nat) (q : List K) (k : Nat) (a b : K) (f g : Nat → K) :
    binSum X feature q k (fun i => a * f i + b * g i) =
      a * binSum X feature q k f + b * binSum X feature q k g := by
  unfold binSum
  induction binMembers X feature q k with
  | nil => simp
  | cons i l ih => simp only [List.map_cons, List.sum_cons, ih]; ring

theorem bins_total {X : Mat K} {feature : Nat} {q : List K} (h2 : 2 ≤ q.length)
    (hb : BinsOk X feature q) :
    0 < ((List.range (q.length - 1)).map fun k => ((binMembers X feature q k).length : K)).sum := by
  apply sum_pos_of_pos
  · intro x hx
    obtain ⟨k, hk, rfl⟩ := List.mem_map.1 hx
    have := List.length_pos_iff.2 (hb.full k (by have := List.mem_range.1 hk; omega))
    exact_mod_cast this
  · simp only [ne_eq, List.map_eq_nil_iff, List.range_eq_nil]
    omega

/-- C117: superposition. For every weighting, with or without normalisation, the curve of
`a * p₁ + b * p₂` is `a` times the curve of `p₁` plus `b` times the curve of `p₂`, on the same grid,
and it exists as soon as one of them does. -/
theorem C117_superposition (X : Mat K) (feature : Nat) (p₁ p₂ : List K → K) (a b : K)
    (w : Option (List K)) (normalize : Bool) (m : ℤ) (hm : 0 ≤ m) (q ale₁ : List K)
    (h₁ : weightedAle X feature p₁ w normalize m = .ok (q, ale₁)) :
    ∃ ale₂, weightedAle X feature p₂ w normalize m = .ok (q, ale₂) ∧
      weightedAle X feature (fun row => a * p₁ row + b * p₂ row) w normalize m =
        .ok (q, List.zipWith (fun u v => a * u + b * v) ale₁ ale₂) := by
  have hr2 := weightedAle_any X feature p₁ p₂ w normalize m
  have hr3 := weightedAle_any X feature p₁ (fun row => a * p₁ row + b * p₂ row) w normalize m
  rw [h₁] at hr2 hr3
  obtain ⟨⟨q2, ale₂⟩, h₂, e2⟩ := hr2.ok
  obtain ⟨⟨q3, ale⟩, h₃, e3⟩ := hr3.ok
  simp only at e2 e3
  subst e2 e3
  refine ⟨ale₂, h₂, ?_⟩
  rw [h₃]
  obtain ⟨-, -, hb, w1, ac1, c1, hw1, -, hc1, l1, z1, s1, n1, m1⟩ := weightedAle_ok hm h₁
  obtain ⟨-, -, -, w2, ac2, c2, hw2, -, hc2, l2, z2, s2, n2, m2⟩ := weightedAle_ok hm h₂
  obtain ⟨-, -, -, w3, ac3, c3, hw3, -, hc3, l3, z3, s3, n3, m3⟩ := weightedAle_ok hm h₃
  rw [hw1] at hw2 hw3
  cases hw2
  cases hw3
  have htwo := hb.two
  -- the three accumulated curves
  have hacc : ∀ k, k < q.length → ac3.getD k 0 = a * ac1.getD k 0 + b * ac2.getD k 0 := by
    intro k hk
    induction k with
    | zero => rw [z1, z2, z3]; ring
    | succ k ih =>
      have ih := ih (by omega)
      have t1 := (s1 k hk).2
      have t2 := (s2 k hk).2
      have t3 := (s3 k hk).2
      have hs0 := (s1 k hk).1
      have hl : binSum X feature q k (fun i => w1.getD i 0 *
            ((a * p₁ ((X.row i).set feature (q.getD (k + 1) 0)) +
              b * p₂ ((X.row i).set feature (q.getD (k + 1) 0))) -
             (a * p₁ ((X.row i).set feature (q.getD k 0)) +
              b * p₂ ((X.row i).set feature (q.getD k 0))))) =
          a * binSum X feature q k (fun i => w1.getD i 0 *
            (p₁ ((X.row i).set feature (q.getD (k + 1) 0)) -
              p₁ ((X.row i).set feature (q.getD k 0)))) +
          b * binSum X feature q k (fun i => w1.getD i 0 *
            (p₂ ((X.row i).set feature (q.getD (k + 1) 0)) -
              p₂ ((X.row i).set feature (q.getD k 0)))) := by
        rw [← binSum_lin]
        congr 1
        funext i
        ring
      rw [hl, add_div, mul_div_assoc, mul_div_assoc, ← t1, ← t2] at t3
      linarith
  -- the constants
  have hc : c3 = a * c1 + b * c2 := by
    cases normalize with
    | false =>
      rw [n1 rfl, n2 rfl, n3 rfl]
      have hl : binSum X feature q 0 (fun i => w1.getD i 0 *
            (a * p₁ ((X.row i).set feature (q.getD 0 0)) +
              b * p₂ ((X.row i).set feature (q.getD 0 0)))) =
          a * binSum X feature q 0 (fun i => w1.getD i 0 *
            p₁ ((X.row i).set feature (q.getD 0 0))) +
          b * binSum X feature q 0 (fun i => w1.getD i 0 *
            p₂ ((X.row i).set feature (q.getD 0 0))) := by
        rw [← binSum_lin]
        congr 1
        funext i
        ring
      rw [hl, add_div, mul_div_assoc, mul_div_assoc]
    | true =>
      have h1 := m1 rfl
      have h2 := m2 rfl
      have h3 := m3 rfl
      have hpos := bins_total htwo hb
      have key : ((List.range (q.length - 1)).map fun k => ((binMembers X feature q k).length : K) *
          ((ale.getD k 0 + ale.getD (k + 1) 0) / 2)).sum =
          a * ((List.range (q.length - 1)).map fun k => ((binMembers X feature q k).length : K) *
            ((ale₁.getD k 0 + ale₁.getD (k + 1) 0) / 2)).sum +
          b * ((List.range (q.length - 1)).map fun k => ((binMembers X feature q k).length : K) *
            ((ale₂.getD k 0 + ale₂.getD (k + 1) 0) / 2)).sum +
          (c3 - a * c1 - b * c2) *
            ((List.range (q.length - 1)).map fun k =>
              ((binMembers X feature q k).length : K)).sum := by
        have : ∀ l : List Nat, (∀ k ∈ l, k + 1 < q.length) →
            (l.map fun k => ((binMembers X feature q k).length : K) *
              ((ale.getD k 0 + ale.getD (k + 1) 0) / 2)).sum =
            a * (l.map fun k => ((binMembers X feature q k).length : K) *
              ((ale₁.getD k 0 + ale₁.getD (k + 1) 0) / 2)).sum +
            b * (l.map fun k => ((binMembers X feature q k).length : K) *
              ((ale₂.getD k 0 + ale₂.getD (k + 1) 0) / 2)).sum +
            (c3 - a * c1 - b * c2) *
              (l.map fun k => ((binMembers X feature q k).length : K)).sum := by
          intro l hl
          induction l with
          | nil => simp
          | cons k l ih =>
            have hk := hl k (by simp)
            simp only [List.map_cons, List.sum_cons, ih fun k hk => hl k (by simp [hk])]
            rw [hc1, hc2, hc3, getD_map_add (by omega), getD_map_add (by omega),
              getD_map_add (by omega), getD_map_add (by omega), getD_map_add (by omega),
              getD_map_add (by omega), hacc k (by omega), hacc (k + 1) hk]
            ring
        exact this _ fun k hk => by have := List.mem_range.1 hk; omega
      rw [h1, h2, h3, mul_zero, mul_zero, zero_add, zero_add] at key
      rcases mul_eq_zero.1 key.symm with h | h
      · linarith
      · exact absurd h hpos.ne'
  congr 2
  rw [hc1, hc2, hc3]
  apply List.ext_getElem
  · simp [l1, l2, l3]
  · intro k hk1 hk2
    have hk : k < q.length := by simpa [l3] using hk1
    have h := hacc k hk
    rw [List.getD_eq_getElem _ _ (by omega), List.getD_eq_getElem _ _ (by omega),
      List.getD_eq_getElem _ _ (by omega)] at h
    simp only [List.getElem_map, List.getElem_zipWith]
    rw [h, hc]
    ring

/-- The curve of a constant. -/
theorem weightedAle_const (X : Mat K) (feature : Nat) (b : K) (w : Option (List K))
    (normalize : Bool) (m : ℤ) (hm : 0 ≤ m) (q ale : List K)
    (h : weightedAle X feature (fun _ => b) w normalize m = .ok (q, ale)) :
    ale = List.replicate q.length (if normalize then 0 else b) := by
  obtain ⟨-, -, hb, w', ac, c, hw, -, hc, l, z, s, hn, hmid⟩ := weightedAle_ok hm h
  have htwo := hb.two
  have h0 : ∀ k, k < q.length → ac.getD k 0 = 0 := by
    intro k hk
    induction k with
    | zero => exact z
    | succ k ih =>
      have hs := (s k hk).2
      simp only [sub_self, mul_zero] at hs
      have : binSum X feature q k (fun _ => (0 : K)) = 0 := by
        unfold binSum; simp
      rw [this, zero_div, ih (by omega)] at hs
      linarith
  have hcc : c = if normalize then 0 else b := by
    cases normalize with
    | false =>
      rw [hn rfl]
      exact binSum_const (s 0 (by omega)).1 fun _ _ => rfl
    | true =>
      have hpos := bins_total htwo hb
      have h3 := hmid rfl
      have : ∀ t : List Nat, (∀ k ∈ t, k + 1 < q.length) →
          (t.map fun k => ((binMembers X feature q k).length : K) *
            ((ale.getD k 0 + ale.getD (k + 1) 0) / 2)).sum =
          c * (t.map fun k => ((binMembers X feature q k).length : K)).sum := by
        intro t ht
        induction t with
        | nil => simp
        | cons k t ih =>
          have hk := ht k (by simp)
          simp only [List.map_cons, List.sum_cons, ih fun k hk => ht k (by simp [hk])]
          rw [hc, getD_map_add (by omega), getD_map_add (by omega), h0 k (by omega),
            h0 (k + 1) hk]
          ring
      rw [this _ fun k hk => by have := List.mem_range.1 hk; omega] at h3
      rcases mul_eq_zero.1 h3 with h | h
      · simpa using h
      · exact absurd h hpos.ne'
  rw [hc]
  apply List.ext_getElem
  · simp [l]
  · intro k h1 h2
    have hk : k < q.length := by simpa [l] using h1
    have := h0 k hk
    rw [List.getD_eq_getElem _ _ (by omega)] at this
    simp [this, hcc]

/-- C117: the unit of the prediction. Predictions `a * p + b` give `a` times the curve, plus `b`
unless it is normalised. -/
theorem C117_affine (X : Mat K) (feature : Nat) (p : List K → K) (a b : K) (w : Option (List K))
    (normalize : Bool) (m : ℤ) (hm : 0 ≤ m) :
    weightedAle X feature (fun row => a * p row + b) w normalize m =
      (weightedAle X feature p w normalize m).map fun r =>
        (r.1, r.2.map fun v => a * v + if normalize then 0 else b) := by
  cases h : weightedAle X feature p w normalize m with
  | error e =>
    have := weightedAle_any X feature p (fun row => a * p row + b) w normalize m
    rw [h] at this
    rw [this.error]
    rfl
  | ok r =>
    obtain ⟨q, ale⟩ := r
    obtain ⟨ale2, h2, h3⟩ := C117_superposition X feature p (fun _ => b) a 1 w normalize m hm q ale h
    simp only [one_mul] at h3
    rw [h3]
    have h4 := weightedAle_const X feature b w normalize m hm q ale2 h2
    have hl := (C59_one_value_per_grid_point X feature p w normalize m hm q ale h)
    simp only [Except.map]
    congr 2
    rw [h4]
    apply List.ext_getElem
    · simp [hl]
    · intro k h1 h2
      simp

/-! ### The weights -/

theorem npAverage_scale {c : K} (hc : c ≠ 0) (xs : List K) (l : List Nat) (w : Nat → K) :
    npAverage xs (l.map fun i => c * w i) = npAverage xs (l.map w) := by
  unfold npAverage
  have hs : (l.map fun i => c * w i).sum = c * (l.map w).sum := by
    rw [← List.sum_map_mul_left]
  have hz : ∀ (xs : List K) (l : List Nat), (List.zipWith (· * ·) xs (l.map fun i => c * w i)).sum =
      c * (List.zipWith (· * ·) xs (l.map w)).sum := by
    intro xs l
    induction l generalizing xs with
    | nil => simp
    | cons i l ih =>
      cases xs with
      | nil => simp
      | cons x xs =>
        simp only [List.map_cons, List.zipWith_cons_cons, List.sum_cons, ih]
        ring
  rw [hs, hz, mul_div_mul_left _ _ hc]
  simp only [mul_eq_zero, hc, false_or]

/-- C117: only the proportions of the weights matter, so normalising the rows of the weight matrix
does not change a curve. -/
theorem C117_weight_scale (X : Mat K) (feature : Nat) (p : List K → K) (w : List K) (c : K)
    (hc : c ≠ 0) (normalize : Bool) (m : ℤ) :
    weightedAle X feature p (some (w.map (c * ·))) normalize m =
      weightedAle X feature p (some w) normalize m := by
  have hg : ∀ i, (w.map (c * ·)).getD i 0 = c * w.getD i 0 := by
    intro i
    by_cases h : i < w.length
    · simp [List.getD_eq_getElem?_getD, h]
    · simp [List.getD_eq_getElem?_getD, List.getElem?_eq_none (not_lt.1 h)]
  unfold weightedAle aleWeighted groupAverages
  simp only [hg, npAverage_scale hc, List.length_map]

/-! ### The shape of the curve -/

theorem binSum_nonneg {X : Mat K} {feature : Nat} {q : List K} {k : Nat} {f : Nat → K}
    (h : ∀ i ∈ binMembers X feature q k, 0 ≤ f i) : 0 ≤ binSum X feature q k f := by
  unfold binSum
  apply List.sum_nonneg
  intro x hx
  obtain ⟨i, hi, rfl⟩ := List.mem_map.1 hx
  exact h i hi

theorem binSum_mono {X : Mat K} {feature : Nat} {q : List K} {k : Nat} {f g : Nat → K}
    (h : ∀ i ∈ binMembers X feature q k, f i ≤ g i) :
    binSum X feature q k f ≤ binSum X feature q k g := by
  unfold binSum
  exact List.sum_le_sum h

theorem binSum_mul (X : Mat K) (feature : Nat) (q : List K) (k : Nat) (a : K) (f : Nat → K) :
    binSum X feature q k (fun i => a * f i) = a * binSum X feature q k f := by
  unfold binSum
  rw [← List.sum_map_mul_left]

/-- The steps of a curve lie between bounds for the differences of the predictions. -/
theorem step_between {X : Mat K} {feature : Nat} {p : List K → K} {w : List K} {normalize : Bool}
    {m : ℤ} (hm : 0 ≤ m) {q ale : List K} (hw : ∀ x ∈ w, 0 ≤ x)
    (h : weightedAle X feature p (some w) normalize m = .ok (q, ale)) {k : Nat}
    (hk : k + 1 < q.length) {lo hi : K}
    (hp : ∀ i < X.r, lo ≤ p ((X.row i).set feature (q.getD (k + 1) 0)) -
        p ((X.row i).set feature (q.getD k 0)) ∧
      p ((X.row i).set feature (q.getD (k + 1) 0)) - p ((X.row i).set feature (q.getD k 0)) ≤ hi) :
    lo ≤ ale.getD (k + 1) 0 - ale.getD k 0 ∧ ale.getD (k + 1) 0 - ale.getD k 0 ≤ hi := by
  obtain ⟨hl, h2, hs⟩ := C60_steps X feature p w normalize m hm q ale h
  obtain ⟨h0, hstep⟩ := hs k hk
  have hwi : ∀ i, 0 ≤ w.getD i 0 := by
    intro i
    by_cases hi : i < w.length
    · rw [List.getD_eq_getElem _ _ hi]
      exact hw _ (List.getElem_mem hi)
    · simp [List.getD_eq_getElem?_getD, List.getElem?_eq_none (not_lt.1 hi)]
  have hpos : 0 < binSum X feature q k fun i => w.getD i 0 :=
    lt_of_le_of_ne (binSum_nonneg fun i _ => hwi i) (Ne.symm h0)
  rw [hstep]
  constructor
  · rw [le_div_iff₀ hpos, ← binSum_mul]
    refine binSum_mono fun i hi => ?_
    rw [mul_comm lo]
    exact mul_le_mul_of_nonneg_left (hp i (mem_binMembers.1 hi).1).1 (hwi i)
  · rw [div_le_iff₀ hpos, ← binSum_mul]
    refine binSum_mono fun i hi' => ?_
    rw [mul_comm hi]
    exact mul_le_mul_of_nonneg_left (hp i (mem_binMembers.1 hi').1).2 (hwi i)

theorem grid_le {q : List K} (hq : q.Pairwise (· < ·)) {k l : Nat} (hkl : k ≤ l) (hl : l < q.length) :
    q.getD k 0 ≤ q.getD l 0 := by
  rcases Nat.eq_or_lt_of_le hkl with rfl | h
  · exact le_rfl
  · rw [List.getD_eq_getElem _ _ (by omega), List.getD_eq_getElem _ _ hl]
    exact (List.pairwise_iff_getElem.1 hq k l (by omega) hl h).le

/-- C117: if the prediction never falls when the feature rises, neither does the curve (weights not
negative). -/
theorem C117_monotone (X : Mat K) (feature : Nat) (p : List K → K) (w : List K)
    (hw : ∀ x ∈ w, 0 ≤ x) (normalize : Bool) (m : ℤ) (hm : 0 ≤ m) (q ale : List K)
    (hp : ∀ i < X.r, ∀ u v, u ≤ v → p ((X.row i).set feature u) ≤ p ((X.row i).set feature v))
    (h : weightedAle X feature p (some w) normalize m = .ok (q, ale)) (k l : Nat) (hkl : k ≤ l)
    (hl : l < q.length) : ale.getD k 0 ≤ ale.getD l 0 := by
  obtain ⟨-, -, hb, -⟩ := weightedAle_ok hm h
  induction l with
  | zero =>
    obtain rfl : k = 0 := by omega
    exact le_rfl
  | succ l ih =>
    rcases Nat.eq_or_lt_of_le hkl with rfl | hlt
    · exact le_rfl
    have h1 := ih (by omega) (by omega)
    have hd := C60_steps X feature p w normalize m hm q ale h
    obtain ⟨h0, hstep⟩ := hd.2.2 l hl
    have h2 : 0 ≤ ale.getD (l + 1) 0 - ale.getD l 0 := by
      rw [hstep]
      have hwi : ∀ i, 0 ≤ w.getD i 0 := by
        intro i
        by_cases hi : i < w.length
        · rw [List.getD_eq_getElem _ _ hi]
          exact hw _ (List.getElem_mem hi)
        · simp [List.getD_eq_getElem?_getD, List.getElem?_eq_none (not_lt.1 hi)]
      refine div_nonneg (binSum_nonneg fun i hi => ?_) (binSum_nonneg fun i _ => hwi i)
      exact mul_nonneg (hwi i) (sub_nonneg.2 (hp i (mem_binMembers.1 hi).1 _ _
        (grid_le hb.grid.strict (by omega) hl)))
    linarith

/-- C117: a bound for the slope of the prediction in the feature is a bound for the slope of the
curve. -/
theorem C117_slope (X : Mat K) (feature : Nat) (p : List K → K) (w : List K)
    (hw : ∀ x ∈ w, 0 ≤ x) (normalize : Bool) (m : ℤ) (hm : 0 ≤ m) (q ale : List K) (lo hi : K)
    (hp : ∀ i < X.r, ∀ u v, u ≤ v →
      lo * (v - u) ≤ p ((X.row i).set feature v) - p ((X.row i).set feature u) ∧
      p ((X.row i).set feature v) - p ((X.row i).set feature u) ≤ hi * (v - u))
    (h : weightedAle X feature p (some w) normalize m = .ok (q, ale)) (k l : Nat) (hkl : k ≤ l)
    (hl : l < q.length) :
    lo * (q.getD l 0 - q.getD k 0) ≤ ale.getD l 0 - ale.getD k 0 ∧
    ale.getD l 0 - ale.getD k 0 ≤ hi * (q.getD l 0 - q.getD k 0) := by
  obtain ⟨-, -, hb, -⟩ := weightedAle_ok hm h
  induction l with
  | zero =>
    obtain rfl : k = 0 := by omega
    simp
  | succ l ih =>
    rcases Nat.eq_or_lt_of_le hkl with rfl | hlt
    · simp
    obtain ⟨h1, h2⟩ := ih (by omega) (by omega)
    obtain ⟨h3, h4⟩ := step_between hm hw h hl (fun i hi' => hp i hi' _ _
      (grid_le hb.grid.strict (Nat.le_succ l) hl))
    constructor
    · linarith [mul_sub lo (q.getD (l + 1) 0) (q.getD k 0), mul_sub lo (q.getD l 0) (q.getD k 0),
        mul_sub lo (q.getD (l + 1) 0) (q.getD l 0)]
    · linarith [mul_sub hi (q.getD (l + 1) 0) (q.getD k 0), mul_sub hi (q.getD l 0) (q.getD k 0),
        mul_sub hi (q.getD (l + 1) 0) (q.getD l 0)]

/-- C117: interactions. If the predictor is `c * x * z` plus something without the feature `x`, the
slope of the curve in an interval is `c` times the weighted mean of `z` among the observations in
that interval. -/
theorem C117_interaction (X : Mat K) (feature other : Nat) (hfo : other ≠ feature) (c : K)
    (g : List K → K) (hg : ∀ row v, g (row.set feature v) = g row) (w : List K)
    (normalize : Bool) (m : ℤ) (hm : 0 ≤ m) (q ale : List K)
    (h : weightedAle X feature (fun row => c * row.getD feature 0 * row.getD other 0 + g row)
      (some w) normalize m = .ok (q, ale)) (k : Nat) (hk : k + 1 < q.length)
    (ho : other < X.c) :
    ale.getD (k + 1) 0 - ale.getD k 0 = c * (q.getD (k + 1) 0 - q.getD k 0) *
      (binSum X feature q k (fun i => w.getD i 0 * X.get i other) /
        binSum X feature q k (fun i => w.getD i 0)) := by
  obtain ⟨hl, h2, hs⟩ := C60_steps X feature _ w normalize m hm q ale h
  have hfc := (weightedAle_ok hm h).1
  rw [(hs k hk).2, ← mul_div_assoc]
  congr 1
  rw [← binSum_mul]
  have hoth : ∀ i v, ((X.row i).set feature v).getD other 0 = X.get i other := by
    intro i v
    rw [List.getD_eq_getElem _ _ (by simpa [Mat.row] using ho), List.getElem_set_ne (Ne.symm hfo)]
    simp [Mat.row]
  congr 1
  funext i
  rw [row_set_getD hfc, row_set_getD hfc, hoth, hoth, hg, hg]
  ring

/-- C117: in particular, if the weighted mean of `z` is `μ` in every interval, the curve is the
line with slope `c * μ`. -/
theorem C117_interaction_line (X : Mat K) (feature other : Nat) (hfo : other ≠ feature) (c μ : K)
    (g : List K → K) (hg : ∀ row v, g (row.set feature v) = g row) (w : List K)
    (normalize : Bool) (m : ℤ) (hm : 0 ≤ m) (q ale : List K)
    (h : weightedAle X feature (fun row => c * row.getD feature 0 * row.getD other 0 + g row)
      (some w) normalize m = .ok (q, ale)) (ho : other < X.c)
    (hμ : ∀ k, k + 1 < q.length → binSum X feature q k (fun i => w.getD i 0 * X.get i other) =
      μ * binSum X feature q k (fun i => w.getD i 0)) (k : Nat) (hk : k < q.length) :
    ale.getD k 0 - ale.getD 0 0 = c * μ * q.getD k 0 - c * μ * q.getD 0 0 := by
  refine steps_telescope (f := fun v => c * μ * v) (fun k hk => ?_) k hk
  obtain ⟨-, -, hs⟩ := C60_steps X feature _ w normalize m hm q ale h
  rw [C117_interaction X feature other hfo c g hg w normalize m hm q ale h k hk ho, hμ k hk,
    mul_div_assoc, div_self (hs k hk).1]
  ring

/-! ### The unit of the feature -/

theorem sortL_affine {a : K} (ha : 0 < a) (b : K) (l : List K) :
    sortL (l.map fun v => a * v + b) = (sortL l).map fun v => a * v + b := by
  apply List.Perm.eq_of_pairwise (le := (· ≤ ·)) (fun _ _ _ _ h1 h2 => le_antisymm h1 h2)
    (sortL_pairwise _)
  · rw [List.pairwise_map]
    exact (sortL_pairwise l).imp fun h => by
      have := mul_le_mul_of_nonneg_left h ha.le
      linarith
  · exact (sortL_perm _).trans ((sortL_perm l).map _).symm

theorem quantileVal_affine (virt : Nat → K → K) {a : K} (ha : 0 < a) (b : K) {l : List K}
    (hl : l ≠ []) (q : K) :
    quantileVal virt (l.map fun v => a * v + b) q = a * quantileVal virt l q + b := by
  have hpos := List.length_pos_iff.2 hl
  have hget : ∀ i < l.length, ((sortL l).map fun v => a * v + b).getD i 0 =
      a * (sortL l).getD i 0 + b := by
    intro i hi
    exact getD_affine a b (by rw [(sortL_perm l).length_eq]; exact hi)
  unfold quantileVal lerp
  simp only [sortL_affine ha, List.length_map]
  split
  · exact hget _ (by omega)
  · split
    · exact hget _ hpos
    · rename_i h1 h2
      have hf := floor_lt_of_lt_pred (not_lt.1 h2) (not_le.1 h1)
      rw [hget _ (by omega), hget _ hf]
      ring

theorem uniqueL_affine {a : K} (ha : 0 < a) (b : K) (l : List K) :
    uniqueL (l.map fun v => a * v + b) = (uniqueL l).map fun v => a * v + b := by
  unfold uniqueL
  rw [sortL_affine ha, List.dedup_map_of_injective]
  intro u v h
  simpa [ha.ne'] using h

theorem aleIdx_affine {a : K} (ha : 0 < a) (b : K) (q vals : List K) :
    aleIdx (q.map fun v => a * v + b) (vals.map fun v => a * v + b) = aleIdx q vals := by
  unfold aleIdx
  rw [List.map_map]
  apply List.map_congr_left
  intro v _
  have : searchLeft (q.map fun v => a * v + b) (a * v + b) = searchLeft q v := by
    unfold searchLeft
    rw [List.countP_map]
    apply List.countP_congr
    intro x _
    simp [ha]
  simp only [Function.comp, this]

theorem getQuantiles_affine {a : K} (ha : 0 < a) (b : K) (l : List K) (n : ℤ) :
    getQuantiles (l.map fun v => a * v + b) n =
      (getQuantiles l n).map fun q => q.map fun v => a * v + b := by
  unfold getQuantiles
  cases gridFractions (K := K) n with
  | error e => rfl
  | ok qs =>
    simp only
    induction qs with
    | nil => rfl
    | cons t qs ih =>
      have h1 : npQuantile virtLinear (l.map fun v => a * v + b) t =
          (npQuantile virtLinear l t).map fun v => a * v + b := by
        unfold npQuantile
        split
        · rfl
        · by_cases hl : l = []
          · simp [hl, Except.map]
          · rw [if_neg (by simpa using hl), if_neg hl, quantileVal_affine _ ha b hl]
            rfl
      simp only [mapE]
      rw [h1, ih]
      cases npQuantile virtLinear l t with
      | error e => rfl
      | ok v =>
        simp only [Except.map]
        cases mapE (npQuantile virtLinear l) qs <;> rfl

theorem adaptiveGrid_affine {a : K} (ha : 0 < a) (b : K) (l : List K) (m : ℤ) :
    adaptiveGrid (l.map fun v => a * v + b) m =
      (adaptiveGrid l m).map fun r => (r.1.map fun v => a * v + b, r.2) := by
  have hmin : ∀ n, minimumNotSatisfied (l.map fun v => a * v + b) m n =
      minimumNotSatisfied l m n := by
    intro n
    unfold minimumNotSatisfied minimumSatisfied
    rw [getQuantiles_affine ha]
    cases getQuantiles l n with
    | error e => rfl
    | ok qs =>
      simp only [Except.map]
      rw [uniqueL_affine ha, aleIdx_affine ha]
  unfold adaptiveGrid
  rw [List.length_map, show minimumNotSatisfied (l.map fun v => a * v + b) m =
    minimumNotSatisfied l m from funext hmin]
  cases bisectFun (minimumNotSatisfied l m) (1 / 2) 0 l.length with
  | error e => rfl
  | ok v =>
    simp only
    rw [getQuantiles_affine ha]
    cases getQuantiles l (v - 1) with
    | error e => rfl
    | ok qs =>
      simp only [Except.map]
      rw [uniqueL_affine ha]

theorem lookup_affine (a b : K) (q : List K) (g : Nat → Nat) (idx : List Nat) :
    mapE (fun i => pyGet (q.map fun v => a * v + b) (g i)) idx =
      (mapE (fun i => pyGet q (g i)) idx).map fun l => l.map fun v => a * v + b := by
  induction idx with
  | nil => rfl
  | cons i idx ih =>
    have h1 : pyGet (q.map fun v => a * v + b) (g i) =
        (pyGet q (g i)).map fun v => a * v + b := by
      unfold pyGet
      rw [List.getElem?_map]
      cases q[g i]? <;> rfl
    simp only [mapE]
    rw [h1, ih]
    cases pyGet q (g i) with
    | error e => rfl
    | ok v =>
      simp only [Except.map]
      cases mapE (fun i => pyGet q (g i)) idx <;> rfl

/-- C117: the unit of the feature. If the feature is given in another unit, `a * x + b` with
`a > 0`, and the predictor is the same function of the observation, the curve has the same values at
the grid points given in the new unit. -/
theorem C117_feature_units (X X' : Mat K) (feature : Nat) (p p' : List K → K) (a b : K) (ha : 0 < a)
    (hr : X'.r = X.r) (hc : X'.c = X.c)
    (hX : ∀ i < X.r, X'.get i feature = a * X.get i feature + b)
    (hp : ∀ i < X.r, ∀ v, p' ((X'.row i).set feature (a * v + b)) = p ((X.row i).set feature v))
    (w : Option (List K)) (normalize : Bool) (m : ℤ) :
    weightedAle X' feature p' w normalize m = (weightedAle X feature p w normalize m).map
      fun r => (r.1.map fun v => a * v + b, r.2) := by
  have hcol : X'.col feature = (X.col feature).map fun v => a * v + b := by
    unfold Mat.col
    rw [hr, List.map_map]
    apply List.map_congr_left
    intro i hi
    exact hX i (List.mem_range.1 hi)
  unfold weightedAle
  rw [hc, hcol, adaptiveGrid_affine ha]
  split
  · rfl
  cases adaptiveGrid (X.col feature) m with
  | error e => rfl
  | ok qn =>
    obtain ⟨q, n⟩ := qn
    simp only [Except.map, aleIdx_affine ha]
    rw [lookup_affine a b q (fun i => i - 1), lookup_affine a b q (fun i => i)]
    cases hlo : mapE (fun i => pyGet q (i - 1)) (aleIdx q (X.col feature)) with
    | error e => rfl
    | ok lows =>
      simp only [Except.map]
      cases hhi : mapE (fun i => pyGet q i) (aleIdx q (X.col feature)) with
      | error e => rfl
      | ok highs =>
        simp only
        have hidx : (aleIdx q (X.col feature)).length = X.r := by simp [aleIdx, Mat.col]
        have hll := (mapE_length hlo).trans hidx
        have hhl := (mapE_length hhi).trans hidx
        have key : ∀ vals : List K, vals.length = X.r → ∀ i < X.r,
            p' (withFeature X' feature (vals.map fun v => a * v + b) i) =
              p (withFeature X feature vals i) := by
          intro vals hv i hi
          unfold withFeature
          rw [getD_affine a b (by omega), hp i hi]
        have hmem : ∀ k, ∀ i ∈ members (aleIdx q (X.col feature)) k, i < X.r := by
          intro k i hi
          have := List.mem_range.1 (List.mem_filter.1 hi).1
          omega
        unfold aleWeighted groupAverages
        cases w with
        | none => rfl
        | some w =>
          simp only
          split
          · rfl
          rw [List.map_congr_left (fun i hi => key lows hll i (hmem 1 i hi))]
          cases npAverage ((members (aleIdx q (X.col feature)) 1).map fun i =>
              p (withFeature X feature lows i))
              ((members (aleIdx q (X.col feature)) 1).map fun i => w.getD i 0) with
          | error e => rfl
          | ok base =>
            simp only
            rw [mapE_congr (g := fun k => npAverage ((members (aleIdx q (X.col feature)) k).map
              fun i => p (withFeature X feature highs i) - p (withFeature X feature lows i))
              ((members (aleIdx q (X.col feature)) k).map fun i => w.getD i 0))
              (fun k _ => by
                rw [List.map_congr_left (g := fun i => p (withFeature X feature highs i) -
                  p (withFeature X feature lows i)) fun i hi => by
                    rw [key lows hll i (hmem k i hi), key highs hhl i (hmem k i hi)]])]
            cases mapE (fun k => npAverage ((members (aleIdx q (X.col feature)) k).map
              fun i => p (withFeature X feature highs i) - p (withFeature X feature lows i))
              ((members (aleIdx q (X.col feature)) k).map fun i => w.getD i 0))
              (uniqueL (aleIdx q (X.col feature))) with
            | error e => rfl
            | ok avg =>
              simp only
              unfold aleFinish
              split
              · cases centre (accumulate avg) (bincount (aleIdx q (X.col feature))) <;> rfl
              · rfl

end Geo
