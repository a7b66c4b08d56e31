import Verif.Model.RoundedMoran
import Verif.Model.Moran
import Verif.Props.RoundedScore
set_option linter.unusedSectionVars false
set_option linter.unusedSimpArgs false
/-
C181: Moran's I of a constant variable, and of the negated variable, in floating-point arithmetic.
-/
namespace Geo
section
variable {K : Type} [Field K] [LinearOrder K] [IsStrictOrderedRing K] {a : Arith K}
variable {shape : List (Num K) → SumTree K}

/-- zero or NaN -/
def Num.ZeroNaN (z : Num K) : Prop := z = .fin 0 ∨ z = .nan

theorem mul_zero_zeroNaN (ha : a.Ok) (z : Num K) : (Num.rnd a.op (.mul z (.fin 0))).ZeroNaN := by
  cases z <;> simp [Num.mul, Num.infSign, Num.rnd, Num.ZeroNaN, ha.op.zero]

theorem zero_mul_zeroNaN (ha : a.Ok) (z : Num K) : (Num.rnd a.op (.mul (.fin 0) z)).ZeroNaN := by
  cases z <;> simp [Num.mul, Num.infSign, Num.rnd, Num.ZeroNaN, ha.op.zero]

theorem mul_zeroNaN (ha : a.Ok) (x : K) {z : Num K} (hz : z.ZeroNaN) :
    (Num.rnd a.op (.mul (.fin x) z)).ZeroNaN := by
  rcases hz with rfl | rfl
  · exact mul_zero_zeroNaN ha _
  · exact .inr rfl

theorem SumTree.value_zeroNaN (ha : a.Ok) (t : SumTree K) (h : ∀ z ∈ t.leaves, z.ZeroNaN) :
    (t.value a).ZeroNaN := by
  induction t with
  | leaf x => exact h x (by simp [SumTree.leaves])
  | node l r ihl ihr =>
    rw [SumTree.value]
    rcases ihl fun z hz => h z (by simp [SumTree.leaves, hz]) with h1 | h1 <;>
    rcases ihr fun z hz => h z (by simp [SumTree.leaves, hz]) with h2 | h2 <;>
    simp [h1, h2, Num.add, Num.rnd, ha.op.zero, Num.ZeroNaN]

theorem sumToR_mem (hs : SumsAll shape) {n : Nat} (hn : 0 < n) (f : Nat → Num K) :
    ∀ z ∈ (shape ((List.range n).map f)).leaves, ∃ i < n, z = f i := by
  intro z hz
  have hne : (List.range n).map f ≠ [] := by
    intro h
    have := congrArg List.length h
    simp at this
    omega
  obtain ⟨i, hi, rfl⟩ := List.mem_map.1 ((hs _ hne).mem_iff.1 hz)
  exact ⟨i, List.mem_range.1 hi, rfl⟩

theorem sumToR_zeroNaN (ha : a.Ok) (hs : SumsAll shape) {n : Nat} (hn : 0 < n) (f : Nat → Num K)
    (h : ∀ i < n, (f i).ZeroNaN) : (sumToR a shape n f).ZeroNaN := by
  refine SumTree.value_zeroNaN ha _ fun z hz => ?_
  obtain ⟨i, hi, rfl⟩ := sumToR_mem hs hn f z hz
  exact h i hi

theorem sumToR_zero (ha : a.Ok) (hs : SumsAll shape) {n : Nat} (hn : 0 < n) (f : Nat → Num K)
    (h : ∀ i < n, f i = .fin 0) : sumToR a shape n f = .fin 0 := by
  refine SumTree.value_zero ha _ fun z hz => ?_
  obtain ⟨i, hi, rfl⟩ := sumToR_mem hs hn f z hz
  exact h i hi

theorem meanR_const (hs : SumsAll shape) (c : K) (n : Nat) (hn : 0 < n)
    (hf : ∀ k ≤ n, a.Float (k * c)) : meanR a shape (List.replicate n c) = .fin c := by
  have hne : (List.replicate n c).map Num.fin ≠ [] := by
    intro h
    have := congrArg List.length h
    simp at this
    omega
  have hlen : (shape ((List.replicate n c).map Num.fin)).leaves.length = n := by
    rw [(hs _ hne).length_eq]
    simp
  have hsum : (shape ((List.replicate n c).map Num.fin)).value a = .fin (n * c) := by
    rw [SumTree.value_const c _ _ (by rw [hlen]; exact hf), hlen]
    intro z hz
    have := (hs _ hne).mem_iff.1 hz
    simp at this
    exact this.2
  have hn0 : (n : K) ≠ 0 := Nat.cast_ne_zero.2 hn.ne'
  unfold meanR
  rw [hsum]
  simp only [List.length_replicate, Num.div, hn0, if_false, Num.rnd]
  rw [mul_div_cancel_left₀ _ hn0]
  have := hf 1 hn
  rwa [Nat.cast_one, one_mul] at this

theorem devR_replicate (c : K) (n i : Nat) (hi : i < n) :
    devR a shape (List.replicate n c) i = Num.rnd a.op (.sub (.fin c) (meanR a shape (List.replicate n c))) := by
  simp [devR, List.getD_eq_getElem?_getD, hi]

/-- C181: a constant variable whose multiples up to the number of observations are floats (any integer, for
example): the global and all local statistics are NaN, for any weights, float arithmetic and order of
summation. -/
theorem C181_constant (ha : a.Ok) (hs : SumsAll shape) (c : K) (n : Nat) (hn : 0 < n)
    (hf : ∀ k ≤ n, a.Float (k * c)) (W : Mat K) :
    stIR a shape (List.replicate n c) W = .nan ∧
    ∀ i < n, lmiR a shape (List.replicate n c) W i = .nan := by
  have hd : ∀ i < n, devR a shape (List.replicate n c) i = .fin 0 := by
    intro i hi
    rw [devR_replicate c n i hi, meanR_const hs c n hn hf]
    simp [Num.sub, Num.neg, Num.add, Num.rnd, ha.op.zero]
  have hq : devSqR a shape (List.replicate n c) = .fin 0 := by
    refine sumToR_zero ha hs (by simpa using hn) _ fun i hi => ?_
    rw [hd i (by simpa using hi)]
    simp [Num.sq, Num.mul, Num.rnd, ha.op.zero]
  constructor
  · unfold stIR
    rw [hq]
    have h1 : (Num.rnd a.op (.mul (.fin ((List.replicate n c).length : K))
        (sumToR a shape (List.replicate n c).length fun i =>
          Num.rnd a.op (.mul (devR a shape (List.replicate n c) i)
            (lagR a shape (List.replicate n c) W i))))).ZeroNaN := by
      refine mul_zeroNaN ha _ (sumToR_zeroNaN ha hs (by simpa using hn) _ fun i hi => ?_)
      rw [hd i (by simpa using hi)]
      exact zero_mul_zeroNaN ha _
    have h2 := mul_zero_zeroNaN ha (sumToR a shape (List.replicate n c).length fun i =>
      sumToR a shape (List.replicate n c).length fun j => stdWeightsR a shape W i j)
    rcases h1 with h1 | h1 <;> rcases h2 with h2 | h2 <;> rw [h1, h2] <;> simp [Num.div, Num.infSign, Num.rnd]
  · intro i hi
    have hn0 : (n : K) ≠ 0 := Nat.cast_ne_zero.2 hn.ne'
    unfold lmiR
    rw [hq, hd i hi]
    simp [Num.div, Num.infSign, Num.rnd, hn0, ha.op.zero, Num.mul]

/-- C181: the same for `spatiotemporal_MI`, with any root of zero that is zero. -/
theorem C181_constant_mi (ha : a.Ok) (hs : SumsAll shape) (sqrt : K → K) (h0 : sqrt 0 = 0) (c : K) (n : Nat)
    (hn : 0 < n) (hf : ∀ k ≤ n, a.Float (k * c)) (W : Mat K) :
    miIR a sqrt shape (List.replicate n c) W = .nan := by
  have hd : ∀ i < n, devR a shape (List.replicate n c) i = .fin 0 := by
    intro i hi
    rw [devR_replicate c n i hi, meanR_const hs c n hn hf]
    simp [Num.sub, Num.neg, Num.add, Num.rnd, ha.op.zero]
  have hq : devSqR a shape (List.replicate n c) = .fin 0 := by
    refine sumToR_zero ha hs (by simpa using hn) _ fun i hi => ?_
    rw [hd i (by simpa using hi)]
    simp [Num.sq, Num.mul, Num.rnd, ha.op.zero]
  have hn0 : (n : K) ≠ 0 := Nat.cast_ne_zero.2 hn.ne'
  have hz : ∀ i < n, zScoreR a sqrt shape (List.replicate n c) i = .nan := by
    intro i hi
    unfold zScoreR
    rw [hd i hi, hq]
    simp [Num.div, Num.infSign, Num.rnd, hn0, ha.op.zero, sqrtR, h0]
  have hden : sumToR a shape (List.replicate n c).length (fun i =>
      Num.rnd a.op (.sq (zScoreR a sqrt shape (List.replicate n c) i))) = .nan := by
    refine SumTree.value_nan _ fun z hz' => ?_
    obtain ⟨i, hi, rfl⟩ := sumToR_mem hs (by simpa using hn) _ z hz'
    rw [hz i (by simpa using hi)]
    rfl
  unfold miIR
  rw [hden]
  generalize Num.rnd a.op (Num.mul _ _) = q
  cases q <;> rfl

/-- NaN, or not negative -/
def Num.NotNeg (z : Num K) : Prop := z = .nan ∨ z.NonNeg

theorem addR_notNeg (ha : a.Ok) {z w : Num K} (hz : z.NotNeg) (hw : w.NotNeg) :
    (Num.rnd a.op (.add z w)).NotNeg := by
  rcases hz with rfl | hz
  · exact .inl rfl
  · rcases hw with rfl | hw
    · exact .inl (by rcases hz with rfl | ⟨x, rfl, -⟩ <;> rfl)
    · exact .inr (addR_nonneg ha hz hw)

theorem SumTree.value_notNeg (ha : a.Ok) (t : SumTree K) (h : ∀ z ∈ t.leaves, z.NotNeg) :
    (t.value a).NotNeg := by
  induction t with
  | leaf x => exact h x (by simp [SumTree.leaves])
  | node l r ihl ihr =>
    exact addR_notNeg ha (ihl fun z hz => h z (by simp [SumTree.leaves, hz]))
      (ihr fun z hz => h z (by simp [SumTree.leaves, hz]))

theorem sumToR_notNeg (ha : a.Ok) (hs : SumsAll shape) {n : Nat} (hn : 0 < n) (f : Nat → Num K)
    (h : ∀ i < n, (f i).NotNeg) : (sumToR a shape n f).NotNeg := by
  refine SumTree.value_notNeg ha _ fun z hz => ?_
  obtain ⟨i, hi, rfl⟩ := sumToR_mem hs hn f z hz
  exact h i hi

theorem mulR_notNeg (ha : a.Ok) {z w : Num K} (hz : z.NotNeg) (hw : w.NotNeg) :
    (Num.rnd a.op (.mul z w)).NotNeg := by
  rcases hz with rfl | rfl | ⟨x, rfl, hx⟩ <;> rcases hw with rfl | rfl | ⟨y, rfl, hy⟩
  · exact .inl rfl
  · exact .inl rfl
  · exact .inl rfl
  · exact .inl rfl
  · exact .inr (.inl rfl)
  · rcases hy.eq_or_lt with rfl | hy
    · exact .inl (by simp [Num.mul, Num.infSign, Num.rnd])
    · exact .inr (.inl (by simp [Num.mul, Num.infSign, Num.rnd, hy, not_lt.2 hy.le, hy.ne, hy.ne']))
  · exact .inl rfl
  · rcases hx.eq_or_lt with rfl | hx
    · exact .inl (by simp [Num.mul, Num.infSign, Num.rnd])
    · exact .inr (.inl (by simp [Num.mul, Num.infSign, Num.rnd, hx, not_lt.2 hx.le, hx.ne, hx.ne']))
  · exact .inr (ha.op.nonneg (mul_nonneg hx hy))

theorem divR_notNeg (ha : a.Ok) {z w : Num K} (hz : z.NotNeg) (hw : w.NotNeg) :
    (Num.rnd a.op (.div z w)).NotNeg := by
  rcases hz with rfl | rfl | ⟨x, rfl, hx⟩ <;> rcases hw with rfl | rfl | ⟨y, rfl, hy⟩
  · exact .inl rfl
  · exact .inl rfl
  · exact .inl rfl
  · exact .inl rfl
  · exact .inl rfl
  · exact .inr (.inl (by simp [Num.div, Num.rnd, not_lt.2 hy]))
  · exact .inl rfl
  · exact .inr (ha.op.nonneg le_rfl)
  · by_cases h : y = 0
    · subst h
      rcases hx.eq_or_lt with rfl | hx
      · exact .inl (by simp [Num.div, Num.infSign, Num.rnd])
      · exact .inr (.inl (by simp [Num.div, Num.infSign, Num.rnd, hx, not_lt.2 hx.le, hx.ne, hx.ne']))
    · refine .inr ?_
      simp only [Num.div, h, if_false]
      exact ha.op.nonneg (div_nonneg hx hy)

/-- NaN, or not positive -/
def Num.NotPos (z : Num K) : Prop := z = .nan ∨ z = .ninf ∨ ∃ x, z = .fin x ∧ x ≤ 0

theorem op_notPos (ha : a.Ok) {x : K} (hx : x ≤ 0) : (a.op x).NotPos := by
  have h := ha.op.mono x 0 hx
  rw [ha.op.zero] at h
  cases hz : a.op x with
  | fin y => rw [hz] at h; exact .inr (.inr ⟨y, rfl, h⟩)
  | pinf => rw [hz] at h; exact h.elim
  | ninf => exact .inr (.inl rfl)
  | nan => exact .inl rfl

theorem SumTree.value_notPos (ha : a.Ok) (t : SumTree K) (h : ∀ z ∈ t.leaves, z.NotPos) :
    (t.value a).NotPos := by
  induction t with
  | leaf x => exact h x (by simp [SumTree.leaves])
  | node l r ihl ihr =>
    rw [SumTree.value]
    rcases ihl fun z hz => h z (by simp [SumTree.leaves, hz]) with h1 | h1 | ⟨x, h1, hx⟩ <;>
    rcases ihr fun z hz => h z (by simp [SumTree.leaves, hz]) with h2 | h2 | ⟨y, h2, hy⟩ <;> rw [h1, h2]
    · exact .inl rfl
    · exact .inl rfl
    · exact .inl rfl
    · exact .inl rfl
    · exact .inr (.inl rfl)
    · exact .inr (.inl rfl)
    · exact .inl rfl
    · exact .inr (.inl rfl)
    · exact op_notPos ha (add_nonpos hx hy)

theorem sumToR_notPos (ha : a.Ok) (hs : SumsAll shape) {n : Nat} (hn : 0 < n) (f : Nat → Num K)
    (h : ∀ i < n, (f i).NotPos) : (sumToR a shape n f).NotPos := by
  refine SumTree.value_notPos ha _ fun z hz => ?_
  obtain ⟨i, hi, rfl⟩ := sumToR_mem hs hn f z hz
  exact h i hi

theorem mulR_notPos (ha : a.Ok) {z w : Num K} (hz : z.NotNeg) (hw : w.NotPos) :
    (Num.rnd a.op (.mul z w)).NotPos := by
  rcases hz with rfl | rfl | ⟨x, rfl, hx⟩ <;> rcases hw with rfl | rfl | ⟨y, rfl, hy⟩
  · exact .inl rfl
  · exact .inl rfl
  · exact .inl rfl
  · exact .inl rfl
  · exact .inr (.inl rfl)
  · rcases hy.eq_or_lt with rfl | hy
    · exact .inl (by simp [Num.mul, Num.infSign, Num.rnd])
    · exact .inr (.inl (by simp [Num.mul, Num.infSign, Num.rnd, hy, not_lt.2 hy.le, hy.ne, hy.ne']))
  · exact .inl rfl
  · rcases hx.eq_or_lt with rfl | hx
    · exact .inl (by simp [Num.mul, Num.infSign, Num.rnd])
    · exact .inr (.inl (by simp [Num.mul, Num.infSign, Num.rnd, hx, not_lt.2 hx.le, hx.ne, hx.ne']))
  · exact op_notPos ha (mul_nonpos_of_nonneg_of_nonpos hx hy)

theorem mulR_notPos_notPos (ha : a.Ok) {z w : Num K} (hz : z.NotPos) (hw : w.NotPos) :
    (Num.rnd a.op (.mul z w)).NotNeg := by
  rcases hz with rfl | rfl | ⟨x, rfl, hx⟩ <;> rcases hw with rfl | rfl | ⟨y, rfl, hy⟩
  · exact .inl rfl
  · exact .inl rfl
  · exact .inl rfl
  · exact .inl rfl
  · exact .inr (.inl rfl)
  · rcases hy.eq_or_lt with rfl | hy
    · exact .inl (by simp [Num.mul, Num.infSign, Num.rnd])
    · exact .inr (.inl (by simp [Num.mul, Num.infSign, Num.rnd, hy, not_lt.2 hy.le, hy.ne, hy.ne']))
  · exact .inl rfl
  · rcases hx.eq_or_lt with rfl | hx
    · exact .inl (by simp [Num.mul, Num.infSign, Num.rnd])
    · exact .inr (.inl (by simp [Num.mul, Num.infSign, Num.rnd, hx, not_lt.2 hx.le, hx.ne, hx.ne']))
  · exact .inr (ha.op.nonneg (mul_nonneg_of_nonpos_of_nonpos hx hy))

theorem divR_notPos (ha : a.Ok) {z w : Num K} (hz : z.NotPos) (hw : w.NotNeg) :
    (Num.rnd a.op (.div z w)).NotPos := by
  rcases hz with rfl | rfl | ⟨x, rfl, hx⟩ <;> rcases hw with rfl | rfl | ⟨y, rfl, hy⟩
  · exact .inl rfl
  · exact .inl rfl
  · exact .inl rfl
  · exact .inl rfl
  · exact .inl rfl
  · exact .inr (.inl (by simp [Num.div, Num.rnd, not_lt.2 hy]))
  · exact .inl rfl
  · exact op_notPos ha le_rfl
  · by_cases h : y = 0
    · subst h
      rcases hx.eq_or_lt with rfl | hx
      · exact .inl (by simp [Num.div, Num.infSign, Num.rnd])
      · exact .inr (.inl (by simp [Num.div, Num.infSign, Num.rnd, hx, not_lt.2 hx.le, hx.ne, hx.ne']))
    · simp only [Num.div, h, if_false]
      exact op_notPos ha (div_nonpos_of_nonpos_of_nonneg hx hy)

theorem Num.notNeg_or_notPos (z : Num K) : z.NotNeg ∨ z.NotPos := by
  cases z with
  | fin x => exact (le_total 0 x).imp (fun h => .inr (.inr ⟨x, rfl, h⟩)) (fun h => .inr (.inr ⟨x, rfl, h⟩))
  | pinf => exact .inl (.inr (.inl rfl))
  | ninf => exact .inr (.inr (.inl rfl))
  | nan => exact .inl (.inl rfl)

theorem stdWeightsR_notNeg (ha : a.Ok) (hs : SumsAll shape) {n : Nat} (hn : 0 < n) (W : Mat K)
    (hc : W.c = n) (hW : ∀ i < n, ∀ j < n, 0 ≤ W.get i j) :
    ∀ i < n, ∀ j < n, (stdWeightsR a shape W i j).NotNeg := by
  intro i hi j hj
  refine divR_notNeg ha (.inr (.inr ⟨_, rfl, hW i hi j hj⟩)) (SumTree.value_notNeg ha _ fun z hz => ?_)
  have hne : (W.row j).map Num.fin ≠ [] := by
    intro h
    have := congrArg List.length h
    simp [hc] at this
    omega
  obtain ⟨x, hx, rfl⟩ := List.mem_map.1 ((hs _ hne).mem_iff.1 hz)
  obtain ⟨k, hk, rfl⟩ := Mat.mem_row.1 hx
  exact .inr (.inr ⟨_, rfl, hW j hj k (hc ▸ hk)⟩)

/-- C181: whatever the constant and the rounding, with weights that are not negative a constant variable never
shows negative autocorrelation: the global and all local statistics are NaN or not negative. -/
theorem C181_constant_sign (ha : a.Ok) (hs : SumsAll shape) (c : K) (n : Nat) (hn : 0 < n) (W : Mat K)
    (hc : W.c = n) (hW : ∀ i < n, ∀ j < n, 0 ≤ W.get i j) :
    (stIR a shape (List.replicate n c) W).NotNeg ∧
    ∀ i < n, (lmiR a shape (List.replicate n c) W i).NotNeg := by
  set ys := List.replicate n c with hys
  have hl : ys.length = n := by simp [hys]
  have hd : ∀ i < n, devR a shape ys i = Num.rnd a.op (.sub (.fin c) (meanR a shape ys)) :=
    fun i hi => devR_replicate c n i hi
  generalize Num.rnd a.op (.sub (.fin c) (meanR a shape ys)) = d at hd
  have hw : ∀ i < n, ∀ j < n, (stdWeightsR a shape W i j).NotNeg := stdWeightsR_notNeg ha hs hn W hc hW
  have hsq : (devSqR a shape ys).NotNeg := by
    refine sumToR_notNeg ha hs (by omega) _ fun i _ => ?_
    rcases rnd_sq_nonneg ha (devR a shape ys i) with ⟨h, -⟩ | h
    · exact .inl h
    · exact .inr h
  have hN : (Num.fin (ys.length : K)).NotNeg := .inr (.inr ⟨_, rfl, Nat.cast_nonneg _⟩)
  have hnum : ∀ i < n, (Num.rnd a.op (.mul (devR a shape ys i) (lagR a shape ys W i))).NotNeg := by
    intro i hi
    rw [hd i hi]
    rcases d.notNeg_or_notPos with h | h
    · refine mulR_notNeg ha h (sumToR_notNeg ha hs (by omega) _ fun j hj => ?_)
      rw [hd j (hl ▸ hj)]
      exact mulR_notNeg ha (hw i hi j (hl ▸ hj)) h
    · refine mulR_notPos_notPos ha h (sumToR_notPos ha hs (by omega) _ fun j hj => ?_)
      rw [hd j (hl ▸ hj)]
      exact mulR_notPos ha (hw i hi j (hl ▸ hj)) h
  constructor
  · refine divR_notNeg ha (mulR_notNeg ha hN (sumToR_notNeg ha hs (by omega) _ fun i hi => hnum i (hl ▸ hi)))
      (mulR_notNeg ha (sumToR_notNeg ha hs (by omega) _ fun i hi =>
        sumToR_notNeg ha hs (by omega) _ fun j hj => hw i (hl ▸ hi) j (hl ▸ hj)) hsq)
  · intro i hi
    unfold lmiR
    rw [hd i hi]
    rcases d.notNeg_or_notPos with h | h
    · refine mulR_notNeg ha (divR_notNeg ha h (divR_notNeg ha hsq hN))
        (sumToR_notNeg ha hs (by omega) _ fun j hj => ?_)
      rw [hd j (hl ▸ hj)]
      exact mulR_notNeg ha (hw i hi j (hl ▸ hj)) h
    · refine mulR_notPos_notPos ha (divR_notPos ha h (divR_notNeg ha hsq hN))
        (sumToR_notPos ha hs (by omega) _ fun j hj => ?_)
      rw [hd j (hl ▸ hj)]
      exact mulR_notPos ha (hw i hi j (hl ▸ hj)) h

/-- C181: the same for `spatiotemporal_MI`, whatever the root. -/
theorem C181_constant_sign_mi (ha : a.Ok) (hs : SumsAll shape) (sqrt : K → K) (c : K)
    (n : Nat) (hn : 0 < n) (W : Mat K) (hc : W.c = n) (hW : ∀ i < n, ∀ j < n, 0 ≤ W.get i j) :
    (miIR a sqrt shape (List.replicate n c) W).NotNeg := by
  set ys := List.replicate n c with hys
  have hl : ys.length = n := by simp [hys]
  have hw : ∀ i < n, ∀ j < n, (stdWeightsR a shape W i j).NotNeg := stdWeightsR_notNeg ha hs hn W hc hW
  have hd : ∀ i < n, zScoreR a sqrt shape ys i = zScoreR a sqrt shape ys 0 := by
    intro i hi
    unfold zScoreR
    rw [hys, devR_replicate c n i hi, devR_replicate c n 0 hn]
  generalize zScoreR a sqrt shape ys 0 = d at hd
  have hN : (Num.fin (ys.length : K)).NotNeg := .inr (.inr ⟨_, rfl, Nat.cast_nonneg _⟩)
  unfold miIR
  refine divR_notNeg ha (mulR_notNeg ha (divR_notNeg ha hN (sumToR_notNeg ha hs (by omega) _ fun i hi =>
        sumToR_notNeg ha hs (by omega) _ fun j hj => hw i (hl ▸ hi) j (hl ▸ hj)))
      (sumToR_notNeg ha hs (by omega) _ fun i hi => ?_)) (sumToR_notNeg ha hs (by omega) _ fun i _ => ?_)
  · rw [hd i (hl ▸ hi)]
    rcases d.notNeg_or_notPos with h | h
    · refine mulR_notNeg ha (sumToR_notNeg ha hs (by omega) _ fun j hj => ?_) h
      rw [hd j (hl ▸ hj)]
      exact mulR_notNeg ha (hw i (hl ▸ hi) j (hl ▸ hj)) h
    · refine mulR_notPos_notPos ha (sumToR_notPos ha hs (by omega) _ fun j hj => ?_) h
      rw [hd j (hl ▸ hj)]
      exact mulR_notPos ha (hw i (hl ▸ hi) j (hl ▸ hj)) h
  · rcases rnd_sq_nonneg ha (zScoreR a sqrt shape ys i) with ⟨h, -⟩ | h
    · exact .inl h
    · exact .inr h

/-- The same sum with all summands negated. -/
inductive SumTree.Opp : SumTree K → SumTree K → Prop
  | leaf (x : Num K) : Opp (.leaf x) (.leaf x.neg)
  | node (l l' r r' : SumTree K) (hl : Opp l l') (hr : Opp r r') : Opp (.node l r) (.node l' r')

theorem rnd_neg (hodd : ∀ x, a.op (-x) = (a.op x).neg) (z : Num K) : Num.rnd a.op z.neg = (Num.rnd a.op z).neg := by
  cases z with
  | fin x => exact hodd x
  | pinf => rfl
  | ninf => rfl
  | nan => rfl

theorem Num.neg_add (z w : Num K) : Num.add z.neg w.neg = (Num.add z w).neg := by
  cases z <;> cases w <;> simp [Num.add, Num.neg, add_comm]

theorem Num.neg_neg' (z : Num K) : z.neg.neg = z := by
  cases z <;> simp [Num.neg]

theorem infSign_neg' (x : K) : Num.infSign (-x) = (Num.infSign x).neg := by
  unfold Num.infSign
  rcases lt_trichotomy x 0 with h | h | h
  · simp [h, not_lt.2 h.le, h.ne, Num.neg]
  · simp [h, Num.neg]
  · simp [h, not_lt.2 h.le, h.ne', Num.neg]

theorem Num.mul_neg' (z w : Num K) : Num.mul z w.neg = (Num.mul z w).neg := by
  have h : ∀ x : K, Num.infSign x = (Num.infSign (-x)).neg := fun x => by rw [infSign_neg', Num.neg_neg']
  cases z <;> cases w <;> first | rfl | exact h _ | exact infSign_neg' _ | exact congrArg Num.fin (mul_neg _ _)

theorem Num.mul_comm' (z w : Num K) : Num.mul z w = Num.mul w z := by
  cases z <;> cases w <;> simp [Num.mul, mul_comm]

theorem Num.neg_mul_neg' (z w : Num K) : Num.mul z.neg w.neg = Num.mul z w := by
  rw [Num.mul_neg', Num.mul_comm', Num.mul_neg', Num.neg_neg', Num.mul_comm']

theorem Num.neg_div' (z : Num K) (w : Num K) : Num.div z.neg w = (Num.div z w).neg := by
  cases z with
  | fin x =>
    cases w with
    | fin y =>
      by_cases h : y = 0
      · simp [Num.div, Num.neg, h, infSign_neg']
      · simp [Num.div, Num.neg, h, neg_div]
    | pinf => simp [Num.div, Num.neg]
    | ninf => simp [Num.div, Num.neg]
    | nan => simp [Num.div, Num.neg]
  | pinf => 
    cases w with
    | fin y => by_cases h : y < 0 <;> simp [Num.div, Num.neg, h]
    | pinf => rfl
    | ninf => rfl
    | nan => rfl
  | ninf => 
    cases w with
    | fin y => by_cases h : y < 0 <;> simp [Num.div, Num.neg, h]
    | pinf => rfl
    | ninf => rfl
    | nan => rfl
  | nan => rfl

theorem SumTree.Opp.value (hodd : ∀ x, a.op (-x) = (a.op x).neg) {t t' : SumTree K} (h : t.Opp t') :
    t'.value a = (t.value a).neg := by
  induction h with
  | leaf x => rfl
  | node l l' r r' _ _ ihl ihr =>
    rw [SumTree.value, SumTree.value, ihl, ihr, Num.neg_add, rnd_neg hodd]

/-- The order of summation does not look at signs. -/
def SignBlind (shape : List (Num K) → SumTree K) : Prop :=
  ∀ ws, ws ≠ [] → (shape ws).Opp (shape (ws.map Num.neg))

/-- C181: with a rounding that treats both signs alike, negating the variable changes neither global statistic nor any
local one, not even in the last digit. -/
theorem C181_negated (hodd : ∀ x, a.op (-x) = (a.op x).neg) (hb : SignBlind shape) (ys : List K)
    (hn : ys ≠ []) (W : Mat K) :
    stIR a shape (ys.map (-·)) W = stIR a shape ys W ∧
    (∀ sqrt, miIR a sqrt shape (ys.map (-·)) W = miIR a sqrt shape ys W) ∧
    ∀ i < ys.length, lmiR a shape (ys.map (-·)) W i = lmiR a shape ys W i := by
  have hl : (ys.map (-·)).length = ys.length := by simp
  have hpos : 0 < ys.length := List.length_pos_iff.2 hn
  have hsum : ∀ f : Nat → Num K, sumToR a shape ys.length (fun i => (f i).neg) =
      (sumToR a shape ys.length f).neg := by
    intro f
    unfold sumToR
    rw [← (hb ((List.range ys.length).map f) ?_).value hodd, List.map_map]
    · rfl
    · intro h
      have := congrArg List.length h
      simp at this
      exact hn this
  have hm : meanR a shape (ys.map (-·)) = (meanR a shape ys).neg := by
    unfold meanR
    have h1 : (ys.map (-·)).map Num.fin = (ys.map Num.fin).map Num.neg := by
      rw [List.map_map, List.map_map]
      rfl
    rw [h1, (hb (ys.map Num.fin) (by simpa using hn)).value hodd, hl, Num.neg_div', rnd_neg hodd]
  have hd : ∀ i, i < ys.length → devR a shape (ys.map (-·)) i = (devR a shape ys i).neg := by
    intro i hi
    unfold devR
    rw [hm, ← rnd_neg hodd, Num.sub, Num.sub, ← Num.neg_add]
    simp [List.getD_eq_getElem?_getD, hi, Num.neg]
  have hcong : ∀ f g : Nat → Num K, (∀ i < ys.length, f i = g i) →
      sumToR a shape ys.length f = sumToR a shape ys.length g := by
    intro f g h
    unfold sumToR
    rw [List.map_congr_left fun i hi => h i (List.mem_range.1 hi)]
  have hlag : ∀ i, lagR a shape (ys.map (-·)) W i = (lagR a shape ys W i).neg := by
    intro i
    unfold lagR
    rw [hl, ← hsum]
    refine hcong _ _ fun j hj => ?_
    rw [hd j hj, Num.mul_neg', rnd_neg hodd]
  have hsq : devSqR a shape (ys.map (-·)) = devSqR a shape ys := by
    unfold devSqR
    rw [hl]
    refine hcong _ _ fun i hi => ?_
    rw [hd i hi, Num.sq, Num.sq, Num.neg_mul_neg']
  have hz : ∀ sqrt, ∀ i < ys.length, zScoreR a sqrt shape (ys.map (-·)) i = (zScoreR a sqrt shape ys i).neg := by
    intro sqrt i hi
    unfold zScoreR
    rw [hd i hi, hsq, hl, Num.neg_div', rnd_neg hodd]
  refine ⟨?_, fun sqrt => ?_, ?_⟩
  · unfold stIR
    rw [hsq, hl]
    congr 4
    refine hcong _ _ fun i hi => ?_
    rw [hd i hi, hlag, Num.neg_mul_neg']
  · unfold miIR
    rw [hl]
    congr 2
    · congr 2
      refine hcong _ _ fun i hi => ?_
      rw [hz sqrt i hi, ← Num.neg_mul_neg' _ (zScoreR a sqrt shape ys i), ← hsum]
      congr 2
      refine hcong _ _ fun j hj => ?_
      rw [hz sqrt j hj, Num.mul_neg', rnd_neg hodd]
    · refine hcong _ _ fun i hi => ?_
      rw [hz sqrt i hi, Num.sq, Num.sq, Num.neg_mul_neg']
  · intro i hi
    unfold lmiR
    rw [hsq, hl, hd i hi, hlag, Num.neg_div', rnd_neg hodd, Num.neg_mul_neg']

theorem leftTree_signBlind : SignBlind (leftTree : List (Num K) → SumTree K) := by
  intro ws hne
  cases ws with
  | nil => exact absurd rfl hne
  | cons x l =>
    have : ∀ (l : List (Num K)) (t t' : SumTree K), t.Opp t' →
        (l.foldl (fun t y => SumTree.node t (.leaf y)) t).Opp
          ((l.map Num.neg).foldl (fun t y => SumTree.node t (.leaf y)) t') := by
      intro l
      induction l with
      | nil => intro t t' h; exact h
      | cons y l ih => intro t t' h; exact ih _ _ (.node _ _ _ _ h (.leaf _))
    exact this l _ _ (.leaf x)

end

section
variable {K : Type} [Field K] [LinearOrder K] [IsStrictOrderedRing K]

theorem rnd_exact (z : Num K) : Num.rnd (exactArith : Arith K).op z = z := by
  cases z <;> rfl

theorem leftTree_sum (ws : List (Num K)) : (leftTree ws).value exactArith = Num.sum ws := by
  cases ws with
  | nil => rfl
  | cons x l =>
    have : ∀ (l : List (Num K)) (t : SumTree K),
        (l.foldl (fun t y => SumTree.node t (.leaf y)) t).value exactArith = l.foldl Num.add (t.value exactArith) := by
      intro l
      induction l with
      | nil => intro t; rfl
      | cons y l ih =>
        intro t
        rw [List.foldl_cons, ih, List.foldl_cons]
        simp only [SumTree.value, rnd_exact]
    rw [leftTree, this, Num.sum, List.foldl_cons]
    congr 1
    cases x <;> simp [SumTree.value, Num.add]

/-- C181: with exact arithmetic, and sums from left to right, the rounded statistics are those of C63-C65. -/
theorem C181_exact (env : StatEnv K) (ys : List K) (hn : ys ≠ []) (W : Mat K) :
    stIR exactArith leftTree ys W = stI ys (stdWeights W) ∧
    miIR exactArith env.sqrt leftTree ys W = (miOut env ys (stdWeights W)).I ∧
    (List.range ys.length).map (lmiR exactArith leftTree ys W) = lmiOut ys (stdWeights W) := by
  have hn0 : (ys.length : K) ≠ 0 := Nat.cast_ne_zero.2 (List.length_pos_iff.2 hn).ne'
  have hs : ∀ n (f : Nat → Num K), sumToR exactArith leftTree n f = sumTo n f := fun n f => leftTree_sum _
  have hw : ∀ i j, stdWeightsR exactArith leftTree W i j = stdWeights W i j := by
    intro i j
    rw [stdWeightsR, rnd_exact, leftTree_exact, stdWeights]
  have hd : ∀ i, devR exactArith leftTree ys i = .fin (deviation ys i) := by
    intro i
    rw [devR, rnd_exact, meanR, rnd_exact, leftTree_exact]
    simp [Num.div, hn0, Num.sub, Num.neg, Num.add, deviation, sub_eq_add_neg]
  have hq : devSqR exactArith leftTree ys = .fin (devSq ys) := by
    rw [devSqR, hs, sumTo, devSq, ← Num.sum_fin, List.map_map]
    congr 1
    refine List.map_congr_left fun i _ => ?_
    rw [rnd_exact, hd]
    simp [Num.sq, Num.mul, pow_two]
  have hq0 : 0 ≤ devSq ys / (ys.length : K) := by
    refine div_nonneg (List.sum_nonneg fun x hx => ?_) (Nat.cast_nonneg _)
    obtain ⟨i, -, rfl⟩ := List.mem_map.1 hx
    exact sq_nonneg _
  have hl : ∀ i, lagR exactArith leftTree ys W i =
      sumTo ys.length fun j => Num.mul (stdWeights W i j) (.fin (deviation ys j)) := by
    intro i
    simp only [lagR, hs, rnd_exact, hw, hd]
  have hz : ∀ i, zScoreR exactArith env.sqrt leftTree ys i = zScore env ys i := by
    intro i
    rw [zScoreR, rnd_exact, rnd_exact, hd, hq, zScore]
    simp [Num.div, hn0, sqrtR, not_lt.2 hq0, exactArith]
  refine ⟨?_, ?_, ?_⟩
  · simp only [stIR, rnd_exact, hs, hd, hl, hw, hq, stI, wS0]
  · simp only [miIR, rnd_exact, hs, hz, hw, miOut, wS0, quadForm]
  · refine List.map_congr_left fun i _ => ?_
    simp only [lmiR, rnd_exact, hd, hl, hq]
    simp [Num.div, hn0]

end

/-- All observations are neighbours of each other, with weight one. -/
def othersWeights (n : Nat) : Mat ℚ := ⟨n, n, fun i j => if i = j then 0 else 1⟩

/-- C181: a constant variable is not recognised in double precision. For three observations of 0.1, all neighbours
of each other, `STMI` and `spatiotemporal_MI` report an `I` of exactly 1 and every local statistic is 1: perfect autocorrelation, where
exact arithmetic (and the constant 7) give NaN. -/
theorem C181_constant_not_recognised :
    (double.arith : Arith ℚ).Float tenth ∧
    stI [tenth, tenth, tenth] (stdWeights (othersWeights 3)) = .nan ∧
    stIR double.arith leftTree [7, 7, 7] (othersWeights 3) = .nan ∧
    stIR double.arith leftTree [tenth, tenth, tenth] (othersWeights 3) = .fin 1 ∧
    (∀ sqrt : ℚ → ℚ, (∀ x, sqrt (x * x) = |x|) →
      miIR double.arith sqrt leftTree [tenth, tenth, tenth] (othersWeights 3) = .fin 1) ∧
    ∀ i < 3, lmiR double.arith leftTree [tenth, tenth, tenth] (othersWeights 3) i = .fin 1 := by
  refine ⟨?_, by decide +kernel, by decide +kernel, by decide +kernel, ?_, by decide +kernel⟩
  swap
  · intro sqrt hsqrt
    have h1 : Num.rnd double.arith.op (.div (devSqR double.arith leftTree [tenth, tenth, tenth])
        (.fin (([tenth, tenth, tenth].length : ℕ) : ℚ))) =
        .fin ((1 / 2 ^ 56) * (1 / 2 ^ 56)) := by decide +kernel
    have h2 : ∀ i, zScoreR double.arith sqrt leftTree [tenth, tenth, tenth] i =
        zScoreR double.arith (fun _ => 1 / 2 ^ 56) leftTree [tenth, tenth, tenth] i := by
      intro i
      unfold zScoreR
      rw [h1]
      have h3 : ¬ ((1 / 2 ^ 56) * (1 / 2 ^ 56) : ℚ) < 0 := by norm_num
      simp only [sqrtR, h3, if_false]
      rw [hsqrt, abs_of_pos (by norm_num)]
    have h3 : miIR double.arith sqrt leftTree [tenth, tenth, tenth] (othersWeights 3) =
        miIR double.arith (fun _ => 1 / 2 ^ 56) leftTree [tenth, tenth, tenth] (othersWeights 3) := by
      unfold miIR
      simp only [h2]
    rw [h3]
    decide +kernel
  show double.toNum tenth = .fin tenth
  decide +kernel

/-- The hypotheses of `C181_negated` hold for the IEEE formats and sums from left to right, and the model agrees
with exact arithmetic up to one unit in the last place on three observations. -/
example : stIR double.arith leftTree [-1, -2, -4] (othersWeights 3) =
      stIR double.arith leftTree [1, 2, (4 : ℚ)] (othersWeights 3) ∧
    stIR double.arith leftTree [1, 2, (4 : ℚ)] (othersWeights 3) = .fin (-(1 / 2) - 1 / 2 ^ 53) ∧
    stI [1, 2, (4 : ℚ)] (stdWeights (othersWeights 3)) = .fin (-(1 / 2)) := by
  refine ⟨?_, by decide +kernel, by decide +kernel⟩
  exact (C181_negated (C175_ieee double double_ok).2.1 leftTree_signBlind [1, 2, 4] (by simp) _).1

/-- `C181_constant` applies to any number of observations of zero, and `C181_constant_sign` to any constant. -/
example (n : Nat) (hn : 0 < n) (W : Mat ℚ) :
    stIR double.arith leftTree (List.replicate n 0) W = .nan ∧
    (stIR double.arith leftTree (List.replicate n tenth) (othersWeights n)).NotNeg := by
  have h := C175_ieee (K := ℚ) double double_ok
  refine ⟨(C181_constant h.1 h.2.2.1 0 n hn (fun k _ => ?_) W).1,
    (C181_constant_sign h.1 h.2.2.1 tenth n hn _ rfl fun i _ j _ => ?_).1⟩
  · rw [mul_zero]
    exact h.1.op.zero
  · simp only [othersWeights]
    split_ifs <;> norm_num

end Geo
