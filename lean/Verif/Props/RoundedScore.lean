import Verif.Model.RoundedScore
import Verif.Model.WeightModel
import Verif.Model.NumbaImpl
import Verif.Props.RoundedRow
import Verif.Props.Floats
set_option linter.unusedSectionVars false
/-
C175: what survives of the R² scores in floating-point arithmetic.
-/
namespace Geo
section
variable {K : Type} [Field K] [LinearOrder K] [IsStrictOrderedRing K] {a : Arith K}

/-- Every order of summation adds each summand once. -/
def SumsAll (shape : List (Num K) → SumTree K) : Prop := ∀ ws, ws ≠ [] → (shape ws).leaves.Perm ws

theorem addR_nonneg (ha : a.Ok) {z w : Num K} (hz : z.NonNeg) (hw : w.NonNeg) :
    (Num.rnd a.op (.add z w)).NonNeg := by
  rcases hz with rfl | ⟨x, rfl, hx⟩ <;> rcases hw with rfl | ⟨y, rfl, hy⟩
  · exact .inl rfl
  · exact .inl rfl
  · exact .inl rfl
  · exact ha.op.nonneg (add_nonneg hx hy)

theorem SumTree.value_nonneg (ha : a.Ok) (t : SumTree K) (h : ∀ z ∈ t.leaves, z.NonNeg) :
    (t.value a).NonNeg := by
  induction t with
  | leaf x => exact h x (by simp [SumTree.leaves])
  | node l r ihl ihr =>
    exact addR_nonneg ha (ihl fun z hz => h z (by simp [SumTree.leaves, hz]))
      (ihr fun z hz => h z (by simp [SumTree.leaves, hz]))

theorem SumTree.value_zero (ha : a.Ok) (t : SumTree K) (h : ∀ z ∈ t.leaves, z = .fin 0) :
    t.value a = .fin 0 := by
  induction t with
  | leaf x => exact h x (by simp [SumTree.leaves])
  | node l r ihl ihr =>
    rw [SumTree.value, ihl fun z hz => h z (by simp [SumTree.leaves, hz]),
      ihr fun z hz => h z (by simp [SumTree.leaves, hz])]
    simp [Num.add, Num.rnd, ha.op.zero]

theorem SumTree.value_nan (t : SumTree K) (h : ∀ z ∈ t.leaves, z = .nan) : t.value a = .nan := by
  induction t with
  | leaf x => exact h x (by simp [SumTree.leaves])
  | node l r ihl ihr =>
    rw [SumTree.value, ihl fun z hz => h z (by simp [SumTree.leaves, hz]),
      ihr fun z hz => h z (by simp [SumTree.leaves, hz])]
    rfl

theorem SumTree.leaves_ne_nil (t : SumTree K) : t.leaves ≠ [] := by
  induction t with
  | leaf x => simp [SumTree.leaves]
  | node l r ihl ihr => simp [SumTree.leaves, ihl]

/-- equal summands whose multiples are floats are added without rounding, in any order -/
theorem SumTree.value_const (c : K) (t : SumTree K) (h : ∀ z ∈ t.leaves, z = .fin c)
    (hf : ∀ k ≤ t.leaves.length, a.Float (k * c)) : t.value a = .fin (t.leaves.length * c) := by
  induction t with
  | leaf x =>
    rw [SumTree.value, h x (by simp [SumTree.leaves])]
    simp [SumTree.leaves]
  | node l r ihl ihr =>
    have hlen : (SumTree.node l r).leaves.length = l.leaves.length + r.leaves.length := by simp [SumTree.leaves]
    have hfl := hf _ le_rfl
    rw [SumTree.value, ihl (fun z hz => h z (by simp [SumTree.leaves, hz])) (fun k hk => hf k (by omega)),
      ihr (fun z hz => h z (by simp [SumTree.leaves, hz])) (fun k hk => hf k (by omega))]
    rw [hlen] at hfl ⊢
    simp only [Num.add, Num.rnd]
    rw [← add_mul, ← Nat.cast_add]
    exact hfl

theorem rnd_sq_nonneg (ha : a.Ok) (z : Num K) : Num.rnd a.op z.sq = .nan ∧ z = .nan ∨
    (Num.rnd a.op z.sq).NonNeg := by
  cases z with
  | fin x => exact .inr (ha.op.nonneg (mul_self_nonneg x))
  | pinf => exact .inr (.inl rfl)
  | ninf => exact .inr (.inl rfl)
  | nan => exact .inl ⟨rfl, rfl⟩

theorem op_ne_nan (ha : a.Ok) (x : K) : a.op x ≠ .nan := by
  intro h
  have := ha.op.mono x x le_rfl
  rw [h] at this
  exact this

theorem sqDiffR_fin (ha : a.Ok) (x y : K) : (sqDiffR a (.fin x) (.fin y)).NonNeg := by
  unfold sqDiffR
  rcases rnd_sq_nonneg ha (Num.rnd a.op (.sub (.fin x) (.fin y))) with ⟨-, h⟩ | h
  · exact absurd h (op_ne_nan ha _)
  · exact h

variable {shape : List (Num K) → SumTree K}

theorem residualR_nonneg (ha : a.Ok) (hs : SumsAll shape) (ys ps : List K)
    (hl : ys.length = ps.length) (hn : ys ≠ []) : (residualR a shape ys ps).NonNeg := by
  refine SumTree.value_nonneg ha _ fun z hz => ?_
  have hne : List.zipWith (fun y p => sqDiffR a (.fin y) (.fin p)) ys ps ≠ [] := by
    intro h
    have := congrArg List.length h
    rw [List.length_zipWith, ← hl, Nat.min_self] at this
    exact hn (List.length_eq_zero_iff.1 this)
  have := (hs _ hne).mem_iff.1 hz
  rw [← List.map_uncurry_zip_eq_zipWith, List.mem_map] at this
  obtain ⟨e, -, rfl⟩ := this
  exact sqDiffR_fin ha _ _

theorem totalR_nonneg (ha : a.Ok) (hs : SumsAll shape) (ys : List K) (hn : ys ≠ []) :
    totalR a shape ys = .nan ∧ meanR a shape ys = .nan ∨ (totalR a shape ys).NonNeg := by
  have hne : (ys.map fun y => sqDiffR a (.fin y) (meanR a shape ys)) ≠ [] := by simpa using hn
  by_cases hm : meanR a shape ys = .nan
  · refine .inl ⟨SumTree.value_nan _ fun z hz => ?_, hm⟩
    obtain ⟨y, -, rfl⟩ := List.mem_map.1 ((hs _ hne).mem_iff.1 hz)
    rw [hm]
    rfl
  · refine .inr (SumTree.value_nonneg ha _ fun z hz => ?_)
    obtain ⟨y, -, rfl⟩ := List.mem_map.1 ((hs _ hne).mem_iff.1 hz)
    cases h : meanR a shape ys with
    | fin m => exact sqDiffR_fin ha _ _
    | pinf => exact .inl rfl
    | ninf => exact .inl rfl
    | nan => exact absurd h hm

/-- the last two operations of both scores -/
theorem score_cases (ha : a.Ok) {r t : Num K} (hr : r.NonNeg) (ht : t.NonNeg) (ht0 : t ≠ .fin 0) :
    (Num.rnd a.op (.sub (.fin 1) (Num.rnd a.op (.div r t))) = .nan ∧ r = .pinf ∧ t = .pinf) ∨
    Num.le (Num.rnd a.op (.sub (.fin 1) (Num.rnd a.op (.div r t)))) (.fin 1) := by
  have key : ∀ q : Num K, q.NonNeg → Num.le (Num.rnd a.op (.sub (.fin 1) q)) (.fin 1) := by
    rintro q (rfl | ⟨x, rfl, hx⟩)
    · trivial
    · have := ha.op.mono (1 + -x) 1 (by linarith)
      rw [ha.op.one] at this
      exact this
  rcases hr with rfl | ⟨x, rfl, hx⟩ <;> rcases ht with rfl | ⟨y, rfl, hy⟩
  · exact .inl ⟨rfl, rfl, rfl⟩
  · refine .inr (key _ ?_)
    simp only [Num.div, not_lt.2 hy, if_false]
    exact .inl rfl
  · refine .inr (key _ ?_)
    simp only [Num.div, Num.rnd]
    exact ha.op.nonneg le_rfl
  · refine .inr (key _ ?_)
    have hy0 : y ≠ 0 := fun h => ht0 (by rw [h])
    simp only [Num.div, hy0, if_false, Num.rnd]
    exact ha.op.nonneg (div_nonneg hx hy)

/-- C175: at most one. In every float arithmetic and order of summation both scores are at most 1 (minus
infinity included) or NaN, and NaN only if the mean of the targets is (its sum overflows in both directions) or
both sums of squares overflow. -/
theorem C175_at_most_one (ha : a.Ok) (hs : SumsAll shape) (ys ps : List K) (hl : ys.length = ps.length)
    (hn : ys ≠ []) :
    (numbaR2R a shape ys ps = .nan ∧ (meanR a shape ys = .nan ∨
        residualR a shape ys ps = .pinf ∧ totalR a shape ys = .pinf) ∨
      Num.le (numbaR2R a shape ys ps) (.fin 1)) ∧
    (skR2R a shape ys ps = .nan ∧ (meanR a shape ys = .nan ∨
        residualR a shape ys ps = .pinf ∧ totalR a shape ys = .pinf) ∨
      Num.le (skR2R a shape ys ps) (.fin 1)) := by
  have hr := residualR_nonneg ha hs ys ps hl hn
  have main : totalR a shape ys ≠ .fin 0 →
      (Num.rnd a.op (.sub (.fin 1) (Num.rnd a.op (.div (residualR a shape ys ps) (totalR a shape ys)))) = .nan ∧
        (meanR a shape ys = .nan ∨ residualR a shape ys ps = .pinf ∧ totalR a shape ys = .pinf)) ∨
      Num.le (Num.rnd a.op (.sub (.fin 1)
        (Num.rnd a.op (.div (residualR a shape ys ps) (totalR a shape ys))))) (.fin 1) := by
    intro h0
    rcases totalR_nonneg ha hs ys hn with ⟨h1, h2⟩ | h1
    · refine .inl ⟨?_, .inl h2⟩
      rw [h1]
      cases residualR a shape ys ps <;> rfl
    · rcases score_cases ha hr h1 h0 with ⟨h2, h3⟩ | h2
      · exact .inl ⟨h2, .inr h3⟩
      · exact .inr h2
  constructor
  · unfold numbaR2R
    split_ifs with h
    · exact .inr (le_refl (1 : K))
    · exact main h
  · unfold skR2R
    split_ifs with h h'
    · exact .inr (le_refl (1 : K))
    · exact .inr (zero_le_one : (0 : K) ≤ 1)
    · exact main h'

/-- C175: perfect predictions score exactly 1, however the sums are rounded (for the score in `numba_impl`
provided the mean of the targets is not NaN). -/
theorem C175_perfect (ha : a.Ok) (hs : SumsAll shape) (ys : List K) (hn : ys ≠ []) :
    skR2R a shape ys ys = .fin 1 ∧ (meanR a shape ys ≠ .nan → numbaR2R a shape ys ys = .fin 1) := by
  have hr : residualR a shape ys ys = .fin 0 := by
    refine SumTree.value_zero ha _ fun z hz => ?_
    have hne : List.zipWith (fun y p => sqDiffR a (.fin y) (.fin p)) ys ys ≠ [] := by
      rw [List.zipWith_self]
      simpa using hn
    have := (hs _ hne).mem_iff.1 hz
    rw [List.zipWith_self, List.mem_map] at this
    obtain ⟨y, -, rfl⟩ := this
    simp [sqDiffR, Num.sub, Num.neg, Num.add, Num.rnd, ha.op.zero, Num.sq, Num.mul]
  refine ⟨by rw [skR2R, if_pos hr], fun hm => ?_⟩
  unfold numbaR2R
  split_ifs with h0
  · rfl
  · rw [hr]
    rcases totalR_nonneg ha hs ys hn with ⟨-, h⟩ | h | ⟨t, h, -⟩
    · exact absurd h hm
    · rw [h]
      simp [Num.div, Num.rnd, ha.op.zero, Num.sub, Num.neg, Num.add, ha.op.one]
    · have ht : t ≠ 0 := fun e => h0 (by rw [h, e])
      rw [h]
      simp [Num.div, Num.rnd, ht, ha.op.zero, Num.sub, Num.neg, Num.add, ha.op.one]

/-- C175: overflow. If the squared deviations of the targets from their mean overflow and the squared residuals
do not, both scores are exactly 1, whatever the predictions. -/
theorem C175_overflow (ha : a.Ok) (ys ps : List K) (r : K) (hr : residualR a shape ys ps = .fin r)
    (ht : totalR a shape ys = .pinf) :
    numbaR2R a shape ys ps = .fin 1 ∧ skR2R a shape ys ps = .fin 1 := by
  have h : Num.rnd a.op (.sub (.fin 1) (Num.rnd a.op (.div (.fin r) .pinf))) = .fin 1 := by
    simp [Num.div, Num.rnd, ha.op.zero, Num.sub, Num.neg, Num.add, ha.op.one]
  constructor
  · rw [numbaR2R, ht, hr, h]
    simp
  · rw [skR2R, ht, hr, h]
    simp

/-- C175: constant targets. If the multiples of the target are floats (integers, for example), the guard against
constant targets works: the score in `numba_impl` is 1 for any predictions, and scikit-learn's is 1 or 0. -/
theorem C175_constant (ha : a.Ok) (hs : SumsAll shape) (c : K) (n : Nat) (hn : 0 < n)
    (hf : ∀ k ≤ n, a.Float (k * c)) (ps : List K) :
    numbaR2R a shape (List.replicate n c) ps = .fin 1 ∧
    skR2R a shape (List.replicate n c) ps =
      if residualR a shape (List.replicate n c) ps = .fin 0 then .fin 1 else .fin 0 := by
  have hne : (List.replicate n c).map Num.fin ≠ [] := by
    intro h
    have := congrArg List.length h
    simp at this
    omega
  have hlen : (shape ((List.replicate n c).map Num.fin)).leaves.length = n := by
    rw [(hs _ hne).length_eq]
    simp
  have hsum : (shape ((List.replicate n c).map Num.fin)).value a = .fin (n * c) := by
    rw [SumTree.value_const c _ _ (by rw [hlen]; exact hf), hlen]
    intro z hz
    have := (hs _ hne).mem_iff.1 hz
    simp at this
    exact this.2
  have hn0 : (n : K) ≠ 0 := Nat.cast_ne_zero.2 hn.ne'
  have hm : meanR a shape (List.replicate n c) = .fin c := by
    unfold meanR
    rw [hsum]
    simp only [List.length_replicate, Num.div, hn0, if_false, Num.rnd]
    rw [mul_div_cancel_left₀ _ hn0]
    have := hf 1 hn
    rwa [Nat.cast_one, one_mul] at this
  have ht : totalR a shape (List.replicate n c) = .fin 0 := by
    refine SumTree.value_zero ha _ fun z hz => ?_
    have hne' : ((List.replicate n c).map fun y => sqDiffR a (.fin y) (meanR a shape (List.replicate n c))) ≠ [] := by
      intro h
      have := congrArg List.length h
      simp at this
      omega
    obtain ⟨y, hy, rfl⟩ := List.mem_map.1 ((hs _ hne').mem_iff.1 hz)
    rw [hm, (List.mem_replicate.1 hy).2]
    simp [sqDiffR, Num.sub, Num.neg, Num.add, Num.rnd, ha.op.zero, Num.sq, Num.mul]
  constructor
  · rw [numbaR2R, if_pos ht]
  · rw [skR2R, if_pos ht]

/-- C175: when the guard works. For constant targets it works if and only if the square of the rounded difference
between the target and the rounded mean is zero as a float. -/
theorem C175_constant_guard (ha : a.Ok) (hs : SumsAll shape) (c m : K) (n : Nat) (hn : 0 < n)
    (hm : meanR a shape (List.replicate n c) = .fin m) :
    totalR a shape (List.replicate n c) = .fin 0 ↔ sqDiffR a (.fin c) (.fin m) = .fin 0 := by
  have hne : ((List.replicate n c).map fun y => sqDiffR a (.fin y) (.fin m)) ≠ [] := by
    intro h
    have := congrArg List.length h
    simp at this
    omega
  have hall : ∀ z ∈ (shape ((List.replicate n c).map fun y => sqDiffR a (.fin y) (.fin m))).leaves,
      z = sqDiffR a (.fin c) (.fin m) := by
    intro z hz
    obtain ⟨y, hy, rfl⟩ := List.mem_map.1 ((hs _ hne).mem_iff.1 hz)
    rw [(List.mem_replicate.1 hy).2]
  rw [totalR, hm]
  constructor
  · intro h0
    have hex : sqDiffR a (.fin c) (.fin m) ∈
        (shape ((List.replicate n c).map fun y => sqDiffR a (.fin y) (.fin m))).leaves := by
      obtain ⟨z, hz⟩ := List.exists_mem_of_ne_nil _ (SumTree.leaves_ne_nil
        (shape ((List.replicate n c).map fun y => sqDiffR a (.fin y) (.fin m))))
      rw [← hall z hz]
      exact hz
    generalize shape ((List.replicate n c).map fun y => sqDiffR a (.fin y) (.fin m)) = t at h0 hall hex
    rcases sqDiffR_fin ha c m with e | ⟨w, e, w0⟩
    · exfalso
      have : t.value a = .pinf := by
        rw [e] at hall
        clear h0 hex
        induction t with
        | leaf x => exact hall x (by simp [SumTree.leaves])
        | node l r ihl ihr =>
          rw [SumTree.value, ihl fun z hz => hall z (by simp [SumTree.leaves, hz]),
            ihr fun z hz => hall z (by simp [SumTree.leaves, hz])]
          rfl
      rw [this] at h0
      cases h0
    · have hf : a.Float w := by
        unfold sqDiffR at e
        cases hd : Num.rnd a.op (Num.sub (.fin c) (.fin m)) with
        | fin d => rw [hd] at e; exact ha.op_float _ _ e
        | pinf => rw [hd] at e; cases e
        | ninf => rw [hd] at e; cases e
        | nan => rw [hd] at e; cases e
      have := (SumTree.value_spec ha t (fun z hz => ⟨w, by rw [hall z hz, e], w0, hf⟩)).2 w (e ▸ hex)
      rw [h0] at this
      rw [e, le_antisymm (show w ≤ 0 from this) w0]
  · intro h0
    exact SumTree.value_zero ha _ fun z hz => (hall z hz).trans h0

/-- Two orders of summation with the same brackets. -/
inductive SumTree.Below : SumTree K → SumTree K → Prop
  | leaf (x y : Num K) (h : Num.le x y) : Below (.leaf x) (.leaf y)
  | node (l l' r r' : SumTree K) (hl : Below l l') (hr : Below r r') : Below (.node l r) (.node l' r')

theorem addR_mono (ha : a.Ok) {x y x' y' : Num K} (hx : x.NonNeg) (hy : y.NonNeg) (hx' : x'.NonNeg) (hy' : y'.NonNeg)
    (h : Num.le x x') (h' : Num.le y y') : Num.le (Num.rnd a.op (.add x y)) (Num.rnd a.op (.add x' y')) := by
  have top : ∀ z : Num K, z.NonNeg → Num.le z .pinf := by
    rintro z (rfl | ⟨v, rfl, -⟩) <;> trivial
  rcases hx' with rfl | ⟨u', rfl, hu'⟩
  · have : Num.rnd a.op (.add .pinf y') = .pinf := by
      rcases hy' with rfl | ⟨v, rfl, -⟩ <;> rfl
    rw [this]
    exact top _ (addR_nonneg ha hx hy)
  · rcases hy' with rfl | ⟨v', rfl, hv'⟩
    · exact top _ (addR_nonneg ha hx hy)
    · rcases hx with rfl | ⟨u, rfl, hu⟩
      · exact h.elim
      · rcases hy with rfl | ⟨v, rfl, hv⟩
        · exact h'.elim
        · exact ha.op.mono _ _ (add_le_add h h')

theorem SumTree.Below.value (ha : a.Ok) {t t' : SumTree K} (h : t.Below t') (hl : ∀ z ∈ t.leaves, z.NonNeg)
    (hl' : ∀ z ∈ t'.leaves, z.NonNeg) : Num.le (t.value a) (t'.value a) := by
  induction h with
  | leaf x y h => exact h
  | node l l' r r' _ _ ihl ihr =>
    have h2 : ∀ z ∈ l.leaves, z.NonNeg := fun z hz => hl z (by simp [SumTree.leaves, hz])
    have h3 : ∀ z ∈ r.leaves, z.NonNeg := fun z hz => hl z (by simp [SumTree.leaves, hz])
    have h2' : ∀ z ∈ l'.leaves, z.NonNeg := fun z hz => hl' z (by simp [SumTree.leaves, hz])
    have h3' : ∀ z ∈ r'.leaves, z.NonNeg := fun z hz => hl' z (by simp [SumTree.leaves, hz])
    exact addR_mono ha (SumTree.value_nonneg ha _ h2) (SumTree.value_nonneg ha _ h3)
      (SumTree.value_nonneg ha _ h2') (SumTree.value_nonneg ha _ h3') (ihl h2 h2') (ihr h3 h3')

/-- The brackets of the sum depend on the number of summands only. -/
def SameBrackets (shape : List (Num K) → SumTree K) : Prop :=
  ∀ ws vs, ws ≠ [] → List.Forall₂ Num.le ws vs → (shape ws).Below (shape vs)

theorem sqDiffR_mono (ha : a.Ok) (hodd : ∀ x, a.op (-x) = (a.op x).neg) (y p p' : K) (h : |y - p| ≤ |y - p'|) :
    Num.le (sqDiffR a (.fin y) (.fin p)) (sqDiffR a (.fin y) (.fin p')) := by
  have key : ∀ d, Num.rnd a.op (Num.rnd a.op (.fin d)).sq = Num.rnd a.op (Num.rnd a.op (.fin |d|)).sq := by
    intro d
    rcases abs_choice d with e | e
    · rw [e]
    · rw [e]
      simp only [Num.rnd]
      rw [hodd]
      cases a.op d <;> simp [Num.neg, Num.sq, Num.mul]
  have e : ∀ p, sqDiffR a (.fin y) (.fin p) = Num.rnd a.op (Num.rnd a.op (.fin |y - p|)).sq := by
    intro p
    rw [← key, sub_eq_add_neg]
    rfl
  rw [e, e]
  exact sq_mono' ha (ha.op.nonneg (abs_nonneg _)) (ha.op.nonneg (abs_nonneg _)) (ha.op.mono _ _ h)

theorem score_mono (ha : a.Ok) {r r' t : Num K} (hr : r.NonNeg) (hr' : r'.NonNeg) (ht : t.NonNeg) (h0 : t ≠ .fin 0)
    (h : Num.le r r') (ht' : t ≠ .pinf) :
    Num.le (Num.rnd a.op (.sub (.fin 1) (Num.rnd a.op (.div r' t))))
      (Num.rnd a.op (.sub (.fin 1) (Num.rnd a.op (.div r t)))) := by
  rcases ht with rfl | ⟨t, rfl, t0⟩
  · exact absurd rfl ht'
  have tp : 0 < t := lt_of_le_of_ne t0 fun e => h0 (by rw [← e])
  have key : ∀ q q' : Num K, q.NonNeg → q'.NonNeg → Num.le q q' →
      Num.le (Num.rnd a.op (.sub (.fin 1) q')) (Num.rnd a.op (.sub (.fin 1) q)) := by
    rintro q q' hq (rfl | ⟨x', rfl, hx'⟩) hqq
    · have : Num.rnd a.op (.sub (.fin (1 : K)) .pinf) = .ninf := rfl
      rw [this]
      have hn : Num.rnd a.op (.sub (.fin 1) q) ≠ .nan := by
        rcases hq with rfl | ⟨x, rfl, -⟩
        · simp [Num.sub, Num.neg, Num.add, Num.rnd]
        · exact op_ne_nan ha _
      cases hc : Num.rnd a.op (.sub (.fin 1) q) with
      | nan => exact absurd hc hn
      | _ => trivial
    · rcases hq with rfl | ⟨x, rfl, hx⟩
      · exact hqq.elim
      · exact ha.op.mono _ _ (by have : x ≤ x' := hqq; linarith)
  rcases hr' with rfl | ⟨x', rfl, hx'⟩
  · have e : Num.rnd a.op (.div .pinf (.fin t)) = .pinf := by simp [Num.div, not_lt.2 t0, Num.rnd]
    rw [e]
    rcases hr with rfl | ⟨x, rfl, hx⟩
    · rw [e]
      trivial
    · refine key _ _ ?_ (.inl rfl) ?_
      · simp only [Num.div, tp.ne', if_false, Num.rnd]
        exact ha.op.nonneg (div_nonneg hx t0)
      · simp only [Num.div, tp.ne', if_false, Num.rnd]
        rcases ha.op.nonneg (div_nonneg hx t0) with e | ⟨v, e, -⟩ <;> rw [e] <;> trivial
  · rcases hr with rfl | ⟨x, rfl, hx⟩
    · exact h.elim
    · have hxx : x ≤ x' := h
      refine key _ _ ?_ ?_ ?_ <;> simp only [Num.div, tp.ne', if_false, Num.rnd]
      · exact ha.op.nonneg (div_nonneg hx t0)
      · exact ha.op.nonneg (div_nonneg hx' t0)
      · exact ha.op.mono _ _ (div_le_div_of_nonneg_right hxx t0)

/-- C175: better predictions never score lower. If every prediction is at least as close to its target, neither
score is lower, as computed with the same brackets; unless the squared deviations of the targets overflow (or
their mean is NaN). The rounding treats both signs alike, as rounding to nearest does. -/
theorem C175_monotone (ha : a.Ok) (hodd : ∀ x, a.op (-x) = (a.op x).neg) (hs : SumsAll shape)
    (hb : SameBrackets shape) (ys ps qs : List K) (hl : ys.length = ps.length) (hl' : ys.length = qs.length)
    (hn : ys ≠ []) (hm : meanR a shape ys ≠ .nan) (ht : totalR a shape ys ≠ .pinf)
    (h : ∀ i < ys.length, |ys.getD i 0 - ps.getD i 0| ≤ |ys.getD i 0 - qs.getD i 0|) :
    Num.le (numbaR2R a shape ys qs) (numbaR2R a shape ys ps) ∧
    Num.le (skR2R a shape ys qs) (skR2R a shape ys ps) := by
  have hr := residualR_nonneg ha hs ys ps hl hn
  have hr' := residualR_nonneg ha hs ys qs hl' hn
  have htn : (totalR a shape ys).NonNeg := by
    rcases totalR_nonneg ha hs ys hn with ⟨-, h⟩ | h
    · exact absurd h hm
    · exact h
  have hne : ∀ ps : List K, ys.length = ps.length →
      List.zipWith (fun y p => sqDiffR a (.fin y) (.fin p)) ys ps ≠ [] := by
    intro ps hl h
    have := congrArg List.length h
    rw [List.length_zipWith, ← hl, Nat.min_self] at this
    exact hn (List.length_eq_zero_iff.1 this)
  have hle : Num.le (residualR a shape ys ps) (residualR a shape ys qs) := by
    have hnn : ∀ ps : List K, ys.length = ps.length →
        ∀ z ∈ (shape (List.zipWith (fun y p => sqDiffR a (.fin y) (.fin p)) ys ps)).leaves, z.NonNeg := by
      intro ps hl z hz
      have := (hs _ (hne ps hl)).mem_iff.1 hz
      rw [← List.map_uncurry_zip_eq_zipWith, List.mem_map] at this
      obtain ⟨e, -, rfl⟩ := this
      exact sqDiffR_fin ha _ _
    refine SumTree.Below.value ha (hb _ _ (hne ps hl) ?_) (hnn ps hl) (hnn qs hl')
    refine List.forall₂_iff_get.2 ⟨by simp [← hl, ← hl'], fun i h1 h2 => ?_⟩
    have hi : i < ys.length := by
      rw [List.length_zipWith] at h1
      omega
    have := h i hi
    rw [List.getD_eq_getElem _ _ hi, List.getD_eq_getElem _ _ (hl ▸ hi), List.getD_eq_getElem _ _ (hl' ▸ hi)] at this
    simpa using sqDiffR_mono ha hodd _ _ _ this
  constructor
  · unfold numbaR2R
    split_ifs with h0
    · exact le_refl (1 : K)
    · exact score_mono ha hr hr' htn h0 hle ht
  · have main : ∀ h0 : totalR a shape ys ≠ .fin 0, _ := fun h0 => score_mono ha hr hr' htn h0 hle ht
    unfold skR2R
    split_ifs with h1 h2 h3 h4 h5
    · exact le_refl (1 : K)
    · exfalso
      rw [h1] at hle
      apply h2
      rcases hr with e | ⟨x, e, hx⟩
      · rw [e] at hle; exact hle.elim
      · rw [e] at hle ⊢
        have : x ≤ 0 := hle
        rw [le_antisymm this hx]
    · exfalso
      rw [h1] at hle
      apply h2
      rcases hr with e | ⟨x, e, hx⟩
      · rw [e] at hle; exact hle.elim
      · rw [e] at hle ⊢
        have : x ≤ 0 := hle
        rw [le_antisymm this hx]
    · exact (zero_le_one : (0 : K) ≤ 1)
    · exact le_refl (0 : K)
    · rcases score_cases ha hr' htn (by assumption) with ⟨-, -, e⟩ | e
      · exact absurd e ht
      · exact e
    · exact main (by assumption)

theorem leftTree_exact (us : List K) : (leftTree (us.map Num.fin)).value exactArith = .fin us.sum := by
  cases us with
  | nil => simp [leftTree, SumTree.value]
  | cons u us =>
    have : ∀ (us : List K) (t : SumTree K) (v : K), t.value exactArith = .fin v →
        ((us.map Num.fin).foldl (fun t y => SumTree.node t (.leaf y)) t).value exactArith = .fin (v + us.sum) := by
      intro us
      induction us with
      | nil => intro t v h; simpa using h
      | cons w us ih =>
        intro t v h
        rw [List.map_cons, List.foldl_cons, ih _ (v + w) (by rw [SumTree.value, h]; rfl),
          List.sum_cons, add_assoc]
    rw [List.map_cons, leftTree, this us _ u rfl, List.sum_cons]

/-- with exact arithmetic the rounded score is the score of the model of `fit` -/
theorem skR2R_exact (ys ps : List K) (hl : ys.length = ps.length) (h2 : 2 ≤ ys.length) :
    ∃ v, skR2 ys ps = .ok v ∧ skR2R exactArith leftTree ys ps = .fin v := by
  have hn : (ys.length : K) ≠ 0 := Nat.cast_ne_zero.2 (by omega)
  have hm : meanR exactArith leftTree ys = .fin (ys.sum / ys.length) := by
    rw [meanR, leftTree_exact]
    simp [Num.div, hn, Num.rnd, exactArith]
  have hsq : ∀ x y : K, sqDiffR exactArith (.fin x) (.fin y) = .fin ((x - y) ^ 2) := by
    intro x y
    simp [sqDiffR, Num.sub, Num.neg, Num.add, Num.rnd, exactArith, Num.sq, Num.mul, pow_two, sub_eq_add_neg]
  have ht : totalR exactArith leftTree ys = .fin (ys.map fun y => (y - ys.sum / ys.length) ^ 2).sum := by
    rw [totalR, hm, ← leftTree_exact, List.map_map]
    congr 2
    exact List.map_congr_left fun y _ => hsq _ _
  have hr : residualR exactArith leftTree ys ps = .fin ((ys.zip ps).map fun e => (e.1 - e.2) ^ 2).sum := by
    rw [residualR, ← leftTree_exact, List.map_map, ← List.map_uncurry_zip_eq_zipWith]
    congr 2
    exact List.map_congr_left fun e _ => hsq _ _
  refine ⟨_, by rw [skR2, if_neg (by omega), if_neg (by omega)], ?_⟩
  rw [skR2R, ht, hr]
  simp only [Num.fin.injEq]
  split_ifs with h1 h3 h4
  · rw [h1]; simp
  · rfl
  all_goals first
    | rfl
    | (simp_all [Num.div, Num.rnd, exactArith, Num.sub, Num.neg, Num.add, sub_eq_add_neg])

theorem leftTree_brackets : SameBrackets (leftTree : List (Num K) → SumTree K) := by
  intro ws vs hne h
  cases h with
  | nil => exact absurd rfl hne
  | cons hab h =>
    have : ∀ (ws vs : List (Num K)), List.Forall₂ Num.le ws vs → ∀ t t' : SumTree K, t.Below t' →
        (ws.foldl (fun t y => SumTree.node t (.leaf y)) t).Below (vs.foldl (fun t y => SumTree.node t (.leaf y)) t') := by
      intro ws vs h
      induction h with
      | nil => intro t t' h; exact h
      | cons hab _ ih => intro t t' h; exact ih _ _ (.node _ _ _ _ h (.leaf _ _ hab))
    exact this _ _ h _ _ (.leaf _ _ hab)

end

section
variable {K : Type} [Field K] [LinearOrder K] [IsStrictOrderedRing K] [FloorRing K]

/-- C175: the IEEE formats meet the hypotheses on the arithmetic, with rounding to nearest, and sums from left
to right those on the order of summation. -/
theorem C175_ieee (F : Fmt) (hF : F.Ok) : (F.arith : Arith K).Ok ∧
    (∀ x : K, (F.arith : Arith K).op (-x) = ((F.arith : Arith K).op x).neg) ∧
    SumsAll (leftTree : List (Num K) → SumTree K) ∧ SameBrackets (leftTree : List (Num K) → SumTree K) := by
  refine ⟨Fmt.arith_ok hF, fun x => ?_, fun ws h => leftTree_leaves ws h, leftTree_brackets⟩
  have hp : (0 : K) < 2 ^ (F.emax + 1) := Fmt.two_zpow_pos _
  simp only [Fmt.arith, Fmt.toNum, Fmt.round_neg, neg_le_neg_iff]
  by_cases h1 : 2 ^ (F.emax + 1) ≤ F.round x
  · have h2 : ¬ 2 ^ (F.emax + 1) ≤ -F.round x := by linarith
    simp [h1, h2, Num.neg]
  · by_cases h2 : F.round x ≤ -2 ^ (F.emax + 1)
    · have h3 : 2 ^ (F.emax + 1) ≤ -F.round x := by linarith
      simp [h1, h2, h3, Num.neg]
    · have h3 : ¬ 2 ^ (F.emax + 1) ≤ -F.round x := by
        intro h
        exact h2 (by linarith)
      simp [h1, h2, h3, Num.neg]

end

/-- The double nearest to one tenth. -/
def tenth : ℚ := 3602879701896397 / 2 ^ 55

/-- C175: the guard against constant targets fails in double precision. For three targets of 0.1 the rounded mean
is not 0.1, so predictions of which one is off by 1/1024 score less than -10^27, where the exact scores are 1 (in
`numba_impl`) and 0 (scikit-learn). -/
theorem C175_constant_guard_fails :
    (double.arith : Arith ℚ).Float tenth ∧ (double.arith : Arith ℚ).Float (tenth + 1 / 1024) ∧
    skR2 [tenth, tenth, tenth] [tenth, tenth, tenth + 1 / 1024] = .ok 0 ∧
    r2Score ![tenth, tenth, tenth] ![tenth, tenth, tenth + 1 / 1024] = 1 ∧
    (numbaR2R double.arith leftTree [tenth, tenth, tenth] [tenth, tenth, tenth + 1 / 1024]).lt
      (.fin (-10 ^ 27)) = true ∧
    (skR2R double.arith leftTree [tenth, tenth, tenth] [tenth, tenth, tenth + 1 / 1024]).lt
      (.fin (-10 ^ 27)) = true := by
  refine ⟨?_, ?_, ?_, ?_, ?_, ?_⟩
  · show double.toNum tenth = .fin tenth
    decide +kernel
  · show double.toNum (tenth + 1 / 1024) = .fin (tenth + 1 / 1024)
    decide +kernel
  · norm_num [skR2, tenth]
  · norm_num [r2Score, totalSS, Fin.sum_univ_succ, tenth]
  · decide +kernel
  · decide +kernel

/-- `C175_overflow` applies: two targets of ±2^520 and a residual of 2^500. (With targets of ±2^600 and a residual
of 2^548 both sums overflow, and the scores are NaN.) -/
example : residualR double.arith leftTree [(2 : ℚ) ^ 520, -2 ^ 520] [2 ^ 520 - 2 ^ 500, -2 ^ 520] = .fin (2 ^ 1000) ∧
    totalR double.arith leftTree [(2 : ℚ) ^ 520, -2 ^ 520] = .pinf ∧
    numbaR2R double.arith leftTree [(2 : ℚ) ^ 600, -2 ^ 600] [2 ^ 600 - 2 ^ 548, -2 ^ 600] = .nan := by
  decide +kernel

/-- `C175_constant` applies to any number of targets of 7 up to a million, in double precision. -/
example (n : Nat) (hn : 0 < n) (hn' : n ≤ 1000000) (ps : List ℚ) :
    numbaR2R double.arith leftTree (List.replicate n 7) ps = .fin 1 := by
  refine (C175_constant (C175_ieee double double_ok).1 (C175_ieee double double_ok).2.2.1 7 n hn ?_ ps).1
  intro k hk
  have h : ((k : ℚ) * 7) = ((k * 7 : ℤ) : ℚ) := by push_cast; ring
  show double.toNum ((k : ℚ) * 7) = _
  have hr := Fmt.round_int (K := ℚ) (F := double) (by decide) (k * 7) (by
    rw [abs_of_nonneg (by positivity)]
    have : (k : ℤ) ≤ 1000000 := by exact_mod_cast hk.trans hn'
    have h2 : ((2 : ℤ) ^ (double.frac + 1)) = 9007199254740992 := by decide
    omega)
  rw [Fmt.toNum, h, hr]
  have hb : ((k * 7 : ℤ) : ℚ) ≤ 7000000 := by
    have : (k : ℤ) * 7 ≤ 7000000 := by
      have : (k : ℤ) ≤ 1000000 := by exact_mod_cast hk.trans hn'
      omega
    exact_mod_cast this
  have h0 : (0 : ℚ) ≤ ((k * 7 : ℤ) : ℚ) := by positivity
  have hbig : (7000000 : ℚ) < 2 ^ (double.emax + 1) := by decide +kernel
  rw [if_neg (by linarith), if_neg (by linarith)]

/-- `C175_monotone` and `C175_at_most_one` at work: three targets in double precision. -/
example : numbaR2R double.arith leftTree [(1 : ℚ), 2, 4] [1, 2, 3] =
      skR2R double.arith leftTree [(1 : ℚ), 2, 4] [1, 2, 3] ∧
    Num.lt (numbaR2R double.arith leftTree [(1 : ℚ), 2, 4] [1, 2, 2])
      (numbaR2R double.arith leftTree [(1 : ℚ), 2, 4] [1, 2, 3]) = true ∧
    meanR double.arith leftTree [(1 : ℚ), 2, 4] ≠ .nan ∧ totalR double.arith leftTree [(1 : ℚ), 2, 4] ≠ .pinf := by
  decide +kernel

end Geo
