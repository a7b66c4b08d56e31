import Verif.Model.Rounded
import Verif.Props.Kernel
import Mathlib.Algebra.Order.Floor.Ring
import Mathlib.Data.Rat.Floor
import Mathlib.Tactic.Ring
set_option linter.unusedSectionVars false
/-
Properties C85 and C86: what survives rounding. `Arith.Ok` is all that is asked of the floats:
rounding is monotone, leaves 0 and 1 alone and does not change a float again.
-/
namespace Geo
variable {K : Type} [Field K] [LinearOrder K] [IsStrictOrderedRing K]

/-- The order of the extended line; NaN is comparable to nothing. -/
def Num.le : Num K → Num K → Prop
  | .nan, _ => False
  | _, .nan => False
  | .ninf, _ => True
  | _, .pinf => True
  | .fin x, .fin y => x ≤ y
  | _, _ => False

/-- A monotone rounding that leaves 0 and 1 alone. -/
structure Rounds (r : K → Num K) : Prop where
  mono : ∀ x y, x ≤ y → Num.le (r x) (r y)
  zero : r 0 = .fin 0
  one : r 1 = .fin 1

/-- `x` is a float of the arithmetic: rounding it changes nothing. -/
def Arith.Float (a : Arith K) (x : K) : Prop := a.op x = .fin x

/-- What the theorems ask of a float arithmetic. All IEEE-754 formats and rounding modes have
it, with a `pow` that is monotone in its first argument. -/
structure Arith.Ok (a : Arith K) : Prop where
  op : Rounds a.op
  pow : Rounds a.pow
  op_float : ∀ x y, a.op x = .fin y → a.Float y
  pow_float : ∀ x y, a.pow x = .fin y → a.Float y

namespace Rounds
variable {r : K → Num K}

theorem fin_of_unit (h : Rounds r) {x : K} (h0 : 0 ≤ x) (h1 : x ≤ 1) :
    r x = .fin (r x).toK ∧ 0 ≤ (r x).toK ∧ (r x).toK ≤ 1 := by
  have a := h.mono _ _ h0
  have b := h.mono _ _ h1
  rw [h.zero] at a
  rw [h.one] at b
  cases hx : r x <;> simp_all [Num.le, Num.toK]

theorem toK_mono (h : Rounds r) {x y : K} (h0 : 0 ≤ x) (hxy : x ≤ y) (h1 : y ≤ 1) :
    (r x).toK ≤ (r y).toK := by
  have a := h.mono _ _ hxy
  rw [(h.fin_of_unit h0 (hxy.trans h1)).1, (h.fin_of_unit (h0.trans hxy) h1).1] at a
  exact a

theorem nonneg (h : Rounds r) {x : K} (h0 : 0 ≤ x) :
    r x = .pinf ∨ ∃ y, r x = .fin y ∧ 0 ≤ y := by
  have a := h.mono _ _ h0
  rw [h.zero] at a
  cases hx : r x <;> simp_all [Num.le]

theorem nonpos (h : Rounds r) {x : K} (h0 : x ≤ 0) :
    r x = .ninf ∨ ∃ y, r x = .fin y ∧ y ≤ 0 := by
  have a := h.mono _ _ h0
  rw [h.zero] at a
  cases hx : r x <;> simp_all [Num.le]

end Rounds

/-- The non-negative part of the extended line. -/
def Num.NonNeg (z : Num K) : Prop := z = .pinf ∨ ∃ y, z = .fin y ∧ 0 ≤ y

section kernel
variable {env : Env K} {a : Arith K}

theorem ndR_nonneg (ha : a.Ok) {d b : K} (hd : 0 ≤ d) (hb : 0 ≤ b) :
    (normalizeDistanceR env a d b).NonNeg := by
  unfold normalizeDistanceR
  rcases hb.eq_or_lt with rfl | hb
  · rcases hd.eq_or_lt with rfl | hd
    · simp [Num.div, Num.infSign, Num.rnd, Num.NonNeg]
    · simp [Num.div, Num.infSign, Num.rnd, Num.NonNeg, hd, hd.ne']
  · simp only [Num.div, hb.ne', if_false, Num.rnd]
    rcases ha.op.nonneg (div_nonneg hd hb.le) with h | ⟨y, h, hy⟩
    · rw [h]; exact .inl rfl
    · rw [h]; exact .inr ⟨y, rfl, hy⟩

theorem ndR_mono (ha : a.Ok) {d e b : K} (hd : 0 ≤ d) (hde : d ≤ e) (hb : 0 ≤ b) :
    Num.le (normalizeDistanceR env a d b) (normalizeDistanceR env a e b) := by
  unfold normalizeDistanceR
  rcases hb.eq_or_lt with rfl | hb
  · rcases hd.eq_or_lt with rfl | hd
    · rcases hde.eq_or_lt with rfl | he
      · simp [Num.div, Num.infSign, Num.rnd, Num.le]
      · simp [Num.div, Num.infSign, Num.rnd, Num.le, he, he.ne']
    · have he := hd.trans_le hde
      simp [Num.div, Num.infSign, Num.rnd, Num.le, hd, hd.ne', he, he.ne']
  · simp only [Num.div, hb.ne', if_false, Num.rnd]
    have hm := ha.op.mono _ _ (div_le_div_of_nonneg_right hde hb.le)
    rcases ha.op.nonneg (div_nonneg hd hb.le) with h | ⟨y, h, hy⟩ <;>
      rcases ha.op.nonneg (div_nonneg (hd.trans hde) hb.le) with h' | ⟨y', h', hy'⟩ <;>
      rw [h, h'] at hm ⊢ <;> exact hm

theorem ndR_anti_bw (ha : a.Ok) {d b c : K} (hd : 0 ≤ d) (hb : 0 ≤ b) (hbc : b ≤ c) :
    Num.le (normalizeDistanceR env a d c) (normalizeDistanceR env a d b) := by
  unfold normalizeDistanceR
  rcases hb.eq_or_lt with rfl | hb
  · rcases hd.eq_or_lt with rfl | hd
    · rcases hbc.eq_or_lt with rfl | hc
      · simp [Num.div, Num.infSign, Num.rnd, Num.le]
      · simp [Num.div, Num.infSign, Num.rnd, Num.le, hc.ne', ha.op.zero]
    · simp only [Num.div, if_true, Num.rnd, Num.infSign, hd.ne', if_false, hd]
      rcases hbc.eq_or_lt with rfl | hc
      · simp [Num.le]
      · simp only [hc.ne', if_false]
        rcases ha.op.nonneg (div_nonneg hd.le hc.le) with h | ⟨y, h, hy⟩ <;> rw [h] <;> trivial
  · have hc := hb.trans_le hbc
    simp only [Num.div, hb.ne', hc.ne', if_false, Num.rnd]
    have hm := ha.op.mono _ _ (div_le_div_of_nonneg_left hd hb hbc)
    rcases ha.op.nonneg (div_nonneg hd hb.le) with h | ⟨y, h, hy⟩ <;>
      rcases ha.op.nonneg (div_nonneg hd hc.le) with h' | ⟨y', h', hy'⟩ <;>
      rw [h, h'] at hm ⊢ <;> exact hm

theorem ndR_unit (ha : a.Ok) {d b : K} (hd : 0 ≤ d) (hdb : d ≤ b) :
    ∃ y, normalizeDistanceR env a d b = .fin y ∧ 0 ≤ y ∧ y ≤ 1 := by
  unfold normalizeDistanceR
  rcases (hd.trans hdb).eq_or_lt with rfl | hb
  · obtain rfl := le_antisymm hdb hd
    exact ⟨0, by simp [Num.div, Num.infSign, Num.rnd], le_rfl, zero_le_one⟩
  · simp only [Num.div, hb.ne', if_false, Num.rnd]
    obtain ⟨h, h0, h1⟩ := ha.op.fin_of_unit (div_nonneg hd hb.le) ((div_le_one hb).2 hdb)
    rw [h]
    exact ⟨_, rfl, h0, h1⟩

theorem ndR_beyond (ha : a.Ok) {d b : K} (hb : 0 ≤ b) (hdb : b < d) :
    Num.le (.fin 1) (normalizeDistanceR env a d b) := by
  unfold normalizeDistanceR
  have hd := hb.trans_lt hdb
  rcases hb.eq_or_lt with rfl | hb
  · simp [Num.div, Num.infSign, Num.rnd, Num.le, hd, hd.ne']
  · simp only [Num.div, hb.ne', if_false, Num.rnd]
    have hm := ha.op.mono _ _ (show (1:K) ≤ d / b by rw [one_le_div hb]; exact hdb.le)
    rw [ha.op.one] at hm
    rcases ha.op.nonneg (div_nonneg hd.le hb.le) with h | ⟨y, h, hy⟩ <;>
      rw [h] at hm ⊢ <;> exact hm

theorem ndR_zero (ha : a.Ok) (b : K) : normalizeDistanceR env a 0 b = .fin 0 := by
  unfold normalizeDistanceR
  by_cases hb : b = 0
  · simp [Num.div, hb, Num.infSign, Num.rnd]
  · simp [Num.div, hb, Num.rnd, ha.op.zero]

/-! ### Shapes on the unit interval -/

/-- the shape of a compact kernel inside its support -/
def shapeR (a : Arith K) (name : String) (y : K) : K :=
  if name = "linear" then (a.op (1 - y)).toK
  else if name = "bisquare" then
    let t := (a.op (1 - (a.op (y * y)).toK)).toK
    (a.op (t * t)).toK
  else if name = "tricube" then
    let t := (a.op (1 - (a.pow (y * y * y)).toK)).toK
    (a.pow (t * t * t)).toK
  else 1

theorem sq_unit {y : K} (h0 : 0 ≤ y) (h1 : y ≤ 1) : 0 ≤ y * y ∧ y * y ≤ 1 :=
  ⟨mul_nonneg h0 h0, by nlinarith⟩

theorem cube_unit {y : K} (h0 : 0 ≤ y) (h1 : y ≤ 1) : 0 ≤ y * y * y ∧ y * y * y ≤ 1 :=
  ⟨mul_nonneg (mul_nonneg h0 h0) h0, by
    have := sq_unit h0 h1
    nlinarith⟩

theorem shapeR_unit (ha : a.Ok) (name : String) {y : K} (h0 : 0 ≤ y) (h1 : y ≤ 1) :
    0 ≤ shapeR a name y ∧ shapeR a name y ≤ 1 := by
  unfold shapeR
  split
  · exact (ha.op.fin_of_unit (sub_nonneg.2 h1) (by linarith)).2
  split
  · have s := (ha.op.fin_of_unit (sq_unit h0 h1).1 (sq_unit h0 h1).2).2
    have t := (ha.op.fin_of_unit (sub_nonneg.2 s.2) (by linarith [s.1])).2
    exact (ha.op.fin_of_unit (sq_unit t.1 t.2).1 (sq_unit t.1 t.2).2).2
  split
  · have s := (ha.pow.fin_of_unit (cube_unit h0 h1).1 (cube_unit h0 h1).2).2
    have t := (ha.op.fin_of_unit (sub_nonneg.2 s.2) (by linarith [s.1])).2
    exact (ha.pow.fin_of_unit (cube_unit t.1 t.2).1 (cube_unit t.1 t.2).2).2
  · exact ⟨zero_le_one, le_rfl⟩

theorem sq_le {x y : K} (h0 : 0 ≤ x) (h : x ≤ y) : x * x ≤ y * y :=
  mul_le_mul h h h0 (h0.trans h)

theorem cube_le {x y : K} (h0 : 0 ≤ x) (h : x ≤ y) : x * x * x ≤ y * y * y :=
  mul_le_mul (sq_le h0 h) h h0 (mul_nonneg (h0.trans h) (h0.trans h))

theorem shapeR_anti (ha : a.Ok) (name : String) {x y : K} (h0 : 0 ≤ x) (h : x ≤ y) (h1 : y ≤ 1) :
    shapeR a name y ≤ shapeR a name x := by
  have hx1 := h.trans h1
  have hy0 := h0.trans h
  unfold shapeR
  split
  · exact ha.op.toK_mono (sub_nonneg.2 h1) (by linarith) (by linarith)
  split
  · have s := (ha.op.fin_of_unit (sq_unit h0 hx1).1 (sq_unit h0 hx1).2).2
    have s' := (ha.op.fin_of_unit (sq_unit hy0 h1).1 (sq_unit hy0 h1).2).2
    have hs := ha.op.toK_mono (sq_unit h0 hx1).1 (sq_le h0 h) (sq_unit hy0 h1).2
    have t := (ha.op.fin_of_unit (sub_nonneg.2 s.2) (by linarith [s.1])).2
    have t' := (ha.op.fin_of_unit (sub_nonneg.2 s'.2) (by linarith [s'.1])).2
    have ht := ha.op.toK_mono (sub_nonneg.2 s'.2) (sub_le_sub_left hs 1) (by linarith [s.1])
    exact ha.op.toK_mono (sq_unit t'.1 t'.2).1 (sq_le t'.1 ht) (sq_unit t.1 t.2).2
  split
  · have s := (ha.pow.fin_of_unit (cube_unit h0 hx1).1 (cube_unit h0 hx1).2).2
    have s' := (ha.pow.fin_of_unit (cube_unit hy0 h1).1 (cube_unit hy0 h1).2).2
    have hs := ha.pow.toK_mono (cube_unit h0 hx1).1 (cube_le h0 h) (cube_unit hy0 h1).2
    have t := (ha.op.fin_of_unit (sub_nonneg.2 s.2) (by linarith [s.1])).2
    have t' := (ha.op.fin_of_unit (sub_nonneg.2 s'.2) (by linarith [s'.1])).2
    have ht := ha.op.toK_mono (sub_nonneg.2 s'.2) (sub_le_sub_left hs 1) (by linarith [s.1])
    exact ha.pow.toK_mono (cube_unit t'.1 t'.2).1 (cube_le t'.1 ht) (cube_unit t.1 t.2).2
  · exact le_rfl

theorem shapeR_float (ha : a.Ok) (name : String) {y : K} (h0 : 0 ≤ y) (h1 : y ≤ 1) :
    a.Float (shapeR a name y) := by
  unfold shapeR
  split
  · exact ha.op_float _ _ (ha.op.fin_of_unit (sub_nonneg.2 h1) (by linarith)).1
  split
  · have s := (ha.op.fin_of_unit (sq_unit h0 h1).1 (sq_unit h0 h1).2).2
    have t := (ha.op.fin_of_unit (sub_nonneg.2 s.2) (by linarith [s.1])).2
    exact ha.op_float _ _ (ha.op.fin_of_unit (sq_unit t.1 t.2).1 (sq_unit t.1 t.2).2).1
  split
  · have s := (ha.pow.fin_of_unit (cube_unit h0 h1).1 (cube_unit h0 h1).2).2
    have t := (ha.op.fin_of_unit (sub_nonneg.2 s.2) (by linarith [s.1])).2
    exact ha.pow_float _ _ (ha.pow.fin_of_unit (cube_unit t.1 t.2).1 (cube_unit t.1 t.2).2).1
  · exact ha.op.one

theorem shapeR_zero (ha : a.Ok) (name : String) : shapeR a name 0 = 1 := by
  unfold shapeR
  simp [ha.op.zero, ha.op.one, ha.pow.zero, ha.pow.one, Num.toK]

theorem shapeR_one (ha : a.Ok) {name : String} (hn : name ∈ ["linear", "bisquare", "tricube"]) :
    shapeR a name 1 = 0 := by
  rcases (by simpa using hn) with rfl | rfl | rfl <;>
    simp [shapeR, ha.op.zero, ha.op.one, ha.pow.zero, ha.pow.one, Num.toK]

/-- the weight of an unbounded kernel at a normalised distance -/
def tailR (env : Env K) (a : Arith K) (name : String) (x : Num K) : Num K :=
  if name = "uniform" then .fin 1
  else if name = "gaussian" then
    Num.exp env.exp (Num.rnd a.op (.mul (.fin (-(1 / 2))) (Num.rnd a.op (.sq x))))
  else Num.exp env.exp (Num.rnd a.op (.mul (.fin (-(1 / 2))) (.abs x)))

theorem half_nonneg (ha : a.Ok) {z : Num K} (hz : z.NonNeg) :
    let t := Num.rnd a.op (.mul (.fin (-(1 / 2))) z)
    t = .ninf ∨ ∃ y, t = .fin y ∧ y ≤ 0 := by
  rcases hz with rfl | ⟨y, rfl, hy⟩
  · have : ¬ ((2:K)⁻¹ ≤ 0) := by rw [not_le]; exact inv_pos.2 two_pos
    left
    simp only [Num.mul, Num.infSign]
    rw [if_neg (by norm_num), if_neg (by norm_num)]; rfl
  · exact ha.op.nonpos (by nlinarith)

theorem half_anti (ha : a.Ok) {z w : Num K} (hz : z.NonNeg) (hw : w.NonNeg) (h : Num.le z w) :
    Num.le (Num.rnd a.op (.mul (.fin (-(1 / 2))) w)) (Num.rnd a.op (.mul (.fin (-(1 / 2))) z)) := by
  have hi : Num.rnd a.op (.mul (.fin (-(1 / 2))) .pinf) = .ninf := by
    simp only [Num.mul, Num.infSign]
    rw [if_neg (by norm_num), if_neg (by norm_num)]; rfl
  rcases hw with rfl | ⟨y, rfl, hy⟩
  · rw [hi]
    rcases half_nonneg ha hz with h | ⟨y, h, _⟩ <;> rw [h] <;> trivial
  · rcases hz with rfl | ⟨x, rfl, hx⟩
    · exact h.elim
    · have : x ≤ y := h
      exact ha.op.mono _ _ (by linarith)

theorem sq_nonneg' (ha : a.Ok) {z : Num K} (hz : z.NonNeg) : (Num.rnd a.op z.sq).NonNeg := by
  rcases hz with rfl | ⟨y, rfl, hy⟩
  · exact .inl rfl
  · exact ha.op.nonneg (mul_nonneg hy hy)

theorem sq_mono' (ha : a.Ok) {z w : Num K} (hz : z.NonNeg) (hw : w.NonNeg) (h : Num.le z w) :
    Num.le (Num.rnd a.op z.sq) (Num.rnd a.op w.sq) := by
  rcases hw with rfl | ⟨y, rfl, hy⟩
  · rcases sq_nonneg' ha hz with h | ⟨y, h, _⟩ <;> rw [h] <;> trivial
  · rcases hz with rfl | ⟨x, rfl, hx⟩
    · exact h.elim
    · exact ha.op.mono _ _ (sq_le hx h)

theorem abs_id {z : Num K} (hz : z.NonNeg) : z.abs = z := by
  rcases hz with rfl | ⟨y, rfl, hy⟩
  · rfl
  · simp [Num.abs, abs_of_nonneg hy]

theorem expR (he : env.Ok) {t : Num K} (ht : t = .ninf ∨ ∃ y, t = .fin y ∧ y ≤ 0) :
    Num.exp env.exp t = .fin (Num.exp env.exp t).toK ∧ 0 ≤ (Num.exp env.exp t).toK ∧
      (Num.exp env.exp t).toK ≤ 1 ∧
      ((Num.exp env.exp t).toK = 0 ∨ ∃ y ≤ 0, (Num.exp env.exp t).toK = env.exp y) := by
  rcases ht with rfl | ⟨y, rfl, hy⟩
  · simp [Num.exp, Num.toK]
  · refine ⟨rfl, he.exp_nonneg _, ?_, .inr ⟨y, hy, rfl⟩⟩
    have := he.exp_mono _ _ hy
    rwa [he.exp_zero] at this

theorem expR_mono (he : env.Ok) {s t : Num K} (hs : s = .ninf ∨ ∃ y, s = .fin y ∧ y ≤ 0)
    (ht : t = .ninf ∨ ∃ y, t = .fin y ∧ y ≤ 0) (h : Num.le s t) :
    (Num.exp env.exp s).toK ≤ (Num.exp env.exp t).toK := by
  rcases hs with rfl | ⟨y, rfl, hy⟩
  · exact (expR he ht).2.1
  · rcases ht with rfl | ⟨x, rfl, hx⟩
    · exact h.elim
    · exact he.exp_mono _ _ h

theorem tailR_spec (he : env.Ok) (ha : a.Ok) (name : String) {x : Num K} (hx : x.NonNeg) :
    tailR env a name x = .fin (tailR env a name x).toK ∧ 0 ≤ (tailR env a name x).toK ∧
      (tailR env a name x).toK ≤ 1 := by
  unfold tailR
  split
  · exact ⟨rfl, zero_le_one, le_rfl⟩
  split
  · have := expR he (half_nonneg ha (sq_nonneg' ha hx))
    exact ⟨this.1, this.2.1, this.2.2.1⟩
  · rw [abs_id hx]
    have := expR he (half_nonneg ha hx)
    exact ⟨this.1, this.2.1, this.2.2.1⟩

theorem tailR_anti (he : env.Ok) (ha : a.Ok) (name : String) {x y : Num K} (hx : x.NonNeg)
    (hy : y.NonNeg) (h : Num.le x y) :
    (tailR env a name y).toK ≤ (tailR env a name x).toK := by
  unfold tailR
  split
  · exact le_rfl
  split
  · exact expR_mono he (half_nonneg ha (sq_nonneg' ha hy)) (half_nonneg ha (sq_nonneg' ha hx))
      (half_anti ha (sq_nonneg' ha hx) (sq_nonneg' ha hy) (sq_mono' ha hx hy h))
  · rw [abs_id hx, abs_id hy]
    exact expR_mono he (half_nonneg ha hy) (half_nonneg ha hx) (half_anti ha hx hy h)

theorem tailR_zero (he : env.Ok) (ha : a.Ok) (name : String) :
    tailR env a name (.fin 0) = .fin 1 := by
  unfold tailR
  simp [Num.sq, Num.mul, Num.rnd, ha.op.zero, Num.exp, he.exp_zero, Num.abs]

theorem tailR_float (he : env.Ok) (ha : a.Ok) (hf : ∀ x ≤ 0, a.Float (env.exp x)) (name : String)
    {x : Num K} (hx : x.NonNeg) : a.Float (tailR env a name x).toK := by
  unfold tailR
  split
  · exact ha.op.one
  split
  · rcases (expR he (half_nonneg ha (sq_nonneg' ha hx))).2.2.2 with h | ⟨y, hy, h⟩
    · rw [h]; exact ha.op.zero
    · rw [h]; exact hf _ hy
  · rw [abs_id hx]
    rcases (expR he (half_nonneg ha hx)).2.2.2 with h | ⟨y, hy, h⟩
    · rw [h]; exact ha.op.zero
    · rw [h]; exact hf _ hy

/-- the kernels with compact support -/
def compactKernels : List String := ["linear", "boxcar", "bisquare", "tricube"]

theorem kernelR_tail (lazy : Bool) {name : String} (hn : name ∈ kernelTypeEnum)
    (hc : name ∉ compactKernels) (d b : K) :
    kernelWeightR env a lazy name d b = .ok (tailR env a name (normalizeDistanceR env a d b)) := by
  rcases (by simpa [kernelTypeEnum] using hn) with rfl | rfl | rfl | rfl | rfl | rfl | rfl <;>
    first
      | rfl
      | exact absurd (by decide) hc

theorem kernelR_beyond (ha : a.Ok) (lazy : Bool) {name : String}
    (hc : name ∈ compactKernels) {d b : K} (hb : 0 ≤ b) (hd : b < d) :
    kernelWeightR env a lazy name d b = .ok (.fin 0) := by
  rcases (by simpa [compactKernels] using hc) with rfl | rfl | rfl | rfl
  · simp [kernelWeightR, kernelElemR, cutSupport, hd]
  · simp [kernelWeightR, kernelElemR, cutSupport, hd]
  · cases lazy
    · simp [kernelWeightR, kernelElemR, cutSupport, hd]
    · simp only [kernelWeightR, kernelElemR]
      have h1 := ndR_beyond (env := env) ha hb hd
      have : (if Num.lt (.fin 1) (normalizeDistanceR env a d b) then Num.fin 1
          else normalizeDistanceR env a d b) = .fin 1 := by
        rcases ndR_nonneg (env := env) ha (hb.trans hd.le) hb with h | ⟨y, h, hy⟩
        · rw [h]; rfl
        · rw [h] at h1 ⊢
          have : (1:K) ≤ y := h1
          rcases this.eq_or_lt with rfl | h2
          · simp
          · simp [Num.lt, h2]
      simp [this, Num.sq, Num.mul, Num.rnd, ha.op.one, ha.op.zero, Num.sub, Num.add, Num.neg]
  · simp [kernelWeightR, kernelElemR, cutSupport, hd]

theorem kernelR_inside (ha : a.Ok) (lazy : Bool) {name : String}
    (hc : name ∈ compactKernels) {d b : K} (hd : 0 ≤ d) (hdb : d ≤ b) :
    ∃ y, normalizeDistanceR env a d b = .fin y ∧ 0 ≤ y ∧ y ≤ 1 ∧
      kernelWeightR env a lazy name d b = .ok (.fin (shapeR a name y)) := by
  obtain ⟨y, hy, h0, h1⟩ := ndR_unit (env := env) ha hd hdb
  refine ⟨y, hy, h0, h1, ?_⟩
  have hnl : ¬ b < d := not_lt.2 hdb
  have lin : Num.rnd a.op (.sub (.fin 1) (.fin y)) = .fin (a.op (1 - y)).toK := by
    simp only [Num.sub, Num.neg, Num.add, Num.rnd]
    rw [← sub_eq_add_neg]
    exact (ha.op.fin_of_unit (sub_nonneg.2 h1) (by linarith)).1
  have sub1 : ∀ s : K, 0 ≤ s → s ≤ 1 →
      Num.rnd a.op (.sub (.fin 1) (.fin s)) = .fin (a.op (1 - s)).toK := by
    intro s s0 s1
    simp only [Num.sub, Num.neg, Num.add, Num.rnd]
    rw [← sub_eq_add_neg]
    exact (ha.op.fin_of_unit (sub_nonneg.2 s1) (by linarith)).1
  have sq1 : ∀ s : K, 0 ≤ s → s ≤ 1 →
      Num.rnd a.op (.sq (.fin s)) = .fin (a.op (s * s)).toK := fun s s0 s1 =>
    (ha.op.fin_of_unit (sq_unit s0 s1).1 (sq_unit s0 s1).2).1
  have cube1 : ∀ s : K, 0 ≤ s → s ≤ 1 →
      Num.rnd a.pow (.cube (.fin s)) = .fin (a.pow (s * s * s)).toK := fun s s0 s1 =>
    (ha.pow.fin_of_unit (cube_unit s0 s1).1 (cube_unit s0 s1).2).1
  rcases (by simpa [compactKernels] using hc) with rfl | rfl | rfl | rfl
  · simp [kernelWeightR, kernelElemR, cutSupport, hnl, hy, lin, shapeR]
  · simp [kernelWeightR, kernelElemR, cutSupport, hnl, shapeR]
  · have s := (ha.op.fin_of_unit (sq_unit h0 h1).1 (sq_unit h0 h1).2).2
    have t := (ha.op.fin_of_unit (sub_nonneg.2 s.2) (by linarith [s.1])).2
    cases lazy
    · simp [kernelWeightR, kernelElemR, cutSupport, hnl, hy, shapeR, sq1 y h0 h1,
        sub1 _ s.1 s.2, sq1 _ t.1 t.2]
    · simp [kernelWeightR, kernelElemR, hy, shapeR, Num.lt, not_lt.2 h1, sq1 y h0 h1,
        sub1 _ s.1 s.2, sq1 _ t.1 t.2]
  · have s := (ha.pow.fin_of_unit (cube_unit h0 h1).1 (cube_unit h0 h1).2).2
    have t := (ha.op.fin_of_unit (sub_nonneg.2 s.2) (by linarith [s.1])).2
    simp [kernelWeightR, kernelElemR, cutSupport, hnl, hy, shapeR, Num.abs, abs_of_nonneg h0,
      cube1 y h0 h1, sub1 _ s.1 s.2, cube1 _ t.1 t.2]

theorem kernelR_value (he : env.Ok) (ha : a.Ok) (lazy : Bool) {name : String}
    (hn : name ∈ kernelTypeEnum) {d b : K} (hd : 0 ≤ d) (hb : 0 ≤ b) :
    ∃ w, kernelWeightR env a lazy name d b = .ok (.fin w) ∧ 0 ≤ w ∧ w ≤ 1 := by
  by_cases hc : name ∈ compactKernels
  · rcases lt_or_ge b d with h | h
    · exact ⟨0, kernelR_beyond ha lazy hc hb h, le_rfl, zero_le_one⟩
    · obtain ⟨y, _, h0, h1, hw⟩ := kernelR_inside (env := env) ha lazy hc hd h
      exact ⟨_, hw, shapeR_unit ha name h0 h1⟩
  · have ht := tailR_spec he ha name (ndR_nonneg (env := env) ha hd hb)
    exact ⟨_, by rw [kernelR_tail lazy hn hc, ht.1]; rfl, ht.2⟩

/-- C85, first part: whatever the rounding, a kernel weight is a finite number of `[0, 1]`. -/
theorem C85_unit_interval (he : env.Ok) (ha : a.Ok) (lazy : Bool) (name : String)
    (hn : name ∈ kernelTypeEnum) (d b : K) (hd : 0 ≤ d) (hb : 0 ≤ b) :
    ∃ w, kernelWeightR env a lazy name d b = .ok (.fin w) ∧ 0 ≤ w ∧ w ≤ 1 :=
  kernelR_value he ha lazy hn hd hb

/-- C85, second part: whatever the rounding, a nearer point never gets less weight, and a larger
bandwidth never gives less weight. -/
theorem C85_monotone (he : env.Ok) (ha : a.Ok) (lazy : Bool) (name : String)
    (hn : name ∈ kernelTypeEnum) (d₁ d₂ b₁ b₂ : K) (hd : 0 ≤ d₁) (hb : 0 ≤ b₂) (h : d₁ ≤ d₂)
    (h' : b₂ ≤ b₁) :
    ∃ w₁ w₂, kernelWeightR env a lazy name d₁ b₁ = .ok (.fin w₁) ∧
      kernelWeightR env a lazy name d₂ b₂ = .ok (.fin w₂) ∧ w₂ ≤ w₁ := by
  have hd2 := hd.trans h
  have hb1 := hb.trans h'
  have key : ∀ d e b c : K, 0 ≤ d → 0 ≤ c → d ≤ e → c ≤ b → ∀ w v,
      kernelWeightR env a lazy name d b = .ok (.fin w) →
      kernelWeightR env a lazy name e c = .ok (.fin v) → v ≤ w := by
    intro d e b c hd hc hde hcb w v hw hv
    have hb := hc.trans hcb
    have he0 := hd.trans hde
    by_cases hk : name ∈ compactKernels
    · rcases lt_or_ge c e with h1 | h1
      · rw [kernelR_beyond ha lazy hk hc h1] at hv
        obtain ⟨u, hu, hu0, _⟩ := kernelR_value (env := env) he ha lazy hn hd hb
        rw [hw] at hu
        cases hv; cases hu
        exact hu0
      · obtain ⟨y, hy, y0, y1, hwy⟩ :=
          kernelR_inside (env := env) ha lazy hk hd (hde.trans (h1.trans hcb))
        obtain ⟨z, hz, z0, z1, hvz⟩ := kernelR_inside (env := env) ha lazy hk he0 h1
        obtain ⟨m, hm, m0, m1⟩ := ndR_unit (env := env) ha hd (hde.trans h1)
        rw [hw] at hwy
        rw [hv] at hvz
        cases hwy; cases hvz
        have hyz : y ≤ z := by
          have a1 := ndR_mono (env := env) ha hd hde hc
          have a2 := ndR_anti_bw (env := env) ha hd hc hcb
          rw [hm, hz] at a1
          rw [hy, hm] at a2
          exact le_trans (show y ≤ m from a2) a1
        exact shapeR_anti ha name y0 hyz z1
    · rw [kernelR_tail lazy hn hk] at hw hv
      have n1 := ndR_nonneg (env := env) ha hd hb
      have n2 := ndR_nonneg (env := env) ha hd hc
      have n3 := ndR_nonneg (env := env) ha he0 hc
      have q1 := tailR_anti he ha name n1 n2 (ndR_anti_bw ha hd hc hcb)
      have q2 := tailR_anti he ha name n2 n3 (ndR_mono ha hd hde hc)
      have hw' := Except.ok.inj hw
      have hv' := Except.ok.inj hv
      rw [hw'] at q1
      rw [hv'] at q2
      exact q2.trans q1
  obtain ⟨w₁, hw₁, _⟩ := kernelR_value (env := env) he ha lazy hn hd hb1
  obtain ⟨w₂, hw₂, _⟩ := kernelR_value (env := env) he ha lazy hn hd2 hb
  exact ⟨w₁, w₂, hw₁, hw₂, key d₁ d₂ b₁ b₂ hd hb h h' w₁ w₂ hw₁ hw₂⟩

/-- C85, third part: the exact values that rounding cannot disturb. -/
theorem C85_exact_values (he : env.Ok) (ha : a.Ok) (lazy : Bool) (name : String)
    (hn : name ∈ kernelTypeEnum) (b : K) (hb : 0 ≤ b) :
    kernelWeightR env a lazy name 0 b = .ok (.fin 1) ∧
    (name ∈ ["linear", "boxcar", "bisquare", "tricube"] → ∀ d, b < d →
      kernelWeightR env a lazy name d b = .ok (.fin 0)) ∧
    (name = "boxcar" → ∀ d, 0 ≤ d → d ≤ b →
      kernelWeightR env a lazy name d b = .ok (.fin 1)) ∧
    (name = "uniform" → ∀ d, kernelWeightR env a lazy name d b = .ok (.fin 1)) := by
  refine ⟨?_, fun hc d hd => kernelR_beyond ha lazy hc hb hd, ?_, ?_⟩
  · by_cases hc : name ∈ compactKernels
    · obtain ⟨y, hy, _, _, hw⟩ := kernelR_inside (env := env) ha lazy hc le_rfl hb
      rw [ndR_zero ha] at hy
      cases hy
      rw [hw, shapeR_zero ha]
    · rw [kernelR_tail lazy hn hc, ndR_zero ha, tailR_zero he ha]
  · rintro rfl d _ hdb
    simp [kernelWeightR, kernelElemR, cutSupport, not_lt.2 hdb]
  · rintro rfl d
    simp [kernelWeightR, kernelElemR]

/-- C85, fourth part: dask and numpy agree bit for bit, although they cut the bisquare kernel
in different ways. -/
theorem C85_lazy_eq_eager (ha : a.Ok) (name : String) (d b : K) (hd : 0 ≤ d) (hb : 0 ≤ b) :
    kernelWeightR env a true name d b = kernelWeightR env a false name d b := by
  by_cases hn : name = "bisquare"
  · have hc : name ∈ compactKernels := by rw [hn]; decide
    rcases lt_or_ge b d with h | h
    · rw [kernelR_beyond ha true hc hb h, kernelR_beyond ha false hc hb h]
    · obtain ⟨y, hy, _, _, hw⟩ := kernelR_inside (env := env) ha true hc hd h
      obtain ⟨z, hz, _, _, hv⟩ := kernelR_inside (env := env) ha false hc hd h
      rw [hy] at hz
      cases hz
      rw [hw, hv]
  · simp [kernelWeightR, kernelElemR, hn]

/-- C85, fifth part, what does not survive: as soon as the quotient of a distance below the
bandwidth rounds to one, the three tapering kernels give the point weight exactly 0. -/
theorem C85_support_can_shrink (ha : a.Ok) (lazy : Bool) (name : String)
    (hn : name ∈ ["linear", "bisquare", "tricube"]) (d b : K) (hd : 0 ≤ d) (hdb : d < b)
    (hr : a.op (d / b) = .fin 1) :
    kernelWeightR env a lazy name d b = .ok (.fin 0) := by
  have hc : name ∈ compactKernels := by
    rcases (by simpa using hn) with rfl | rfl | rfl <;> decide
  obtain ⟨y, hy, _, _, hw⟩ := kernelR_inside (env := env) ha lazy hc hd hdb.le
  have hb := hd.trans_lt hdb
  have : normalizeDistanceR env a d b = .fin 1 := by
    simp [normalizeDistanceR, Num.div, hb.ne', Num.rnd, hr]
  rw [this] at hy
  cases hy
  rw [hw, shapeR_one ha hn]

end kernel

/-! ### Two arithmetics that satisfy the laws -/

/-- exact arithmetic -/
def exactArith : Arith K := ⟨.fin, .fin⟩

theorem exactArith_ok : (exactArith : Arith K).Ok where
  op := ⟨fun _ _ h => h, rfl, rfl⟩
  pow := ⟨fun _ _ h => h, rfl, rfl⟩
  op_float _ _ _ := rfl
  pow_float _ _ _ := rfl

/-- the rounding of `tinyArith` -/
def tinyRound (x : ℚ) : Num ℚ :=
  if 100 < x then .pinf else if x < -100 then .ninf else .fin (⌈x * 8⌉ / 8)

/-- A coarse arithmetic with underflow and overflow: multiples of 1/8 up to 100, rounded up. -/
def tinyArith : Arith ℚ := ⟨tinyRound, tinyRound⟩

theorem tinyRound_rounds : Rounds tinyRound where
  mono x y h := by
    unfold tinyRound
    have : (⌈x * 8⌉ : ℚ) / 8 ≤ (⌈y * 8⌉ : ℚ) / 8 := by
      apply div_le_div_of_nonneg_right _ (by norm_num)
      exact_mod_cast Int.ceil_le_ceil (by linarith : x * 8 ≤ y * 8)
    split_ifs <;> first | trivial | (exfalso; linarith)
  zero := by norm_num [tinyRound]
  one := by norm_num [tinyRound]

theorem tinyRound_float (x y : ℚ) (h : tinyRound x = .fin y) : tinyRound y = .fin y := by
  unfold tinyRound at h
  split_ifs at h with h1 h2
  cases h
  have hi : (⌈((⌈x * 8⌉ : ℚ) / 8) * 8⌉ : ℤ) = ⌈x * 8⌉ := by
    rw [div_mul_cancel₀ _ (by norm_num)]
    exact Int.ceil_intCast _
  have a1 : (⌈x * 8⌉ : ℚ) ≤ 800 := by
    exact_mod_cast Int.ceil_le.2 (show x * 8 ≤ ((800 : ℤ) : ℚ) by push_cast; linarith)
  have a2 : (-800 : ℚ) ≤ ⌈x * 8⌉ := le_trans (by linarith) (Int.le_ceil _)
  unfold tinyRound
  rw [if_neg (by linarith), if_neg (by linarith), hi]

theorem tinyArith_ok : tinyArith.Ok where
  op := tinyRound_rounds
  pow := tinyRound_rounds
  op_float := tinyRound_float
  pow_float := tinyRound_float

/-- In the coarse arithmetic a point at 15 of bandwidth 16 gets weight 0, a point at 8 gets 5/8
instead of 9/16, and 1000/1 overflows without harm. -/
example : kernelWeightR ratEnv tinyArith true "bisquare" 15 16 = .ok (.fin 0) ∧
    kernelWeightR ratEnv tinyArith false "bisquare" 8 16 = .ok (.fin (5 / 8)) ∧
    kernelWeightR ratEnv tinyArith false "gaussian" 1000 1 = .ok (.fin 0) := by
  decide +kernel

end Geo
