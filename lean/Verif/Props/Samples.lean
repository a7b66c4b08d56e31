import Verif.Model.Samples
import Verif.Props.Simulation
import Mathlib.Tactic.FinCases
/-
C110-C112: the data generators of the experiments.
-/
set_option linter.unusedSectionVars false
namespace Geo
open Real Matrix
variable {S : Type}

/-! ### the parts -/

theorem getD_mem_of_lt {l : List ℝ} {i : Nat} (h : i < l.length) : l.getD i 0 ∈ l := by
  simp [List.getD_eq_getElem?_getD, List.getElem?_eq_getElem h]

theorem squarePoints_spec (g : DrawRng S) (hg : g.Valid) (s : S) (n : Nat) :
    ∃ pts s', squarePoints g s n = (.ok pts, s') ∧ pts.length = n ∧
      ∀ p ∈ pts, ∀ i, -10 ≤ p i ∧ p i < 10 := by
  obtain ⟨cols, s', h, hl, hc⟩ := C82_points g hg s n 2 (.common [-10, 10]) (.common "continuous")
    fun i _ => ⟨"continuous", rfl, fun _ => ⟨-10, 10, [], rfl, by norm_num⟩, fun h => by simp at h⟩
  refine ⟨planeRows n cols, s', by rw [squarePoints, h]; rfl, by simp [planeRows], ?_⟩
  intro p hp i
  obtain ⟨j, hj, rfl⟩ := List.mem_map.1 hp
  have hj := List.mem_range.1 hj
  have key : ∀ k < 2, -10 ≤ (cols.getD k []).getD j 0 ∧ (cols.getD k []).getD j 0 < 10 := by
    intro k hk
    obtain ⟨h1, h2⟩ := hc k hk
    have hm : (cols.getD k []).getD j 0 ∈ cols.getD k [] := by
      exact getD_mem_of_lt (by omega)
    obtain ⟨a, b, c⟩ := (h2 "continuous" rfl).1 rfl (-10) 10 [] rfl _ hm
    exact ⟨a, c (by norm_num)⟩
  fin_cases i
  · exact key 0 (by norm_num)
  · exact key 1 (by norm_num)

theorem plainX_spec (g : DrawRng S) (hg : g.Valid) (s : S) (n : Nat) (lo hi : ℝ) (h : lo < hi) :
    ∃ (l : List ℝ) (s' : S), plainX g s n lo hi = (.ok (l.map .fin), s') ∧ l.length = n ∧
      ∀ v ∈ l, lo ≤ v ∧ v < hi := by
  obtain ⟨hl, hu⟩ := hg.uniform s n
  refine ⟨uniformX (g.uniform s n).1 (List.replicate n lo) (List.replicate n hi)
    (List.replicate n 0), (g.uniform s n).2, rfl, by simp [uniformX, hl], ?_⟩
  intro v hv
  obtain ⟨i, hi', rfl⟩ := List.mem_map.1 hv
  have hi' := List.mem_range.1 hi'
  have hin : i < n := by omega
  have hm : (g.uniform s n).1.getD i 0 ∈ (g.uniform s n).1 := getD_mem_of_lt hi'
  obtain ⟨h0, h1⟩ := hu _ hm
  have e1 : ∀ x : ℝ, (List.replicate n x).getD i 0 = x := by
    intro x
    simp [List.getD_eq_getElem?_getD, hin]
  rw [e1, e1, e1]
  constructor
  · nlinarith [mul_nonneg h0 (sub_nonneg.2 h.le)]
  · nlinarith [mul_pos (sub_pos.2 h1) (sub_pos.2 h)]

theorem bump_scalar (m : Plane) (v a : ℝ) (hv : 0 < v) :
    bump m (.scalar v) a =
      .ok fun p => .fin (a * exp (-(((p 0 - m 0) ^ 2 + (p 1 - m 1) ^ 2) / (2 * v)))) := by
  unfold bump
  rw [C72_gaussian_scalar m v a hv]
  have : ∀ p : Plane, normR (p - m) ^ 2 = (p 0 - m 0) ^ 2 + (p 1 - m 1) ^ 2 := by
    intro p
    unfold normR
    rw [sq_sqrt (dotR_self_nonneg _)]
    simp [dotR, Fin.sum_univ_two]
    ring
  simp only [Except.map, this]

theorem radial_val (p : Plane) : coefRadial p = .fin (√(p 0 ^ 2 + p 1 ^ 2) / √200) := by
  unfold coefRadial radialCoefficient normR dotR
  simp only [Fin.sum_univ_two, Pi.sub_apply, Pi.zero_apply, sub_zero]
  congr 1
  rw [sq, sq]
  ring

theorem dir_val (p : Plane) (hp : p ≠ 0) :
    coefDir p = .fin ((p 0 + p 1) / (√(p 0 ^ 2 + p 1 ^ 2) * √2)) := by
  have hd : (![1, 1] : Plane) ≠ 0 := fun h => by
    have := congrFun h 0
    simp at this
  unfold coefDir
  rw [directional_formula _ _ hd _ hp]
  congr 1
  have h1 : dotR p ![1, 1] = p 0 + p 1 := by simp [dotR, Fin.sum_univ_two]
  have h2 : normR p = √(p 0 ^ 2 + p 1 ^ 2) := by
    unfold normR dotR; simp only [Fin.sum_univ_two, sq]
  have h3 : normR (![1, 1] : Plane) = √2 := by
    unfold normR dotR; simp [Fin.sum_univ_two]; norm_num
  rw [h1, h2, h3, mul_one]

theorem dir_nan : coefDir 0 = .nan := C72_directional_nan _ _ _ (.inr rfl)

/-- The strong coefficient as a formula. -/
noncomputable def strongValue (p : Plane) : ℝ :=
  √(p 0 ^ 2 + p 1 ^ 2) / √200 + (p 0 + p 1) / (√(p 0 ^ 2 + p 1 ^ 2) * √2) +
  (sin (p 1 - p 0) + sin (p 0 + p 1)) +
  (exp (-(((p 0 + 5) ^ 2 + (p 1 - 5) ^ 2) / 6)) + 2 * exp (-(((p 0 + 5) ^ 2 + (p 1 + 5) ^ 2) / 6)))

theorem coefStrong_val : ∃ c, coefStrong = .ok c ∧ c 0 = .nan ∧
    ∀ p, p ≠ 0 → c p = .fin (strongValue p) := by
  unfold coefStrong
  rw [bump_scalar _ _ _ (by norm_num), bump_scalar _ _ _ (by norm_num)]
  refine ⟨_, rfl, ?_, ?_⟩
  · simp only [sumOf, List.map_cons, List.map_nil, dir_nan, Num.sum, List.foldl_cons,
      List.foldl_nil, radial_val, Num.add]
  · intro p hp
    simp only [sumOf, coefSin, List.map_cons, List.map_nil, dir_val p hp, Num.sum, List.foldl_cons,
      List.foldl_nil, radial_val, Num.add, strongValue, sineCoefficient, dotR, Fin.sum_univ_two]
    congr 1
    have h0 : (![-5, 5] : Plane) 0 = -5 := rfl
    have h1 : (![-5, 5] : Plane) 1 = 5 := rfl
    have h2 : (![-5, -5] : Plane) 0 = -5 := rfl
    have h3 : (![-5, -5] : Plane) 1 = -5 := rfl
    have h4 : (![-1, 1] : Plane) 0 = -1 := rfl
    have h5 : (![-1, 1] : Plane) 1 = 1 := rfl
    have h6 : (![1, 1] : Plane) 0 = 1 := rfl
    have h7 : (![1, 1] : Plane) 1 = 1 := rfl
    rw [h0, h1, h2, h3, h4, h5, h6, h7]
    have e1 : (p 0 * -1 + p 1 * 1) * 1 = p 1 - p 0 := by ring
    have e2 : (p 0 * 1 + p 1 * 1) * 1 = p 0 + p 1 := by ring
    rw [e1, e2]
    norm_num

theorem norm_box (p : Plane) (h : ∀ i, -10 ≤ p i ∧ p i < 10) :
    √(p 0 ^ 2 + p 1 ^ 2) / √200 ≤ 1 := by
  rw [div_le_one (sqrt_pos.2 (by norm_num))]
  apply sqrt_le_sqrt
  have h0 := h 0
  have h1 := h 1
  nlinarith

theorem dir_bound (p : Plane) :
    |(p 0 + p 1) / (√(p 0 ^ 2 + p 1 ^ 2) * √2)| ≤ 1 := by
  rw [← sqrt_mul (by positivity), abs_div, abs_of_nonneg (sqrt_nonneg _)]
  apply div_le_one_of_le₀ _ (sqrt_nonneg _)
  apply abs_le_sqrt
  nlinarith [sq_nonneg (p 0 - p 1)]

theorem strong_bounds (p : Plane) (h : ∀ i, -10 ≤ p i ∧ p i < 10) :
    -3 < strongValue p ∧ strongValue p ≤ 7 := by
  have a := norm_box p h
  have a' : 0 ≤ √(p 0 ^ 2 + p 1 ^ 2) / √200 := by positivity
  have b := abs_le.1 (dir_bound p)
  have c1 := sin_le_one (p 1 - p 0)
  have c2 := neg_one_le_sin (p 1 - p 0)
  have d1 := sin_le_one (p 0 + p 1)
  have d2 := neg_one_le_sin (p 0 + p 1)
  have e1 := exp_pos (-(((p 0 + 5) ^ 2 + (p 1 - 5) ^ 2) / 6))
  have e2 : exp (-(((p 0 + 5) ^ 2 + (p 1 - 5) ^ 2) / 6)) ≤ 1 :=
    exp_le_one_iff.2 (by have : 0 ≤ ((p 0 + 5) ^ 2 + (p 1 - 5) ^ 2) / 6 := by positivity
                         linarith)
  have f1 := exp_pos (-(((p 0 + 5) ^ 2 + (p 1 + 5) ^ 2) / 6))
  have f2 : exp (-(((p 0 + 5) ^ 2 + (p 1 + 5) ^ 2) / 6)) ≤ 1 :=
    exp_le_one_iff.2 (by have : 0 ≤ ((p 0 + 5) ^ 2 + (p 1 + 5) ^ 2) / 6 := by positivity
                         linarith)
  unfold strongValue
  constructor <;> linarith [b.1, b.2]

/-! ### C110: one feature -/

theorem zip_map_fin {α : Type} (h : Num ℝ → α → Num ℝ) (x : List ℝ) (l : List α) :
    List.zipWith h (x.map .fin) l = List.zipWith (fun v p => h (.fin v) p) x l := by
  rw [List.zipWith_map_left]

/-- C110: with the same seed and count, the points and the feature are the same whatever the
response and the coefficient: they are drawn first. The points lie in the square from -10 to 10, so
does the feature. If the coefficient can be made, the response of an observation is computed from
its own point and feature alone: coefficient times square, the same plus ten times the coefficient,
or coefficient times hyperbolic tangent; the two responses for two features raise `IndexError`. If it
cannot be made, its exception is raised for every response. -/
theorem C110_one_feature (g : DrawRng S) (hg : g.Valid) (seed : Nat → S) (n k : Nat) :
    ∃ (x : List ℝ) (pts : List Plane) (s : S), x.length = n ∧ pts.length = n ∧
      (∀ v ∈ x, -10 ≤ v ∧ v < 10) ∧ (∀ p ∈ pts, ∀ i, -10 ≤ p i ∧ p i < 10) ∧
      ∀ cf : CoefFunc S,
        (∀ c s', cf s = (.ok c, s') →
          generateOne g seed n fSquare cf k = (.ok ⟨[x.map .fin],
            List.zipWith (fun v p => Num.mul (c p) (.fin (v ^ 2))) x pts, pts⟩, s') ∧
          generateOne g seed n fSquareConst cf k = (.ok ⟨[x.map .fin],
            List.zipWith (fun v p => Num.add (Num.mul (c p) (.fin (v ^ 2)))
              (Num.mul (c p) (.fin 10))) x pts, pts⟩, s') ∧
          generateOne g seed n fSigmoid cf k = (.ok ⟨[x.map .fin],
            List.zipWith (fun v p => Num.mul (c p) (.fin (tanh v))) x pts, pts⟩, s') ∧
          generateOne g seed n fSquare2 cf k = (.error .indexError, s') ∧
          generateOne g seed n fInteract cf k = (.error .indexError, s')) ∧
        (∀ e s', cf s = (.error e, s') → ∀ f, generateOne g seed n f cf k = (.error e, s')) := by
  obtain ⟨pts, s₁, hp, hpl, hpb⟩ := squarePoints_spec g hg (seed k) n
  obtain ⟨x, s₂, hx, hxl, hxb⟩ := plainX_spec g hg s₁ n (-10) 10 (by norm_num)
  refine ⟨x, pts, s₂, hxl, hpl, hxb, hpb, fun cf => ⟨fun c s' hc => ?_, fun e s' hc f => ?_⟩⟩
  · have hgen : ∀ f, generateOne g seed n f cf k = (finishSample f [x.map .fin] [c] pts, s') := by
      intro f
      unfold generateOne
      simp only [hp, hx, hc]
    simp only [hgen, Prod.mk.injEq, and_true]
    refine ⟨?_, ?_, ?_, rfl, rfl⟩
    · simp only [finishSample, fSquare, pyGet, List.getElem?_cons_zero]
      change Except.ok _ = _
      rw [zip_map_fin]
      simp only [Num.sq, Num.mul, sq]
    · simp only [finishSample, fSquareConst, pyGet, List.getElem?_cons_zero]
      change Except.ok _ = _
      rw [zip_map_fin]
      simp only [Num.sq, Num.mul, sq]
    · simp only [finishSample, fSigmoid, pyGet, List.getElem?_cons_zero]
      change Except.ok _ = _
      rw [zip_map_fin]
      simp only [tanhN]
  · unfold generateOne
    simp only [hp, hx, hc]

/-- C110: the sample with squared feature and strong coefficient: `count` rows, the coefficient is
the formula `strongValue` of the point and lies between -3 and 7, so the response lies between -300
and 700; an observation at the origin has the response NaN. -/
theorem C110_square_strong (g : DrawRng S) (hg : g.Valid) (seed : Nat → S) (n k : Nat) :
    ∃ (x : List ℝ) (smp : Sample) (s : S),
      generateOne g seed n fSquare (fun s => (coefStrong, s)) k = (.ok smp, s) ∧
      smp.X = [x.map .fin] ∧ x.length = n ∧ smp.y.length = n ∧ smp.points.length = n ∧
      ∀ i (hx : i < x.length) (hy : i < smp.y.length) (hp : i < smp.points.length),
        (smp.points[i] = 0 → smp.y[i] = .nan) ∧
        (smp.points[i] ≠ 0 → smp.y[i] = .fin (strongValue smp.points[i] * x[i] ^ 2) ∧
          -3 < strongValue smp.points[i] ∧ strongValue smp.points[i] ≤ 7 ∧
          -300 ≤ strongValue smp.points[i] * x[i] ^ 2 ∧
          strongValue smp.points[i] * x[i] ^ 2 ≤ 700) := by
  obtain ⟨x, pts, s, hxl, hpl, hxb, hpb, h⟩ := C110_one_feature g hg seed n k
  obtain ⟨c, hc, hc0, hcp⟩ := coefStrong_val
  refine ⟨x, _, s, ((h fun s => (coefStrong, s)).1 c s (by rw [hc])).1, rfl, hxl,
    by simp [hxl, hpl], hpl, ?_⟩
  intro i hx hy hp
  simp only [List.getElem_zipWith]
  refine ⟨fun h0 => by rw [h0, hc0]; rfl, fun h0 => ?_⟩
  obtain ⟨b1, b2⟩ := strong_bounds _ (hpb _ (List.getElem_mem hp))
  obtain ⟨v1, v2⟩ := hxb _ (List.getElem_mem hx)
  have hsq : 0 ≤ x[i] ^ 2 ∧ x[i] ^ 2 ≤ 100 := ⟨sq_nonneg _, by nlinarith⟩
  refine ⟨by rw [hcp _ h0]; rfl, b1, b2, ?_, ?_⟩
  · nlinarith [mul_nonneg (by linarith : 0 ≤ strongValue pts[i] + 3) hsq.1]
  · nlinarith [mul_nonneg (by linarith : 0 ≤ 7 - strongValue pts[i]) hsq.1]

/-- A generator that meets the hypotheses, with five observations. -/
example : ∃ (smp : Sample) (s : Unit), generateOne constRng (fun _ => ()) 5 fSquare
    (fun s => (coefStrong, s)) 1 = (.ok smp, s) ∧ smp.y.length = 5 := by
  obtain ⟨_, smp, s, h, _, _, hy, _⟩ := C110_square_strong constRng constRng_valid (fun _ => ()) 5 1
  exact ⟨smp, s, h, hy⟩

/-! ### C111: random Gaussians -/

theorem full_two (v w r : ℝ) :
    (CovArg.full !![v, r; r, w] : CovArg 2).matrix = !![v, r; r, w] := by
  ext i j
  fin_cases i <;> fin_cases j <;> rfl

theorem form_two (v w r : ℝ) (x : Fin 2 → ℝ) :
    x ⬝ᵥ (!![v, r; r, w] *ᵥ x) = v * x 0 ^ 2 + 2 * r * x 0 * x 1 + w * x 1 ^ 2 := by
  simp [dotProduct, Matrix.mulVec, Fin.sum_univ_two]
  ring

theorem hermitian_two (v w r : ℝ) : (!![v, r; r, w] : Matrix (Fin 2) (Fin 2) ℝ).IsHermitian := by
  ext i j
  fin_cases i <;> fin_cases j <;> rfl

theorem posDef_two {v w r : ℝ} (hv : 0 < v) (hr : r ^ 2 < v * w) :
    (!![v, r; r, w] : Matrix (Fin 2) (Fin 2) ℝ).PosDef := by
  refine Matrix.PosDef.of_dotProduct_mulVec_pos (hermitian_two v w r) fun x hx => ?_
  rw [star_trivial, form_two]
  have key : v * (v * x 0 ^ 2 + 2 * r * x 0 * x 1 + w * x 1 ^ 2) =
      (v * x 0 + r * x 1) ^ 2 + (v * w - r ^ 2) * x 1 ^ 2 := by ring
  have hpos : 0 < (v * x 0 + r * x 1) ^ 2 + (v * w - r ^ 2) * x 1 ^ 2 := by
    by_cases h1 : x 1 = 0
    · have h0 : x 0 ≠ 0 := fun h0 => hx (by ext i; fin_cases i <;> assumption)
      rw [h1]
      have : 0 < (v * x 0) ^ 2 := by positivity
      linarith
    · have : 0 < (v * w - r ^ 2) * x 1 ^ 2 := mul_pos (by linarith) (by positivity)
      have := sq_nonneg (v * x 0 + r * x 1)
      linarith
  rw [← key] at hpos
  exact pos_of_mul_pos_right hpos hv.le

theorem singular_two {v w r : ℝ} (hv : 0 < v) (hr : r ^ 2 = v * w) :
    ¬ (!![v, r; r, w] : Matrix (Fin 2) (Fin 2) ℝ).PosDef ∧
    (!![v, r; r, w] : Matrix (Fin 2) (Fin 2) ℝ).PosSemidef := by
  constructor
  · intro h
    have := h.dotProduct_mulVec_pos (x := ![r, -v]) fun h0 => by
      have := congrFun h0 1
      simp at this
      exact hv.ne' this
    rw [star_trivial, form_two] at this
    have e : v * (![r, -v] : Fin 2 → ℝ) 0 ^ 2 + 2 * r * (![r, -v] : Fin 2 → ℝ) 0 *
        (![r, -v] : Fin 2 → ℝ) 1 + w * (![r, -v] : Fin 2 → ℝ) 1 ^ 2 = v * (v * w - r ^ 2) := by
      simp
      ring
    rw [e, hr, sub_self, mul_zero] at this
    exact this.false
  · refine Matrix.PosSemidef.of_dotProduct_mulVec_nonneg (hermitian_two v w r) fun x => ?_
    rw [star_trivial, form_two]
    have key : v * (v * x 0 ^ 2 + 2 * r * x 0 * x 1 + w * x 1 ^ 2) = (v * x 0 + r * x 1) ^ 2 := by
      have : (v * x 0 + r * x 1) ^ 2 = v * (v * x 0 ^ 2 + 2 * r * x 0 * x 1) + r ^ 2 * x 1 ^ 2 := by
        ring
      rw [this, hr]; ring
    have : 0 ≤ v * (v * x 0 ^ 2 + 2 * r * x 0 * x 1 + w * x 1 ^ 2) := key ▸ sq_nonneg _
    exact nonneg_of_mul_nonneg_right this hv

theorem uniformOne_val (g : DrawRng S) (hg : g.Valid) (s : S) (lo hi : ℝ) :
    ∃ u, u ∈ (g.uniform s 1).1 ∧ 0 ≤ u ∧ u < 1 ∧
      (uniformOne g s lo hi).1 = lo + (hi - lo) * u := by
  obtain ⟨hl, hu⟩ := hg.uniform s 1
  obtain ⟨u, h⟩ := List.length_eq_one_iff.1 hl
  refine ⟨u, by rw [h]; simp, (hu u (by rw [h]; simp)).1, (hu u (by rw [h]; simp)).2, ?_⟩
  simp [uniformOne, uniformBetween, h]

/-- What one pass of the loop draws. -/
theorem drawBump_spec (g : DrawRng S) (hg : g.Valid) (lo hi : ℝ) (h : lo < hi) (s : S) :
    (∀ i, -10 ≤ (drawBump g lo hi s).1.center i ∧ (drawBump g lo hi s).1.center i < 10) ∧
    1 ≤ |(drawBump g lo hi s).1.amplitude| ∧ |(drawBump g lo hi s).1.amplitude| < 2 ∧
    (lo ≤ (drawBump g lo hi s).1.sigma1 ∧ (drawBump g lo hi s).1.sigma1 < hi) ∧
    (lo ≤ (drawBump g lo hi s).1.sigma2 ∧ (drawBump g lo hi s).1.sigma2 < hi) ∧
    ∃ (t : S) (u : ℝ), u ∈ (g.uniform t 1).1 ∧ 0 ≤ u ∧ u < 1 ∧
      (drawBump g lo hi s).1.cov = (2 * u - 1) *
        √((drawBump g lo hi s).1.sigma1 * (drawBump g lo hi s).1.sigma2) := by
  unfold drawBump
  simp only
  refine ⟨?_, ?_, ?_, ?_, ?_, ?_⟩
  · obtain ⟨hl, hu⟩ := hg.uniform s 2
    have key : ∀ k < 2, -10 ≤ (uniformBetween g s (-10) 10 2).1.getD k 0 ∧
        (uniformBetween g s (-10) 10 2).1.getD k 0 < 10 := by
      intro k hk
      have hm := getD_mem_of_lt (l := (uniformBetween g s (-10) 10 2).1) (i := k)
        (by simp [uniformBetween, hl, hk])
      obtain ⟨u, hu', he⟩ := List.mem_map.1 hm
      obtain ⟨a, b⟩ := hu u hu'
      rw [← he]
      constructor <;> linarith
    intro i
    fin_cases i
    · exact key 0 (by norm_num)
    · exact key 1 (by norm_num)
  · obtain ⟨u, -, a, b, e⟩ := uniformOne_val g hg (uniformBetween g s (-10) 10 2).2 1 2
    have : |(signOne g (uniformOne g (uniformBetween g s (-10) 10 2).2 1 2).2).1| = 1 := by
      unfold signOne; split_ifs <;> simp
    rw [abs_mul, this, e, abs_of_nonneg (by linarith)]
    linarith
  · obtain ⟨u, -, a, b, e⟩ := uniformOne_val g hg (uniformBetween g s (-10) 10 2).2 1 2
    have : |(signOne g (uniformOne g (uniformBetween g s (-10) 10 2).2 1 2).2).1| = 1 := by
      unfold signOne; split_ifs <;> simp
    rw [abs_mul, this, e, abs_of_nonneg (by linarith)]
    linarith
  · obtain ⟨u, -, a, b, e⟩ := uniformOne_val g hg
      (signOne g (uniformOne g (uniformBetween g s (-10) 10 2).2 1 2).2).2 lo hi
    rw [e]
    constructor <;> nlinarith
  · obtain ⟨u, -, a, b, e⟩ := uniformOne_val g hg (uniformOne g
      (signOne g (uniformOne g (uniformBetween g s (-10) 10 2).2 1 2).2).2 lo hi).2 lo hi
    rw [e]
    constructor <;> nlinarith
  · obtain ⟨u, hu, a, b, e⟩ := uniformOne_val g hg (uniformOne g (uniformOne g
      (signOne g (uniformOne g (uniformBetween g s (-10) 10 2).2 1 2).2).2 lo hi).2 lo hi).2 _ _
    refine ⟨_, u, hu, a, b, ?_⟩
    rw [e]
    ring

/-- A generator whose uniform draws are never zero. -/
def DrawRng.Interior (g : DrawRng S) : Prop := ∀ s n, ∀ u ∈ (g.uniform s n).1, 0 < u

theorem bump_full {center : Plane} {v w r a : ℝ} (hv : 0 < v) (hr : r ^ 2 < v * w) :
    ∃ b : Plane → ℝ, bump center (.full !![v, r; r, w]) a = .ok (fun p => .fin (b p)) ∧
      b center = a ∧ ∀ p, |b p| ≤ |a| := by
  obtain ⟨f, hf, h1, h2, -⟩ := C72_gaussian center (.full !![v, r; r, w]) a
    (by rw [full_two]; exact posDef_two hv hr)
  exact ⟨f, by rw [bump, hf]; rfl, h1, h2⟩

theorem cov_inside {v w q u : ℝ} (hv : 0 < v) (hw : 0 < w) (hq : q = √(v * w)) (h0 : 0 < u)
    (h1 : u < 1) : ((2 * u - 1) * q) ^ 2 < v * w := by
  have hvw : 0 < v * w := mul_pos hv hw
  have : q ^ 2 = v * w := by rw [hq, sq_sqrt hvw.le]
  rw [mul_pow, this]
  have : (2 * u - 1) ^ 2 < 1 := by nlinarith
  nlinarith

/-- One Gaussian of the sum: a centre in the square where it takes its extreme value, of absolute
value between 1 and 2. -/
def IsBump (b : Plane → ℝ) : Prop :=
  ∃ m : Plane, (∀ i, -10 ≤ m i ∧ m i < 10) ∧ 1 ≤ |b m| ∧ |b m| < 2 ∧ ∀ p, |b p| ≤ |b m|

theorem drawBumps_spec (g : DrawRng S) (hg : g.Valid) (hi' : g.Interior) (lo hi : ℝ) (h0 : 0 < lo)
    (h : lo < hi) (n : Nat) (s : S) :
    ∃ (bs : List (Plane → ℝ)) (s' : S), drawBumps g lo hi n s =
        (.ok (bs.map fun b p => .fin (b p)), s') ∧ bs.length = n ∧ ∀ b ∈ bs, IsBump b := by
  induction n generalizing s with
  | zero => exact ⟨[], s, rfl, rfl, by simp⟩
  | succ n ih =>
    obtain ⟨hc, ha1, ha2, hv, hw, t, u, hu, hu0, hu1, hcov⟩ := drawBump_spec g hg lo hi h s
    obtain ⟨b, hb, hbm, hbb⟩ := bump_full (center := (drawBump g lo hi s).1.center)
      (a := (drawBump g lo hi s).1.amplitude) (lt_of_lt_of_le h0 hv.1)
      (hcov ▸ cov_inside (lt_of_lt_of_le h0 hv.1) (lt_of_lt_of_le h0 hw.1) rfl (hi' t 1 u hu) hu1)
    obtain ⟨bs, s', hbs, hl, hall⟩ := ih (drawBump g lo hi s).2
    refine ⟨b :: bs, s', ?_, by simp [hl], ?_⟩
    · have hcoef : (drawBump g lo hi s).1.coef = .ok (fun p => .fin (b p)) := hb
      unfold drawBumps
      rw [hcoef]
      simp only [hbs, List.map_cons]
    · intro b' hb'
      rcases List.mem_cons.1 hb' with rfl | hb'
      · exact ⟨_, hc, by rw [hbm]; exact ha1, by rw [hbm]; exact ha2, fun p => by
          rw [hbm]; exact hbb p⟩
      · exact hall _ hb'

/-- C111: the random coefficients, for variances between any positive bounds, if no uniform draw is
exactly zero: the coefficient can be made, and it is the sum of the distance to the origin over
√200, the cosine of the angle with the diagonal, and 1000 Gaussians, each with a centre in the square
and a peak or trough of height between 1 and 2. At the origin it is NaN. In the square, elsewhere, its
absolute value is at most 2002. -/
theorem C111_builds (g : DrawRng S) (hg : g.Valid) (hi' : g.Interior) (lo hi : ℝ) (h0 : 0 < lo)
    (h : lo < hi) (s : S) :
    ∃ (c : Coef) (bs : List (Plane → ℝ)) (s' : S), coefAuto g lo hi s = (.ok c, s') ∧
      bs.length = 1000 ∧ (∀ b ∈ bs, IsBump b) ∧ c 0 = .nan ∧
      ∀ p, p ≠ 0 → ∃ v, c p = .fin v ∧
        v = √(p 0 ^ 2 + p 1 ^ 2) / √200 + (p 0 + p 1) / (√(p 0 ^ 2 + p 1 ^ 2) * √2) +
          (bs.map fun b => b p).sum ∧
        ((∀ i, -10 ≤ p i ∧ p i < 10) → |v| ≤ 2002) := by
  obtain ⟨bs, s', hbs, hl, hall⟩ := drawBumps_spec g hg hi' lo hi h0 h 1000 s
  have hsum : ∀ p, sumOf (bs.map fun b p => .fin (b p)) p = .fin (bs.map fun b => b p).sum := by
    intro p
    unfold sumOf
    rw [List.map_map, ← Num.sum_fin, List.map_map]
    rfl
  refine ⟨_, bs, s', by unfold coefAuto; rw [hbs], hl, hall, ?_, ?_⟩
  · simp only [sumOf, List.map_cons, List.map_nil, dir_nan, Num.sum, List.foldl_cons,
      List.foldl_nil, radial_val, Num.add]
  · intro p hp
    refine ⟨_, ?_, rfl, fun hbox => ?_⟩
    · rw [sumOf]
      simp only [List.map_cons, List.map_nil, hsum, dir_val p hp, Num.sum, List.foldl_cons,
        List.foldl_nil, radial_val, Num.add, zero_add]
    · have hb : ∀ (bs : List (Plane → ℝ)), (∀ b ∈ bs, IsBump b) →
          |(bs.map fun b => b p).sum| ≤ 2 * (bs.length : ℝ) := by
        intro bs
        induction bs with
        | nil => intro _; simp
        | cons b bs ih =>
          intro hall
          obtain ⟨m, -, -, h2, h3⟩ := hall b (by simp)
          have := ih fun b hb => hall b (by simp [hb])
          have h4 := abs_add_le (b p) (bs.map fun b => b p).sum
          have h5 := h3 p
          simp only [List.map_cons, List.sum_cons, List.length_cons, Nat.cast_add, Nat.cast_one]
          linarith
      have h1 := hb bs hall
      rw [hl] at h1
      have h2 := norm_box p hbox
      have h3 : 0 ≤ √(p 0 ^ 2 + p 1 ^ 2) / √200 := by positivity
      have h4 := dir_bound p
      have h5 := abs_add_le (√(p 0 ^ 2 + p 1 ^ 2) / √200 +
        (p 0 + p 1) / (√(p 0 ^ 2 + p 1 ^ 2) * √2)) (bs.map fun b => b p).sum
      have h6 := abs_add_le (√(p 0 ^ 2 + p 1 ^ 2) / √200)
        ((p 0 + p 1) / (√(p 0 ^ 2 + p 1 ^ 2) * √2))
      rw [abs_of_nonneg h3] at h6
      push_cast at h1
      linarith

theorem drawBump_coef (g : DrawRng S) (hg : g.Valid) (lo hi : ℝ) (h0 : 0 < lo) (h : lo < hi) (s : S) :
    ((drawBump g lo hi s).1.cov =
        -√((drawBump g lo hi s).1.sigma1 * (drawBump g lo hi s).1.sigma2) →
      (drawBump g lo hi s).1.coef = .error .linAlgError) ∧
    ((drawBump g lo hi s).1.cov ≠
        -√((drawBump g lo hi s).1.sigma1 * (drawBump g lo hi s).1.sigma2) →
      ∃ c, (drawBump g lo hi s).1.coef = .ok c) := by
  obtain ⟨-, -, -, hv, hw, t, u, -, hu0, hu1, hc⟩ := drawBump_spec g hg lo hi h s
  have hv0 := lt_of_lt_of_le h0 hv.1
  have hw0 := lt_of_lt_of_le h0 hw.1
  constructor
  · intro hcov
    obtain ⟨n1, n2⟩ := singular_two hv0 (w := (drawBump g lo hi s).1.sigma2)
      (r := (drawBump g lo hi s).1.cov) (by rw [hcov, neg_sq, sq_sqrt (mul_pos hv0 hw0).le])
    unfold BumpDraw.coef bump gaussianCoefficient
    rw [full_two, if_neg n1, if_pos n2]
    rfl
  · intro hcov
    have hu : 0 < u := lt_of_le_of_ne hu0 fun h' => hcov (by rw [hc, ← h']; ring)
    obtain ⟨b, hb, -⟩ := bump_full (center := (drawBump g lo hi s).1.center)
      (a := (drawBump g lo hi s).1.amplitude) hv0 (hc ▸ cov_inside hv0 hw0 rfl hu hu1)
    exact ⟨_, hb⟩

/-- C111: the covariance is drawn from an interval that contains its lower end. Making the
coefficient fails, with `LinAlgError`, exactly if one of the 1000 Gaussians draws that lower end:
its matrix is then singular. -/
theorem C111_lower_end (g : DrawRng S) (hg : g.Valid) (lo hi : ℝ) (h0 : 0 < lo) (h : lo < hi) (s : S)
    (draw : Nat → BumpDraw)
    (hd : ∀ i, draw i = (drawBump g lo hi ((fun s => (drawBump g lo hi s).2)^[i] s)).1) :
    ((∃ i < 1000, (draw i).cov = -√((draw i).sigma1 * (draw i).sigma2)) →
      (coefAuto g lo hi s).1 = .error .linAlgError) ∧
    ((∀ i < 1000, (draw i).cov ≠ -√((draw i).sigma1 * (draw i).sigma2)) →
      ∃ c, (coefAuto g lo hi s).1 = .ok c) := by
  have key : ∀ (n : Nat) (s : S) (draw : Nat → BumpDraw),
      (∀ i, draw i = (drawBump g lo hi ((fun s => (drawBump g lo hi s).2)^[i] s)).1) →
      ((∃ i < n, (draw i).cov = -√((draw i).sigma1 * (draw i).sigma2)) →
        (drawBumps g lo hi n s).1 = .error .linAlgError) ∧
      ((∀ i < n, (draw i).cov ≠ -√((draw i).sigma1 * (draw i).sigma2)) →
        ∃ cs, (drawBumps g lo hi n s).1 = .ok cs) := by
    intro n
    induction n with
    | zero => exact fun s draw _ => ⟨by simp, fun _ => ⟨[], rfl⟩⟩
    | succ n ih =>
      intro s draw hd
      obtain ⟨hbad, hgood⟩ := drawBump_coef g hg lo hi h0 h s
      obtain ⟨ih1, ih2⟩ := ih (drawBump g lo hi s).2 (fun i => draw (i + 1)) fun i => by
        rw [hd (i + 1), Function.iterate_succ_apply]
      have hd0 : draw 0 = (drawBump g lo hi s).1 := hd 0
      by_cases hc : (draw 0).cov = -√((draw 0).sigma1 * (draw 0).sigma2)
      · have hbad := hbad (by rw [← hd0]; exact hc)
        refine ⟨fun _ => by unfold drawBumps; rw [hbad], fun hall => absurd hc (hall 0 (by omega))⟩
      · obtain ⟨c, hgood⟩ := hgood (by rw [← hd0]; exact hc)
        constructor
        · rintro ⟨i, hi1, hb⟩
          obtain ⟨j, rfl⟩ : ∃ j, i = j + 1 := by
            cases i with
            | zero => exact absurd hb hc
            | succ j => exact ⟨j, rfl⟩
          have := ih1 ⟨j, by omega, hb⟩
          unfold drawBumps
          rw [hgood]
          simp only
          cases hx : drawBumps g lo hi n (drawBump g lo hi s).2 with
          | mk a b =>
            rw [hx] at this
            simp only at this
            subst this
            rfl
        · intro hall
          obtain ⟨cs, this⟩ := ih2 fun i hi => hall (i + 1) (by omega)
          unfold drawBumps
          rw [hgood]
          simp only
          cases hx : drawBumps g lo hi n (drawBump g lo hi s).2 with
          | mk a b =>
            rw [hx] at this
            simp only at this
            subst this
            exact ⟨_, rfl⟩
  obtain ⟨k1, k2⟩ := key 1000 s draw hd
  unfold coefAuto
  constructor
  · intro hb
    have := k1 hb
    cases hx : drawBumps g lo hi 1000 s with
    | mk a b =>
      rw [hx] at this
      simp only at this
      subst this
      rfl
  · intro hb
    obtain ⟨cs, this⟩ := k2 hb
    cases hx : drawBumps g lo hi 1000 s with
    | mk a b =>
      rw [hx] at this
      simp only at this
      subst this
      exact ⟨_, rfl⟩

/-- Draws of a constant generator: 1/2 is an interior draw, 0 makes the first covariance the lower
end. -/
example : constRng.Interior := by
  intro s n u hu
  rw [List.eq_of_mem_replicate hu]
  norm_num

noncomputable def zeroRng : DrawRng Unit where
  uniform _ n := (List.replicate n 0, ())
  normal _ n := (List.replicate n 0, ())
  exponential _ n := (List.replicate n 0, ())
  choice _ _ n := (List.replicate n 0, ())

theorem zeroRng_valid : zeroRng.Valid where
  uniform s n := by
    refine ⟨by simp [zeroRng], fun u hu => ?_⟩
    rw [List.eq_of_mem_replicate hu]
    norm_num
  normal s n := by simp [zeroRng]
  exponential s n := by
    refine ⟨by simp [zeroRng], fun u hu => ?_⟩
    rw [List.eq_of_mem_replicate hu]
  choice s m n hm := by
    refine ⟨by simp [zeroRng], fun k hk => ?_⟩
    rw [List.eq_of_mem_replicate hk]
    exact hm

example : (drawBump zeroRng (1 / 5) 1 ()).1.cov =
    -√((drawBump zeroRng (1 / 5) 1 ()).1.sigma1 * (drawBump zeroRng (1 / 5) 1 ()).1.sigma2) := by
  simp [drawBump, uniformOne, uniformBetween, zeroRng]

/-- A generator that hands out the numbers of a stream one after the other, each once. -/
def streamRng (x : Nat → ℝ) (c : Nat → Nat) : DrawRng Nat where
  uniform s n := ((List.range n).map fun i => x (s + i), s + n)
  normal s n := ((List.range n).map fun i => x (s + i), s + n)
  exponential s n := ((List.range n).map fun i => x (s + i), s + n)
  choice s m n := ((List.range n).map fun i => c (s + i) % m, s + n)

/-- C111: every value of a bump is drawn anew, and the next bump starts after the last of them: the
centre uses the first two numbers, the size the third, the sign the fourth, the two variances the
fifth and the sixth and the covariance the seventh. -/
theorem C111_draws (x : Nat → ℝ) (c : Nat → Nat) (lo hi : ℝ) (s : Nat) :
    (drawBump (streamRng x c) lo hi s).2 = s + 7 ∧
    ∃ b : BumpDraw, (drawBump (streamRng x c) lo hi s).1 = b ∧
      b.center 0 = -10 + 20 * x s ∧ b.center 1 = -10 + 20 * x (s + 1) ∧
      b.amplitude = (1 + x (s + 2)) * (if c (s + 3) % 2 = 0 then -1 else 1) ∧
      b.sigma1 = lo + (hi - lo) * x (s + 4) ∧ b.sigma2 = lo + (hi - lo) * x (s + 5) ∧
      b.cov = (2 * x (s + 6) - 1) * √(b.sigma1 * b.sigma2) := by
  refine ⟨rfl, _, rfl, ?_, ?_, ?_, ?_, ?_, ?_⟩ <;>
    simp [drawBump, uniformOne, signOne, uniformBetween, streamRng, List.range_succ, add_assoc]
  · norm_num
  · norm_num
  · norm_num
  · ring

/-! ### C112: two features -/

/-- C112: the generator with two plain features accepts one coefficient function or a list. Points
and features are the same for the same seed and count, in the square. With one function the
interaction response is coefficient times both features, and the sum of two squares, which needs a
second coefficient, raises `IndexError`; with a list of two or more functions that sum uses the first
two. -/
theorem C112_plain (g : DrawRng S) (hg : g.Valid) (seed : Nat → S) (n k : Nat) :
    ∃ (x₁ x₂ : List ℝ) (pts : List Plane) (s : S), x₁.length = n ∧ x₂.length = n ∧
      pts.length = n ∧ (∀ v ∈ x₁, -10 ≤ v ∧ v < 10) ∧ (∀ v ∈ x₂, -10 ≤ v ∧ v < 10) ∧
      (∀ p ∈ pts, ∀ i, -10 ≤ p i ∧ p i < 10) ∧
      (∀ (cf : CoefFunc S) c s', cf s = (.ok c, s') →
        generateTwo g seed n fInteract (.one cf) k = (.ok ⟨[x₁.map .fin, x₂.map .fin],
          List.zipWith (fun (q : ℝ × ℝ) p => Num.mul (Num.mul (c p) (.fin q.1)) (.fin q.2))
            (x₁.zip x₂) pts, pts⟩, s') ∧
        generateTwo g seed n fSquare2 (.one cf) k = (.error .indexError, s')) ∧
      ∀ (cf₁ cf₂ : CoefFunc S) c₁ c₂ s₁ s₂, cf₁ s = (.ok c₁, s₁) → cf₂ s₁ = (.ok c₂, s₂) →
        generateTwo g seed n fSquare2 (.many [cf₁, cf₂]) k = (.ok ⟨[x₁.map .fin, x₂.map .fin],
          List.zipWith Num.add
            (List.zipWith (fun v p => Num.mul (c₁ p) (.fin (v ^ 2))) x₁ pts)
            (List.zipWith (fun v p => Num.mul (c₂ p) (.fin (v ^ 2))) x₂ pts), pts⟩, s₂) := by
  obtain ⟨pts, s₁, hp, hpl, hpb⟩ := squarePoints_spec g hg (seed k) n
  obtain ⟨x, s₂, hx, hxl, hxb⟩ := plainX_spec g hg s₁ n (-10) 10 (by norm_num)
  obtain ⟨x', s₃, hx', hxl', hxb'⟩ := plainX_spec g hg s₂ n (-10) 10 (by norm_num)
  refine ⟨x, x', pts, s₃, hxl, hxl', hpl, hxb, hxb', hpb, fun cf c s' hc => ?_,
    fun cf₁ cf₂ c₁ c₂ t₁ t₂ h₁ h₂ => ?_⟩
  · have hgen : ∀ f, generateTwo g seed n f (.one cf) k =
        (finishSample f [x.map .fin, x'.map .fin] [c] pts, s') := by
      intro f
      unfold generateTwo
      simp only [hp, hx, hx', CoefArg.make, callAll, hc]
    rw [hgen, hgen]
    refine ⟨?_, rfl⟩
    simp only [finishSample, fInteract, pyGet, List.getElem?_cons_zero, List.getElem?_cons_succ]
    refine congrArg (fun y => (Except.ok (Sample.mk _ y pts), s')) ?_
    rw [List.zip_map, List.zipWith_map_left]
    rfl
  · have hgen : generateTwo g seed n fSquare2 (.many [cf₁, cf₂]) k =
        (finishSample fSquare2 [x.map .fin, x'.map .fin] [c₁, c₂] pts, t₂) := by
      unfold generateTwo
      simp only [hp, hx, hx', CoefArg.make, callAll, h₁, h₂]
    rw [hgen]
    simp only [finishSample, fSquare2, pyGet, List.getElem?_cons_zero, List.getElem?_cons_succ]
    refine congrArg (fun y => (Except.ok (Sample.mk _ y pts), t₂)) ?_
    rw [zip_map_fin, zip_map_fin]
    simp only [Num.sq, Num.mul, sq]

theorem meanX_spec (g : DrawRng S) (hg : g.Valid) (s : S) (lo hi : ℝ) (h : lo < hi) (c : Coef)
    (pts : List Plane) :
    ∃ d : List ℝ, d.length = pts.length ∧ (∀ v ∈ d, lo ≤ v ∧ v < hi) ∧
      (meanX g s lo hi c pts).1 = List.zipWith (fun v p => Num.add (.fin v) (c p)) d pts := by
  obtain ⟨hl, hu⟩ := hg.uniform s pts.length
  refine ⟨(g.uniform s pts.length).1.map fun u => u * (hi - lo) + lo, by simp [hl], ?_, ?_⟩
  · intro v hv
    obtain ⟨u, hu', rfl⟩ := List.mem_map.1 hv
    obtain ⟨h0, h1⟩ := hu u hu'
    constructor
    · nlinarith [mul_nonneg h0 (sub_nonneg.2 h.le)]
    · nlinarith [mul_pos (sub_pos.2 h1) (sub_pos.2 h)]
  · rw [List.zipWith_map_left]
    rfl

/-- `meanX` is `sample_x` with the coefficient as mean, when the coefficient is finite. -/
theorem meanX_sampleX (g : DrawRng S) (hg : g.Valid) (s : S) (lo hi : ℝ) (c : Plane → ℝ)
    (pts : List Plane) :
    ∃ l, (sampleX g s pts.length (⟨false, .num lo, .num hi⟩ : XBounds Plane)
      { points := pts, mean := .fn fun ps => ps.map c }).1.1 = .ok (some l) ∧
      (meanX g s lo hi (fun p => .fin (c p)) pts).1 = l.map .fin := by
  obtain ⟨hl, -⟩ := hg.uniform s pts.length
  refine ⟨uniformX (g.uniform s pts.length).1 (List.replicate pts.length lo)
    (List.replicate pts.length hi) (pts.map c), ?_, ?_⟩
  · simp [sampleX, evalBounds, XParam.callable, XParam.eval, drawX, XParam.entries]
  · apply List.ext_getElem
    · simp [meanX, uniformX, hl]
    · intro i h1 h2
      have hi1 : i < pts.length := by
        simp [meanX, hl] at h1
        exact h1
      have hi2 : i < (g.uniform s pts.length).1.length := by omega
      simp [meanX, uniformX, Num.add, List.getD_eq_getElem?_getD, hi1, hi2]

/-- C112: the generator of `simulation.py` calls the coefficient function three times. The first
coefficient is the mean of the first feature up to a draw in [-1, 1), three times the second is the
mean of the second feature up to a draw in [-2, 2), and the third multiplies both features in the
response. A function that always makes the same coefficient gives one coefficient for all three; a
random one gives three. -/
theorem C112_three_calls (g : DrawRng S) (hg : g.Valid) (seed : Nat → S) (n k : Nat) :
    ∃ (pts : List Plane) (s₀ : S), pts.length = n ∧ (∀ p ∈ pts, ∀ i, -10 ≤ p i ∧ p i < 10) ∧
      ∀ (cf : CoefFunc S) (c₁ : Coef) (s₁ : S), cf s₀ = (.ok c₁, s₁) →
        ∃ (d₁ : List ℝ) (s₂ : S), d₁.length = n ∧ (∀ v ∈ d₁, -1 ≤ v ∧ v < 1) ∧
        ∀ (c₂ : Coef) (s₃ : S), cf s₂ = (.ok c₂, s₃) →
          ∃ (d₂ : List ℝ) (s₄ : S), d₂.length = n ∧ (∀ v ∈ d₂, -2 ≤ v ∧ v < 2) ∧
          ∀ (c₃ : Coef) (s₅ : S), cf s₄ = (.ok c₃, s₅) →
            ∃ x₁ x₂ : List (Num ℝ),
              x₁ = List.zipWith (fun v p => Num.add (.fin v) (c₁ p)) d₁ pts ∧
              x₂ = List.zipWith (fun v p => Num.add (.fin v) (Num.mul (.fin 3) (c₂ p))) d₂ pts ∧
              generateSpatial g seed n fInteract (.one cf) k = (.ok ⟨[x₁, x₂],
                List.zipWith (fun (q : Num ℝ × Num ℝ) p => Num.mul (Num.mul (c₃ p) q.1) q.2)
                  (x₁.zip x₂) pts, pts⟩, s₅) := by
  obtain ⟨pts, s₀, hp, hpl, hpb⟩ := squarePoints_spec g hg (seed k) n
  refine ⟨pts, s₀, hpl, hpb, fun cf c₁ s₁ h₁ => ?_⟩
  obtain ⟨d₁, hd₁, hb₁, he₁⟩ := meanX_spec g hg s₁ (-1) 1 (by norm_num) c₁ pts
  refine ⟨d₁, (meanX g s₁ (-1) 1 c₁ pts).2, hd₁.trans hpl, hb₁, fun c₂ s₃ h₂ => ?_⟩
  obtain ⟨d₂, hd₂, hb₂, he₂⟩ := meanX_spec g hg s₃ (-2) 2 (by norm_num)
    (fun p => Num.mul (.fin 3) (c₂ p)) pts
  refine ⟨d₂, (meanX g s₃ (-2) 2 (fun p => Num.mul (.fin 3) (c₂ p)) pts).2, hd₂.trans hpl, hb₂,
    fun c₃ s₅ h₃ => ⟨_, _, rfl, rfl, ?_⟩⟩
  unfold generateSpatial
  simp only [hp, CoefArg.call, h₁, h₂, CoefArg.make, callAll, h₃, he₁, he₂]
  rfl

/-- C112: a list of coefficient functions, which the function checks for at the end, always raises
`TypeError` in `simulation.py`: the list is called first. -/
theorem C112_list_refused (g : DrawRng S) (hg : g.Valid) (seed : Nat → S) (n k : Nat) (f : Response)
    (cfs : List (CoefFunc S)) :
    (generateSpatial g seed n f (.many cfs) k).1 = .error .typeError := by
  obtain ⟨pts, s₀, hp, -⟩ := squarePoints_spec g hg (seed k) n
  unfold generateSpatial
  simp only [hp, CoefArg.call]

theorem coefManual_val : ∃ c, coefManual = .ok c ∧ ∀ p, ∃ v, c p = .fin v ∧
    ((∀ i, -10 ≤ p i ∧ p i < 10) → -(5 / 2) ≤ v ∧ v ≤ 34 / 5) := by
  obtain ⟨f₁, h₁, -, b₁, s₁, -⟩ := C72_gaussian (![-5, 5] : Plane) (.full !![3, 4; 4, 8]) (-1)
    (by rw [full_two]; exact posDef_two (by norm_num) (by norm_num))
  obtain ⟨f₄, h₄, -, b₄, s₄, -⟩ := C72_gaussian (![2, 8] : Plane) (.full !![3, 0; 0, 15]) (4 / 5)
    (by rw [full_two]; exact posDef_two (by norm_num) (by norm_num))
  unfold coefManual
  have e₁ : bump ![-5, 5] (.full !![3, 4; 4, 8]) (-1) = .ok fun p => .fin (f₁ p) := by
    rw [bump, h₁]; rfl
  have e₄ : bump ![2, 8] (.full !![3, 0; 0, 15]) (4 / 5) = .ok fun p => .fin (f₄ p) := by
    rw [bump, h₄]; rfl
  rw [e₁, e₄, bump_scalar _ _ _ (by norm_num), bump_scalar _ _ _ (by norm_num),
    bump_scalar _ _ _ (by norm_num), bump_scalar _ _ _ (by norm_num),
    bump_scalar _ _ _ (by norm_num)]
  refine ⟨_, rfl, fun p => ?_⟩
  simp only [sumOf, List.map_cons, List.map_nil, Num.sum, List.foldl_cons,
    List.foldl_nil, radial_val, Num.add]
  refine ⟨_, rfl, fun hbox => ?_⟩
  have a := norm_box p hbox
  have a' : 0 ≤ √(p 0 ^ 2 + p 1 ^ 2) / √200 := by positivity
  have k₁ := (s₁ (by norm_num) p).1
  have k₁' := abs_le.1 (b₁ p)
  have k₄ := (s₄ (by norm_num) p).1
  have k₄' := abs_le.1 (b₄ p)
  rw [abs_neg, abs_one] at k₁'
  rw [abs_of_pos (by norm_num : (0 : ℝ) < 4 / 5)] at k₄'
  have hexp : ∀ (m : Plane) (v : ℝ), 0 < v →
      0 < exp (-(((p 0 - m 0) ^ 2 + (p 1 - m 1) ^ 2) / (2 * v))) ∧
      exp (-(((p 0 - m 0) ^ 2 + (p 1 - m 1) ^ 2) / (2 * v))) ≤ 1 := fun m v hv =>
    ⟨exp_pos _, exp_le_one_iff.2 (by
      have : 0 ≤ ((p 0 - m 0) ^ 2 + (p 1 - m 1) ^ 2) / (2 * v) := by positivity
      linarith)⟩
  have q₂ := hexp ![-2, -5] 5 (by norm_num)
  have q₃ := hexp ![8, 3] 10 (by norm_num)
  have q₅ := hexp ![5, -10] 1 (by norm_num)
  have q₆ := hexp ![-11, 0] 5 (by norm_num)
  constructor <;> linarith [q₂.1, q₂.2, q₃.1, q₃.2, q₅.1, q₅.2, q₆.1, q₆.2, k₁'.1, k₁'.2, k₄'.1, k₄'.2]

/-- C112: the default sample of `simulation.py`: its coefficient is finite everywhere and lies
between -2.5 and 6.8 in the square. So every entry is finite, the first feature of an observation
differs from the coefficient at its point by at most 1, the second from three times that coefficient
by at most 2, and the response is the product of the three. -/
theorem C112_default (g : DrawRng S) (hg : g.Valid) (seed : Nat → S) (n k : Nat) :
    ∃ (c : Plane → ℝ) (x₁ x₂ y : List ℝ) (pts : List Plane) (s : S),
      (∀ p : Plane, (∀ i, -10 ≤ p i ∧ p i < 10) → -(5 / 2) ≤ c p ∧ c p ≤ 34 / 5) ∧
      generateSpatial g seed n fInteract (.one fun s => (coefManual, s)) k =
        (.ok ⟨[x₁.map .fin, x₂.map .fin], y.map .fin, pts⟩, s) ∧
      x₁.length = n ∧ x₂.length = n ∧ y.length = n ∧ pts.length = n ∧
      ∀ i (h₁ : i < x₁.length) (h₂ : i < x₂.length) (h₃ : i < y.length) (h₄ : i < pts.length),
        (∀ j, -10 ≤ pts[i] j ∧ pts[i] j < 10) ∧
        |x₁[i] - c pts[i]| ≤ 1 ∧ |x₂[i] - 3 * c pts[i]| ≤ 2 ∧ y[i] = c pts[i] * x₁[i] * x₂[i] := by
  obtain ⟨c, hc, hv⟩ := coefManual_val
  choose v hv hb using hv
  obtain ⟨pts, s₀, hpl, hpb, h⟩ := C112_three_calls g hg seed n k
  obtain ⟨d₁, s₂, hd₁, hb₁, h⟩ := h (fun s => (coefManual, s)) c s₀ (by rw [hc])
  obtain ⟨d₂, s₄, hd₂, hb₂, h⟩ := h c s₂ (by rw [hc])
  obtain ⟨x₁, x₂, hx₁, hx₂, h⟩ := h c s₄ (by rw [hc])
  refine ⟨v, List.zipWith (fun d p => d + v p) d₁ pts, List.zipWith (fun d p => d + 3 * v p) d₂ pts,
    List.zipWith (fun (q : ℝ × ℝ) p => v p * q.1 * q.2) ((List.zipWith (fun d p => d + v p) d₁ pts).zip
      (List.zipWith (fun d p => d + 3 * v p) d₂ pts)) pts, pts, s₄, hb, ?_, by simp [hd₁, hpl],
    by simp [hd₂, hpl], by simp [hd₁, hd₂, hpl], hpl, ?_⟩
  · have e₁ : x₁ = (List.zipWith (fun d p => d + v p) d₁ pts).map .fin := by
      rw [hx₁, List.map_zipWith]
      simp only [hv, Num.add]
    have e₂ : x₂ = (List.zipWith (fun d p => d + 3 * v p) d₂ pts).map .fin := by
      rw [hx₂, List.map_zipWith]
      simp only [hv, Num.add, Num.mul]
    rw [h, ← e₁, ← e₂]
    refine congrArg (fun y => (Except.ok (Sample.mk _ y pts), s₄)) ?_
    rw [e₁, e₂, List.zip_map, List.zipWith_map_left, List.map_zipWith]
    simp only [hv, Num.mul, Prod.map]
  · intro i h₁ h₂ h₃ h₄
    have i₁ : i < d₁.length := by simp at h₁; exact h₁.1
    have i₂ : i < d₂.length := by simp at h₂; exact h₂.1
    simp only [List.getElem_zipWith, List.getElem_zip, add_sub_cancel_right]
    have a := hb₁ _ (List.getElem_mem i₁)
    have b := hb₂ _ (List.getElem_mem i₂)
    exact ⟨hpb _ (List.getElem_mem h₄), abs_le.2 ⟨a.1, a.2.le⟩, abs_le.2 ⟨b.1, b.2.le⟩, trivial⟩

end Geo
