import Verif.Model.MoranDiagram
import Verif.Props.MoranLocal
import Verif.Props.Viz
/-
C109: the Moran diagram: what its points are, that its line is the least squares line through the
origin, and when the slope of the line is Moran's I and the quadrants are the signs of the local
values.
-/
set_option linter.unusedSectionVars false
namespace Geo
variable {K : Type} [Field K] [LinearOrder K] [IsStrictOrderedRing K]
open Num Finset

theorem slope_eq (y : List K) (W : Mat K) :
    slopeThroughOrigin ((List.range y.length).map (deviation y))
      ((List.range y.length).map (spatialLag y W)) =
    (∑ i ∈ range y.length, deviation y i * ∑ j ∈ range y.length, W.get i j * deviation y j) /
      ∑ i ∈ range y.length, deviation y i ^ 2 := by
  unfold slopeThroughOrigin
  have hz : ∀ (f g : Nat → K) (n : Nat), (List.zipWith (· * ·) ((List.range n).map f)
      ((List.range n).map g)).sum = ∑ i ∈ range n, f i * g i := by
    intro f g n
    rw [← sum_map_range]
    congr 1
    apply List.ext_getElem (by simp)
    intro i h1 h2
    simp
  rw [hz, hz]
  refine congrArg₂ _ (Finset.sum_congr rfl fun i _ => ?_) (Finset.sum_congr rfl fun i _ => by ring)
  simp only [spatialLag, sum_map_range]

/-- C109: the diagram has one point per observation: its deviation from the mean, and the sum of
all deviations weighted with its row of the matrix as it was passed. The ends of the line have
abscissas that are deviations of observations and enclose all of them, and lie on a line through the
origin whose slope leaves the least sum of squares over all slopes; if two observations differ, no
other slope reaches it. -/
theorem C109_diagram [FloorRing K] (y : List K) (W : Mat K) (h1 : W.r = y.length) (h2 : W.c = y.length)
    (hn : y ≠ []) (u v : Nat → K) (hu : u = fun i => y.getD i 0 - y.sum / (y.length : K))
    (hv : v = fun i => ∑ j ∈ range y.length, W.get i j * u j) :
    ∃ (points : List (K × K)) (lo hi s : K),
      moranDiagram y W = .ok ⟨points, [(lo, s * lo), (hi, s * hi)]⟩ ∧
      points = (List.range y.length).map (fun i => (u i, v i)) ∧
      (∃ i < y.length, lo = u i) ∧ (∃ i < y.length, hi = u i) ∧
      (∀ i < y.length, lo ≤ u i ∧ u i ≤ hi) ∧
      (∀ t, ∑ i ∈ range y.length, (v i - s * u i) ^ 2 ≤
        ∑ i ∈ range y.length, (v i - t * u i) ^ 2) ∧
      ((∃ a ∈ y, ∃ b ∈ y, a ≠ b) → ∀ t, t ≠ s → ∑ i ∈ range y.length, (v i - s * u i) ^ 2 <
        ∑ i ∈ range y.length, (v i - t * u i) ^ 2) := by
  have hu' : u = deviation y := hu
  have hlag : ∀ i, spatialLag y W i = v i := fun i => by
    rw [hv, spatialLag, sum_map_range, hu']
  have hne : ((List.range y.length).map (deviation y)) ≠ [] := by
    simpa using hn
  obtain ⟨hlo, hlo'⟩ := minOf_isLeast hne
  obtain ⟨hhi, hhi'⟩ := maxOf_isGreatest hne
  set s := slopeThroughOrigin ((List.range y.length).map (deviation y))
      ((List.range y.length).map (spatialLag y W)) with hs
  have hsv : s = (∑ i ∈ range y.length, u i * v i) / ∑ i ∈ range y.length, u i ^ 2 := by
    rw [hs, slope_eq, hv, hu']
  have hmul : s * ∑ i ∈ range y.length, u i ^ 2 = ∑ i ∈ range y.length, u i * v i := by
    by_cases h0 : ∑ i ∈ range y.length, u i ^ 2 = 0
    · rw [h0, mul_zero]
      rw [Finset.sum_eq_zero_iff_of_nonneg fun i _ => sq_nonneg _] at h0
      exact (Finset.sum_eq_zero fun i hi => by
        rw [pow_eq_zero_iff two_ne_zero |>.1 (h0 i hi), zero_mul]).symm
    · rw [hsv]; field_simp
  have hexp : ∀ t, ∑ i ∈ range y.length, (v i - t * u i) ^ 2 =
      ∑ i ∈ range y.length, (v i - s * u i) ^ 2 +
        (t - s) ^ 2 * ∑ i ∈ range y.length, u i ^ 2 := by
    intro t
    have : ∑ i ∈ range y.length, (v i - t * u i) ^ 2 =
        ∑ i ∈ range y.length, v i ^ 2 - 2 * t * ∑ i ∈ range y.length, u i * v i +
          t ^ 2 * ∑ i ∈ range y.length, u i ^ 2 := by
      rw [Finset.mul_sum, Finset.mul_sum, ← Finset.sum_sub_distrib, ← Finset.sum_add_distrib]
      exact Finset.sum_congr rfl fun i _ => by ring
    have h' : ∑ i ∈ range y.length, (v i - s * u i) ^ 2 =
        ∑ i ∈ range y.length, v i ^ 2 - 2 * s * ∑ i ∈ range y.length, u i * v i +
          s ^ 2 * ∑ i ∈ range y.length, u i ^ 2 := by
      rw [Finset.mul_sum, Finset.mul_sum, ← Finset.sum_sub_distrib, ← Finset.sum_add_distrib]
      exact Finset.sum_congr rfl fun i _ => by ring
    rw [this, h', ← hmul]
    ring
  have h0 : 0 ≤ ∑ i ∈ range y.length, u i ^ 2 := Finset.sum_nonneg fun i _ => sq_nonneg _
  refine ⟨((List.range y.length).map (deviation y)).zip ((List.range y.length).map (spatialLag y W)),
    minOf ((List.range y.length).map (deviation y)),
    maxOf ((List.range y.length).map (deviation y)), s, ?_, ?_, ?_, ?_, ?_, fun t => ?_, fun hy t ht => ?_⟩
  · unfold moranDiagram
    rw [if_neg (by simp [moranShape, h1, h2, hn])]
    rfl
  · apply List.ext_getElem (by simp)
    intro i a b
    simp [hlag, hu']
  · obtain ⟨i, hi, h⟩ := List.mem_map.1 hlo
    exact ⟨i, List.mem_range.1 hi, by rw [hu']; exact h.symm⟩
  · obtain ⟨i, hi, h⟩ := List.mem_map.1 hhi
    exact ⟨i, List.mem_range.1 hi, by rw [hu']; exact h.symm⟩
  · intro i hi
    have : u i ∈ (List.range y.length).map (deviation y) :=
      List.mem_map.2 ⟨i, List.mem_range.2 hi, by rw [hu']⟩
    exact ⟨hlo' this, hhi' this⟩
  · rw [hexp t]
    have := mul_nonneg (sq_nonneg (t - s)) h0
    linarith
  · rw [hexp t]
    have hne := devSq_ne hy
    rw [devSq_eq, ← hu'] at hne
    have := mul_pos (sq_pos_of_ne_zero (sub_ne_zero.2 ht)) (lt_of_le_of_ne h0 hne.symm)
    linarith

/-- C109: if every row of the matrix has the same sum `c ≠ 0` and two observations differ, the slope
of the line is `c` times the `I` that the two functions return, and the local value of an
observation times `c` is the product of the coordinates of its point divided by the mean square
deviation. So for row-standardised weights (`c = 1`) the slope is Moran's I. -/
theorem C109_equal_row_sums (env : StatEnv K) (he : env.Ok) (y : List K) (W : Mat K)
    (h1 : W.r = y.length) (h2 : W.c = y.length) (hn : 2 ≤ y.length) (c : K) (hc : c ≠ 0)
    (hrow : ∀ i < y.length, (W.row i).sum = c) (hy : ∃ a ∈ y, ∃ b ∈ y, a ≠ b) :
    ∃ (d : MoranDiagram K) (I : K) (o o' : MoranOut K) (p : Num K) (l : List K),
      moranDiagram y W = .ok d ∧ moranMI env y W = .ok o ∧ moranST env y W = .ok (o', p) ∧
      moranLMI y W = .ok (l.map fin) ∧ l.length = y.length ∧
      o.I = fin I ∧ o'.I = fin I ∧ d.line.length = 2 ∧ (∀ p ∈ d.line, p.2 = c * I * p.1) ∧
      d.points.length = y.length ∧
      ∀ i < y.length, c * l.getD i 0 = (d.points.getD i 0).1 * (d.points.getD i 0).2 /
        ((∑ j ∈ range y.length, (d.points.getD j 0).1 ^ 2) / (y.length : K)) := by
  have hW : RowsOk y.length W := fun j hj => by rw [hrow j hj]; exact hc
  have hn0 : (y.length : K) ≠ 0 := Nat.cast_ne_zero.2 (by omega)
  have hS : ∑ i ∈ range y.length, ∑ j ∈ range y.length, W.get i j / (W.row j).sum =
      (y.length : K) := by
    rw [Finset.sum_congr rfl fun i hi => Finset.sum_congr rfl fun j hj => by
      rw [hrow j (Finset.mem_range.1 hj)]]
    rw [Finset.sum_congr rfl fun i hi => (Finset.sum_div _ _ _).symm]
    rw [Finset.sum_congr rfl fun i hi => by
      rw [show ∑ j ∈ range y.length, W.get i j = c by
        rw [← hrow i (Finset.mem_range.1 hi), row_sum_eq, h2], div_self hc]]
    simp
  obtain ⟨l, I, o, o', p, hl, hlen, hli, ho, ho', hI, hI', _⟩ := C65_sum env he y W h1 h2 hn hW _ rfl
    _ rfl _ rfl (by rw [hS]; exact hn0) hy
  obtain ⟨a, a', q, ha, ha', hv, -⟩ := C63_value env he y W h1 h2 hn hW _ rfl _ rfl
    (by rw [hS]; exact hn0) (by have := devSq_ne hy; rwa [devSq_eq] at this)
  rw [ho] at ha
  cases ha
  rw [hI, hS] at hv
  have hv := fin.inj hv
  have hq : ∑ i ∈ range y.length, deviation y i ^ 2 ≠ 0 := by
    have := devSq_ne hy; rwa [devSq_eq] at this
  have hdiv : ∀ i, ∑ j ∈ range y.length, W.get i j / (W.row j).sum * deviation y j =
      (∑ j ∈ range y.length, W.get i j * deviation y j) / c := by
    intro i
    rw [Finset.sum_div]
    exact Finset.sum_congr rfl fun j hj => by
      rw [hrow j (Finset.mem_range.1 hj)]; ring
  have hpt : ∀ i < y.length, ((((List.range y.length).map (deviation y)).zip
      ((List.range y.length).map (spatialLag y W))).getD i 0) =
      (deviation y i, spatialLag y W i) := by
    intro i hi
    simp [List.getD_eq_getElem?_getD, hi]
  refine ⟨⟨((List.range y.length).map (deviation y)).zip ((List.range y.length).map (spatialLag y W)),
    [minOf ((List.range y.length).map (deviation y)),
      maxOf ((List.range y.length).map (deviation y))].map fun x => (x,
        slopeThroughOrigin ((List.range y.length).map (deviation y))
          ((List.range y.length).map (spatialLag y W)) * x)⟩, I, o, o', p, l, ?_, ho, ho', hl, hlen, hI, hI', rfl, ?_, by simp, ?_⟩
  · unfold moranDiagram
    rw [if_neg (by
      have : y ≠ [] := by rintro rfl; simp at hn
      simp [moranShape, h1, h2, this])]
  · have hslope : slopeThroughOrigin ((List.range y.length).map (deviation y))
        ((List.range y.length).map (spatialLag y W)) = c * I := by
      rw [slope_eq, hv]
      have : ∑ i ∈ range y.length, ∑ j ∈ range y.length, (y.getD i 0 - y.sum / (y.length : K)) *
          (W.get i j / (W.row j).sum) * (y.getD j 0 - y.sum / (y.length : K)) =
          (∑ i ∈ range y.length, deviation y i * ∑ j ∈ range y.length,
            W.get i j * deviation y j) / c := by
        rw [Finset.sum_div]
        refine Finset.sum_congr rfl fun i _ => ?_
        rw [mul_div_assoc, ← hdiv i, Finset.mul_sum]
        exact Finset.sum_congr rfl fun j _ => by rw [deviation, deviation]; ring
      rw [this]
      change _ = c * ((y.length : K) * (_ / c) / ((y.length : K) *
        ∑ i ∈ range y.length, deviation y i ^ 2))
      field_simp
    intro q hq
    simp only [List.map_cons, List.map_nil, List.mem_cons, List.not_mem_nil, or_false] at hq
    rcases hq with rfl | rfl <;> simp only [hslope]
  · intro i hi
    have hsq : ∑ j ∈ range y.length, (((((List.range y.length).map (deviation y)).zip
        ((List.range y.length).map (spatialLag y W))).getD j 0).1) ^ 2 =
        ∑ j ∈ range y.length, deviation y j ^ 2 :=
      Finset.sum_congr rfl fun j hj => by rw [hpt j (Finset.mem_range.1 hj)]
    rw [hli i hi, hsq, hpt i hi]
    simp only
    have := hdiv i
    unfold deviation at this
    rw [this]
    unfold spatialLag
    rw [sum_map_range]
    change c * ((y.length : K) * deviation y i * ((∑ j ∈ range y.length,
      W.get i j * deviation y j) / c) / ∑ j ∈ range y.length, deviation y j ^ 2) = _
    field_simp

/-- C109: for row-standardised weights the point of an observation lies in the upper right or lower
left quadrant exactly if its local value is positive, in the other two exactly if it is negative,
and on an axis exactly if it is zero. -/
theorem C109_quadrants (env : StatEnv K) (he : env.Ok) (y : List K) (W : Mat K)
    (h1 : W.r = y.length) (h2 : W.c = y.length) (hn : 2 ≤ y.length)
    (hrow : ∀ i < y.length, (W.row i).sum = 1) (hy : ∃ a ∈ y, ∃ b ∈ y, a ≠ b) :
    ∃ (d : MoranDiagram K) (l : List K),
      moranDiagram y W = .ok d ∧ moranLMI y W = .ok (l.map fin) ∧ l.length = y.length ∧
      d.points.length = y.length ∧
      ∀ i < y.length,
        (0 < l.getD i 0 ↔ (0 < (d.points.getD i 0).1 ∧ 0 < (d.points.getD i 0).2) ∨
          ((d.points.getD i 0).1 < 0 ∧ (d.points.getD i 0).2 < 0)) ∧
        (l.getD i 0 < 0 ↔ (0 < (d.points.getD i 0).1 ∧ (d.points.getD i 0).2 < 0) ∨
          ((d.points.getD i 0).1 < 0 ∧ 0 < (d.points.getD i 0).2)) ∧
        (l.getD i 0 = 0 ↔ (d.points.getD i 0).1 = 0 ∨ (d.points.getD i 0).2 = 0) := by
  obtain ⟨d, I, o, o', p, l, hd, -, -, hl, hlen, -, -, -, -, hp, hi⟩ :=
    C109_equal_row_sums env he y W h1 h2 hn 1 one_ne_zero hrow hy
  refine ⟨d, l, hd, hl, hlen, hp, fun i hin => ?_⟩
  have h := hi i hin
  rw [one_mul] at h
  have hq : 0 < (∑ j ∈ range y.length, (d.points.getD j 0).1 ^ 2) / (y.length : K) := by
    have hpos : (0 : K) < y.length := Nat.cast_pos.2 (by omega)
    refine div_pos (lt_of_le_of_ne (Finset.sum_nonneg fun _ _ => sq_nonneg _) fun h0 => ?_) hpos
    have hd' := hd
    unfold moranDiagram at hd'
    rw [if_neg (by
      have : y ≠ [] := by rintro rfl; simp at hn
      simp [moranShape, h1, h2, this])] at hd'
    have hd' := Except.ok.inj hd'
    subst hd'
    refine devSq_ne hy ?_
    rw [devSq_eq, h0]
    exact Finset.sum_congr rfl fun j hj => by
      simp [List.getD_eq_getElem?_getD, Finset.mem_range.1 hj]
  rw [h]
  refine ⟨?_, ?_, ?_⟩
  · rw [div_pos_iff_of_pos_right hq, mul_pos_iff]
  · rw [div_lt_iff₀ hq, zero_mul, mul_neg_iff]
  · rw [div_eq_zero_iff, or_iff_left hq.ne', mul_eq_zero]

/-- Three observations, two matrices: equal row sums, different row sums. -/
def dY : List ℚ := [1, 2, 6]
def dW : Mat ℚ := Mat.ofRows 0 3 [[0, 1 / 4, 3 / 4], [1 / 2, 0, 1 / 2], [2 / 3, 1 / 3, 0]]
def dV : Mat ℚ := Mat.ofRows 0 3 [[0, 1, 1], [1, 0, 1], [1, 3, 0]]

/-- `dY` and `dW` meet the hypotheses of `C109_diagram`, `C109_equal_row_sums` and
`C109_quadrants`. -/
example : dW.r = dY.length ∧ dW.c = dY.length ∧ 2 ≤ dY.length ∧
    (∀ i < dY.length, (dW.row i).sum = 1) ∧ (∃ a ∈ dY, ∃ b ∈ dY, a ≠ b) ∧ ratStat.Ok :=
  ⟨rfl, rfl, by decide, by decide +kernel, ⟨1, by simp [dY], 2, by simp [dY], by norm_num⟩,
    ratStat_ok⟩

/-- C109: for other weights the slope need not be Moran's I, and the local values need not have the
signs of the quadrants: the statistics divide the weights first, the diagram does not. -/
theorem C109_other_weights : ∃ (y : List ℚ) (W : Mat ℚ) (d : MoranDiagram ℚ) (o : MoranOut ℚ)
    (l : List (Num ℚ)) (s : ℚ),
    (∀ i < y.length, ∀ j < y.length, 0 ≤ W.get i j) ∧
    moranDiagram y W = .ok d ∧ moranMI ratStat y W = .ok o ∧ moranLMI y W = .ok l ∧
    (∀ p ∈ d.line, p.2 = s * p.1) ∧ (∃ p ∈ d.line, p.1 ≠ 0) ∧ o.I ≠ fin s ∧
    ∃ i < y.length, ∃ v, l.getD i nan = fin v ∧ 0 < v ∧
      (d.points.getD i 0).1 * (d.points.getD i 0).2 < 0 := by
  refine ⟨dY, dV, _, _, _, slopeThroughOrigin ((List.range dY.length).map (deviation dY))
      ((List.range dY.length).map (spatialLag dY dV)), by decide +kernel, rfl,
    moranMI_ok rfl rfl (by decide), moranLMI_ok rfl rfl, ?_, ?_, by decide +kernel, 1, by decide,
    ?_⟩
  · intro p hp
    simp only [List.map_cons, List.map_nil, List.mem_cons, List.not_mem_nil, or_false] at hp
    rcases hp with rfl | rfl <;> rfl
  · exact ⟨_, List.mem_cons_self, by decide +kernel⟩
  · exact ⟨3 / 56, by decide +kernel, by norm_num, by decide +kernel⟩

/-- C109: no observations, or a matrix of another shape: `ValueError`. -/
theorem C109_refused (y : List K) (W : Mat K) (h : y = [] ∨ W.r ≠ y.length ∨ W.c ≠ y.length) :
    moranDiagram y W = .error .valueError := by
  unfold moranDiagram
  rw [if_pos]
  rcases h with rfl | h | h
  · simp
  · simp [moranShape, h]
  · simp [moranShape, h]

/-- C109: if all observations are equal, every point and the line lie at the origin, whatever the
weights. -/
theorem C109_constant (y : List K) (W : Mat K) (h1 : W.r = y.length) (h2 : W.c = y.length)
    (hn : y ≠ []) (hy : ∀ a ∈ y, ∀ b ∈ y, a = b) :
    ∃ d, moranDiagram y W = .ok d ∧ ∀ p, p ∈ d.points ∨ p ∈ d.line → p = (0, 0) := by
  have hd : ∀ i < y.length, deviation y i = 0 := by
    have h := devSq_const hy
    rw [devSq_eq, Finset.sum_eq_zero_iff_of_nonneg fun i _ => sq_nonneg _] at h
    exact fun i hi => pow_eq_zero_iff two_ne_zero |>.1 (h i (Finset.mem_range.2 hi))
  have hu : (List.range y.length).map (deviation y) = List.replicate y.length 0 := by
    apply List.ext_getElem (by simp)
    intro i a b
    simp at a
    simp [hd i a]
  have hl : ∀ i, spatialLag y W i = 0 := by
    intro i
    unfold spatialLag
    rw [sum_map_range]
    exact Finset.sum_eq_zero fun j hj => by rw [hd j (Finset.mem_range.1 hj), mul_zero]
  have hm : minOf (List.replicate y.length (0 : K)) = 0 ∧ maxOf (List.replicate y.length (0 : K)) = 0 := by
    cases y.length with
    | zero => simp [minOf, maxOf]
    | succ n =>
      unfold minOf maxOf
      have a : (List.replicate (n + 1) (0 : K)).headD 0 = 0 := by simp [List.replicate_succ]
      rw [a]
      constructor
      · induction n + 1 with
        | zero => rfl
        | succ m ih => simp [List.replicate_succ, ih]
      · induction n + 1 with
        | zero => rfl
        | succ m ih => simp [List.replicate_succ, ih]
  refine ⟨_, by
    unfold moranDiagram
    rw [if_neg (by simp [moranShape, h1, h2, hn])], ?_⟩
  intro p hp
  simp only [hu, hm.1, hm.2, List.map_cons, List.map_nil, mul_zero, List.mem_cons,
    List.not_mem_nil, or_false, or_self] at hp
  rcases hp with hp | hp
  · obtain ⟨ha, hb⟩ := List.of_mem_zip (show (p.1, p.2) ∈ _ from hp)
    obtain ⟨i, -, hi⟩ := List.mem_map.1 hb
    rw [hl] at hi
    exact Prod.ext (List.eq_of_mem_replicate ha) hi.symm
  · exact hp

end Geo
