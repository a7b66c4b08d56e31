import Verif.Props.RoundedRow
import Verif.Props.Floats
set_option linter.unusedSectionVars false
/-
Property C128: `predict_by_weight` in floating-point arithmetic stays within the range of the local
predictions up to an explicit error, whatever the order of summation.
-/
namespace Geo
section
variable {K : Type} [Field K] [LinearOrder K] [IsStrictOrderedRing K] {a : Arith K}

/-- The accuracy of a float arithmetic on numbers of either sign up to `M`. -/
structure Arith.SignedAccurate (a : Arith K) (ε η M : K) : Prop where
  eps_nonneg : 0 ≤ ε
  eta_nonneg : 0 ≤ η
  add : ∀ x y, a.Float x → a.Float y → |x + y| ≤ M →
    ∃ z, a.op (x + y) = .fin z ∧ |z - (x + y)| ≤ ε * |x + y|
  one : ∀ x, |x| ≤ M → ∃ z, a.op x = .fin z ∧ |z - x| ≤ ε * |x| + η

/-- the exact sum of the sizes of the summands -/
def SumTree.size (t : SumTree K) : K := (t.leaves.map fun z => |z.toK|).sum

theorem SumTree.value_signed (ha : a.Ok) {ε η M : K} (hA : a.SignedAccurate ε η M)
    (t : SumTree K) (hl : ∀ z ∈ t.leaves, ∃ w, z = .fin w ∧ a.Float w)
    (hM : (1 + ε) ^ t.depth * t.size ≤ M) :
    0 ≤ t.size ∧ ∃ v, t.value a = .fin v ∧ a.Float v ∧ |t.total| ≤ t.size ∧
      |v - t.total| ≤ ((1 + ε) ^ t.depth - 1) * t.size := by
  have e0 := hA.eps_nonneg
  have e3 : 1 ≤ 1 + ε := by linarith
  have s0 : ∀ t : SumTree K, 0 ≤ t.size := fun t => List.sum_nonneg (by
    intro x hx
    obtain ⟨z, _, rfl⟩ := List.mem_map.1 hx
    exact abs_nonneg _)
  refine ⟨s0 t, ?_⟩
  induction t with
  | leaf x =>
    obtain ⟨w, rfl, wf⟩ := hl x (by simp [SumTree.leaves])
    exact ⟨w, rfl, wf, by simp [SumTree.total, SumTree.size, SumTree.leaves, Num.toK],
      by simp [SumTree.total, SumTree.leaves, Num.toK, SumTree.depth]⟩
  | node l r ihl ihr =>
    have htot : (SumTree.node l r).total = l.total + r.total := by
      simp [SumTree.total, SumTree.leaves]
    have hsz : (SumTree.node l r).size = l.size + r.size := by
      simp [SumTree.size, SumTree.leaves]
    rw [hsz, SumTree.depth] at hM
    set m := max l.depth r.depth with hm
    have pl : (1 + ε) ^ l.depth ≤ (1 + ε) ^ m := pow_le_pow_right₀ e3 (le_max_left _ _)
    have pr : (1 + ε) ^ r.depth ≤ (1 + ε) ^ m := pow_le_pow_right₀ e3 (le_max_right _ _)
    have pm : (1 + ε) ^ m ≤ (1 + ε) ^ (m + 1) := pow_le_pow_right₀ e3 (Nat.le_succ _)
    have p1 : 1 ≤ (1 + ε) ^ m := one_le_pow₀ e3
    have nl := s0 l
    have nr := s0 r
    have hMm : (1 + ε) ^ m * (l.size + r.size) ≤ M :=
      (mul_le_mul_of_nonneg_right pm (add_nonneg nl nr)).trans hM
    have ml := mul_le_mul_of_nonneg_right pl nl
    have mr := mul_le_mul_of_nonneg_right pr nr
    have m0l : 0 ≤ (1 + ε) ^ m * l.size := by positivity
    have m0r : 0 ≤ (1 + ε) ^ m * r.size := by positivity
    rw [mul_add] at hMm
    obtain ⟨x, hx, xf, tl, xe⟩ := ihl (fun z hz => hl z (by simp [SumTree.leaves, hz]))
      (by linarith)
    obtain ⟨y, hy, yf, tr, ye⟩ := ihr (fun z hz => hl z (by simp [SumTree.leaves, hz]))
      (by linarith)
    have hxy : |x + y - (l.total + r.total)| ≤ ((1 + ε) ^ m - 1) * (l.size + r.size) := by
      rw [abs_le] at xe ye ⊢
      constructor <;> nlinarith
    have htt : |l.total + r.total| ≤ l.size + r.size := (abs_add_le _ _).trans (add_le_add tl tr)
    have hup : |x + y| ≤ (1 + ε) ^ m * (l.size + r.size) := by
      have : |x + y| ≤ |x + y - (l.total + r.total)| + |l.total + r.total| := by
        simpa using abs_add_le (x + y - (l.total + r.total)) (l.total + r.total)
      linarith
    obtain ⟨z, hz, herr⟩ := hA.add x y xf yf (hup.trans (by rw [mul_add]; exact hMm))
    refine ⟨z, ?_, ha.op_float _ _ hz, by rw [htot, hsz]; exact htt, ?_⟩
    · simp [SumTree.value, hx, hy, Num.add, Num.rnd, hz]
    · rw [htot, hsz, SumTree.depth, ← hm, pow_succ]
      have h1 : |z - (l.total + r.total)| ≤ |z - (x + y)| + |x + y - (l.total + r.total)| := by
        simpa using abs_add_le (z - (x + y)) (x + y - (l.total + r.total))
      have h2 := mul_le_mul_of_nonneg_left hup e0
      nlinarith

theorem zip_products (ha : a.Ok) {ε η M : K} (hA : a.SignedAccurate ε η M) :
    ∀ ws ps : List K, (∀ t ∈ List.zipWith (· * ·) ws ps, |t| ≤ M) →
    ∃ qs : List K, List.zipWith (fun w p => Num.rnd a.op (.mul w p)) (ws.map Num.fin)
        (ps.map Num.fin) = qs.map Num.fin ∧ (∀ q ∈ qs, a.Float q) ∧
      qs.length = (List.zipWith (· * ·) ws ps).length ∧
      |qs.sum - (List.zipWith (· * ·) ws ps).sum| ≤
        ε * (List.zipWith (fun w p => |w * p|) ws ps).sum + qs.length * η ∧
      (qs.map fun q => |q|).sum ≤
        (1 + ε) * (List.zipWith (fun w p => |w * p|) ws ps).sum + qs.length * η
  | [], ps, _ => ⟨[], by simp, by simp, by simp, by simp, by simp⟩
  | w :: ws, [], _ => ⟨[], by simp, by simp, by simp, by simp, by simp⟩
  | w :: ws, p :: ps, h => by
    obtain ⟨qs, h1, h2, h3, h4, h5⟩ := zip_products ha hA ws ps
      fun t ht => h t (by simp only [List.zipWith_cons_cons, List.mem_cons]; exact .inr ht)
    obtain ⟨z, hz, he⟩ := hA.one (w * p) (h _ (by simp))
    refine ⟨z :: qs, ?_, ?_, ?_, ?_, ?_⟩
    · have e : Num.rnd a.op (Num.mul (.fin w) (.fin p)) = .fin z := hz
      rw [List.map_cons, List.map_cons, List.zipWith_cons_cons, h1, e, List.map_cons]
    · intro q hq
      rcases List.mem_cons.1 hq with rfl | hq
      · exact ha.op_float _ _ hz
      · exact h2 q hq
    · simp [h3]
    · simp only [List.zipWith_cons_cons, List.sum_cons, List.length_cons, Nat.cast_succ]
      rw [abs_le] at he h4 ⊢
      constructor <;> linarith
    · simp only [List.zipWith_cons_cons, List.map_cons, List.sum_cons, List.length_cons,
        Nat.cast_succ]
      have : |z| ≤ |z - w * p| + |w * p| := by simpa using abs_add_le (z - w * p) (w * p)
      linarith

/-- C128, first part: the rounded weighted sum. In an arithmetic with relative error `ε` and
underflow error `η`, for every order of summation of depth `h`, the prediction is finite and
differs from the exact weighted sum of the local predictions by at most `(1+ε)^(h+1) - 1` times
the weighted sum of their sizes, plus `n η (1+ε)^h` for underflow. -/
theorem C128_error (ha : a.Ok) {ε η M : K} (hA : a.SignedAccurate ε η M)
    (shape : List (Num K) → SumTree K) (hs : ∀ ws, ws ≠ [] → ((shape ws).leaves).Perm ws)
    (h : Nat) (ws ps : List K) (hh : ∀ l, l.length = ws.length → (shape l).depth ≤ h)
    (hl : ws.length = ps.length) (hn : ws ≠ [])
    (hM : (1 + ε) ^ h * ((1 + ε) * (List.zipWith (fun w p => |w * p|) ws ps).sum +
      ws.length * η) ≤ M) :
    ∃ v, predictEntryR a shape (ws.map Num.fin) (ps.map Num.fin) = .fin v ∧
      |v - (List.zipWith (· * ·) ws ps).sum| ≤
        ((1 + ε) ^ (h + 1) - 1) * (List.zipWith (fun w p => |w * p|) ws ps).sum +
          (1 + ε) ^ h * (ws.length * η) := by
  set S := (List.zipWith (fun w p => |w * p|) ws ps).sum with hS
  have e0 := hA.eps_nonneg
  have η0 := hA.eta_nonneg
  have e3 : 1 ≤ 1 + ε := by linarith
  have hz0 : ∀ x ∈ List.zipWith (fun w p => |w * p|) ws ps, 0 ≤ x := by
    intro x hx
    obtain ⟨i, hi, rfl⟩ := List.getElem_of_mem hx
    rw [List.getElem_zipWith]
    exact abs_nonneg _
  have S0 : 0 ≤ S := List.sum_nonneg hz0
  have ph : 1 ≤ (1 + ε) ^ h := one_le_pow₀ e3
  have nη : 0 ≤ (ws.length : K) * η := mul_nonneg (Nat.cast_nonneg _) η0
  have T0 : 0 ≤ (1 + ε) * S + ws.length * η := add_nonneg (mul_nonneg (by linarith) S0) nη
  have SM : S ≤ M := by nlinarith
  obtain ⟨qs, hq, hf, hlen, hsum, habs⟩ := zip_products ha hA ws ps (by
    intro t ht
    obtain ⟨i, hi, rfl⟩ := List.getElem_of_mem ht
    rw [List.getElem_zipWith]
    refine le_trans ?_ SM
    have hi' : i < (List.zipWith (fun w p => |w * p|) ws ps).length := by simpa using hi
    have := List.single_le_sum hz0 _ (List.getElem_mem hi')
    rwa [List.getElem_zipWith] at this)
  have hlen' : qs.length = ws.length := by rw [hlen, List.length_zipWith, hl, Nat.min_self]
  rw [hlen', ← hS] at hsum habs
  have hne : qs.map Num.fin ≠ [] := by
    intro e
    rw [List.map_eq_nil_iff] at e
    rw [e] at hlen'
    exact hn (List.length_eq_zero_iff.1 hlen'.symm)
  have hperm := hs _ hne
  set t := shape (qs.map Num.fin) with ht
  have hd : t.depth ≤ h := hh _ (by simpa using hlen')
  have hsize : t.size = (qs.map fun q => |q|).sum := by
    rw [SumTree.size, (hperm.map _).sum_eq, List.map_map]
    rfl
  have htot : t.total = qs.sum := by
    rw [SumTree.total, (hperm.map _).sum_eq, List.map_map]
    congr 1
    exact List.map_id'' (fun _ => rfl) _
  have pd : (1 + ε) ^ t.depth ≤ (1 + ε) ^ h := pow_le_pow_right₀ e3 hd
  have z0 : 0 ≤ t.size := hsize ▸ List.sum_nonneg (by simp)
  have zT : t.size ≤ (1 + ε) * S + ws.length * η := hsize ▸ habs
  obtain ⟨-, v, hv, -, -, herr⟩ := SumTree.value_signed ha hA t (by
    intro z hz
    obtain ⟨q, hq, rfl⟩ := List.mem_map.1 (hperm.subset hz)
    exact ⟨q, rfl, hf q hq⟩)
    (le_trans (mul_le_mul pd zT z0 (by linarith)) hM)
  refine ⟨v, by rw [predictEntryR, hq]; exact hv, ?_⟩
  rw [htot] at herr
  have h1 : |v - (List.zipWith (· * ·) ws ps).sum| ≤
      |v - qs.sum| + |qs.sum - (List.zipWith (· * ·) ws ps).sum| := by
    simpa using abs_add_le (v - qs.sum) (qs.sum - (List.zipWith (· * ·) ws ps).sum)
  have h2 : ((1 + ε) ^ t.depth - 1) * t.size ≤
      ((1 + ε) ^ h - 1) * ((1 + ε) * S + ws.length * η) :=
    mul_le_mul (by linarith) zT z0 (by linarith)
  have h3 : ((1 + ε) ^ h - 1) * ((1 + ε) * S + ws.length * η) + (ε * S + ws.length * η) =
      ((1 + ε) ^ (h + 1) - 1) * S + (1 + ε) ^ h * (ws.length * η) := by
    rw [pow_succ]; ring
  linarith


/-- A zero row predicts exactly 0, whatever the local models say. -/
theorem C128_zero_row (ha : a.Ok) (shape : List (Num K) → SumTree K)
    (hs : ∀ ws, ws ≠ [] → ((shape ws).leaves).Perm ws) (ws ps : List K)
    (hl : ws.length = ps.length) (hn : ws ≠ []) (h0 : ∀ w ∈ ws, w = 0) :
    predictEntryR a shape (ws.map Num.fin) (ps.map Num.fin) = .fin 0 := by
  have key : ∀ t : SumTree K, (∀ z ∈ t.leaves, z = .fin 0) → t.value a = .fin 0 := by
    intro t
    induction t with
    | leaf x => intro h; exact h x (by simp [SumTree.leaves])
    | node l r ihl ihr =>
      intro h
      simp [SumTree.value, ihl fun z hz => h z (by simp [SumTree.leaves, hz]),
        ihr fun z hz => h z (by simp [SumTree.leaves, hz]), Num.add, Num.rnd, ha.op.zero]
  set qs := List.zipWith (fun w p => Num.rnd a.op (.mul w p)) (ws.map Num.fin) (ps.map Num.fin)
    with hq
  have hlen : qs.length = ws.length := by simp [hq, hl]
  refine key _ fun z hz => ?_
  have hz := (hs qs (by
    intro e
    rw [e] at hlen
    exact hn (List.length_eq_zero_iff.1 hlen.symm))).subset hz
  obtain ⟨i, hi, rfl⟩ := List.getElem_of_mem hz
  have hi' : i < ws.length := hlen ▸ hi
  have e := h0 _ (List.getElem_mem hi')
  simp [hq, e, Num.mul, Num.rnd, ha.op.zero]

/-- C128, third part: if no local prediction is negative, neither is the rounded prediction, in any
arithmetic with monotone rounding and for every order of summation. -/
theorem C128_nonneg (ha : a.Ok) (shape : List (Num K) → SumTree K)
    (hs : ∀ ws, ws ≠ [] → ((shape ws).leaves).Perm ws) (ws ps : List K)
    (hl : ws.length = ps.length) (hn : ws ≠ []) (hw : ∀ w ∈ ws, 0 ≤ w) (hp : ∀ p ∈ ps, 0 ≤ p) :
    (predictEntryR a shape (ws.map Num.fin) (ps.map Num.fin)).NonNeg := by
  have key : ∀ t : SumTree K, (∀ z ∈ t.leaves, z.NonNeg) → (t.value a).NonNeg := by
    intro t
    induction t with
    | leaf x => intro h; exact h x (by simp [SumTree.leaves])
    | node l r ihl ihr =>
      intro h
      rcases ihl fun z hz => h z (by simp [SumTree.leaves, hz]) with hx | ⟨x, hx, x0⟩ <;>
        rcases ihr fun z hz => h z (by simp [SumTree.leaves, hz]) with hy | ⟨y, hy, y0⟩ <;>
        simp only [SumTree.value, hx, hy, Num.add, Num.rnd]
      · exact .inl rfl
      · exact .inl rfl
      · exact .inl rfl
      · exact ha.op.nonneg (add_nonneg x0 y0)
  set qs := List.zipWith (fun w p => Num.rnd a.op (.mul w p)) (ws.map Num.fin) (ps.map Num.fin)
    with hq
  have hlen : qs.length = ws.length := by simp [hq, hl]
  refine key _ fun z hz => ?_
  have hz := (hs qs (by
    intro e
    rw [e] at hlen
    exact hn (List.length_eq_zero_iff.1 hlen.symm))).subset hz
  obtain ⟨i, hi, rfl⟩ := List.getElem_of_mem hz
  have hi' : i < ws.length := hlen ▸ hi
  have h1 := hw _ (List.getElem_mem hi')
  have h2 := hp _ (List.getElem_mem (hl ▸ hi' : i < ps.length))
  have e : qs[i] = a.op (ws[i] * ps[i]) := by
    simp [hq, Num.mul, Num.rnd]
  rw [e]
  exact ha.op.nonneg (mul_nonneg h1 h2)

theorem zip_weighted (lo hi B : K) : ∀ ws ps : List K, ws.length = ps.length →
    (∀ w ∈ ws, 0 ≤ w) → (∀ p ∈ ps, lo ≤ p ∧ p ≤ hi) → (∀ p ∈ ps, |p| ≤ B) →
    lo * ws.sum ≤ (List.zipWith (· * ·) ws ps).sum ∧
      (List.zipWith (· * ·) ws ps).sum ≤ hi * ws.sum ∧
      (List.zipWith (fun w p => |w * p|) ws ps).sum ≤ B * ws.sum
  | [], [], _, _, _, _ => by simp
  | [], _ :: _, h, _, _, _ => by simp at h
  | _ :: _, [], h, _, _, _ => by simp at h
  | w :: ws, p :: ps, h, h0, hp, hb => by
    obtain ⟨h1, h2, h3⟩ := zip_weighted lo hi B ws ps (by simpa using h)
      (fun x hx => h0 x (by simp [hx])) (fun x hx => hp x (by simp [hx]))
      (fun x hx => hb x (by simp [hx]))
    have w0 := h0 w (by simp)
    have hpp := hp p (by simp)
    have hbb := hb p (by simp)
    have a1 := mul_le_mul_of_nonneg_left hpp.1 w0
    have a2 := mul_le_mul_of_nonneg_left hpp.2 w0
    have a3 := mul_le_mul_of_nonneg_left hbb w0
    simp only [List.zipWith_cons_cons, List.sum_cons]
    rw [abs_mul, abs_of_nonneg w0]
    refine ⟨?_, ?_, ?_⟩ <;> linarith [mul_add lo w ws.sum, mul_add hi w ws.sum, mul_add B w ws.sum,
      mul_comm w lo, mul_comm w hi, mul_comm w B]

end

section
variable {K : Type} [Field K] [LinearOrder K] [IsStrictOrderedRing K] [FloorRing K]

theorem Fmt.arith_signed {F : Fmt} (hF : F.Ok) :
    (F.arith : Arith K).SignedAccurate (2 ^ (-(F.frac + 1 : ℤ)))
      (2 ^ (F.emin - F.frac - 1)) (F.maxFinite K) where
  eps_nonneg := (Fmt.two_zpow_pos _).le
  eta_nonneg := (Fmt.two_zpow_pos _).le
  add x y hx hy hM := by
    refine ⟨F.round (x + y), Fmt.toNum_fin hF hM, ?_⟩
    rcases le_or_gt ((2 : K) ^ F.emin) |x + y| with h | h
    · exact F.round_relative h
    · obtain ⟨m, hm⟩ := Fmt.IsFloat.multiple F (Fmt.float_isFloat hx)
      obtain ⟨n, hn⟩ := Fmt.IsFloat.multiple F (Fmt.float_isFloat hy)
      have h2 : |x + y| < 2 ^ (F.emin + 1) := h.trans (zpow_lt_zpow_right₀ (by norm_num) (by omega))
      rw [F.round_subnormal_exact h2 (m + n) (by push_cast; rw [add_mul, ← hm, ← hn]), sub_self,
        abs_zero]
      exact mul_nonneg (Fmt.two_zpow_pos _).le (abs_nonneg _)
  one x hM := by
    refine ⟨F.round x, Fmt.toNum_fin hF hM, ?_⟩
    rcases le_or_gt ((2 : K) ^ F.emin) |x| with h | h
    · have := F.round_relative h
      have := Fmt.two_zpow_pos (K := K) (F.emin - F.frac - 1)
      linarith
    · have h2 : |x| < 2 ^ (F.emin + 1) := h.trans (zpow_lt_zpow_right₀ (by norm_num) (by omega))
      have := F.round_subnormal h2
      have h3 : (0 : K) ≤ 2 ^ (-(F.frac + 1 : ℤ)) * |x| :=
        mul_nonneg (Fmt.two_zpow_pos _).le (abs_nonneg _)
      linarith

/-- C128, second part, in double precision from distances to prediction: with the weights that
`weight_matrix_from_points` stores for a new location and local predictions between `lo` and
`hi` and of size at most `B`, the rounded `predict_by_weight` is finite. If the weights are not
all zero it leaves the range of the local predictions by at most `(5h+6) 2⁻⁵³ B` (plus an underflow
of `2⁻⁸⁰⁰`), where `h` bounds the depth of the two summations; if they are all zero it is exactly
0. -/
theorem C128_range (env : Env K) (he : env.Ok)
    (hf : ∀ x ≤ 0, (double.arith : Arith K).Float (env.exp x)) (lazy : Bool)
    (dims : List (RowDim K)) (hd : ∀ t ∈ dims, t.Ok) (n : Nat) (n0 : 0 < n) (hn : n ≤ 2 ^ 200)
    (shape shape' : List (Num K) → SumTree K)
    (hs : ∀ ws, ws ≠ [] → ((shape ws).leaves).Perm ws)
    (hs' : ∀ ws, ws ≠ [] → ((shape' ws).leaves).Perm ws)
    (h : Nat) (hh : ∀ ws, ws.length = n → (shape ws).depth ≤ h)
    (hh' : ∀ ws, ws.length = n → (shape' ws).depth ≤ h) (h50 : h ≤ 2 ^ 50)
    (ps : List K) (hp : ps.length = n) (lo hi B : K) (hr : ∀ p ∈ ps, lo ≤ p ∧ p ≤ hi)
    (hB : ∀ p ∈ ps, |p| ≤ B) (hloB : |lo| ≤ B) (hhiB : |hi| ≤ B) (B1000 : B ≤ 2 ^ 900) :
    ∃ (row : List K) (v : K), weightRowR env double.arith lazy dims n shape = .ok (row.map Num.fin) ∧
      predictEntryR double.arith shape' (row.map Num.fin) (ps.map Num.fin) = .fin v ∧
      ((∃ w ∈ row, w ≠ 0) →
        lo - ((5 * h + 6) / 2 ^ 53 * B + 1 / 2 ^ 800) ≤ v ∧
        v ≤ hi + ((5 * h + 6) / 2 ^ 53 * B + 1 / 2 ^ 800)) ∧
      ((∀ w ∈ row, w = 0) → v = 0) := by
  have hok : (double.arith : Arith K).Ok := Fmt.arith_ok double_ok
  obtain ⟨row, hrow, hlen, hunit, -, -⟩ := C86_row he hok hf lazy dims hd n shape hs
  have hne : row ≠ [] := by
    intro e
    rw [e] at hlen
    simp at hlen
    omega
  by_cases hz : ∀ w ∈ row, w = 0
  · refine ⟨row, 0, hrow, C128_zero_row hok shape' hs' row ps (by rw [hlen, hp]) hne hz, ?_,
      fun _ => rfl⟩
    rintro ⟨w, hw, w0⟩
    exact absurd (hz w hw) w0
  have hpos : ∃ w ∈ row, w ≠ 0 := by
    by_contra hc
    exact hz fun w hw => by
      by_contra h0
      exact hc ⟨w, hw, h0⟩
  obtain ⟨row', hrow', -, hsum⟩ := C86_double_sum env he hf lazy dims hd n hn shape hs h hh
    (h50.trans (by norm_num))
  have erow : row' = row := by
    rw [hrow] at hrow'
    exact ((List.map_injective_iff.2 fun x y (e : Num.fin x = Num.fin y) => by injection e)
      (Except.ok.inj hrow')).symm
  rw [erow] at hsum
  have hsum := hsum (.inr hpos)
  have h50' : (h : K) ≤ 2 ^ 50 := by exact_mod_cast h50
  have hn' : (n : K) ≤ 2 ^ 200 := by exact_mod_cast hn
  have hh0 : (0 : K) ≤ h := Nat.cast_nonneg _
  have B0 : 0 ≤ B := (abs_nonneg _).trans hloB
  obtain ⟨z1, z2, z3⟩ := zip_weighted lo hi B row ps (by rw [hlen, hp])
    (fun w hw => (hunit w hw).1) hr hB
  set S := (List.zipWith (fun w p => |w * p|) row ps).sum with hS
  have hA := Fmt.arith_signed (K := K) double_ok
  have eε : (2 : K) ^ (-(double.frac + 1 : ℤ)) = 1 / 2 ^ 53 := by
    have : (-(double.frac + 1 : ℤ)) = -53 := rfl
    rw [this, zpow_neg, ← one_div]; norm_cast
  have eη : (2 : K) ^ (double.emin - double.frac - 1) = 1 / 2 ^ 1075 := by
    have : (double.emin - double.frac - 1 : ℤ) = -1075 := rfl
    rw [this, zpow_neg, ← one_div]; norm_cast
  rw [eε, eη] at hA
  have hnη : (n : K) * (1 / 2 ^ 1075) ≤ 1 / 2 ^ 875 := by
    calc (n : K) * (1 / 2 ^ 1075) ≤ 2 ^ 200 * (1 / 2 ^ 1075) :=
          mul_le_mul_of_nonneg_right hn' (by positivity)
      _ = 1 / 2 ^ 875 := by
        rw [show 1075 = 200 + 875 from rfl, pow_add]
        field_simp
  have hhalf : ((h + 1 : ℕ) : K) * (1 / 2 ^ 53) ≤ 1 / 2 := by
    push_cast
    calc ((h : K) + 1) * (1 / 2 ^ 53) ≤ (2 ^ 50 + 1) * (1 / 2 ^ 53) :=
          mul_le_mul_of_nonneg_right (by linarith) (by positivity)
      _ ≤ 1 / 2 := by norm_num
  obtain ⟨p1, -, p3⟩ := pow_bounds (K := K) (ε := 1 / 2 ^ 53) (by positivity) (h + 1) hhalf
    (by norm_num)
  have q1 : (1 + (1 : K) / 2 ^ 53) ^ (h + 1) ≤ 1 + 2 * (((h + 1 : ℕ) : K) * (1 / 2 ^ 53)) := by
    have g : (0 : K) < 1 - 1 / 2 ^ 53 := by norm_num
    have g1 : (0 : K) < (1 - 1 / 2 ^ 53) ^ (h + 1) := pow_pos g _
    have g2 : (1 + (1 : K) / 2 ^ 53) ^ (h + 1) * (1 - 1 / 2 ^ 53) ^ (h + 1) ≤ 1 := by
      rw [← mul_pow]
      exact pow_le_one₀ (by norm_num) (by norm_num)
    have g3 : (1 + (1 : K) / 2 ^ 53) * (1 / (1 - 1 / 2 ^ 53) ^ (h + 1)) ≤
        (1 + 1 / 2 ^ 53) * (1 + 2 * (((h + 1 : ℕ) : K) * (1 / 2 ^ 53))) := by
      rw [mul_one_div]; exact p3
    have g4 := le_of_mul_le_mul_left g3 (by positivity)
    exact ((le_div_iff₀ g1).2 g2).trans g4
  have p1' : (1 + (1 : K) / 2 ^ 53) ^ h ≤ 2 :=
    (pow_le_pow_right₀ (by norm_num) (Nat.le_succ h)).trans p1
  push_cast at q1
  set σ := (2 * (h : K) + 3) / 2 ^ 53 with hσ
  have σ1 : σ ≤ 1 / 2 := by
    rw [hσ, div_le_iff₀ (by positivity)]
    calc 2 * (h : K) + 3 ≤ 2 * 2 ^ 50 + 3 := by linarith
      _ ≤ _ := by norm_num
  have hsa := abs_le.1 hsum
  have sB : S ≤ 3 / 2 * B := by
    refine z3.trans ?_
    rw [mul_comm (3 / 2 : K)]
    exact mul_le_mul_of_nonneg_left (by linarith) B0
  have S0 : 0 ≤ S := List.sum_nonneg (by
    intro x hx
    obtain ⟨i, hi, rfl⟩ := List.getElem_of_mem hx
    rw [List.getElem_zipWith]
    exact abs_nonneg _)
  have hbig : (2 : K) ^ 903 ≤ double.maxFinite K := by
    have e : (2 : K) ^ (903 : ℕ) ≤ 2 ^ (double.emax - double.frac) := by
      rw [← zpow_natCast]
      exact zpow_le_zpow_right₀ (by norm_num) (by decide)
    have e2 : double.frac + 1 = 53 := rfl
    rw [Fmt.maxFinite, e2]
    refine e.trans ?_
    have := Fmt.two_zpow_pos (K := K) (double.emax - double.frac)
    have h2 : (1 : K) ≤ 2 ^ 53 - 1 := by norm_num
    calc _ = 1 * (2 : K) ^ (double.emax - double.frac) := (one_mul _).symm
      _ ≤ _ := mul_le_mul_of_nonneg_right h2 this.le
  obtain ⟨v, hv, herr⟩ := C128_error hok hA shape' hs' h row ps (by rw [hlen]; exact hh')
    (by rw [hlen, hp]) hne (by
      rw [← hS, hlen]
      refine le_trans ?_ hbig
      have t1 : (1 + (1 : K) / 2 ^ 53) * S ≤ 4 / 3 * S :=
        mul_le_mul_of_nonneg_right (by norm_num) S0
      have t2 : (1 : K) / 2 ^ 875 ≤ 1 :=
        (div_le_one (by positivity)).2 (one_le_pow₀ (by norm_num))
      have t4 : (1 : K) ≤ 2 ^ 900 := one_le_pow₀ (by norm_num)
      have t5 : (2 : K) ^ 903 = 2 ^ 900 * 8 := by
        rw [show 903 = 900 + 3 from rfl, pow_add]
        norm_num
      rw [t5]
      have hx : (n : K) * (1 / 2 ^ 1075) ≤ 1 := hnη.trans t2
      clear hnη t5 t2 hbig
      generalize (2 : K) ^ 900 = P at *
      have hx0 : 0 ≤ (n : K) * (1 / 2 ^ 1075) := by positivity
      generalize (n : K) * (1 / 2 ^ 1075) = x at *
      have t3 : (1 + (1 : K) / 2 ^ 53) * S + x ≤ 2 * P + 1 := by linarith
      calc _ ≤ 2 * (2 * P + 1) := mul_le_mul p1' t3 (by positivity) (by norm_num)
        _ ≤ _ := by linarith)
  refine ⟨row, v, hrow, hv, fun _ => ?_, fun hc => absurd hc hz⟩
  rw [← hS, hlen] at herr
  have f1 : ((1 + (1 : K) / 2 ^ 53) ^ (h + 1) - 1) * S ≤
      (2 * (((h : K) + 1) * (1 / 2 ^ 53))) * (3 / 2 * B) :=
    mul_le_mul (by linarith) sB S0 (by positivity)
  have f2 : (1 + (1 : K) / 2 ^ 53) ^ h * (n * (1 / 2 ^ 1075)) ≤ 1 / 2 ^ 800 := by
    calc _ ≤ 2 * ((1 : K) / 2 ^ 875) := mul_le_mul p1' hnη (by positivity) (by norm_num)
      _ ≤ _ := by
        have t5 : (1 : K) / 2 ^ 875 = 1 / 2 ^ 800 * (1 / 2 ^ 75) := by
          rw [show 875 = 800 + 75 from rfl, pow_add]
          field_simp
        have t6 : (0 : K) < 1 / 2 ^ 800 := by positivity
        have t7 : (1 : K) / 2 ^ 75 ≤ 1 / 2 := by norm_num
        rw [t5]
        generalize (1 : K) / 2 ^ 800 = u at *
        nlinarith
  have f3 : |lo * row.sum - lo| ≤ B * σ := by
    have : lo * row.sum - lo = lo * (row.sum - 1) := by ring
    rw [this, abs_mul]
    exact mul_le_mul hloB hsum (abs_nonneg _) B0
  have f4 : |hi * row.sum - hi| ≤ B * σ := by
    have : hi * row.sum - hi = hi * (row.sum - 1) := by ring
    rw [this, abs_mul]
    exact mul_le_mul hhiB hsum (abs_nonneg _) B0
  have f5 : (5 * (h : K) + 6) / 2 ^ 53 * B =
      B * σ + (2 * (((h : K) + 1) * (1 / 2 ^ 53))) * (3 / 2 * B) := by
    rw [hσ]; ring
  replace herr := herr.trans (add_le_add f1 f2)
  clear eη hA hnη f1 f2
  rw [abs_le] at herr f3 f4
  rw [f5]
  generalize (1 : K) / 2 ^ 800 = u at *
  constructor <;> linarith

/-- A Gaussian kernel on 1000 training points in double precision, local predictions between 10 and
20: the prediction at a new location is between 10 and 20 up to less than 2⁻³⁵. -/
example (dist : Nat → ℝ) (hd : ∀ j, 0 ≤ dist j) (h0 : dist 0 = 0) (ps : List ℝ)
    (hp : ps.length = 1000) (hr : ∀ p ∈ ps, 10 ≤ p ∧ p ≤ 20) :
    ∃ (row : List ℝ) (v : ℝ), weightRowR doubleEnv double.arith false [⟨"gaussian", dist, 3⟩] 1000
        leftTree = .ok (row.map Num.fin) ∧
      predictEntryR double.arith leftTree (row.map Num.fin) (ps.map Num.fin) = .fin v ∧
      10 - 1 / 2 ^ 35 ≤ v ∧ v ≤ 20 + 1 / 2 ^ 35 := by
  have hdims : ∀ t ∈ [(⟨"gaussian", dist, 3⟩ : RowDim ℝ)], t.Ok := fun t ht => by
    rw [List.mem_singleton] at ht
    subst ht
    exact ⟨by simp [kernelTypeEnum], by norm_num, hd⟩
  obtain ⟨row, v, h1, h2, h3, -⟩ := C128_range doubleEnv doubleEnv_ok doubleEnv_float false
    [⟨"gaussian", dist, 3⟩] hdims 1000 (by norm_num) (by norm_num) leftTree leftTree leftTree_leaves
    leftTree_leaves 1000 (fun ws h => h ▸ leftTree_depth ws) (fun ws h => h ▸ leftTree_depth ws)
    (by norm_num) ps hp 10 20 20 hr
    (fun p h => by rw [abs_le]; constructor <;> linarith [(hr p h).1, (hr p h).2])
    (by norm_num) (by norm_num)
    (by
      calc (20 : ℝ) ≤ 2 ^ 5 := by norm_num
        _ ≤ 2 ^ 900 := pow_le_pow_right₀ (by norm_num) (by norm_num))
  obtain ⟨row', h4, h5, h6⟩ := C86_double_sum doubleEnv doubleEnv_ok doubleEnv_float false
    [⟨"gaussian", dist, 3⟩] hdims 1000 (by norm_num) leftTree leftTree_leaves 1000
    (fun ws h => h ▸ leftTree_depth ws) (by norm_num)
  have e : row' = row := by
    rw [h1] at h4
    exact ((List.map_injective_iff.2 fun x y (e : Num.fin x = Num.fin y) => by injection e)
      (Except.ok.inj h4)).symm
  have hne : ∃ w ∈ row, w ≠ 0 := by
    by_contra hc
    have hz : ∀ w ∈ row, w = 0 := fun w hw => by
      by_contra h0
      exact hc ⟨w, hw, h0⟩
    have := h6 (.inl ⟨0, by norm_num, fun t ht => by
      rw [List.mem_singleton] at ht
      subst ht
      exact h0⟩)
    rw [e, List.sum_eq_zero hz] at this
    norm_num at this
  obtain ⟨l, u⟩ := h3 hne
  have hu : (1 : ℝ) / 2 ^ 800 ≤ 1 / 2 ^ 36 :=
    one_div_le_one_div_of_le (by positivity) (pow_le_pow_right₀ (by norm_num) (by norm_num))
  refine ⟨row, v, h1, h2, ?_, ?_⟩
  · generalize (1 : ℝ) / 2 ^ 800 = t at *
    norm_num at *
    linarith
  · generalize (1 : ℝ) / 2 ^ 800 = t at *
    norm_num at *
    linarith

/-- Three local predictions of which none is negative, rounded to eighths. -/
example : (predictEntryR tinyArith leftTree ([1 / 2, 1 / 4, 1 / 4].map Num.fin)
    ([3, 0, 5].map Num.fin)).NonNeg :=
  C128_nonneg tinyArith_ok leftTree leftTree_leaves _ _ (by simp) (by simp)
    (by intro w hw; simp at hw; rcases hw with rfl | rfl <;> norm_num)
    (by intro w hw; simp at hw; rcases hw with rfl | rfl | rfl <;> norm_num)

/-- A location out of reach of every training point is predicted 0. -/
example : predictEntryR tinyArith leftTree ([0, 0].map Num.fin) ([3, 5].map Num.fin) = .fin 0 :=
  C128_zero_row tinyArith_ok leftTree leftTree_leaves _ _ (by simp) (by simp) (by simp)

end
end Geo
