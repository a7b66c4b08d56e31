import Verif.Model.RoundedImportance
import Verif.Props.RoundedAle
import Verif.Props.RoundedScore
import Verif.Props.Baseline
set_option linter.unusedSectionVars false
/-
C183: permutation importance in floating point.
-/
namespace Geo
section
variable {K : Type} [Field K] [LinearOrder K] [IsStrictOrderedRing K] {a : Arith K}
variable {shape : List (Num K) → SumTree K}

theorem sumR_zero (ha : a.Ok) (hs : SumsAll shape) (l : List (Num K)) (h : ∀ z ∈ l, z = .fin 0) :
    sumR a shape l = .fin 0 := by
  unfold sumR
  split_ifs with h0
  · rfl
  · exact SumTree.value_zero ha _ fun z hz => h z ((hs _ h0).mem_iff.1 hz)

theorem meanNumR_zero (ha : a.Ok) (hs : SumsAll shape) (l : List (Num K)) (hl : l ≠ [])
    (h : ∀ z ∈ l, z = .fin 0) : meanNumR a shape l = .fin 0 := by
  have hn : (l.length : K) ≠ 0 := Nat.cast_ne_zero.2 (List.length_pos_iff.2 hl).ne'
  rw [meanNumR, sumR_zero ha hs l h]
  simp only [Num.div, hn, if_false, zero_div, Num.rnd, ha.op.zero]

theorem meanNumR_notNeg (ha : a.Ok) (hs : SumsAll shape) (l : List (Num K)) (h : ∀ z ∈ l, z.NotNeg) :
    (meanNumR a shape l).NotNeg :=
  divR_notNeg ha (sumR_notNeg ha hs l h) (.inr (.inr ⟨_, rfl, Nat.cast_nonneg _⟩))

theorem sub_self_fin (ha : a.Ok) (x : K) : Num.rnd a.op (.sub (.fin x) (.fin x)) = .fin 0 := by
  simp [Num.sub, Num.neg, Num.add, Num.rnd, ha.op.zero]

/-- at most one, or NaN -/
def Num.AtMostOne (z : Num K) : Prop := z = .nan ∨ Num.le z (.fin 1)

theorem one_sub_notNeg (ha : a.Ok) {z : Num K} (h : z.AtMostOne) : (Num.rnd a.op (.sub (.fin 1) z)).NotNeg := by
  cases z with
  | fin x =>
    rcases h with h | h
    · cases h
    · have h1 : x ≤ 1 := h
      exact .inr (ha.op.nonneg (by linarith))
  | pinf => rcases h with h | h
            · cases h
            · exact h.elim
  | ninf => exact .inr (.inl rfl)
  | nan => exact .inl rfl

theorem one_sub_atMostOne (ha : a.Ok) {q : Num K} (h : q.NotNeg) : (Num.rnd a.op (.sub (.fin 1) q)).AtMostOne := by
  rcases h with rfl | rfl | ⟨x, rfl, hx⟩
  · exact .inl rfl
  · exact .inr trivial
  · refine .inr ?_
    have := ha.op.mono (1 + -x) 1 (by linarith)
    rw [ha.op.one] at this
    exact this

theorem sqDiffR_notNeg (ha : a.Ok) (u v : Num K) : (sqDiffR a u v).NotNeg := by
  unfold sqDiffR
  cases Num.rnd a.op (.sub u v) with
  | fin x => exact .inr (ha.op.nonneg (mul_self_nonneg x))
  | pinf => exact .inr (.inl rfl)
  | ninf => exact .inr (.inl rfl)
  | nan => exact .inl rfl

theorem skR2R_atMostOne (ha : a.Ok) (hs : SumsAll shape) (ys ps : List K) (hl : ys.length = ps.length) (hn : ys ≠ []) :
    (skR2R a shape ys ps).AtMostOne := by
  rcases (C175_at_most_one ha hs ys ps hl hn).2 with ⟨h, -⟩ | h
  · exact .inl h
  · exact .inr h

theorem weightedR2R_atMostOne (ha : a.Ok) (hs : SumsAll shape) (ys ps ws : List K) (hw : ∀ w ∈ ws, 0 ≤ w) {v : Num K}
    (h : weightedR2R a shape ys ps ws = .ok v) : v.AtMostOne := by
  unfold weightedR2R at h
  split_ifs at h
  · cases h
    exact .inl rfl
  · split at h
    · cases h
    · rename_i mean _
      have key : ∀ zs : List (Num K), (∀ z ∈ zs, z.NotNeg) →
          (sumR a shape (List.zipWith (fun w z => Num.rnd a.op (.mul (.fin w) z)) ws zs)).NotNeg := by
        intro zs hz
        refine sumR_notNeg ha hs _ fun z hmem => ?_
        obtain ⟨i, hi, rfl⟩ := List.getElem_of_mem hmem
        rw [List.getElem_zipWith]
        exact mulR_notNeg ha (.inr (.inr ⟨_, rfl, hw _ (List.getElem_mem _)⟩)) (hz _ (List.getElem_mem _))
      have h1 := key (List.zipWith (fun y p => sqDiffR a (.fin y) (.fin p)) ys ps) (by
        intro z hz
        obtain ⟨i, hi, rfl⟩ := List.getElem_of_mem hz
        rw [List.getElem_zipWith]
        exact sqDiffR_notNeg ha _ _)
      have h2 := key (ys.map fun y => sqDiffR a (.fin y) mean) (by
        intro z hz
        obtain ⟨y, -, rfl⟩ := List.mem_map.1 hz
        exact sqDiffR_notNeg ha _ _)
      simp only [Except.ok.injEq] at h
      rw [← h]
      split_ifs
      · exact .inr le_rfl
      · exact .inr zero_le_one
      · exact one_sub_atMostOne ha (divR_notNeg ha h1 h2)

/-- a perfect estimator has weighted score 1 -/
theorem weightedR2R_perfect (ha : a.Ok) (hs : SumsAll shape) (ys ws : List K) (hn : 2 ≤ ys.length) {v : Num K}
    (h : weightedR2R a shape ys ys ws = .ok v) : v = .fin 1 := by
  unfold weightedR2R at h
  split_ifs at h with h1 h2
  · omega
  · split at h
    · cases h
    · have : sumR a shape (List.zipWith (fun w z => Num.rnd a.op (.mul (.fin w) z)) ws
          (List.zipWith (fun y p => sqDiffR a (.fin y) (.fin p)) ys ys)) = .fin 0 := by
        refine sumR_zero ha hs _ fun z hz => ?_
        obtain ⟨i, hi, rfl⟩ := List.getElem_of_mem hz
        rw [List.getElem_zipWith, List.getElem_zipWith]
        simp [sqDiffR, Num.sub, Num.neg, Num.add, Num.rnd, ha.op.zero, Num.sq, Num.mul]
      simp only [this, if_true, Except.ok.injEq] at h
      exact h.symm

end

section
variable {K F S : Type} [Field K] [LinearOrder K] [IsStrictOrderedRing K] [FloorRing K] {a : Arith K}
variable {shape : List (Num K) → SumTree K}

/-- What a call draws: decrease `r` of feature `k` compares the stored score with the score of the predictions at rows
in which feature `k` comes from the row that a permutation gives. -/
theorem importanceGlobalR_ok {L : Learner K F} {g : PRng S} (hg : g.Valid) {d : FittedParts K F} {score : Num K}
    {old : Option (List (List (Num K)))} {s : S} {R : Nat} {out : List (Num K) × List (List (Num K))}
    (hy : d.y.length = d.X.r) (h : importanceGlobalR a shape L g d score old s R = .ok out) :
    R ≠ 0 ∧ ∃ dec : List (List (Num K)), dec.length = d.X.c ∧
      (old = none → out = (dec.map (meanNumR a shape), dec)) ∧
      (∀ o, old = some o → out = ((List.zipWith (· ++ ·) o dec).map (meanNumR a shape), List.zipWith (· ++ ·) o dec)) ∧
      ∀ k (hk : k < dec.length), dec[k].length = R ∧ ∀ r (hr : r < dec[k].length), ∃ ps : List K,
        ps.length = d.X.r ∧ 0 < ps.length ∧ dec[k][r] = Num.rnd a.op (.sub score (skR2R a shape d.y ps)) ∧
        ∀ i < d.X.r, ∃ f, d.ests[i]? = some (some f) ∧ ∃ j < d.X.r,
          ps.getD i 0 = L.predict f ((d.X.row i).set k (d.X.get j k)) := by
  unfold importanceGlobalR at h
  split_ifs at h with hR
  split at h
  · cases h
  · rename_i dec hdec
    unfold permDecreasesR at hdec
    split at hdec
    · cases hdec
    · rename_i table ht
      have hlen := mapE_length hdec
      rw [List.length_range] at hlen
      refine ⟨hR, dec, hlen, ?_, ?_, ?_⟩
      · rintro rfl
        simpa using h.symm
      · rintro o rfl
        simp only at h
        split_ifs at h
        simpa using h.symm
      · intro k hk
        have hk' : k < d.X.c := by omega
        have h3 := mapE_get hdec (i := k) (by simpa using hk')
        simp only [List.getElem_range] at h3
        have h4 : dec[k].length = R := by simpa only [List.length_range] using mapE_length h3
        refine ⟨h4, fun r hr => ?_⟩
        have hr' : r < R := by omega
        have h5 := mapE_get h3 (i := r) (by simpa using hr')
        simp only [List.getElem_range] at h5
        unfold permDecreaseR at h5
        split_ifs at h5 with e1 e2
        have htl := mapE_length ht
        rw [List.length_range] at htl
        refine ⟨table.map fun row => row.getD (k * R + r) 0, by simpa using htl, by
          rw [List.length_map]; omega, (Except.ok.inj h5).symm, fun i hi => ?_⟩
        have h6 := mapE_get ht (i := i) (by simpa using hi)
        simp only [List.getElem_range] at h6
        obtain ⟨f, hf, hrow⟩ := permPredict_ok h6
        refine ⟨f, hf, ((drawPerms g d.X.r (d.X.c * R) s).1.getD (k * R + r) []).getD i 0, ?_, ?_⟩
        · have hlt : k * R + r < d.X.c * R := by
            calc k * R + r < k * R + R := by omega
              _ = (k + 1) * R := by ring
              _ ≤ d.X.c * R := Nat.mul_le_mul_right _ hk'
          rw [drawPerms_get g _ s hlt]
          have hp := hg (genAfter g d.X.r (k * R + r) s) d.X.r
          have hl : (g.perm (genAfter g d.X.r (k * R + r) s) d.X.r).1.length = d.X.r := by
            simpa using hp.length_eq
          rw [List.getD_eq_getElem _ _ (by omega)]
          exact List.mem_range.1 (hp.mem_iff.1 (List.getElem_mem _))
        · rw [List.getD_eq_getElem _ _ (by rw [List.length_map]; omega), List.getElem_map]
          rw [hrow, batch_get L f d.X _ hk' hr']

/-- The predictions a fit stores: each observation predicted by its own local model. -/
def OwnPredictions (L : Learner K F) (d : FittedParts K F) (ps : List K) : Prop :=
  ps.length = d.X.r ∧ ∀ i < d.X.r, ∃ f, d.ests[i]? = some (some f) ∧ ps.getD i 0 = L.predict f (d.X.row i)

/-- C183: global importance of a feature without effect on the local models. In every arithmetic and order of summation
all its score decreases are the same number, the stored score minus the score of the own predictions (rounded). -/
theorem C183_global_draws {L : Learner K F} {g : PRng S} (hg : g.Valid) {d : FittedParts K F} {score : Num K}
    {old : Option (List (List (Num K)))} {s : S} {R : Nat} {out : List (Num K) × List (List (Num K))}
    (hy : d.y.length = d.X.r) (h : importanceGlobalR a shape L g d score old s R = .ok out) (ps : List K)
    (hps : OwnPredictions L d ps) (k : Nat) (hk : k < d.X.c) (hno : NoEffect L d.X d.ests k) :
    (old = none → out.2.getD k [] = List.replicate R (Num.rnd a.op (.sub score (skR2R a shape d.y ps))) ∧
      out.1[k]? = some (meanNumR a shape
        (List.replicate R (Num.rnd a.op (.sub score (skR2R a shape d.y ps)))))) ∧
    ∀ o, old = some o → k < o.length → out.2.getD k [] =
      o.getD k [] ++ List.replicate R (Num.rnd a.op (.sub score (skR2R a shape d.y ps))) := by
  obtain ⟨hR, dec, hl, h1, h2, h3⟩ := importanceGlobalR_ok hg hy h
  have hkl : k < dec.length := by omega
  obtain ⟨h4, h5⟩ := h3 k hkl
  have hrow : dec[k] = List.replicate R (Num.rnd a.op (.sub score (skR2R a shape d.y ps))) := by
    refine List.eq_replicate_iff.2 ⟨h4, fun z hz => ?_⟩
    obtain ⟨r, hr, rfl⟩ := List.getElem_of_mem hz
    obtain ⟨qs, hq, -, hval, hqs⟩ := h5 r hr
    rw [hval]
    have : qs = ps := by
      refine List.ext_getElem (by rw [hq, hps.1]) fun i hi hi' => ?_
      obtain ⟨f, hf, j, hj, e⟩ := hqs i (by omega)
      obtain ⟨f', hf', e'⟩ := hps.2 i (by omega)
      rw [hf] at hf'
      cases hf'
      rw [List.getD_eq_getElem _ _ hi] at e
      rw [List.getD_eq_getElem _ _ hi'] at e'
      rw [e, e', hno i (by omega) f hf j hj]
    rw [this]
  constructor
  · intro h0
    rw [h1 h0]
    refine ⟨by rw [List.getD_eq_getElem _ _ hkl, hrow], ?_⟩
    simp only [List.getElem?_map, List.getElem?_eq_getElem hkl, hrow, Option.map_some]
  · intro o ho hko
    rw [h2 o ho, List.getD_eq_getElem _ _ (by rw [List.length_zipWith]; omega), List.getElem_zipWith, hrow,
      List.getD_eq_getElem _ _ hko]

/-- C183: after the fit of a weight model, whose stored score is that of the own predictions, a feature without effect
has importance exactly zero in the first call, unless the score has overflowed. -/
theorem C183_global_zero (ha : a.Ok) (hs : SumsAll shape) {L : Learner K F} {g : PRng S} (hg : g.Valid)
    {d : FittedParts K F} {s : S} {R : Nat} {out : List (Num K) × List (List (Num K))}
    (hy : d.y.length = d.X.r) (ps : List K) (hps : OwnPredictions L d ps) (x : K)
    (hx : skR2R a shape d.y ps = .fin x)
    (h : importanceGlobalR a shape L g d (.fin x) none s R = .ok out) (k : Nat) (hk : k < d.X.c)
    (hno : NoEffect L d.X d.ests k) : out.1[k]? = some (.fin 0) := by
  have hR := (importanceGlobalR_ok hg hy h).1
  have := ((C183_global_draws hg hy h ps hps k hk hno).1 rfl).2
  rw [this, hx, sub_self_fin ha]
  congr 1
  refine meanNumR_zero ha hs _ (by simpa using hR) fun z hz => List.eq_of_mem_replicate hz

/-- C183: two features without effect have exactly the same importance, whatever score is stored (also after a
stacking fit, C113) and however it is rounded. -/
theorem C183_global_equal {L : Learner K F} {g : PRng S} (hg : g.Valid) {d : FittedParts K F} {score : Num K}
    {s : S} {R : Nat} {out : List (Num K) × List (List (Num K))}
    (hy : d.y.length = d.X.r) (h : importanceGlobalR a shape L g d score none s R = .ok out) (ps : List K)
    (hps : OwnPredictions L d ps) (k k' : Nat) (hk : k < d.X.c) (hk' : k' < d.X.c) (hno : NoEffect L d.X d.ests k)
    (hno' : NoEffect L d.X d.ests k') : out.1[k]? = out.1[k']? := by
  rw [((C183_global_draws hg hy h ps hps k hk hno).1 rfl).2, ((C183_global_draws hg hy h ps hps k' hk' hno').1 rfl).2]

/-- C183: if the stored score is 1 no feature has negative importance in the first call: each value is at least zero,
infinite or NaN. -/
theorem C183_global_nonneg (ha : a.Ok) (hs : SumsAll shape) {L : Learner K F} {g : PRng S} (hg : g.Valid)
    {d : FittedParts K F} {s : S} {R : Nat} {out : List (Num K) × List (List (Num K))} (hy : d.y.length = d.X.r)
    (h : importanceGlobalR a shape L g d (.fin 1) none s R = .ok out) : ∀ z ∈ out.1, z.NotNeg := by
  obtain ⟨hR, dec, hl, h1, -, h3⟩ := importanceGlobalR_ok hg hy h
  rw [h1 rfl]
  intro z hz
  obtain ⟨l, hl', rfl⟩ := List.mem_map.1 hz
  refine meanNumR_notNeg ha hs l fun w hw => ?_
  obtain ⟨k, hk, rfl⟩ := List.getElem_of_mem hl'
  obtain ⟨r, hr, rfl⟩ := List.getElem_of_mem hw
  obtain ⟨ps, hp, hpos, hval, -⟩ := (h3 k hk).2 r hr
  rw [hval]
  refine one_sub_notNeg ha (skR2R_atMostOne ha hs _ _ (by omega) fun h0 => ?_)
  rw [h0] at hy
  simp at hy
  omega

theorem takeColumn_predict {L : Learner K F} {f : F} {col : Nat}
    (hu : ∀ (row : List K) (v : K), L.predict f (row.set col v) = L.predict f row) (rows : List (List K)) (idx : List Nat) :
    (takeColumn rows col idx).map (L.predict f) = rows.map (L.predict f) := by
  refine List.ext_getElem (by simp [takeColumn]) fun i hi hi' => ?_
  have : i < rows.length := by simpa using hi'
  simp only [takeColumn, List.map_map, List.getElem_map, List.getElem_range, Function.comp]
  rw [hu, List.getD_eq_getElem _ _ this]

theorem shuffleScoresR_length {L : Learner K F} {g : PRng S} {f : F} {ys ws : List K} {col R : Nat} {s : S}
    {idx : List Nat} {rows : List (List K)} {l : List (Num K)}
    (h : shuffleScoresR a shape L g f ys ws col R s idx rows = .ok l) : l.length = R ∧
      ∀ z ∈ l, ∃ rows' : List (List K), weightedR2R a shape ys (rows'.map (L.predict f)) ws = .ok z := by
  induction R generalizing s idx rows l with
  | zero => cases h; simp
  | succ R ih =>
    rw [shuffleScoresR] at h
    split at h
    · cases h
    · rename_i v hv
      obtain ⟨l', hl', rfl⟩ := map_eq_ok h
      obtain ⟨i1, i2⟩ := ih hl'
      refine ⟨by simp [i1], fun z hz => ?_⟩
      rcases List.mem_cons.1 hz with rfl | hz
      · exact ⟨_, hv⟩
      · exact i2 z hz

theorem shuffleScoresR_unused {L : Learner K F} {g : PRng S} {f : F} {ys ws : List K} {col : Nat}
    (hu : ∀ (row : List K) (v : K), L.predict f (row.set col v) = L.predict f row) {R : Nat} {s : S}
    {idx : List Nat} {rows : List (List K)} {l : List (Num K)} {base : Num K}
    (hb : weightedR2R a shape ys (rows.map (L.predict f)) ws = .ok base)
    (h : shuffleScoresR a shape L g f ys ws col R s idx rows = .ok l) : ∀ z ∈ l, z = base := by
  induction R generalizing s idx rows l with
  | zero => cases h; simp
  | succ R ih =>
    rw [shuffleScoresR, takeColumn_predict hu, hb] at h
    obtain ⟨l', hl', rfl⟩ := map_eq_ok h
    intro z hz
    rcases List.mem_cons.1 hz with rfl | hz
    · rfl
    · exact ih (by rw [takeColumn_predict hu]; exact hb) hl' z hz

/-- C183: local importance of a feature the local model does not use. In every arithmetic and order of summation and
for all weights it is exactly zero, provided the score of the model is finite. -/
theorem C183_local_zero (ha : a.Ok) (hs : SumsAll shape) {L : Learner K F} {g : PRng S} {s : S} {f : F}
    {rows : List (List K)} {ys ws : List K} {nf R : Nat} {out : List (Num K)}
    (h : localImportanceR a shape L g s f rows ys ws nf R = .ok out) (hR : R ≠ 0) (x : K)
    (hx : weightedR2R a shape ys (rows.map (L.predict f)) ws = .ok (.fin x)) (col : Nat) (hc : col < nf)
    (hu : ∀ (row : List K) (v : K), L.predict f (row.set col v) = L.predict f row) :
    out[col]? = some (.fin 0) := by
  unfold localImportanceR at h
  split_ifs at h
  rw [hx] at h
  simp only at h
  have hl := mapE_length h
  rw [List.length_range] at hl
  have h1 := mapE_get h (i := col) (by simpa using hc)
  simp only [List.getElem_range] at h1
  obtain ⟨l, hl', he⟩ := map_eq_ok h1
  rw [List.getElem?_eq_getElem (by omega), he]
  have hne : l ≠ [] := by
    intro h0
    have := (shuffleScoresR_length hl').1
    rw [h0] at this
    exact hR this.symm
  rw [if_neg hne]
  congr 1
  refine meanNumR_zero ha hs _ (by simpa using hne) fun z hz => ?_
  obtain ⟨w, hw, rfl⟩ := List.mem_map.1 hz
  rw [shuffleScoresR_unused hu hx hl' w hw, sub_self_fin ha]

/-- C183: a local model that reproduces the targets of its neighbours has no negative importance, for weights that
are not negative: each value is at least zero, infinite or NaN. -/
theorem C183_local_nonneg (ha : a.Ok) (hs : SumsAll shape) {L : Learner K F} {g : PRng S} {s : S} {f : F}
    {rows : List (List K)} {ys ws : List K} {nf R : Nat} {out : List (Num K)}
    (h : localImportanceR a shape L g s f rows ys ws nf R = .ok out) (hw : ∀ w ∈ ws, 0 ≤ w)
    (hp : rows.map (L.predict f) = ys) (hn : 2 ≤ ys.length) : ∀ z ∈ out, z.NotNeg := by
  unfold localImportanceR at h
  split_ifs at h
  split at h
  · cases h
  · rename_i base hb
    rw [hp] at hb
    have hb1 := weightedR2R_perfect ha hs ys ws hn hb
    subst hb1
    intro z hz
    obtain ⟨col, hc, rfl⟩ := List.getElem_of_mem hz
    have hl := mapE_length h
    have h1 := mapE_get h (i := col) (by omega)
    obtain ⟨l, hl', he⟩ := map_eq_ok h1
    rw [he]
    split_ifs with h0
    · exact .inl rfl
    · refine meanNumR_notNeg ha hs _ fun w hw' => ?_
      obtain ⟨v, hv, rfl⟩ := List.mem_map.1 hw'
      obtain ⟨rows', hr⟩ := (shuffleScoresR_length hl').2 v hv
      exact one_sub_notNeg ha (weightedR2R_atMostOne ha hs _ _ _ hw hr)

end

section
variable {K F S : Type} [Field K] [LinearOrder K] [IsStrictOrderedRing K] [FloorRing K]

/-- NaN is `none` in the exact model. -/
def optNum : Option K → Num K
  | none => .nan
  | some x => .fin x

theorem sqDiff_exact (x y : K) : sqDiffR exactArith (.fin x) (.fin y) = .fin ((x - y) ^ 2) := by
  simp only [sqDiffR, Num.sub, Num.neg, Num.add, rnd_exact, Num.sq, Num.mul]
  congr 1
  ring

theorem weightedSum_exact (ws us : List K) :
    sumR exactArith leftTree (List.zipWith (fun w z => Num.rnd (exactArith : Arith K).op (.mul (.fin w) z)) ws
      (us.map Num.fin)) = .fin (List.zipWith (· * ·) ws us).sum := by
  rw [← sumR_exact, List.zipWith_map_right, List.map_zipWith]
  rfl

theorem weightedR2R_exact (ys ps ws : List K) :
    weightedR2R exactArith leftTree ys ps ws = (weightedR2 ys ps ws).map optNum := by
  unfold weightedR2R weightedR2
  by_cases h1 : ys.length ≠ ps.length ∨ ws.length ≠ ps.length
  · simp only [h1, if_true, Except.map]
  · by_cases h2 : ps.length < 2
    · simp only [h1, h2, if_true, if_false, Except.map, optNum]
    · simp only [h1, h2, if_false]
      rw [npAverageR_exact, npAverage]
      by_cases h3 : ws.sum = 0
      · simp only [h3, if_true, Except.map]
      · simp only [h3, if_false, Except.map]
        have e1 : List.zipWith (fun y p => sqDiffR exactArith (.fin y) (.fin p)) ys ps =
            (List.zipWith (fun y p => (y - p) ^ 2) ys ps).map Num.fin := by
          rw [List.map_zipWith]
          simp only [sqDiff_exact]
        have e2 : ∀ m : K, (ys.map fun y => sqDiffR exactArith (.fin y) (.fin m)) =
            (ys.map fun y => (y - m) ^ 2).map Num.fin := by
          intro m
          rw [List.map_map]
          simp only [sqDiff_exact]
          rfl
        have e3 : ((ws.zip (ys.zip ps)).map fun e => e.1 * (e.2.1 - e.2.2) ^ 2) =
            List.zipWith (· * ·) ws (List.zipWith (fun y p => (y - p) ^ 2) ys ps) := by
          refine List.ext_getElem (by simp) fun i _ _ => ?_
          simp
        have e4 : ∀ m : K, ((ws.zip ys).map fun e => e.1 * (e.2 - m) ^ 2) =
            List.zipWith (· * ·) ws (ys.map fun y => (y - m) ^ 2) := by
          intro m
          simp [List.zip, List.map_zipWith, List.zipWith_map_right]
        have e5 : ((ws.zip ys).map fun e => e.1 * e.2) = List.zipWith (· * ·) ys ws := by
          rw [List.zip, List.map_zipWith, List.zipWith_comm]
          simp [mul_comm]
        rw [e1, e2, weightedSum_exact, weightedSum_exact, e3, e4, e5]
        generalize (List.zipWith (· * ·) ws (List.zipWith (fun y p => (y - p) ^ 2) ys ps)).sum = num
        generalize (List.zipWith (· * ·) ws (ys.map fun y => (y - (List.zipWith (· * ·) ys ws).sum / ws.sum) ^ 2)).sum = den
        by_cases hn : num = 0 <;> by_cases hd : den = 0 <;>
          simp [hn, hd, optNum, Num.div, Num.sub, Num.neg, Num.add, rnd_exact, sub_eq_add_neg]

theorem shuffleScoresR_exact (L : Learner K F) (g : PRng S) (f : F) (ys ws : List K) (col R : Nat) (s : S)
    (idx : List Nat) (rows : List (List K)) :
    shuffleScoresR exactArith leftTree L g f ys ws col R s idx rows =
      (shuffleScores L g f ys ws col R s idx rows).map (List.map optNum) := by
  induction R generalizing s idx rows with
  | zero => rfl
  | succ R ih =>
    rw [shuffleScoresR, shuffleScores, weightedR2R_exact, scoreRows, ih]
    cases weightedR2 ys ((takeColumn rows col (shuffleList g s idx).1).map (L.predict f)) ws with
    | error e => rfl
    | ok v =>
      simp only [Except.map]
      cases shuffleScores L g f ys ws col R (shuffleList g s idx).2 (shuffleList g s idx).1
        (takeColumn rows col (shuffleList g s idx).1) <;> rfl

theorem meanNumR_exact (l : List K) (hl : l ≠ []) :
    meanNumR exactArith leftTree (l.map Num.fin) = .fin (meanL l) := by
  have hn : (l.length : K) ≠ 0 := Nat.cast_ne_zero.2 (List.length_pos_iff.2 hl).ne'
  rw [meanNumR, sumR_exact, List.length_map, meanL]
  simp only [Num.div, hn, if_false, rnd_exact]

theorem leftTree_nan (a : Arith K) (l : List (Num K)) (h : Num.nan ∈ l) : (leftTree l).value a = .nan := by
  have key : ∀ t : SumTree K, Num.nan ∈ t.leaves → t.value a = .nan := by
    intro t ht
    induction t with
    | leaf x =>
      rw [SumTree.leaves, List.mem_singleton] at ht
      rw [SumTree.value, ← ht]
    | node u v ihu ihv =>
      rw [SumTree.leaves, List.mem_append] at ht
      rw [SumTree.value]
      rcases ht with ht | ht
      · rw [ihu ht]; rfl
      · rw [ihv ht]
        cases u.value a <;> rfl
  have hne : l ≠ [] := List.ne_nil_of_mem h
  exact key _ (((C175_ieee (K := K) double double_ok).2.2.1 l hne).mem_iff.2 h)

theorem featureImportanceR_exact (L : Learner K F) (g : PRng S) (f : F) (rows : List (List K)) (ys ws : List K) (R : Nat)
    (s : S) (base : Option K) (col : Nat) :
    featureImportanceR exactArith leftTree L g f rows ys ws R s (optNum base) col =
      (featureImportance L g f rows ys ws R s base col).map optNum := by
  unfold featureImportanceR featureImportance
  rw [shuffleScoresR_exact]
  cases shuffleScores L g f ys ws col R s (List.range rows.length) rows with
  | error e => rfl
  | ok l =>
    simp only [Except.map, Except.ok.injEq, List.map_eq_nil_iff, List.map_map]
    unfold optMean
    have hsub : (fun v => Num.rnd (exactArith : Arith K).op (.sub (optNum base) (optNum v))) =
        fun v => optNum (optSub base v) := by
      funext v
      rcases base with _ | x <;> rcases v with _ | y
      · rfl
      · rfl
      · rfl
      · simp [optNum, optSub, Num.sub, Num.neg, Num.add, rnd_exact, sub_eq_add_neg]
    by_cases h0 : l = []
    · simp [h0, optNum]
    · rw [if_neg h0]
      have h1 : l.map ((fun v => Num.rnd (exactArith : Arith K).op (.sub (optNum base) v)) ∘ optNum) =
          (l.map (optSub base)).map optNum := by
        rw [List.map_map]
        exact congrArg (fun h => l.map h) hsub
      rw [h1]
      by_cases hn : none ∈ l.map (optSub base)
      · rw [if_pos (.inr hn)]
        have hm : (Num.nan : Num K) ∈ (l.map (optSub base)).map optNum := List.mem_map.2 ⟨none, hn, rfl⟩
        rw [meanNumR, sumR, if_neg (List.ne_nil_of_mem hm), leftTree_nan _ _ hm]
        rfl
      · rw [if_neg (by simpa [h0] using hn)]
        have h2 : (l.map (optSub base)).map optNum =
            ((l.map (optSub base)).map fun v => v.getD 0).map Num.fin := by
          rw [List.map_map (l := l.map (optSub base))]
          refine List.map_congr_left fun v hv => ?_
          cases v with
          | none => exact absurd hv hn
          | some x => rfl
        rw [h2, meanNumR_exact _ (by simpa using h0)]
        rfl

/-- C183: with exact arithmetic, and sums from left to right, the rounded local importance is that of C84. -/
theorem C183_exact (L : Learner K F) (g : PRng S) (s : S) (f : F) (rows : List (List K)) (ys ws : List K) (nf R : Nat) :
    localImportanceR exactArith leftTree L g s f rows ys ws nf R =
      (localImportance L g s f rows ys ws nf R).map (List.map optNum) := by
  unfold localImportanceR localImportance
  by_cases h : rows = []
  · simp only [h, if_true, Except.map]
  · simp only [h, if_false]
    rw [weightedR2R_exact, scoreRows]
    cases weightedR2 ys (rows.map (L.predict f)) ws with
    | error e => rfl
    | ok base =>
      refine Eq.trans ?_ (mapE_except_map _ optNum _)
      show mapE (featureImportanceR exactArith leftTree L g f rows ys ws R s (optNum base)) (List.range nf) = _
      congr 1
      funext col
      exact featureImportanceR_exact L g f rows ys ws R s base col

theorem permDecreaseR_exact (d : FittedParts K F) (R : Nat) (table : List (List K)) (f r : Nat) :
    permDecreaseR exactArith leftTree d.y (.fin d.score) R table f r = (permDecrease d R table f r).map Num.fin := by
  unfold permDecreaseR permDecrease
  by_cases h1 : table.length = 1
  · simp [h1, skR2, Except.map]
  · by_cases h2 : d.y.length ≠ table.length ∨ table.length = 0
    · simp only [h1, h2, if_false, if_true, skR2, List.length_map, Except.map]
    · simp only [h1, h2, if_false]
      push Not at h2
      obtain ⟨v, hv, hv'⟩ := skR2R_exact d.y (table.map fun row => row.getD (f * R + r) 0) (by simpa using h2.1) (by omega)
      rw [hv, hv']
      simp [Except.map, Num.sub, Num.neg, Num.add, rnd_exact, sub_eq_add_neg]

theorem permDecreasesR_exact (L : Learner K F) (d : FittedParts K F) (perms : List (List Nat)) (R : Nat) :
    permDecreasesR exactArith leftTree L d (.fin d.score) perms R =
      (permDecreases L d perms R).map (List.map (List.map Num.fin)) := by
  unfold permDecreasesR permDecreases
  cases mapE (permPredict L d perms R) (List.range d.X.r) with
  | error e => rfl
  | ok table =>
    refine Eq.trans ?_ (mapE_except_map _ (List.map Num.fin) _)
    show mapE (fun f => mapE (permDecreaseR exactArith leftTree d.y (.fin d.score) R table f) (List.range R)) _ = _
    congr 1
    funext f
    rw [← mapE_except_map]
    congr 1
    funext r
    exact permDecreaseR_exact d R table f r

/-- C183: with exact arithmetic, and sums from left to right, the rounded global importance is that of C46 and C47. -/
theorem C183_global_exact {C : Type} (L : Learner K F) (g : PRng S) (p : WMParams K C) (st : WMState K F C) (s : S)
    (R : Nat) (d : FittedParts K F) (hp : p.cacheData = true) (hp' : p.cacheEstimator = true)
    (hd : fittedParts st = .ok d) :
    (importanceGlobalR exactArith leftTree L g d (.fin d.score) (st.permDecrease.map (List.map (List.map Num.fin))) s R).map
      (·.1) = (importanceGlobal L g p st s R).result.map (List.map Num.fin) := by
  unfold importanceGlobalR importanceGlobal
  simp only [hp, hp', hd, Bool.not_true, Bool.or_self, Bool.false_eq_true, if_false]
  by_cases hR : R = 0
  · simp only [hR, if_true, Except.map]
  · simp only [hR, if_false]
    rw [permDecreasesR_exact]
    cases hdec : permDecreases L d (drawPerms g d.X.r (d.X.c * R) s).1 R with
    | error e => rfl
    | ok dec =>
      have hrows : ∀ l ∈ dec, l ≠ [] := by
        unfold permDecreases at hdec
        cases ht : mapE (permPredict L d (drawPerms g d.X.r (d.X.c * R) s).1 R) (List.range d.X.r) with
        | error e => rw [ht] at hdec; cases hdec
        | ok table =>
          rw [ht] at hdec
          change mapE (fun f => mapE (permDecrease d R table f) (List.range R)) (List.range d.X.c) = .ok dec at hdec
          intro l hl h0
          obtain ⟨k, hk, rfl⟩ := List.getElem_of_mem hl
          have h1 := mapE_get hdec (i := k) (by have := mapE_length hdec; omega)
          have h2 := mapE_length h1
          rw [h0] at h2
          simp at h2
          omega
      have hmean : ∀ l : List K, l ≠ [] → meanNumR exactArith leftTree (l.map Num.fin) = .fin (meanL l) :=
        fun l hl => meanNumR_exact l hl
      cases ho : st.permDecrease with
      | none =>
        simp only [Except.map, Option.map_none, appendTrials, List.map_map]
        congr 1
        exact List.map_congr_left fun l hl => hmean l (hrows l hl)
      | some o =>
        simp only [Except.map, Option.map_some, appendTrials, List.length_map]
        by_cases hl : o.length = dec.length
        · simp only [hl, if_true]
          congr 1
          have : List.zipWith (· ++ ·) (o.map (List.map Num.fin)) (dec.map (List.map Num.fin)) =
              (List.zipWith (· ++ ·) o dec).map (List.map (Num.fin : K → Num K)) := by
            rw [List.zipWith_map, List.map_zipWith]
            simp only [List.map_append]
          rw [this, List.map_map, List.map_map]
          refine List.map_congr_left fun l hl => hmean l ?_
          obtain ⟨k, hk, rfl⟩ := List.getElem_of_mem hl
          rw [List.getElem_zipWith]
          intro h0
          exact hrows _ (List.getElem_mem _) (List.append_eq_nil_iff.1 h0).2
        · simp only [hl, if_false]

end

/-- Four observations with two features. The local model at each location is a number, its constant prediction. -/
def impParts : FittedParts ℚ ℚ := ⟨⟨4, 2, fun i j => (i : ℚ) + j⟩, [0, 1, 2, 3], 0, [some 0, some 1, some 2, some 3]⟩

/-- Regressors that predict a constant. -/
def constRegressor : Learner ℚ ℚ := ⟨fun _ _ ys _ => .ok (ys.headD 0), fun f _ => f⟩

/-- A generator that turns the order round. -/
def reverseGen : PRng Unit := ⟨fun s n => ((List.range n).reverse, s)⟩

theorem reverseGen_valid : reverseGen.Valid := fun _ _ => List.reverse_perm _

/-- C183: when the stored score is not that of the own predictions (a stacking fit stores the score of its base
regressors, C113), the importance of a feature without effect depends on the number of repetitions although every
repetition gives the same decrease: with a stored score of 0.2 and perfect predictions it is -0.8 after one repetition
and one unit in the last place less after three. -/
theorem C183_repetitions :
    NoEffect constRegressor impParts.X impParts.ests 0 ∧
    ((importanceGlobalR double.arith leftTree constRegressor reverseGen impParts (.fin (2 * tenth)) none () 1).toOption.map
      fun r => r.1) = some [.fin (double.round (-4 / 5)), .fin (double.round (-4 / 5))] ∧
    ((importanceGlobalR double.arith leftTree constRegressor reverseGen impParts (.fin (2 * tenth)) none () 3).toOption.map
      fun r => r.1) = some [.fin (double.round (-4 / 5) - 1 / 2 ^ 53), .fin (double.round (-4 / 5) - 1 / 2 ^ 53)] :=
  ⟨fun _ _ _ _ _ _ => rfl, by decide +kernel, by decide +kernel⟩

/-- The hypotheses of the theorems on global importance hold: the own predictions are perfect, score 1. -/
example : reverseGen.Valid ∧ impParts.y.length = impParts.X.r ∧ OwnPredictions constRegressor impParts [0, 1, 2, 3] ∧
    skR2R double.arith leftTree impParts.y [0, 1, 2, 3] = .fin 1 ∧
    ((importanceGlobalR double.arith leftTree constRegressor reverseGen impParts (.fin 1) none () 3).toOption.map
      fun r => r.1) = some [.fin 0, .fin 0] := by
  refine ⟨reverseGen_valid, rfl, ⟨rfl, fun i hi => ?_⟩, by decide +kernel, by decide +kernel⟩
  match i, hi with
  | 0, _ => exact ⟨_, rfl, rfl⟩
  | 1, _ => exact ⟨_, rfl, rfl⟩
  | 2, _ => exact ⟨_, rfl, rfl⟩
  | 3, _ => exact ⟨_, rfl, rfl⟩
  | i + 4, hi => exact absurd hi (Nat.not_lt.2 (Nat.le_add_left 4 i))

/-- A local model that predicts its first feature. -/
def firstFeature : Learner ℚ Unit := ⟨fun _ _ _ _ => .ok (), fun _ row => row.getD 0 0⟩

/-- The hypotheses of the theorems on local importance hold, and the feature that is used has positive importance. -/
example : (∀ (row : List ℚ) (v : ℚ), firstFeature.predict () (row.set 1 v) = firstFeature.predict () row) ∧
    [[0, 5], [1, 7], [3, 6]].map (firstFeature.predict ()) = [0, 1, 3] ∧
    (weightedR2R double.arith leftTree [0, 1, 3] [0, 1, 3] [tenth, 1, 1 / 2]).toOption = some (.fin 1) ∧
    okAnd (localImportanceR double.arith leftTree firstFeature reverseGen () () [[0, 5], [1, 7], [3, 6]] [0, 1, 3]
      [tenth, 1, 1 / 2] 2 1) (fun r => match r with | [.fin u, .fin v] => decide (0 < u ∧ v = 0) | _ => false) = true := by
  refine ⟨fun row v => ?_, rfl, by decide +kernel, by decide +kernel⟩
  cases row <;> rfl

end Geo
