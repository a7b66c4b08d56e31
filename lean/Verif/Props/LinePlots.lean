import Verif.Props.Scatter
set_option linter.unusedSectionVars false
/-
Plots of partial dependence lines: which lines are drawn, with which labels and styles; clustering of
lines; camera position.
-/
namespace Geo
variable {K : Type} [Field K] [LinearOrder K] [IsStrictOrderedRing K] [FloorRing K]
  {S Col : Type}

/-! ### Lines in three dimensions -/

theorem lineFigure_ok {cmap : Num K → Col} {lines : List (Line K)} {temporal : List K}
    {labels : Option (List ℤ)} {idx : List Nat} {fig : LineFig K Col}
    (h : lineFigure cmap lines temporal labels idx = .ok fig) :
    ∃ ls ts labs cs, gather lines idx = .ok ls ∧ gather temporal idx = .ok ts ∧
      gatherLabels labels idx = .ok labs ∧ lineColours cmap ts labs = .ok cs ∧
      (∀ l ∈ ls, l.1 ≠ [] ∧ l.2 ≠ []) ∧
      rangeMargin (some ts) none none (1 / 20) = .ok fig.xRange ∧
      rangeMargin none (some (minOf (ls.map fun l => minOf l.1)))
        (some (maxOf (ls.map fun l => maxOf l.1))) (1 / 20) = .ok fig.yRange ∧
      rangeMargin none (some (minOf (ls.map fun l => minOf l.2)))
        (some (maxOf (ls.map fun l => maxOf l.2))) (1 / 20) = .ok fig.zRange ∧
      fig.lines = (List.range idx.length).map (lineTrace idx ls ts cs labs) := by
  unfold lineFigure at h
  simp only [bind, Except.bind] at h
  cases h1 : gather lines idx with
  | error e => rw [h1] at h; cases h
  | ok ls =>
  cases h2 : gather temporal idx with
  | error e => rw [h1, h2] at h; cases h
  | ok ts =>
  cases h3 : gatherLabels labels idx with
  | error e => rw [h1, h2, h3] at h; cases h
  | ok labs =>
  rw [h1, h2, h3] at h
  simp only at h
  cases h4 : lineColours cmap ts labs with
  | error e => rw [h4] at h; cases h
  | ok cs =>
  rw [h4] at h
  simp only at h
  split at h
  · cases h
  rename_i hany
  cases h5 : rangeMargin (some ts) none none (1 / 20) with
  | error e => rw [h5] at h; cases h
  | ok xr =>
  cases h6 : rangeMargin none (some (minOf (ls.map fun l => minOf l.1)))
      (some (maxOf (ls.map fun l => maxOf l.1))) (1 / 20) with
  | error e => rw [h5, h6] at h; cases h
  | ok yr =>
  cases h7 : rangeMargin none (some (minOf (ls.map fun l => minOf l.2)))
      (some (maxOf (ls.map fun l => maxOf l.2))) (1 / 20) with
  | error e => rw [h5, h6, h7] at h; cases h
  | ok zr =>
  rw [h5, h6, h7] at h
  injection h with h
  subst h
  refine ⟨ls, ts, labs, cs, rfl, rfl, rfl, h4, fun l hl => ?_, h5, h6, h7, rfl⟩
  simp only [List.any_eq_true, decide_eq_true_eq, not_exists, not_and, not_or] at hany
  exact hany l hl

theorem legendFlags_get {labels : List ℤ} {k : Nat} {v : ℤ} (h : labels[k]? = some v) :
    (legendFlags labels)[k]? = some (decide (∀ j < k, labels[j]? ≠ some v)) := by
  obtain ⟨hk, rfl⟩ := List.getElem?_eq_some_iff.1 h
  unfold legendFlags
  rw [List.getElem?_map, List.getElem?_range hk, Option.map_some]
  refine congrArg some (decide_eq_decide.2 ?_)
  rw [List.getD_eq_getElem?_getD, h, Option.getD_some, List.mem_take_iff_getElem]
  constructor
  · intro hn j hj e
    obtain ⟨hj', e⟩ := List.getElem?_eq_some_iff.1 e
    exact hn ⟨j, by omega, e⟩
  · rintro hall ⟨j, hj, e⟩
    exact hall j (by omega) (by rw [List.getElem?_eq_getElem (by omega), e])

/-- C101: `partial_plot_3d` draws one line per selected row. The trace has that row's line at that
row's time slice, names that row's cluster, and its hover text shows that row's index. The legend has
an entry for exactly the first line of each cluster drawn. -/
theorem C101_lines (rng : Rng S) (seeded : Nat → S) (near : Nat → K → Nat) (s s' : S)
    (cmap : Num K → Col) (lines : List (Line K)) (temporal : List K) (labels : Option (List ℤ))
    (size : Option (Count K)) (quantile : Option (List K)) (fig : LineFig K Col)
    (h : partialPlot3d rng seeded near s cmap lines temporal labels size quantile = (.ok fig, s')) :
    ∃ idx, samplePartial rng seeded near s lines size quantile labels (some 1003) = (.ok idx, s') ∧
      fig.lines.length = idx.length ∧
      ∀ (k i : Nat), idx[k]? = some i → ∃ t l u, fig.lines[k]? = some t ∧
        lines[i]? = some l ∧ temporal[i]? = some u ∧
        t.index = i ∧ t.y = l.1 ∧ t.z = l.2 ∧ t.x.length = l.1.length ∧ (∀ a ∈ t.x, a = u) ∧
        t.name = labels.bind (·[i]?) ∧
        (t.legend = true ↔ labels.isSome = true ∧
          ∀ j t', j < k → fig.lines[j]? = some t' → t'.name ≠ t.name) := by
  unfold partialPlot3d at h
  split at h
  · cases h
  rename_i idx s'' hs
  injection h with h1 h2
  subst h2
  obtain ⟨ls, ts, labs, cs, g1, g2, g3, g4, -, -, -, -, hl⟩ := lineFigure_ok h1
  refine ⟨idx, hs, by rw [hl]; simp, fun k i hk => ?_⟩
  obtain ⟨hk', -⟩ := List.getElem?_eq_some_iff.1 hk
  obtain ⟨e1, hi1⟩ := (gather_get g1).2 k i hk
  obtain ⟨e2, hi2⟩ := (gather_get g2).2 k i hk
  have hname : ∀ (j i' : Nat), idx[j]? = some i' → labs.bind (·[j]?) = labels.bind (·[i']?) := by
    intro j i' hj
    cases labels with
    | none => cases g3; rfl
    | some lb =>
      simp only [gatherLabels] at g3
      cases hg : gather lb idx with
      | error e => rw [hg] at g3; cases g3
      | ok r =>
        rw [hg] at g3
        injection g3 with g3
        subst g3
        exact ((gather_get hg).2 j i' hj).1
  have htr : ∀ (j : Nat), j < idx.length → fig.lines[j]? = some (lineTrace idx ls ts cs labs j) := by
    intro j hj
    rw [hl, List.getElem?_map, List.getElem?_range hj]
    rfl
  refine ⟨lineTrace idx ls ts cs labs k, lines[i], temporal[i], htr k hk',
    List.getElem?_eq_getElem hi1, List.getElem?_eq_getElem hi2, ?_, ?_, ?_, ?_, ?_, ?_, ?_⟩
  · simp [lineTrace, hk]
  · simp [lineTrace, e1, hi1]
  · simp [lineTrace, e1, hi1]
  · simp [lineTrace, e1, hi1]
  · intro a ha
    simp only [lineTrace, List.getD_eq_getElem?_getD, e2, List.getElem?_eq_getElem hi2,
      Option.getD_some] at ha
    exact List.eq_of_mem_replicate ha
  · exact hname k i hk
  · cases labels with
    | none =>
      cases g3
      simp [lineTrace]
    | some lb =>
      simp only [gatherLabels] at g3
      cases hg : gather lb idx with
      | error e => rw [hg] at g3; cases g3
      | ok r =>
        rw [hg] at g3
        injection g3 with g3
        subst g3
        have hr : r.length = idx.length := (gather_get hg).1
        have hrk : r[k]? = some (r[k]'(by omega)) := List.getElem?_eq_getElem (by omega)
        have hn : ∀ (j : Nat), (lineTrace idx ls ts cs (some r) j).name = r[j]? := fun j => rfl
        have hlg : (lineTrace idx ls ts cs (some r) k).legend =
            decide (∀ j < k, r[j]? ≠ some (r[k]'(by omega))) := by
          simp only [lineTrace, Option.bind_some, legendFlags_get hrk, Option.getD_some]
        rw [hlg, decide_eq_true_eq]
        simp only [Option.isSome_some, true_and]
        constructor
        · intro hall j t' hj ht'
          rw [htr j (by omega)] at ht'
          injection ht' with ht'
          subst ht'
          rw [hn, hn, hrk]
          exact hall j hj
        · intro hall j hj
          have := hall j _ hj (htr j (by omega))
          rwa [hn, hn, hrk] at this

/-- C101: the axis ranges contain every drawn line. -/
theorem C101_ranges (cmap : Num K → Col) (lines : List (Line K)) (temporal : List K)
    (labels : Option (List ℤ)) (idx : List Nat) (fig : LineFig K Col)
    (h : lineFigure cmap lines temporal labels idx = .ok fig) (t : LineTrace K Col)
    (ht : t ∈ fig.lines) :
    (∀ a ∈ t.x, fig.xRange.1 ≤ a ∧ a ≤ fig.xRange.2) ∧
      (∀ a ∈ t.y, fig.yRange.1 ≤ a ∧ a ≤ fig.yRange.2) ∧
      (∀ a ∈ t.z, fig.zRange.1 ≤ a ∧ a ≤ fig.zRange.2) := by
  obtain ⟨ls, ts, labs, cs, g1, g2, -, -, hne, hx, hy, hz, hl⟩ := lineFigure_ok h
  rw [hl] at ht
  obtain ⟨k, hk, rfl⟩ := List.mem_map.1 ht
  have hk : k < idx.length := List.mem_range.1 hk
  have hk1 : k < ls.length := (gather_get g1).1 ▸ hk
  have hk2 : k < ts.length := (gather_get g2).1 ▸ hk
  have hmem : ls[k] ∈ ls := List.getElem_mem hk1
  have key : ∀ (f : Line K → List K) (r : K × K), (∀ l ∈ ls, f l ≠ []) →
      rangeMargin none (some (minOf (ls.map fun l => minOf (f l))))
        (some (maxOf (ls.map fun l => maxOf (f l)))) (1 / 20) = .ok r →
      ∀ a ∈ f ls[k], r.1 ≤ a ∧ a ≤ r.2 := by
    intro f r hf hr a ha
    injection hr with hr
    subst hr
    have hls : ls ≠ [] := List.ne_nil_of_mem hmem
    have n1 : (ls.map fun l => minOf (f l)) ≠ [] := by simpa using hls
    have n2 : (ls.map fun l => maxOf (f l)) ≠ [] := by simpa using hls
    have a1 : minOf (ls.map fun l => minOf (f l)) ≤ a :=
      ((minOf_isLeast n1).2 (List.mem_map.2 ⟨_, hmem, rfl⟩)).trans
        ((minOf_isLeast (hf _ hmem)).2 ha)
    have a2 : a ≤ maxOf (ls.map fun l => maxOf (f l)) :=
      ((maxOf_isGreatest (hf _ hmem)).2 ha).trans
        ((maxOf_isGreatest n2).2 (List.mem_map.2 ⟨_, hmem, rfl⟩))
    constructor <;> simp only <;> linarith
  refine ⟨fun a ha => ?_, fun a ha => ?_, fun a ha => ?_⟩
  · have e : a = ts[k] := by
      simp only [lineTrace, List.getD_eq_getElem?_getD, List.getElem?_eq_getElem hk2,
        Option.getD_some] at ha
      exact List.eq_of_mem_replicate ha
    have hts : ts ≠ [] := List.ne_nil_of_mem (List.getElem_mem hk2)
    obtain ⟨p, q, h1, h2, -⟩ := C71_range ts hts none none (1 / 20) (by norm_num)
    rw [hx] at h1
    injection h1 with h1
    rw [h1, e]
    exact h2 _ (List.getElem_mem hk2)
  · simp only [lineTrace, List.getD_eq_getElem?_getD, List.getElem?_eq_getElem hk1,
      Option.getD_some] at ha
    exact key (·.1) _ (fun l hl => (hne l hl).1) hy a ha
  · simp only [lineTrace, List.getD_eq_getElem?_getD, List.getElem?_eq_getElem hk1,
      Option.getD_some] at ha
    exact key (·.2) _ (fun l hl => (hne l hl).2) hz a ha

theorem partialsPlot3d_get (rng : Rng S) (seeded : Nat → S) (near : Nat → K → Nat)
    (cmap : Num K → Col) (temporal : List K) (labels : Option ClusterArg)
    (size : Option (Count K)) (quantile : Option (List K)) (features : List (List (Line K))) :
    ∀ (s s' : S) (k : Nat) (figs : List (LineFig K Col)),
    partialsPlot3d rng seeded near cmap temporal labels size quantile s k features = (.ok figs, s') →
    figs.length = features.length ∧ ∀ (a : Nat) lines, features[a]? = some lines →
      ∃ labs fig s₁ s₂, featureLabels labels (k + a) = .ok labs ∧ figs[a]? = some fig ∧
        partialPlot3d rng seeded near s₁ cmap lines temporal labs size quantile = (.ok fig, s₂) := by
  induction features with
  | nil =>
    intro s s' k figs h
    simp only [partialsPlot3d] at h
    injection h with h
    injection h with h
    subst h
    simp
  | cons l rest ih =>
    intro s s' k figs h
    simp only [partialsPlot3d] at h
    split at h
    · cases h
    rename_i labs hlabs
    split at h
    · cases h
    rename_i fig s₂ hfig
    split at h
    · cases h
    rename_i figs' s₃ hfigs
    injection h with h
    injection h with h
    subst h
    obtain ⟨i1, i2⟩ := ih _ _ _ _ hfigs
    refine ⟨by simp [i1], fun a lines ha => ?_⟩
    cases a with
    | zero =>
      simp only [List.getElem?_cons_zero, Option.some.injEq] at ha
      subst ha
      exact ⟨labs, fig, s, s₂, hlabs, rfl, hfig⟩
    | succ a =>
      simp only [List.getElem?_cons_succ] at ha
      obtain ⟨labs', fig', s₁, s₂', j1, j2, j3⟩ := i2 a lines ha
      exact ⟨labs', fig', s₁, s₂', by rw [← j1]; congr 1; omega, by simpa using j2, j3⟩

/-- C101: `partials_plot_3d` makes one figure per feature, each what `partial_plot_3d` makes of that
feature. -/
theorem C101_per_feature (rng : Rng S) (seeded : Nat → S) (near : Nat → K → Nat)
    (cmap : Num K → Col) (temporal : List K) (labels : Option ClusterArg)
    (size : Option (Count K)) (quantile : Option (List K)) (features : List (List (Line K)))
    (s s' : S) (figs : List (LineFig K Col))
    (h : partialsPlot3d rng seeded near cmap temporal labels size quantile s 0 features =
      (.ok figs, s')) :
    figs.length = features.length ∧ ∀ (a : Nat) lines, features[a]? = some lines →
      ∃ labs fig, featureLabels labels a = .ok labs ∧ figs[a]? = some fig ∧
        ∀ s₁, (partialPlot3d rng seeded near s₁ cmap lines temporal labs size quantile).1 = .ok fig := by
  obtain ⟨h1, h2⟩ := partialsPlot3d_get rng seeded near cmap temporal labels size quantile features _ _
    _ _ h
  refine ⟨h1, fun a lines ha => ?_⟩
  obtain ⟨labs, fig, s₁, s₂, j1, j2, j3⟩ := h2 a lines ha
  refine ⟨labs, fig, by rw [← j1, Nat.zero_add], j2, fun s₃ => ?_⟩
  have e : partialPlot3d rng seeded near s₃ cmap lines temporal labs size quantile =
      partialPlot3d rng seeded near s₁ cmap lines temporal labs size quantile := rfl
  rw [e, j3]

/-- C101: with a sample size and one cluster vector for all features (or none) the same rows are drawn
for every feature, because every figure draws its sample with the same seed. -/
theorem C101_same_rows (rng : Rng S) (seeded : Nat → S) (near : Nat → K → Nat)
    (cmap : Num K → Col) (temporal : List K) (labels : Option (List ℤ)) (size : Count K)
    (features : List (List (Line K))) (N : Nat) (hN : ∀ f ∈ features, f.length = N)
    (s s' : S) (figs : List (LineFig K Col))
    (h : partialsPlot3d rng seeded near cmap temporal (labels.map .merged) (some size) none s 0
      features = (.ok figs, s')) :
    ∃ rows : List Nat, ∀ fig ∈ figs, fig.lines.map (·.index) = rows := by
  obtain ⟨h1, h2⟩ := partialsPlot3d_get rng seeded near cmap temporal _ (some size) none features _ _
    _ _ h
  refine ⟨((sampleLines rng (seeded 1003) N size labels).1.toOption).getD [], fun fig hfig => ?_⟩
  obtain ⟨a, ha, rfl⟩ := List.getElem_of_mem hfig
  obtain ⟨labs, fig, s₁, s₂, j1, j2, j3⟩ := h2 a _ (List.getElem?_eq_getElem (h1 ▸ ha))
  rw [List.getElem?_eq_getElem ha] at j2
  have j2 := Option.some.inj j2
  have hlabs : labs = labels := by
    cases labels with
    | none => exact (Except.ok.inj j1).symm
    | some l => exact (Except.ok.inj j1).symm
  obtain ⟨idx, g1, g2, g3⟩ := C101_lines rng seeded near s₁ s₂ cmap _ temporal labs (some size) none fig j3
  have e : sampleLines rng (seeded 1003) N size labels = (.ok idx, s₂) := by
    rw [← g1, hlabs]
    simp only [samplePartial, startState, hN _ (List.getElem_mem _)]
  rw [e, j2]
  apply List.ext_getElem (by simp [g2, Except.toOption])
  intro k k1 k2
  have hk : k < idx.length := by simpa [Except.toOption] using k2
  obtain ⟨t, l, u, t1, -, -, t2, -⟩ := g3 k _ (List.getElem?_eq_getElem hk)
  obtain ⟨t3, t4⟩ := List.getElem?_eq_some_iff.1 t1
  simp [Except.toOption, t4, t2]

/-! ### Styles of lines -/

/-- C102: the opacity or width of a line lies in the given range and does not decrease with the size of
its cluster; if all clusters have the same size every line gets the upper end. -/
theorem C102_style (logistic power : K → K) (hlog : ∀ a b, a ≤ b → logistic a ≤ logistic b)
    (hlog1 : ∀ a, 0 ≤ logistic a ∧ logistic a ≤ 1)
    (hpow : ∀ a b, 0 ≤ a → a ≤ b → b ≤ 1 → power a ≤ power b)
    (hpow1 : ∀ a, 0 ≤ a → a ≤ 1 → 0 ≤ power a ∧ power a ≤ 1) (useSigmoid : Bool) (lo hi : K)
    (hle : lo ≤ hi) (labels : List ℤ) (i j : Nat) (v w : ℤ) (hi' : labels[i]? = some v)
    (hj' : labels[j]? = some w) :
    (lo ≤ lineStyle logistic power useSigmoid lo hi labels i ∧
      lineStyle logistic power useSigmoid lo hi labels i ≤ hi) ∧
    (labels.count v ≤ labels.count w →
      lineStyle logistic power useSigmoid lo hi labels i ≤
        lineStyle logistic power useSigmoid lo hi labels j) ∧
    ((∀ a ∈ labels, ∀ b ∈ labels, labels.count a = labels.count b) →
      lineStyle logistic power useSigmoid lo hi labels i = hi) := by
  have hN : (0 : K) < (labels.length : K) := by
    have := (List.getElem?_eq_some_iff.1 hi').1
    exact_mod_cast (by omega : 0 < labels.length)
  have frac : ∀ u, 0 ≤ (labels.count u : K) / (labels.length : K) ∧
      (labels.count u : K) / (labels.length : K) ≤ 1 := by
    intro u
    refine ⟨div_nonneg (Nat.cast_nonneg _) hN.le, ?_⟩
    rw [div_le_one hN]
    exact_mod_cast List.count_le_length
  have fmono : ∀ u u', labels.count u ≤ labels.count u' →
      (labels.count u : K) / (labels.length : K) ≤ (labels.count u' : K) / (labels.length : K) :=
    fun u u' h => div_le_div_of_nonneg_right (by exact_mod_cast h) hN.le
  have hv : labels.getD i 0 = v := by rw [List.getD_eq_getElem?_getD, hi', Option.getD_some]
  have hw : labels.getD j 0 = w := by rw [List.getD_eq_getElem?_getD, hj', Option.getD_some]
  have hr : ∀ u, 0 ≤ styleRatio logistic power useSigmoid labels (labels.count u) labels.length ∧
      styleRatio logistic power useSigmoid labels (labels.count u) labels.length ≤ 1 := by
    intro u
    unfold styleRatio
    split
    · exact ⟨zero_le_one, le_rfl⟩
    · split
      · exact hpow1 _ (hlog1 _).1 (hlog1 _).2
      · exact hpow1 _ (frac u).1 (frac u).2
  have hd : 0 ≤ hi - lo := sub_nonneg.2 hle
  unfold lineStyle
  rw [hv, hw]
  refine ⟨⟨?_, ?_⟩, fun hc => ?_, fun hall => ?_⟩
  · linarith [mul_nonneg hd (hr v).1]
  · linarith [mul_le_mul_of_nonneg_left (hr v).2 hd]
  · have : styleRatio logistic power useSigmoid labels (labels.count v) labels.length ≤
        styleRatio logistic power useSigmoid labels (labels.count w) labels.length := by
      unfold styleRatio
      split
      · exact le_rfl
      · split
        · refine hpow _ _ (hlog1 _).1 (hlog _ _ ?_) (hlog1 _).2
          linarith [fmono v w hc]
        · exact hpow _ _ (frac v).1 (fmono v w hc) (frac w).2
    linarith [mul_le_mul_of_nonneg_left this hd]
  · have hne : ((clusterCounts labels).map fun c : Nat => (c : K)) ≠ [] := by
      have hm : v ∈ uniqueL labels := mem_uniqueL.2 (List.mem_of_getElem? hi')
      intro e
      have : uniqueL labels = [] := by simpa [clusterCounts] using e
      rw [this] at hm
      cases hm
    have hone : styleRatio logistic power useSigmoid labels (labels.count v) labels.length = 1 := by
      unfold styleRatio
      rw [if_pos]
      have key : ∀ c ∈ (clusterCounts labels).map fun c : Nat => (c : K), c = (labels.count v : K) := by
        intro c hc
        obtain ⟨m, hm, rfl⟩ := List.mem_map.1 hc
        obtain ⟨u, hu, rfl⟩ := List.mem_map.1 hm
        rw [hall u (mem_uniqueL.1 hu) v (List.mem_of_getElem? hi')]
      rw [key _ (maxOf_isGreatest hne).1, key _ (minOf_isLeast hne).1]
    rw [hone]
    ring

/-- C102: with a strictly increasing sigmoid and power, and clusters of different sizes, a larger
cluster gets a strictly larger style. -/
theorem C102_style_strict (logistic power : K → K) (hlog : ∀ a b, a < b → logistic a < logistic b)
    (hlog1 : ∀ a, 0 ≤ logistic a ∧ logistic a ≤ 1)
    (hpow : ∀ a b, 0 ≤ a → a < b → b ≤ 1 → power a < power b) (useSigmoid : Bool) (lo hi : K)
    (hlt : lo < hi) (labels : List ℤ) (i j : Nat) (v w : ℤ) (hi' : labels[i]? = some v)
    (hj' : labels[j]? = some w) (hc : labels.count v < labels.count w) :
    lineStyle logistic power useSigmoid lo hi labels i <
      lineStyle logistic power useSigmoid lo hi labels j := by
  have hN : (0 : K) < (labels.length : K) := by
    have := (List.getElem?_eq_some_iff.1 hi').1
    exact_mod_cast (by omega : 0 < labels.length)
  have hv : labels.getD i 0 = v := by rw [List.getD_eq_getElem?_getD, hi', Option.getD_some]
  have hw : labels.getD j 0 = w := by rw [List.getD_eq_getElem?_getD, hj', Option.getD_some]
  have f0 : 0 ≤ (labels.count v : K) / (labels.length : K) := div_nonneg (Nat.cast_nonneg _) hN.le
  have f1 : (labels.count w : K) / (labels.length : K) ≤ 1 := by
    rw [div_le_one hN]
    exact_mod_cast List.count_le_length
  have fl : (labels.count v : K) / (labels.length : K) < (labels.count w : K) / (labels.length : K) :=
    div_lt_div_of_pos_right (by exact_mod_cast hc) hN
  have hm : ∀ u, u ∈ labels → (labels.count u : K) ∈ (clusterCounts labels).map fun c : Nat => (c : K) := by
    intro u hu
    exact List.mem_map.2 ⟨_, List.mem_map.2 ⟨u, mem_uniqueL.2 hu, rfl⟩, rfl⟩
  have hmv := hm v (List.mem_of_getElem? hi')
  have hmw := hm w (List.mem_of_getElem? hj')
  have hne : maxOf ((clusterCounts labels).map fun c : Nat => (c : K)) ≠
      minOf ((clusterCounts labels).map fun c : Nat => (c : K)) := by
    intro e
    have h1 := (minOf_isLeast (List.ne_nil_of_mem hmv)).2 hmv
    have h2 := (maxOf_isGreatest (List.ne_nil_of_mem hmw)).2 hmw
    rw [e] at h2
    have h3 : (labels.count w : K) ≤ (labels.count v : K) := h2.trans h1
    have h4 : labels.count w ≤ labels.count v := by exact_mod_cast h3
    omega
  have hs : styleRatio logistic power useSigmoid labels (labels.count v) labels.length <
      styleRatio logistic power useSigmoid labels (labels.count w) labels.length := by
    unfold styleRatio
    rw [if_neg hne, if_neg hne]
    split
    · refine hpow _ _ (hlog1 _).1 (hlog _ _ ?_) (hlog1 _).2
      linarith
    · exact hpow _ _ f0 fl f1
  unfold lineStyle
  rw [hv, hw]
  linarith [mul_lt_mul_of_pos_left hs (sub_pos.2 hlt)]

/-! ### Camera -/

/-- C103: the camera looks from the direction of the rotation angle, at horizontal distance 1, and its
elevation is not the pitch: the tangent of the elevation is the sine of the pitch. So the camera is
lower than the pitch says for every pitch between 0 and 90 degrees, never above 45 degrees, and its
distance varies between 1 and the square root of 2. -/
theorem C103_camera (rotation pitch : ℝ) :
    let e := cameraEye rotation pitch
    e.1 ^ 2 + e.2.1 ^ 2 = 1 ∧
      e.2.2 / Real.sqrt (e.1 ^ 2 + e.2.1 ^ 2) = Real.sin (pitch * Real.pi / 180) ∧
      |e.2.2| ≤ Real.sqrt (e.1 ^ 2 + e.2.1 ^ 2) ∧
      1 ≤ e.1 ^ 2 + e.2.1 ^ 2 + e.2.2 ^ 2 ∧ e.1 ^ 2 + e.2.1 ^ 2 + e.2.2 ^ 2 ≤ 2 ∧
      (0 < pitch → pitch < 90 →
        e.2.2 / Real.sqrt (e.1 ^ 2 + e.2.1 ^ 2) < Real.tan (pitch * Real.pi / 180)) ∧
      cameraEye (rotation + 360) pitch = e := by
  intro e
  have h1 : e.1 ^ 2 + e.2.1 ^ 2 = 1 := by
    have := Real.sin_sq_add_cos_sq (rotation * Real.pi / 180)
    simp only [e, cameraEye]
    linarith
  have h2 : e.2.2 = Real.sin (pitch * Real.pi / 180) := rfl
  rw [h1, Real.sqrt_one, div_one, h2]
  refine ⟨rfl, rfl, Real.abs_sin_le_one _, ?_, ?_, fun hp hp' => ?_, ?_⟩
  · linarith [sq_nonneg (Real.sin (pitch * Real.pi / 180))]
  · linarith [Real.sin_sq_le_one (pitch * Real.pi / 180)]
  · have a0 : 0 < pitch * Real.pi / 180 := by positivity
    have a1 : pitch * Real.pi / 180 < Real.pi / 2 := by
      have := Real.pi_pos
      rw [div_lt_div_iff₀ (by norm_num) (by norm_num)]
      nlinarith
    have hs : 0 < Real.sin (pitch * Real.pi / 180) :=
      Real.sin_pos_of_pos_of_lt_pi a0 (a1.trans (by linarith [Real.pi_pos]))
    have hc : 0 < Real.cos (pitch * Real.pi / 180) :=
      Real.cos_pos_of_mem_Ioo ⟨by linarith [Real.pi_pos], a1⟩
    have hc1 : Real.cos (pitch * Real.pi / 180) < 1 := by
      nlinarith [Real.sin_sq_add_cos_sq (pitch * Real.pi / 180), sq_nonneg (Real.sin (pitch * Real.pi / 180))]
    rw [Real.tan_eq_sin_div_cos, lt_div_iff₀ hc]
    nlinarith
  · have h3 : (rotation + 360) * Real.pi / 180 = rotation * Real.pi / 180 + 2 * Real.pi := by ring
    simp only [e, cameraEye, h3, Real.cos_add_two_pi, Real.sin_add_two_pi]

/-- C103: scaling the aspect ratios keeps their proportions; two scalings are one by the product, and
the inverse scale restores the figure. -/
theorem C103_aspect_scale (a : K × K × K) (s t : K) :
    (aspectScale a s).1 * a.2.1 = (aspectScale a s).2.1 * a.1 ∧
      (aspectScale a s).1 * a.2.2 = (aspectScale a s).2.2 * a.1 ∧
      aspectScale (aspectScale a s) t = aspectScale a (s * t) ∧
      (s ≠ 0 → aspectScale (aspectScale a s) s⁻¹ = a) := by
  refine ⟨by simp only [aspectScale]; ring, by simp only [aspectScale]; ring,
    by simp only [aspectScale, mul_assoc], fun hs => ?_⟩
  simp only [aspectScale, mul_assoc, mul_inv_cancel₀ hs, mul_one]

/-! ### Clustering of lines -/

/-- C104: `features_partial_cluster` treats every feature on its own: entry `k` of the embeddings,
labels and distances is what `partial_cluster` gives for feature `k` alone, from its distance matrix or
from its lines; given distances are used as they are. Without lines and distances both calls raise. -/
theorem C104_features_alone (lib : ClusterLib K) (p : ClusterParams K) :
    (featuresPartialCluster lib p none none = .error .exception ∧
      partialCluster lib p none none = .error .exception) ∧
    (∀ features Ds Es Ls Ds', featuresPartialCluster lib p features (some Ds) = .ok (Es, Ls, Ds') →
      Ds' = Ds ∧ Es.length = Ds.length ∧ Ls.length = Ds.length ∧
      ∀ (k : Nat) D, Ds[k]? = some D → ∃ E L, Es[k]? = some E ∧ Ls[k]? = some L ∧
        ∀ lines, partialCluster lib p lines (some D) = .ok (E, L, D)) ∧
    (∀ features Es Ls Ds', featuresPartialCluster lib p (some features) none = .ok (Es, Ls, Ds') →
      Es.length = features.length ∧ Ls.length = features.length ∧ Ds'.length = features.length ∧
      ∀ (k : Nat) lines, features[k]? = some lines → ∃ E L D, Es[k]? = some E ∧ Ls[k]? = some L ∧
        Ds'[k]? = some D ∧ partialCluster lib p (some lines) none = .ok (E, L, D)) := by
  have hd : ∀ {D E L D'}, partialCluster lib p none (some D) = .ok (E, L, D') → D' = D := by
    intro D E L D' h
    simp only [partialCluster, partialCluster.clusterOf, bind, Except.bind] at h
    cases h1 : lib.umap p 2 D with
    | error e => rw [h1] at h; cases h
    | ok E1 =>
    rw [h1] at h
    simp only at h
    cases h2 : partialCluster.secondEmbedding lib p E1 D with
    | error e => rw [h2] at h; cases h
    | ok E2 =>
    rw [h2] at h
    simp only at h
    cases h3 : lib.hdbscan p E2 with
    | error e => rw [h3] at h; cases h
    | ok L1 =>
    rw [h3] at h
    injection h with h
    injection h with _ h
    injection h with _ h
    exact h.symm
  have hall : ∀ {Ds Es Ls Ds'}, featuresPartialCluster.clusterAll lib p Ds = .ok (Es, Ls, Ds') →
      Ds' = Ds ∧ Es.length = Ds.length ∧ Ls.length = Ds.length ∧
      ∀ (k : Nat) D, Ds[k]? = some D → ∃ E L, Es[k]? = some E ∧ Ls[k]? = some L ∧
        partialCluster lib p none (some D) = .ok (E, L, D) := by
    intro Ds Es Ls Ds' h
    unfold featuresPartialCluster.clusterAll at h
    split at h
    · cases h
    rename_i rs hrs
    injection h with h
    injection h with h1 h
    injection h with h2 h3
    subst h1 h2 h3
    have hl := mapE_length hrs
    refine ⟨rfl, by simpa using hl, by simpa using hl, fun k D hk => ?_⟩
    obtain ⟨hk', rfl⟩ := List.getElem?_eq_some_iff.1 hk
    have hg := mapE_get hrs hk'
    have hk2 : k < rs.length := by omega
    refine ⟨rs[k].1, rs[k].2.1, by simp [hk2], by simp [hk2], ?_⟩
    have e : (rs[k].1, rs[k].2.1, rs[k].2.2) = rs[k] := rfl
    have : rs[k].2.2 = Ds[k] := hd (hg.trans (congrArg Except.ok e.symm))
    rw [hg, ← this]
  refine ⟨⟨rfl, rfl⟩, fun features Ds Es Ls Ds' h => ?_, fun features Es Ls Ds' h => ?_⟩
  · obtain ⟨h1, h2, h3, h4⟩ := hall h
    refine ⟨h1, h2, h3, fun k D hk => ?_⟩
    obtain ⟨E, L, e1, e2, e3⟩ := h4 k D hk
    exact ⟨E, L, e1, e2, fun lines => e3⟩
  · simp only [featuresPartialCluster] at h
    split at h
    · cases h
    rename_i Ds hDs
    obtain ⟨rfl, h2, h3, h4⟩ := hall h
    have hl : Ds'.length = features.length := mapE_length hDs
    refine ⟨by omega, by omega, hl, fun k lines hk => ?_⟩
    obtain ⟨hk', rfl⟩ := List.getElem?_eq_some_iff.1 hk
    have hg := mapE_get hDs hk'
    have hk2 : k < Ds'.length := by omega
    obtain ⟨E, L, e1, e2, e3⟩ := h4 k _ (List.getElem?_eq_getElem hk2)
    refine ⟨E, L, _, e1, e2, List.getElem?_eq_getElem hk2, ?_⟩
    rw [← e3]
    simp only [partialCluster, hg]

/-! ### Examples -/

def exLines3 : List (Line ℚ) := [([0, 1], [5, 7]), ([0, 2], [2, 3]), ([1, 2], [9, 9]), ([0, 1], [2, 2])]

/-- Four lines in clusters 3, 8, 3, 8, all drawn, cluster by cluster: the first line of each is in the
legend. -/
example : okAnd (partialPlot3d countRng id nearHalfUp 7 (id : Num ℚ → Num ℚ) exLines3 [10, 11, 12, 13]
      (some [3, 8, 3, 8]) (some (.int 4)) none).1 (fun fig => decide (
      fig.lines.map (·.index) = [0, 2, 1, 3] ∧ fig.lines.map (·.legend) = [true, false, true, false] ∧
      fig.lines.map (·.x) = [[10, 10], [12, 12], [11, 11], [13, 13]] ∧
      fig.lines.map (·.name) = [some 3, some 3, some 8, some 8] ∧
      fig.yRange = (- (1 / 10), 2 + 1 / 10))) = true := by
  decide +kernel

example : okAnd (partialsPlot3d countRng id nearHalfUp (id : Num ℚ → Num ℚ) [10, 11, 12, 13]
      (some (.merged [3, 8, 3, 8])) (some (.int 2)) none 7 0 [exLines3, exLines3.reverse]).1
    (fun figs => decide (figs.map (fun f => f.lines.map (·.index)) = [[0, 1], [0, 1]])) = true := by
  decide +kernel

/-- A style range [1/2, 3], clusters of sizes 3 and 1, no sigmoid. -/
example : lineStyle (K := ℚ) id id false (1 / 2) 3 [1, 1, 1, 2] 0 = 19 / 8 ∧
    lineStyle (K := ℚ) id id false (1 / 2) 3 [1, 1, 1, 2] 3 = 9 / 8 ∧
    lineStyle (K := ℚ) id id false (1 / 2) 3 [1, 1, 2, 2] 3 = 3 := by
  decide +kernel

/-- Embedding by the first two columns, clustering by the sign of the first coordinate. -/
def exClusterLib : ClusterLib ℚ :=
  ⟨fun _ n D => .ok ⟨D.r, n.toNat, D.get⟩,
    fun _ E => .ok ((List.range E.r).map fun i => if E.get i 0 = 0 then 0 else 1)⟩

example : okAnd (featuresPartialCluster exClusterLib { minDist := 0, epsilon := 1 }
      (some [exLines3, exLines3.reverse]) none)
    (fun r => decide (r.2.1 = [[0, 1, 1, 1], [0, 1, 1, 1]])) = true := by
  decide +kernel

end Geo
