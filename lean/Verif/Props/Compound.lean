import Verif.Model.Compound
import Verif.Props.LinePlots
set_option linter.unusedSectionVars false
/-
Compound figures: every panel shows the same feature, and when a cluster has the same colour in all
of them.
-/
namespace Geo
variable {K : Type} [Field K] [LinearOrder K] [IsStrictOrderedRing K] [FloorRing K]
  {S Col : Type}

/-- The embedding and the labels that belong to a feature. -/
def CompoundArg.ofFeature : CompoundArg K → Nat → Option ((List K × List K) × List ℤ)
  | .merged e l, _ => some (e, l)
  | .perFeature es ls, a => es[a]?.bind fun e => ls[a]?.map fun l => (e, l)

theorem figMap_ok {α β : Type} {e : Except Err α} {f : α → β} {b : β} :
    e.map f = .ok b ↔ ∃ a, e = .ok a ∧ f a = b := by
  cases e <;> simp [Except.map]

theorem pyGet_ok_iff {α : Type} {l : List α} {k : Nat} {a : α} :
    pyGet l k = .ok a ↔ l[k]? = some a := by
  unfold pyGet
  cases l[k]? with
  | none => constructor <;> intro h <;> cases h
  | some b => constructor <;> intro h <;> cases h <;> rfl

theorem embeddingFigs_get {cmap : Num K → Col} {temporal : List K} {n : Nat} {arg : CompoundArg K}
    {figs : List (List (EmbedTrace K Col))} (h : embeddingFigs cmap temporal n arg = .ok figs) :
    figs.length = n ∧ ∀ a < n, ∃ e l fig, arg.ofFeature a = some (e, l) ∧ figs[a]? = some fig ∧
      embeddingPlot cmap e.1 e.2 l temporal = .ok fig := by
  cases arg with
  | merged e l =>
    simp only [embeddingFigs] at h
    obtain ⟨fig, hf, rfl⟩ := figMap_ok.1 h
    exact ⟨by simp, fun a ha => ⟨e, l, fig, rfl, by simp [ha], hf⟩⟩
  | perFeature es ls =>
    simp only [embeddingFigs] at h
    have hl := mapE_length h
    rw [List.length_range] at hl
    refine ⟨hl, fun a ha => ?_⟩
    have hg := mapE_get h (i := a) (by simpa using ha)
    rw [List.getElem_range] at hg
    unfold featureEmbedding at hg
    split at hg
    · rename_i e l h1 h2
      rw [pyGet_ok_iff] at h1 h2
      exact ⟨e, l, figs[a], by simp [CompoundArg.ofFeature, h1, h2], List.getElem?_eq_getElem _, hg⟩
    · cases hg
    · cases hg

theorem clusterFigs_get {cmap : Num K → Col} {x y temporal : List K} {n : Nat} {arg : CompoundArg K}
    {figs : List (ScatterFig K Col)} (h : clusterFigs cmap x y temporal n arg = .ok figs) :
    figs.length = n ∧ ∀ (a : Nat) e l, a < n → arg.ofFeature a = some (e, l) → ∃ fig,
      figs[a]? = some fig ∧ scatter3d cmap x y temporal (l.map fun v : ℤ => (v : K)) true = .ok fig := by
  cases arg with
  | merged e l =>
    simp only [clusterFigs] at h
    obtain ⟨fig, hf, rfl⟩ := figMap_ok.1 h
    refine ⟨by simp, fun a e' l' ha hal => ⟨fig, by simp [ha], ?_⟩⟩
    cases hal
    exact hf
  | perFeature es ls =>
    simp only [clusterFigs] at h
    have hl := mapE_length h
    rw [List.length_range] at hl
    refine ⟨hl, fun a e l ha hal => ?_⟩
    have hg := mapE_get h (i := a) (by simpa using ha)
    rw [List.getElem_range] at hg
    refine ⟨figs[a], List.getElem?_eq_getElem _, ?_⟩
    have hls : ls[a]? = some l := by
      simp only [CompoundArg.ofFeature, Option.bind_eq_some_iff, Option.map_eq_some_iff] at hal
      obtain ⟨e', -, l', h2, h3⟩ := hal
      rw [h2, (Prod.mk.inj h3).2]
    unfold featureMap at hg
    rw [pyGet_ok_iff.2 hls] at hg
    exact hg

theorem featureLabels_ofFeature {arg : CompoundArg K} {a : Nat} {e : List K × List K} {l : List ℤ}
    {labs : Option (List ℤ)} (h : arg.ofFeature a = some (e, l))
    (h' : featureLabels (some arg.labels) a = .ok labs) : labs = some l := by
  cases arg with
  | merged e' l' =>
    cases h
    exact (Except.ok.inj h').symm
  | perFeature es ls =>
    simp only [CompoundArg.ofFeature, Option.bind_eq_some_iff, Option.map_eq_some_iff] at h
    obtain ⟨e', -, l', h2, h3⟩ := h
    simp only [CompoundArg.labels, featureLabels] at h'
    obtain ⟨l'', h4, rfl⟩ := figMap_ok.1 h'
    rw [pyGet_ok_iff, h2] at h4
    rw [← Option.some.inj h4, (Prod.mk.inj h3).2]

/-- C119: `partial_compound_plot` returns one figure of each kind per feature. The compass of a feature
has three panels: the map of that feature's clusters, the lines of that feature with the same labels,
and that feature's embedding with the same labels; they are the figures returned in the other three
lists at the same place. With one embedding and one label vector for all features every compass shows
that map and that embedding. -/
theorem C119_panels (rng : Rng S) (seeded : Nat → S) (near : Nat → K → Nat) (s s' : S)
    (cmap : Num K → Col) (x y temporal : List K) (features : List (List (Line K)))
    (arg : CompoundArg K) (size : Option (Count K)) (quantile : Option (List K))
    (figs : CompoundFigs K Col)
    (h : partialCompoundPlot rng seeded near s cmap x y temporal features arg size quantile =
      (.ok figs, s')) :
    figs.lines.length = features.length ∧ figs.embeddings.length = features.length ∧
      figs.maps.length = features.length ∧ figs.compasses.length = features.length ∧
      ∀ (a : Nat) lines, features[a]? = some lines → ∃ e l c, arg.ofFeature a = some (e, l) ∧
        figs.compasses[a]? = some c ∧ figs.maps[a]? = some c.left ∧
        figs.lines[a]? = some c.upper ∧ figs.embeddings[a]? = some c.lower ∧
        scatter3d cmap x y temporal (l.map fun v : ℤ => (v : K)) true = .ok c.left ∧
        embeddingPlot cmap e.1 e.2 l temporal = .ok c.lower ∧
        ∀ s₁, (partialPlot3d rng seeded near s₁ cmap lines temporal (some l) size quantile).1 =
          .ok c.upper := by
  unfold partialCompoundPlot at h
  split at h
  · cases h
  rename_i ls s₂ hls
  split at h
  · cases h
  rename_i es hes
  split at h
  · cases h
  rename_i ms hms
  injection h with h _
  injection h with h
  subst h
  obtain ⟨h1, h2⟩ := C101_per_feature rng seeded near cmap temporal _ size quantile features _ _ _ hls
  obtain ⟨e1, e2⟩ := embeddingFigs_get hes
  obtain ⟨m1, m2⟩ := clusterFigs_get hms
  refine ⟨h1, e1, m1, by simp [compassFigs, h1, e1, m1], fun a lines ha => ?_⟩
  have hlt : a < features.length := (List.getElem?_eq_some_iff.1 ha).1
  obtain ⟨labs, fig, j1, j2, j3⟩ := h2 a lines ha
  obtain ⟨e, l, ef, k1, k2, k3⟩ := e2 a hlt
  obtain ⟨mf, n1, n2⟩ := m2 a e l hlt k1
  have := featureLabels_ofFeature k1 j1
  subst this
  refine ⟨e, l, ⟨mf, fig, ef⟩, k1, ?_, n1, j2, k2, n2, k3, j3⟩
  have hz : (ls.zip es)[a]? = some (fig, ef) := List.getElem?_zip_eq_some.2 ⟨j2, k2⟩
  simp only [compassFigs, List.getElem?_zipWith, n1, hz]
  rfl

/-! ### Colours -/

/-- A value on the scale of a vector. -/
def shade (v : List K) (x : K) : Num K := Num.div (.fin (x - minOf v)) (.fin (maxOf v - minOf v))

theorem vectorColour_shade {cmap : Num K → Col} {v : List K} {cs : List Col}
    (h : vectorColour cmap v = .ok cs) : v ≠ [] ∧ cs = v.map fun x => cmap (shade v x) := by
  unfold vectorColour normed at h
  by_cases hv : v = []
  · rw [if_pos hv] at h
    cases h
  · rw [if_neg hv] at h
    injection h with h
    refine ⟨hv, ?_⟩
    rw [← h]
    exact List.map_map

theorem gather_mem {α : Type} {l r : List α} {idx : List Nat} (h : gather l idx = .ok r) {c : α}
    (hc : c ∈ r) : ∃ i ∈ idx, l[i]? = some c := by
  obtain ⟨k, hk, rfl⟩ := List.getElem_of_mem hc
  have hk' : k < idx.length := (gather_get h).1 ▸ hk
  have := ((gather_get h).2 k _ (List.getElem?_eq_getElem hk')).1
  exact ⟨_, List.getElem_mem hk', this.symm.trans (List.getElem?_eq_getElem hk)⟩

theorem maskEq_length {α : Type} [DecidableEq α] (l : List α) (v : α) :
    (maskEq l v).length = l.count v := by
  unfold maskEq
  rw [← List.countP_eq_length_filter, List.count]
  induction l using List.reverseRecOn with
  | nil => rfl
  | append_singleton l a ih =>
    rw [List.length_append, List.length_singleton, List.range_succ, List.countP_append,
      List.countP_append, ← ih]
    congr 1
    · apply List.countP_congr
      intro i hi
      rw [List.getElem?_append_left (by simpa using hi)]
    · simp

/-- The traces of the map: one per label, with as many points as the label has rows, all in the shade
of the label. -/
theorem map_colours {cmap : Num K → Col} {x y z value : List K} {fig : ScatterFig K Col}
    (h : scatter3d cmap x y z value true = .ok fig) :
    fig.points.map (·.name) = (uniqueL value).map some ∧
      ∀ t ∈ fig.points, ∃ v ∈ value, t.name = some v ∧ t.x.length = value.count v ∧
        ∃ cs, t.colour = some cs ∧ cs.length = value.count v ∧
          ∀ c ∈ cs, c = cmap (shade value v) := by
  obtain ⟨-, -, -, -, hp, -⟩ := scatter3d_ok h
  unfold pointTraces at hp
  rw [if_pos rfl] at hp
  split at hp
  · cases hp
  rename_i cs hcs
  obtain ⟨-, rfl⟩ := vectorColour_shade hcs
  split at hp
  · cases hp
  constructor
  · apply List.ext_getElem (by simp [mapE_length hp])
    intro k h1 h2
    have hk : k < (uniqueL value).length := by simpa using h2
    simp [(clusterTrace_ok (mapE_get hp hk)).1]
  · intro t ht
    obtain ⟨d, hd, rfl⟩ := List.getElem_of_mem ht
    have hd' : d < (uniqueL value).length := by rw [← mapE_length hp]; exact hd
    obtain ⟨hn, -, hx, -, -, -, cs, hc, hcs⟩ := clusterTrace_ok (mapE_get hp hd')
    refine ⟨_, mem_uniqueL.1 (List.getElem_mem hd'), hn, by rw [(gather_get hx).1, maskEq_length], cs,
      hc, by rw [(gather_get hcs).1, maskEq_length], fun c hcm => ?_⟩
    obtain ⟨i, hi, e⟩ := gather_mem hcs hcm
    rw [List.getElem?_map, mem_maskEq.1 hi] at e
    exact (Option.some.inj e).symm

/-- The traces of the embedding, likewise. -/
theorem embedding_colours {cmap : Num K → Col} {x y temporal : List K} {labels : List ℤ}
    {ts : List (EmbedTrace K Col)} (h : embeddingPlot cmap x y labels temporal = .ok ts) :
    ts.map (·.name) = uniqueL labels ∧
      ∀ t ∈ ts, t.name ∈ labels ∧ t.x.length = labels.count t.name ∧
        t.colour.length = labels.count t.name ∧
        ∀ c ∈ t.colour, c = cmap (shade (labels.map fun v : ℤ => (v : K)) t.name) := by
  unfold embeddingPlot at h
  split at h
  · cases h
  split at h
  · cases h
  rename_i cs hcs
  obtain ⟨-, rfl⟩ := vectorColour_shade hcs
  split at h
  · cases h
  have key : ∀ (colour : List Col) v t, embedTrace colour x y temporal.zipIdx labels v = .ok t →
      t.name = v ∧ gather x (maskEq labels v) = .ok t.x ∧
        gather colour (maskEq labels v) = .ok t.colour := by
    intro colour v t ht
    unfold embedTrace at ht
    simp only [bind, Except.bind] at ht
    cases h1 : gather x (maskEq labels v) with
    | error e => rw [h1] at ht; cases ht
    | ok xs =>
    cases h2 : gather y (maskEq labels v) with
    | error e => rw [h1, h2] at ht; cases ht
    | ok ys =>
    cases h3 : gather colour (maskEq labels v) with
    | error e => rw [h1, h2, h3] at ht; cases ht
    | ok cc =>
    cases h4 : gather labels (maskEq labels v) with
    | error e => rw [h1, h2, h3, h4] at ht; cases ht
    | ok tt =>
    cases h5 : gather temporal.zipIdx (maskEq labels v) with
    | error e => rw [h1, h2, h3, h4, h5] at ht; cases ht
    | ok dd =>
      rw [h1, h2, h3, h4, h5] at ht
      injection ht with ht
      subst ht
      exact ⟨rfl, rfl, rfl⟩
  constructor
  · apply List.ext_getElem (by simp [mapE_length h])
    intro k h1 h2
    simp [(key _ _ _ (mapE_get h h2)).1]
  · intro t ht
    obtain ⟨d, hd, rfl⟩ := List.getElem_of_mem ht
    have hd' : d < (uniqueL labels).length := by rw [← mapE_length h]; exact hd
    obtain ⟨hn, hx, hc⟩ := key _ _ _ (mapE_get h hd')
    rw [← hn] at hx hc
    refine ⟨hn ▸ mem_uniqueL.1 (List.getElem_mem hd'), by rw [(gather_get hx).1, maskEq_length],
      by rw [(gather_get hc).1, maskEq_length], fun c hcm => ?_⟩
    obtain ⟨i, hi, e⟩ := gather_mem hc hcm
    rw [List.getElem?_map, List.getElem?_map, mem_maskEq.1 hi] at e
    exact (Option.some.inj e).symm

/-- The lines: named after the labels of the selected rows and coloured on the scale of those. -/
theorem line_colours {cmap : Num K → Col} {lines : List (Line K)} {temporal : List K}
    {labels : List ℤ} {idx : List Nat} {fig : LineFig K Col}
    (h : lineFigure cmap lines temporal (some labels) idx = .ok fig) :
    ∃ sel, gather labels idx = .ok sel ∧ sel ≠ [] ∧ fig.lines.map (·.name) = sel.map some ∧
      ∀ l ∈ fig.lines, ∀ v, l.name = some v →
        l.colour = some (cmap (shade (sel.map fun v : ℤ => (v : K)) v)) := by
  obtain ⟨ls, ts, labs, cs, -, -, g3, g4, -, -, -, -, hl⟩ := lineFigure_ok h
  simp only [gatherLabels] at g3
  obtain ⟨sel, hsel, rfl⟩ := figMap_ok.1 g3
  simp only [lineColours] at g4
  obtain ⟨hne, rfl⟩ := vectorColour_shade g4
  have hlen := (gather_get hsel).1
  refine ⟨sel, hsel, by simpa using hne, ?_, ?_⟩
  · rw [hl]
    apply List.ext_getElem (by simp [hlen])
    intro k h1 h2
    have hk : k < sel.length := by simpa using h2
    simp [lineTrace, List.getElem?_eq_getElem hk]
  · intro l hlm v hv
    rw [hl] at hlm
    obtain ⟨k, hk, rfl⟩ := List.mem_map.1 hlm
    have hk : k < sel.length := by rw [hlen]; simpa using hk
    simp only [lineTrace, Option.bind_some, List.getElem?_eq_getElem hk, Option.some.injEq] at hv
    subst hv
    simp [lineTrace, List.getElem?_eq_getElem hk]

/-- What a compass of feature `a` is made of. -/
theorem compass_parts {rng : Rng S} {seeded : Nat → S} {near : Nat → K → Nat} {s s' : S}
    {cmap : Num K → Col} {x y temporal : List K} {features : List (List (Line K))}
    {arg : CompoundArg K} {size : Option (Count K)} {quantile : Option (List K)}
    {figs : CompoundFigs K Col}
    (h : partialCompoundPlot rng seeded near s cmap x y temporal features arg size quantile =
      (.ok figs, s')) {a : Nat} {c : CompassFig K Col} (hc : figs.compasses[a]? = some c)
    {e : List K × List K} {l : List ℤ} (hal : arg.ofFeature a = some (e, l)) :
    scatter3d cmap x y temporal (l.map fun v : ℤ => (v : K)) true = .ok c.left ∧
      embeddingPlot cmap e.1 e.2 l temporal = .ok c.lower ∧
      ∃ lines, features[a]? = some lines ∧
      ∀ s₁, (partialPlot3d rng seeded near s₁ cmap lines temporal (some l) size quantile).1 =
        .ok c.upper := by
  obtain ⟨-, -, -, hl, hall⟩ := C119_panels rng seeded near s s' cmap x y temporal features arg size
    quantile figs h
  have ha : a < features.length := hl ▸ (List.getElem?_eq_some_iff.1 hc).1
  obtain ⟨e', l', c', h1, h2, -, -, -, h3, h4, h5⟩ := hall a _ (List.getElem?_eq_getElem ha)
  rw [hal] at h1
  cases h1
  rw [hc] at h2
  cases h2
  exact ⟨h3, h4, _, List.getElem?_eq_getElem ha, h5⟩

theorem cast_injective : Function.Injective (fun v : ℤ => (v : K)) := fun _ _ h => Int.cast_injective h

/-- C119: the map and the embedding of a compass agree: a trace for each distinct label, with the same
number of points, the rows of that cluster, and all of the same colour in both. -/
theorem C119_map_and_embedding (rng : Rng S) (seeded : Nat → S) (near : Nat → K → Nat) (s s' : S)
    (cmap : Num K → Col) (x y temporal : List K) (features : List (List (Line K)))
    (arg : CompoundArg K) (size : Option (Count K)) (quantile : Option (List K))
    (figs : CompoundFigs K Col)
    (h : partialCompoundPlot rng seeded near s cmap x y temporal features arg size quantile =
      (.ok figs, s')) (a : Nat) (c : CompassFig K Col) (hc : figs.compasses[a]? = some c)
    (e : List K × List K) (l : List ℤ) (hal : arg.ofFeature a = some (e, l)) :
    (∀ v : ℤ, (∃ t ∈ c.left.points, t.name = some (v : K)) ↔ v ∈ l) ∧
      (∀ v : ℤ, (∃ t ∈ c.lower, t.name = v) ↔ v ∈ l) ∧
      ∀ t ∈ c.left.points, ∀ t' ∈ c.lower, t.name = some (t'.name : K) →
        t.x.length = l.count t'.name ∧ t'.x.length = l.count t'.name ∧
        ∃ cs, t.colour = some cs ∧ cs = t'.colour := by
  obtain ⟨h1, h2, -⟩ := compass_parts h hc hal
  obtain ⟨m1, m2⟩ := map_colours h1
  obtain ⟨e1, e2⟩ := embedding_colours h2
  refine ⟨fun v => ?_, fun v => ?_, fun t ht t' ht' hn => ?_⟩
  · have : (∃ t ∈ c.left.points, t.name = some (v : K)) ↔
        some (v : K) ∈ c.left.points.map (·.name) := by simp
    rw [this, m1]
    simp [mem_uniqueL]
  · have : (∃ t ∈ c.lower, t.name = v) ↔ v ∈ c.lower.map (·.name) := by simp
    rw [this, e1, mem_uniqueL]
  · obtain ⟨v, hv, hn', hx, cs, hcs, hcl, hall⟩ := m2 t ht
    obtain ⟨-, hx', hcl', hall'⟩ := e2 t' ht'
    rw [hn] at hn'
    cases hn'
    rw [List.count_map_of_injective _ _ cast_injective] at hx hcl
    refine ⟨hx, hx', cs, hcs, ?_⟩
    rw [List.eq_replicate_of_mem hall, List.eq_replicate_of_mem hall', hcl, hcl']

/-- In a compass every line has the colour of its cluster in the map and in the embedding. -/
def SameColours (c : CompassFig K Col) : Prop :=
  ∀ ln ∈ c.upper.lines, ∀ v, ln.name = some v →
    (∀ t ∈ c.left.points, t.name = some (v : K) → ∀ cs, t.colour = some cs →
      ∀ col ∈ cs, ln.colour = some col) ∧
    ∀ t ∈ c.lower, t.name = v → ∀ col ∈ t.colour, ln.colour = some col

theorem shade_of_extremes {v w : List K} (hv : v ≠ []) (hw : w ≠ []) (hsub : ∀ a ∈ w, a ∈ v)
    (hmin : minOf v ∈ w) (hmax : maxOf v ∈ w) (a : K) : shade w a = shade v a := by
  have e1 : minOf w = minOf v :=
    (minOf_isLeast hw).unique ⟨hmin, fun b hb => (minOf_isLeast hv).2 (hsub b hb)⟩
  have e2 : maxOf w = maxOf v :=
    (maxOf_isGreatest hw).unique ⟨hmax, fun b hb => (maxOf_isGreatest hv).2 (hsub b hb)⟩
  unfold shade
  rw [e1, e2]

theorem shade_forces {v w : List K} (_hv : v ≠ []) (hw : w ≠ []) (hlt : minOf v < maxOf v)
    (h : ∀ a ∈ w, shade w a = shade v a) : minOf v ∈ w ∧ maxOf v ∈ w := by
  have hd : maxOf v - minOf v ≠ 0 := (sub_pos.2 hlt).ne'
  have hmw := (minOf_isLeast hw).1
  have hMw := (maxOf_isGreatest hw).1
  have hfin : ∀ a, shade v a = .fin ((a - minOf v) / (maxOf v - minOf v)) := by
    intro a
    simp [shade, Num.div, hd]
  have hdw : maxOf w - minOf w ≠ 0 := by
    intro h0
    have := h _ hmw
    rw [hfin, shade, h0, sub_self] at this
    simp [Num.div, Num.infSign] at this
  have hfin' : ∀ a, shade w a = .fin ((a - minOf w) / (maxOf w - minOf w)) := by
    intro a
    simp [shade, Num.div, hdw]
  have e1 := h _ hmw
  have e2 := h _ hMw
  rw [hfin, hfin', Num.fin.injEq] at e1 e2
  rw [sub_self, zero_div, eq_comm, div_eq_zero_iff, or_iff_left hd, sub_eq_zero] at e1
  rw [div_self hdw, eq_comm, div_eq_one_iff_eq hd, sub_left_inj] at e2
  exact ⟨e1 ▸ hmw, e2 ▸ hMw⟩

/-- The selected labels of a compass. -/
theorem compass_lines {rng : Rng S} {seeded : Nat → S} {near : Nat → K → Nat} {s : S}
    {cmap : Num K → Col} {temporal : List K} {lines : List (Line K)} {l : List ℤ}
    {size : Option (Count K)} {quantile : Option (List K)} {fig : LineFig K Col}
    (h : (partialPlot3d rng seeded near s cmap lines temporal (some l) size quantile).1 = .ok fig) :
    ∃ idx sel, (samplePartial rng seeded near s lines size quantile (some l) (some 1003)).1 = .ok idx ∧
      gather l idx = .ok sel ∧ sel ≠ [] ∧ fig.lines.map (·.name) = sel.map some ∧
      ∀ ln ∈ fig.lines, ∀ v, ln.name = some v →
        ln.colour = some (cmap (shade (sel.map fun v : ℤ => (v : K)) v)) := by
  unfold partialPlot3d at h
  split at h
  · cases h
  · rename_i idx s₂ hs
    obtain ⟨sel, h1, h2, h3, h4⟩ := line_colours h
    exact ⟨idx, sel, by rw [hs], h1, h2, h3, h4⟩

/-- C119: if the lines drawn include the lowest and the highest label, every cluster has the same
colour in the three panels. -/
theorem C119_colours_agree (rng : Rng S) (seeded : Nat → S) (near : Nat → K → Nat) (s s' : S)
    (cmap : Num K → Col) (x y temporal : List K) (features : List (List (Line K)))
    (arg : CompoundArg K) (size : Option (Count K)) (quantile : Option (List K))
    (figs : CompoundFigs K Col)
    (h : partialCompoundPlot rng seeded near s cmap x y temporal features arg size quantile =
      (.ok figs, s')) (a : Nat) (c : CompassFig K Col) (hc : figs.compasses[a]? = some c)
    (e : List K × List K) (l : List ℤ) (hal : arg.ofFeature a = some (e, l))
    (hext : ∀ v ∈ l, ((∀ w ∈ l, v ≤ w) ∨ ∀ w ∈ l, w ≤ v) →
      ∃ ln ∈ c.upper.lines, ln.name = some v) : SameColours c := by
  obtain ⟨h1, h2, lines, -, h3⟩ := compass_parts h hc hal
  obtain ⟨m1, m2⟩ := map_colours h1
  obtain ⟨e1, e2⟩ := embedding_colours h2
  obtain ⟨idx, sel, g1, g2, g3, g4, g5⟩ := compass_lines (h3 s)
  have hl : l ≠ [] := by
    rintro rfl
    obtain ⟨-, -, -, hv, -⟩ := scatter3d_ok h1
    exact hv rfl
  have hlK : (l.map fun v : ℤ => (v : K)) ≠ [] := by simpa using hl
  have hsK : (sel.map fun v : ℤ => (v : K)) ≠ [] := by simpa using g3
  have hin : ∀ v, (∃ ln ∈ c.upper.lines, ln.name = some v) → v ∈ sel := by
    rintro v ⟨ln, hln, hn⟩
    have : some v ∈ c.upper.lines.map (·.name) := List.mem_map.2 ⟨ln, hln, hn⟩
    rw [g4] at this
    simpa using this
  have hshade : ∀ b, shade (sel.map fun v : ℤ => (v : K)) b = shade (l.map fun v : ℤ => (v : K)) b := by
    apply shade_of_extremes hlK hsK
    · intro b hb
      obtain ⟨v, hv, rfl⟩ := List.mem_map.1 hb
      obtain ⟨i, -, hi⟩ := gather_mem g2 hv
      exact List.mem_map.2 ⟨v, List.mem_of_getElem? hi, rfl⟩
    · obtain ⟨m, hm⟩ := minOf_isLeast hlK
      obtain ⟨v, hv, hvm⟩ := List.mem_map.1 m
      rw [← hvm]
      refine List.mem_map.2 ⟨v, hin v (hext v hv (.inl fun w hw => ?_)), rfl⟩
      have := hm (List.mem_map.2 ⟨w, hw, rfl⟩)
      rw [← hvm] at this
      exact_mod_cast this
    · obtain ⟨m, hm⟩ := maxOf_isGreatest hlK
      obtain ⟨v, hv, hvm⟩ := List.mem_map.1 m
      rw [← hvm]
      refine List.mem_map.2 ⟨v, hin v (hext v hv (.inr fun w hw => ?_)), rfl⟩
      have := hm (List.mem_map.2 ⟨w, hw, rfl⟩)
      rw [← hvm] at this
      exact_mod_cast this
  intro ln hln v hv
  rw [g5 ln hln v hv, hshade]
  refine ⟨fun t ht hn cs hcs col hcol => ?_, fun t ht hn col hcol => ?_⟩
  · obtain ⟨v', -, hn', -, cs', hcs', -, hall⟩ := m2 t ht
    rw [hn] at hn'
    cases hn'
    rw [hcs] at hcs'
    cases hcs'
    rw [hall col hcol]
  · rw [(e2 t ht).2.2.2 col hcol, hn]

/-- C119: the converse, for a colour map that gives different colours to different values: if there are
two clusters and the lines drawn miss the lowest or the highest label, some line has another colour
than its cluster has in the map. -/
theorem C119_colours_differ (rng : Rng S) (seeded : Nat → S) (near : Nat → K → Nat) (s s' : S)
    (cmap : Num K → Col) (hinj : Function.Injective cmap) (x y temporal : List K)
    (features : List (List (Line K)))
    (arg : CompoundArg K) (size : Option (Count K)) (quantile : Option (List K))
    (figs : CompoundFigs K Col)
    (h : partialCompoundPlot rng seeded near s cmap x y temporal features arg size quantile =
      (.ok figs, s')) (a : Nat) (c : CompassFig K Col) (hc : figs.compasses[a]? = some c)
    (e : List K × List K) (l : List ℤ) (hal : arg.ofFeature a = some (e, l))
    (htwo : ∃ v ∈ l, ∃ w ∈ l, v ≠ w) (v : ℤ) (hv : v ∈ l)
    (hext : (∀ w ∈ l, v ≤ w) ∨ ∀ w ∈ l, w ≤ v) (hmiss : ∀ ln ∈ c.upper.lines, ln.name ≠ some v) :
    ∃ ln ∈ c.upper.lines, ∃ u, ln.name = some u ∧ ∃ t ∈ c.left.points, t.name = some (u : K) ∧
      ∃ cs, t.colour = some cs ∧ cs ≠ [] ∧ ∀ col ∈ cs, ln.colour ≠ some col := by
  obtain ⟨h1, h2, lines, -, h3⟩ := compass_parts h hc hal
  obtain ⟨m1, m2⟩ := map_colours h1
  obtain ⟨idx, sel, g1, g2, g3, g4, g5⟩ := compass_lines (h3 s)
  have hlK : (l.map fun v : ℤ => (v : K)) ≠ [] := by simpa using List.ne_nil_of_mem hv
  have hsK : (sel.map fun v : ℤ => (v : K)) ≠ [] := by simpa using g3
  have hsel : ∀ u ∈ sel, ∃ ln ∈ c.upper.lines, ln.name = some u := by
    intro u hu
    have : some u ∈ c.upper.lines.map (·.name) := by rw [g4]; exact List.mem_map.2 ⟨u, hu, rfl⟩
    obtain ⟨ln, hln, hn⟩ := List.mem_map.1 this
    exact ⟨ln, hln, hn⟩
  have hlt : minOf (l.map fun v : ℤ => (v : K)) < maxOf (l.map fun v : ℤ => (v : K)) := by
    obtain ⟨p, hp, q, hq, hpq⟩ := htwo
    have hpK : (p : K) ∈ l.map fun v : ℤ => (v : K) := List.mem_map.2 ⟨p, hp, rfl⟩
    have hqK : (q : K) ∈ l.map fun v : ℤ => (v : K) := List.mem_map.2 ⟨q, hq, rfl⟩
    have hne : (p : K) ≠ q := by exact_mod_cast hpq
    have a1 := (minOf_isLeast hlK).2 hpK
    have a2 := (minOf_isLeast hlK).2 hqK
    have b1 := (maxOf_isGreatest hlK).2 hpK
    have b2 := (maxOf_isGreatest hlK).2 hqK
    rcases lt_or_gt_of_ne hne with hh | hh
    · exact a1.trans_lt (hh.trans_le b2)
    · exact a2.trans_lt (hh.trans_le b1)
  have hex : ∃ u ∈ sel, shade (sel.map fun v : ℤ => (v : K)) u ≠ shade (l.map fun v : ℤ => (v : K)) u := by
    by_contra hno
    push Not at hno
    obtain ⟨f1, f2⟩ := shade_forces hlK hsK hlt (by
      intro b hb
      obtain ⟨u, hu, rfl⟩ := List.mem_map.1 hb
      exact hno u hu)
    have hvs : (v : K) ∈ sel.map fun v : ℤ => (v : K) := by
      rcases hext with hx | hx
      · have : (v : K) = minOf (l.map fun v : ℤ => (v : K)) := by
          refine ((minOf_isLeast hlK).unique ⟨List.mem_map.2 ⟨v, hv, rfl⟩, fun b hb => ?_⟩).symm
          obtain ⟨w, hw, rfl⟩ := List.mem_map.1 hb
          exact_mod_cast hx w hw
        rw [this]
        exact f1
      · have : (v : K) = maxOf (l.map fun v : ℤ => (v : K)) := by
          refine ((maxOf_isGreatest hlK).unique ⟨List.mem_map.2 ⟨v, hv, rfl⟩, fun b hb => ?_⟩).symm
          obtain ⟨w, hw, rfl⟩ := List.mem_map.1 hb
          exact_mod_cast hx w hw
        rw [this]
        exact f2
    obtain ⟨u, hu, hue⟩ := List.mem_map.1 hvs
    have : u = v := by exact_mod_cast hue
    subst this
    obtain ⟨ln, hln, hn⟩ := hsel u hu
    exact hmiss ln hln hn
  obtain ⟨u, hu, hne⟩ := hex
  obtain ⟨ln, hln, hn⟩ := hsel u hu
  have hul : u ∈ l := by
    obtain ⟨i, -, hi⟩ := gather_mem g2 hu
    exact List.mem_of_getElem? hi
  have : some (u : K) ∈ c.left.points.map (·.name) := by
    rw [m1]
    exact List.mem_map.2 ⟨_, mem_uniqueL.2 (List.mem_map.2 ⟨u, hul, rfl⟩), rfl⟩
  obtain ⟨t, ht, htn⟩ := List.mem_map.1 this
  obtain ⟨v', hv', hn', -, cs, hcs, hcl, hall⟩ := m2 t ht
  rw [htn] at hn'
  cases hn'
  refine ⟨ln, hln, u, hn, t, ht, htn, cs, hcs, ?_, fun col hcol => ?_⟩
  · intro h0
    rw [h0] at hcl
    exact absurd (List.count_pos_iff.2 hv') (by rw [← hcl]; simp)
  · rw [hall col hcol, g5 ln hln u hn]
    intro hh
    exact hne (hinj (Option.some.inj hh))

/-- C119: with a sample size, whatever it is, every cluster has a line, so that the three panels show
the same clusters in the same colours. -/
theorem C119_sampled (rng : Rng S) (hv : rng.Valid) (seeded : Nat → S) (near : Nat → K → Nat)
    (s s' : S) (cmap : Num K → Col) (x y temporal : List K) (features : List (List (Line K)))
    (arg : CompoundArg K) (size : Count K) (figs : CompoundFigs K Col)
    (h : partialCompoundPlot rng seeded near s cmap x y temporal features arg (some size) none =
      (.ok figs, s')) (a : Nat) (c : CompassFig K Col) (hc : figs.compasses[a]? = some c)
    (e : List K × List K) (l : List ℤ) (hal : arg.ofFeature a = some (e, l)) :
    (∀ v, (∃ ln ∈ c.upper.lines, ln.name = some v) ↔ v ∈ l) ∧ SameColours c := by
  obtain ⟨h1, h2, lines, -, h3⟩ := compass_parts h hc hal
  obtain ⟨idx, sel, g1, g2, g3, g4, g5⟩ := compass_lines (h3 s)
  have hl : l ≠ [] := by
    rintro rfl
    obtain ⟨-, -, -, hv, -⟩ := scatter3d_ok h1
    exact hv rfl
  have hiff : ∀ v, (∃ ln ∈ c.upper.lines, ln.name = some v) ↔ v ∈ l := by
    intro v
    have e1 : (∃ ln ∈ c.upper.lines, ln.name = some v) ↔ v ∈ sel := by
      have : (∃ ln ∈ c.upper.lines, ln.name = some v) ↔ some v ∈ c.upper.lines.map (·.name) := by simp
      rw [this, g4]
      simp
    rw [e1]
    constructor
    · intro hv
      obtain ⟨i, -, hi⟩ := gather_mem g2 hv
      exact List.mem_of_getElem? hi
    · intro hvl
      obtain ⟨idx', s₂, k1, -, -, k2⟩ := C69_clusters rng hv seeded near s lines size l hl (some 1003)
      rw [k1] at g1
      cases g1
      obtain ⟨i, hi, hiv⟩ := List.countP_pos_iff.1 (show 0 < _ from (k2 v hvl).2.1)
      obtain ⟨k, hk, rfl⟩ := List.getElem_of_mem hi
      obtain ⟨q1, q2⟩ := (gather_get g2).2 k _ (List.getElem?_eq_getElem hk)
      rw [List.getElem?_eq_getElem q2] at q1
      have : l[idx[k]] = v := by simpa [q2] using hiv
      rw [this] at q1
      exact List.mem_of_getElem? q1
  exact ⟨hiff, C119_colours_agree rng seeded near s s' cmap x y temporal features arg (some size) none
    figs h a c hc e l hal fun v hv _ => (hiff v).2 hv⟩

/-! ### Examples -/

/-- Four rows in two features; each feature has its own embedding and its own labels. -/
def exCompound : CompoundArg ℚ :=
  .perFeature [([0, 1, 2, 3], [4, 5, 6, 7]), ([3, 2, 1, 0], [4, 5, 6, 7])] [[3, 8, 3, 5], [1, 1, 2, 2]]

/-- The three panels in the same colours, from a sample of size two. -/
example : okAnd (partialCompoundPlot countRng id nearHalfUp 7 (id : Num ℚ → Num ℚ) [0, 1, 2, 4]
      [0, 2, 1, 5] [10, 11, 12, 13] [exLines3, exLines3.reverse] exCompound (some (.int 2)) none).1
    (fun figs => decide (
      figs.compasses.map (fun c => c.left.points.map fun t => (t.name, t.colour.map (·.take 1))) =
        [[(some 3, some [.fin 0]), (some 5, some [.fin (2 / 5)]), (some 8, some [.fin 1])],
         [(some 1, some [.fin 0]), (some 2, some [.fin 1])]] ∧
      figs.compasses.map (fun c => c.upper.lines.map fun t => (t.name, t.colour)) =
        [[(some 3, some (.fin 0)), (some 5, some (.fin (2 / 5))), (some 8, some (.fin 1))],
         [(some 1, some (.fin 0)), (some 2, some (.fin 1))]] ∧
      figs.compasses.map (fun c => c.lower.map fun t => (t.name, t.colour.take 1)) =
        [[(3, [.fin 0]), (5, [.fin (2 / 5)]), (8, [.fin 1])], [(1, [.fin 0]), (2, [.fin 1])]])) =
    true := by
  decide +kernel

/-- The same with the lines at the quantiles 1/3 and 1: cluster 3 is not drawn, the line of
cluster 5 is as dark as cluster 3 is in the map. -/
example : okAnd (partialCompoundPlot countRng id nearHalfUp 7 (id : Num ℚ → Num ℚ) [0, 1, 2, 4]
      [0, 2, 1, 5] [10, 11, 12, 13] [exLines3] (.merged ([0, 1, 2, 3], [4, 5, 6, 7]) [3, 5, 8, 8])
      none (some [1 / 3, 1])).1
    (fun figs => decide (
      figs.compasses.map (fun c => c.upper.lines.map fun t => (t.name, t.colour)) =
        [[(some 5, some (.fin 0)), (some 8, some (.fin 1))]] ∧
      figs.compasses.map (fun c => c.left.points.map fun t => (t.name, t.colour)) =
        [[(some 3, some [.fin 0]), (some 5, some [.fin (2 / 5)]), (some 8, some [.fin 1, .fin 1])]])) =
    true := by
  decide +kernel

end Geo
