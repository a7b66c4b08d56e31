import Verif.Props.ImportancePlot
import Verif.Props.Viz
set_option linter.unusedSectionVars false
/-
The scatter plot in space and time and the embedding plot: every point is in one trace, in its place,
with its colour; the index in the hover text is wrong for clusters in `scatter_3d` and right in
`embedding_plot`. Axes, aspect ratios and time surfaces.
-/
namespace Geo
variable {K : Type} [Field K] [LinearOrder K] [IsStrictOrderedRing K] [FloorRing K] {Col : Type}

theorem mem_maskEq {α : Type} [DecidableEq α] {l : List α} {v : α} {i : Nat} :
    i ∈ maskEq l v ↔ l[i]? = some v := by
  simp only [maskEq, List.mem_filter, List.mem_range, decide_eq_true_eq, and_iff_right_iff_imp]
  intro h
  exact (List.getElem?_eq_some_iff.1 h).1

theorem maskEq_pairwise {α : Type} [DecidableEq α] (l : List α) (v : α) :
    (maskEq l v).Pairwise (· < ·) := List.pairwise_lt_range.filter _

/-- An increasing list of naturals: the `k`-th entry is at least `k`, and equal to `k` exactly if
all smaller numbers are in the list. -/
theorem increasing_get {l : List Nat} (h : l.Pairwise (· < ·)) {k i : Nat} (hk : l[k]? = some i) :
    k ≤ i ∧ (k = i ↔ ∀ j < i, j ∈ l) := by
  obtain ⟨hk', rfl⟩ := List.getElem?_eq_some_iff.1 hk
  have hp := List.pairwise_iff_getElem.1 h
  have hnd : l.Nodup := h.imp fun h => h.ne
  have hmem : ∀ j, j ∈ (l.take k).toFinset ↔ j ∈ l ∧ j < l[k] := by
    intro j
    rw [List.mem_toFinset, List.mem_take_iff_getElem]
    constructor
    · rintro ⟨m, hm, rfl⟩
      exact ⟨List.getElem_mem _, hp m k (by omega) hk' (by omega)⟩
    · rintro ⟨hj, hlt⟩
      obtain ⟨m, hm, rfl⟩ := List.getElem_of_mem hj
      refine ⟨m, ?_, rfl⟩
      by_contra hge
      have hkm : k ≤ m := by omega
      rcases hkm.eq_or_lt with e | hkm
      · subst e
        exact lt_irrefl _ hlt
      · exact lt_asymm hlt (hp k m hk' hm hkm)
  have hsub : (l.take k).toFinset ⊆ Finset.range l[k] := fun j hj => by
    simpa using ((hmem j).1 hj).2
  have hcard : (l.take k).toFinset.card = k := by
    rw [List.toFinset_card_of_nodup ((List.take_sublist k l).nodup hnd), List.length_take]
    omega
  have hle := Finset.card_le_card hsub
  rw [hcard, Finset.card_range] at hle
  refine ⟨hle, fun e j hj => ?_, fun hall => ?_⟩
  · have heq := Finset.eq_of_subset_of_card_le hsub (by rw [hcard, Finset.card_range]; omega)
    have : j ∈ (l.take k).toFinset := by
      rw [heq]
      simpa using hj
    exact ((hmem j).1 this).1
  · have : Finset.range l[k] ⊆ (l.take k).toFinset := fun j hj => by
      have hj := Finset.mem_range.1 hj
      exact (hmem j).2 ⟨hall j hj, hj⟩
    have := Finset.card_le_card this
    rw [hcard, Finset.card_range] at this
    omega

theorem vectorColour_get {cmap : Num K → Col} {v : List K} {cs : List Col}
    (h : vectorColour cmap v = .ok cs) :
    ∃ n : K → Num K, normed v = .ok (v.map n) ∧ cs = v.map fun x => cmap (n x) := by
  unfold vectorColour normed at h
  by_cases hv : v = []
  · rw [if_pos hv] at h
    cases h
  · rw [if_neg hv] at h
    injection h with h
    refine ⟨_, by unfold normed; rw [if_neg hv], ?_⟩
    rw [← h]
    exact List.map_map

/-- The rows of a trace: the positions of the cluster, in increasing order, and what is shown for
them. -/
def ShowsRows (colour : K → Col) (x y z value : List K) (v : K) (t : PointTrace K Col)
    (rows : List Nat) : Prop :=
  rows.Pairwise (· < ·) ∧ (∀ i, i ∈ rows ↔ value[i]? = some v) ∧
    t.x.length = rows.length ∧ t.y.length = rows.length ∧ t.z.length = rows.length ∧
    ∀ (k i : Nat), rows[k]? = some i →
      t.x[k]? = x[i]? ∧ t.y[k]? = y[i]? ∧ t.z[k]? = z[i]? ∧ t.text[k]? = some v ∧
        t.colour.bind (·[k]?) = some (colour v)

theorem clusterTrace_ok {colour : List Col} {x y z value : List K} {v : K} {t : PointTrace K Col}
    (h : clusterTrace colour x y z value v = .ok t) :
    t.name = some v ∧ t.custom = List.range value.length ∧
      gather x (maskEq value v) = .ok t.x ∧ gather y (maskEq value v) = .ok t.y ∧
      gather z (maskEq value v) = .ok t.z ∧ gather value (maskEq value v) = .ok t.text ∧
      ∃ cs, t.colour = some cs ∧ gather colour (maskEq value v) = .ok cs := by
  unfold clusterTrace at h
  split at h
  · rename_i h1 h2 h3 h4 h5
    injection h with h
    subst h
    exact ⟨rfl, rfl, h1, h2, h3, h5, _, rfl, h4⟩
  all_goals cases h

theorem scatter3d_ok {cmap : Num K → Col} {x y z value : List K} {b : Bool} {fig : ScatterFig K Col}
    (h : scatter3d cmap x y z value b = .ok fig) :
    x ≠ [] ∧ y ≠ [] ∧ z ≠ [] ∧ value ≠ [] ∧ pointTraces cmap x y z value b = .ok fig.points ∧
      ∃ cs, vectorColour cmap (uniqueL z) = .ok cs ∧ fig.surfaces = timeSurfaces cs z ∧
        fig.aspect = aspectRatio (spread x) (spread y) (uniqueL z).length ∧
        fig.xRange = (minOf x - spread x * (3 / 25), maxOf x + spread x * (3 / 25)) ∧
        fig.yRange = (minOf y - spread y * (3 / 25), maxOf y + spread y * (3 / 25)) ∧
        fig.zRange = (minOf z - zStep z * (1 / 2), maxOf z + zStep z * (1 / 2)) := by
  unfold scatter3d at h
  split at h
  · cases h
  · rename_i hne
    push Not at hne
    split at h
    · cases h
    · cases h
    · rename_i pts cs h1 h2
      injection h with h
      subst h
      exact ⟨hne.1, hne.2.1, hne.2.2.1, hne.2.2.2, h1, cs, h2, rfl, rfl, rfl, rfl, rfl⟩

theorem clusterPoints_ok {cmap : Num K → Col} {x y z value : List K} {fig : ScatterFig K Col}
    (h : scatter3d cmap x y z value true = .ok fig) :
    ∃ n : K → Num K, normed value = .ok (value.map n) ∧ value.length = x.length ∧
      mapE (clusterTrace (value.map fun x => cmap (n x)) x y z value) (uniqueL value) =
        .ok fig.points := by
  obtain ⟨-, -, -, -, hp, -⟩ := scatter3d_ok h
  unfold pointTraces at hp
  rw [if_pos rfl] at hp
  split at hp
  · cases hp
  · rename_i cs hcs
    obtain ⟨n, hn, rfl⟩ := vectorColour_get hcs
    split at hp
    · cases hp
    · rename_i hl
      exact ⟨n, hn, not_not.1 hl, hp⟩

/-- C99: with `is_cluster=True` there is one trace per cluster value, in increasing order, and the
trace holds exactly the points of that cluster, in the order of the rows, with their coordinates and
one colour per cluster. -/
theorem C99_cluster_traces (cmap : Num K → Col) (x y z value : List K) (fig : ScatterFig K Col)
    (h : scatter3d cmap x y z value true = .ok fig) :
    ∃ vs : List K, vs.Pairwise (· < ·) ∧ (∀ v, v ∈ vs ↔ v ∈ value) ∧
      fig.points.map (·.name) = vs.map some ∧
      ∃ n : K → Num K, normed value = .ok (value.map n) ∧
        ∀ (d : Nat) v t, vs[d]? = some v → fig.points[d]? = some t →
          ∃ rows, ShowsRows (fun v => cmap (n v)) x y z value v t rows := by
  obtain ⟨n, hn, hl, hm⟩ := clusterPoints_ok h
  refine ⟨uniqueL value, uniqueL_pairwise _, fun v => mem_uniqueL, ?_, n, hn, ?_⟩
  · apply List.ext_getElem (by simp [mapE_length hm])
    intro k h1 h2
    have hk : k < (uniqueL value).length := by simpa using h2
    simp [(clusterTrace_ok (mapE_get hm hk)).1]
  · intro d v t hv ht
    obtain ⟨hd, rfl⟩ := List.getElem?_eq_some_iff.1 hv
    obtain ⟨hd', rfl⟩ := List.getElem?_eq_some_iff.1 ht
    obtain ⟨-, -, hx, hy, hz, ht, cs, hc, hcs⟩ := clusterTrace_ok (mapE_get hm hd)
    refine ⟨maskEq value (uniqueL value)[d], maskEq_pairwise _ _, fun i => mem_maskEq, (gather_get hx).1,
      (gather_get hy).1, (gather_get hz).1, fun k i hk => ?_⟩
    have hi := mem_maskEq.1 (List.mem_of_getElem? hk)
    refine ⟨((gather_get hx).2 k i hk).1, ((gather_get hy).2 k i hk).1, ((gather_get hz).2 k i hk).1,
      ((gather_get ht).2 k i hk).1.trans hi, ?_⟩
    rw [hc, Option.bind_some, ((gather_get hcs).2 k i hk).1, List.getElem?_map, hi]
    rfl

/-- C99: the index shown when hovering over a point of a cluster trace is the position of the point in
its trace, not its row: it is the row number exactly when all earlier rows are in the same cluster. -/
theorem C99_hover_index (cmap : Num K → Col) (x y z value : List K) (fig : ScatterFig K Col)
    (h : scatter3d cmap x y z value true = .ok fig) (t : PointTrace K Col) (ht : t ∈ fig.points)
    (v : K) (hv : t.name = some v) (rows : List Nat) (colour : K → Col)
    (hs : ShowsRows colour x y z value v t rows) (k i : Nat) (hk : rows[k]? = some i) :
    t.hoverIndex k = some k ∧
      (t.hoverIndex k = some i ↔ ∀ j ≤ i, value[j]? = some v) := by
  obtain ⟨n, hn, hl, hm⟩ := clusterPoints_ok h
  obtain ⟨d, hd, rfl⟩ := List.getElem_of_mem ht
  obtain ⟨-, hc, -⟩ := clusterTrace_ok (mapE_get hm (i := d) (by rw [← mapE_length hm]; exact hd))
  obtain ⟨hp, hmem, -⟩ := hs
  have hi : value[i]? = some v := (hmem i).1 (List.mem_of_getElem? hk)
  have hlt : i < value.length := (List.getElem?_eq_some_iff.1 hi).1
  obtain ⟨hle, hiff⟩ := increasing_get hp hk
  have hov : (fig.points[d]).hoverIndex k = some k := by
    unfold PointTrace.hoverIndex
    rw [hc, List.getElem?_range (by omega)]
  refine ⟨hov, ?_⟩
  rw [hov, Option.some.injEq, hiff]
  constructor
  · intro hall j hj
    rcases hj.eq_or_lt with rfl | hj
    · exact hi
    · exact (hmem j).1 (hall j hj)
  · intro hall j hj
    exact (hmem j).2 (hall j hj.le)

/-- C99: so all hover indices of a cluster plot are right only if there is a single cluster. -/
theorem C99_hover_right_iff (cmap : Num K → Col) (x y z value : List K) (fig : ScatterFig K Col)
    (h : scatter3d cmap x y z value true = .ok fig) :
    (∀ t ∈ fig.points, ∀ v, t.name = some v → ∀ (k i : Nat), (maskEq value v)[k]? = some i →
      t.hoverIndex k = some i) ↔ ∀ v ∈ value, ∀ w ∈ value, v = w := by
  obtain ⟨vs, hpw, hmem, hname, n, hn, hrows⟩ := C99_cluster_traces cmap x y z value fig h
  have htrace : ∀ v ∈ value, ∃ t ∈ fig.points, t.name = some v := by
    intro v hv
    have : some v ∈ fig.points.map (·.name) := by
      rw [hname]
      exact List.mem_map.2 ⟨v, (hmem v).2 hv, rfl⟩
    obtain ⟨t, ht, e⟩ := List.mem_map.1 this
    exact ⟨t, ht, e⟩
  have hov : ∀ t ∈ fig.points, ∀ v, t.name = some v → ∀ (k i : Nat), (maskEq value v)[k]? = some i →
      (t.hoverIndex k = some i ↔ ∀ j ≤ i, value[j]? = some v) := by
    intro t ht v hv k i hk
    obtain ⟨d, hd, rfl⟩ := List.getElem_of_mem ht
    have hd2 : d < vs.length := by
      have := congrArg List.length hname
      simp only [List.length_map] at this
      omega
    have hvd : vs[d] = v := by
      have := congrArg (·[d]?) hname
      simp only [List.getElem?_map, List.getElem?_eq_getElem hd, List.getElem?_eq_getElem hd2,
        Option.map_some, hv] at this
      exact (Option.some.inj (Option.some.inj this)).symm
    obtain ⟨rows, hs⟩ := hrows d v _ (by rw [List.getElem?_eq_getElem hd2, hvd])
      (List.getElem?_eq_getElem hd)
    have hr : rows = maskEq value v := by
      apply List.Perm.eq_of_pairwise' (r := (· < ·)) hs.1 (maskEq_pairwise _ _)
      rw [List.perm_ext_iff_of_nodup (hs.1.imp fun h => h.ne) ((maskEq_pairwise _ _).imp fun h => h.ne)]
      intro a
      rw [hs.2.1, mem_maskEq]
    subst hr
    exact (C99_hover_index cmap x y z value fig h _ ht v hv _ _ hs k i hk).2
  constructor
  · intro hall
    have key : ∀ v ∈ value, value[0]? = some v := by
      intro v hv
      obtain ⟨t, ht, htv⟩ := htrace v hv
      obtain ⟨i, hi, rfl⟩ := List.getElem_of_mem hv
      have : i ∈ maskEq value value[i] := mem_maskEq.2 (List.getElem?_eq_getElem hi)
      obtain ⟨k, hk, hki⟩ := List.getElem_of_mem this
      have hk' : (maskEq value value[i])[k]? = some i := by rw [List.getElem?_eq_getElem hk, hki]
      exact (hov t ht _ htv k i hk').1 (hall t ht _ htv k i hk') 0 (Nat.zero_le _)
    intro v hv w hw
    have := key v hv
    rw [key w hw] at this
    exact (Option.some.inj this).symm
  · intro heq t ht v hv k i hk
    refine (hov t ht v hv k i hk).2 fun j hj => ?_
    have hi := mem_maskEq.1 (List.mem_of_getElem? hk)
    have hlt := (List.getElem?_eq_some_iff.1 hi).1
    have hj' : j < value.length := by omega
    rw [List.getElem?_eq_getElem hj']
    exact congrArg some (heq _ (List.getElem_mem hj') v (List.mem_of_getElem? hi))

/-- C99: with `is_cluster=False` all points are in one trace, in the order of the rows, and the hover
index is the row. -/
theorem C99_continuous (cmap : Num K → Col) (x y z value : List K) (fig : ScatterFig K Col)
    (h : scatter3d cmap x y z value false = .ok fig) :
    ∃ t, fig.points = [t] ∧ t.x = x ∧ t.y = y ∧ t.z = z ∧ t.text = value ∧
      ∀ k < value.length, t.hoverIndex k = some k := by
  obtain ⟨-, -, -, -, hp, -⟩ := scatter3d_ok h
  unfold pointTraces at hp
  simp only [Bool.false_eq_true, if_false] at hp
  injection hp with hp
  refine ⟨_, hp.symm, rfl, rfl, rfl, rfl, fun k hk => ?_⟩
  unfold PointTrace.hoverIndex
  rw [List.getElem?_range hk]

/-- C99: in the embedding plot every point is in the trace of its cluster and the hover text shows its
own time slice and row. -/
theorem C99_embedding (cmap : Num K → Col) (x y : List K) (labels : List ℤ) (temporal : List K)
    (ts : List (EmbedTrace K Col)) (h : embeddingPlot cmap x y labels temporal = .ok ts) :
    ∃ vs : List ℤ, vs.Pairwise (· < ·) ∧ (∀ v, v ∈ vs ↔ v ∈ labels) ∧ ts.map (·.name) = vs ∧
      ∀ t ∈ ts, ∃ rows : List Nat, rows.Pairwise (· < ·) ∧
        (∀ i, i ∈ rows ↔ labels[i]? = some t.name) ∧ t.x.length = rows.length ∧
        ∀ (k i : Nat), rows[k]? = some i → t.x[k]? = x[i]? ∧ t.y[k]? = y[i]? ∧
          t.text[k]? = some t.name ∧
          ∃ s, temporal[i]? = some s ∧ t.custom[k]? = some (s, i) := by
  unfold embeddingPlot at h
  split at h
  · cases h
  rename_i htl
  have htl := not_not.1 htl
  split at h
  · cases h
  rename_i cs hcs
  split at h
  · cases h
  rename_i hll
  have hll := not_not.1 hll
  have key : ∀ v t, embedTrace cs x y temporal.zipIdx labels v = .ok t →
      t.name = v ∧ gather x (maskEq labels v) = .ok t.x ∧ gather y (maskEq labels v) = .ok t.y ∧
        gather labels (maskEq labels v) = .ok t.text ∧
        gather temporal.zipIdx (maskEq labels v) = .ok t.custom := by
    intro v t ht
    unfold embedTrace at ht
    simp only [bind, Except.bind] at ht
    cases h1 : gather x (maskEq labels v) with
    | error e => rw [h1] at ht; cases ht
    | ok xs =>
    cases h2 : gather y (maskEq labels v) with
    | error e => rw [h1, h2] at ht; cases ht
    | ok ys =>
    cases h3 : gather cs (maskEq labels v) with
    | error e => rw [h1, h2, h3] at ht; cases ht
    | ok cc =>
    cases h4 : gather labels (maskEq labels v) with
    | error e => rw [h1, h2, h3, h4] at ht; cases ht
    | ok tt =>
    cases h5 : gather temporal.zipIdx (maskEq labels v) with
    | error e => rw [h1, h2, h3, h4, h5] at ht; cases ht
    | ok dd =>
      rw [h1, h2, h3, h4, h5] at ht
      injection ht with ht
      subst ht
      exact ⟨rfl, rfl, rfl, rfl, rfl⟩
  refine ⟨uniqueL labels, uniqueL_pairwise _, fun v => mem_uniqueL, ?_, ?_⟩
  · apply List.ext_getElem (by simp [mapE_length h])
    intro k h1 h2
    simp [(key _ _ (mapE_get h h2)).1]
  · intro t ht
    obtain ⟨d, hd, rfl⟩ := List.getElem_of_mem ht
    obtain ⟨hn, hx, hy, htt, hdd⟩ := key _ _ (mapE_get h (i := d) (by rw [← mapE_length h]; exact hd))
    rw [← hn] at hx hy htt hdd
    refine ⟨maskEq labels ts[d].name, maskEq_pairwise _ _, fun i => mem_maskEq, (gather_get hx).1,
      fun k i hk => ?_⟩
    have hi := mem_maskEq.1 (List.mem_of_getElem? hk)
    have hlt := (List.getElem?_eq_some_iff.1 hi).1
    refine ⟨((gather_get hx).2 k i hk).1, ((gather_get hy).2 k i hk).1,
      ((gather_get htt).2 k i hk).1.trans hi, temporal[i]'(by omega), List.getElem?_eq_getElem _, ?_⟩
    rw [((gather_get hdd).2 k i hk).1, List.getElem?_zipIdx, List.getElem?_eq_getElem (by omega)]
    simp

/-! ### Axes and surfaces -/

theorem spread_nonneg {v : List K} (h : v ≠ []) : 0 ≤ spread v :=
  sub_nonneg.2 ((minOf_isLeast h).2 (maxOf_isGreatest h).1)

theorem spread_eq_zero {v : List K} (h : v ≠ []) : spread v = 0 ↔ ∀ a ∈ v, ∀ b ∈ v, a = b := by
  unfold spread
  rw [sub_eq_zero]
  constructor
  · intro e a ha b hb
    have h1 := (minOf_isLeast h).2 ha
    have h2 := (minOf_isLeast h).2 hb
    have h3 := (maxOf_isGreatest h).2 ha
    have h4 := (maxOf_isGreatest h).2 hb
    rw [e] at h3 h4
    rw [le_antisymm h3 h1, le_antisymm h4 h2]
  · intro hall
    exact hall _ (maxOf_isGreatest h).1 _ (minOf_isLeast h).1

theorem margin_range {v : List K} (h : v ≠ []) {a : K} (ha : a ∈ v) :
    minOf v - spread v * (3 / 25) ≤ a ∧ a ≤ maxOf v + spread v * (3 / 25) := by
  have h0 := spread_nonneg h
  have h1 : minOf v ≤ a := (minOf_isLeast h).2 ha
  have h2 : a ≤ maxOf v := (maxOf_isGreatest h).2 ha
  have h3 : 0 ≤ spread v * (3 / 25) := mul_nonneg h0 (by norm_num)
  constructor <;> linarith

theorem zStep_nonneg {z : List K} (h : z ≠ []) : 0 ≤ zStep z :=
  div_nonneg (spread_nonneg h) (Nat.cast_nonneg _)

/-- C100: every point lies inside the axis ranges; if the coordinate is not constant, strictly
inside. -/
theorem C100_ranges (cmap : Num K → Col) (x y z value : List K) (b : Bool) (fig : ScatterFig K Col)
    (h : scatter3d cmap x y z value b = .ok fig) :
    (∀ a ∈ x, fig.xRange.1 ≤ a ∧ a ≤ fig.xRange.2) ∧
    (∀ a ∈ y, fig.yRange.1 ≤ a ∧ a ≤ fig.yRange.2) ∧
    (∀ a ∈ z, fig.zRange.1 ≤ a ∧ a ≤ fig.zRange.2) ∧
    ((∃ a ∈ z, ∃ b ∈ z, a ≠ b) → ∀ a ∈ z, fig.zRange.1 < a ∧ a < fig.zRange.2) := by
  obtain ⟨hx, hy, hz, -, -, cs, -, -, -, e1, e2, e3⟩ := scatter3d_ok h
  rw [e1, e2, e3]
  refine ⟨fun a ha => margin_range hx ha, fun a ha => margin_range hy ha, fun a ha => ?_, ?_⟩
  · have h0 := zStep_nonneg hz
    have h1 : minOf z ≤ a := (minOf_isLeast hz).2 ha
    have h2 : a ≤ maxOf z := (maxOf_isGreatest hz).2 ha
    constructor <;> simp only <;> linarith
  · rintro ⟨p, hp, q, hq, hpq⟩ a ha
    have hs : 0 < spread z := (spread_nonneg hz).lt_of_ne fun e =>
      hpq ((spread_eq_zero hz).1 e.symm p hp q hq)
    have hl : 0 < (uniqueL z).length := List.length_pos_of_mem (mem_uniqueL.2 ha)
    have h0 : 0 < zStep z := div_pos hs (by exact_mod_cast hl)
    have h1 : minOf z ≤ a := (minOf_isLeast hz).2 ha
    have h2 : a ≤ maxOf z := (maxOf_isGreatest hz).2 ha
    constructor <;> simp only <;> linarith

/-- C100: the horizontal aspect ratios are in the proportion of the extents, the smaller one is 1, and
the vertical one is 0.6 per time slice times the larger one. -/
theorem C100_aspect (cmap : Num K → Col) (x y z value : List K) (b : Bool) (fig : ScatterFig K Col)
    (h : scatter3d cmap x y z value b = .ok fig) {p q p' q' : K}
    (hp : p ∈ x ∧ ∀ a ∈ x, p ≤ a) (hq : q ∈ x ∧ ∀ a ∈ x, a ≤ q) (hp' : p' ∈ y ∧ ∀ a ∈ y, p' ≤ a)
    (hq' : q' ∈ y ∧ ∀ a ∈ y, a ≤ q') (hx : p < q) (hy : p' < q') :
    ∃ ax ay, fig.aspect = (.fin ax, .fin ay, .fin (max ax ay * ((uniqueL z).length : K) * (3 / 5))) ∧
      ax * (q' - p') = ay * (q - p) ∧ min ax ay = 1 := by
  obtain ⟨hxn, hyn, -, -, -, cs, -, -, ea, -⟩ := scatter3d_ok h
  have e1 : spread x = q - p := by
    unfold spread
    rw [(maxOf_isGreatest hxn).unique ⟨hq.1, fun a ha => hq.2 a ha⟩,
      (minOf_isLeast hxn).unique ⟨hp.1, fun a ha => hp.2 a ha⟩]
  have e2 : spread y = q' - p' := by
    unfold spread
    rw [(maxOf_isGreatest hyn).unique ⟨hq'.1, fun a ha => hq'.2 a ha⟩,
      (minOf_isLeast hyn).unique ⟨hp'.1, fun a ha => hp'.2 a ha⟩]
  have h1 : 0 < q - p := sub_pos.2 hx
  have h2 : 0 < q' - p' := sub_pos.2 hy
  rw [ea, e1, e2]
  unfold aspectRatio
  split
  · rename_i hlt
    have hge : 1 ≤ (q' - p') / (q - p) := by
      rw [le_div_iff₀ h1]
      linarith
    refine ⟨1, (q' - p') / (q - p), ?_, ?_, min_eq_left hge⟩
    · rw [max_eq_right hge]
      simp [Num.div, Num.mul, h1.ne']
    · field_simp
  · rename_i hge
    have hge : 1 ≤ (q - p) / (q' - p') := by
      rw [le_div_iff₀ h2]
      linarith
    refine ⟨(q - p) / (q' - p'), 1, ?_, ?_, min_eq_right hge⟩
    · rw [max_eq_left hge]
      simp [Num.div, Num.mul, h2.ne']
    · field_simp

/-- C100: if all points have the same x or the same y coordinate, the aspect ratios are not finite:
infinite if only one extent is zero, NaN if both are. -/
theorem C100_degenerate (cmap : Num K → Col) (x y z value : List K) (b : Bool) (fig : ScatterFig K Col)
    (h : scatter3d cmap x y z value b = .ok fig) :
    ((∀ a ∈ x, ∀ a' ∈ x, a = a') → (∃ a ∈ y, ∃ a' ∈ y, a ≠ a') →
      fig.aspect = (.fin 1, .pinf, .pinf)) ∧
    ((∃ a ∈ x, ∃ a' ∈ x, a ≠ a') → (∀ a ∈ y, ∀ a' ∈ y, a = a') →
      fig.aspect = (.pinf, .fin 1, .pinf)) ∧
    ((∀ a ∈ x, ∀ a' ∈ x, a = a') → (∀ a ∈ y, ∀ a' ∈ y, a = a') →
      fig.aspect = (.nan, .fin 1, .nan)) := by
  obtain ⟨hxn, hyn, hzn, -, -, cs, -, -, ea, -⟩ := scatter3d_ok h
  have hpos : ∀ {v : List K}, v ≠ [] → (∃ a ∈ v, ∃ a' ∈ v, a ≠ a') → 0 < spread v := by
    rintro v hv ⟨a, ha, a', ha', hne⟩
    exact (spread_nonneg hv).lt_of_ne fun e => hne ((spread_eq_zero hv).1 e.symm a ha a' ha')
  have hm : (0 : K) < ((uniqueL z).length : K) := by
    obtain ⟨a, ha⟩ := List.exists_mem_of_ne_nil z hzn
    exact_mod_cast List.length_pos_of_mem (mem_uniqueL.2 ha)
  have hm' : ((uniqueL z).length : K) ≠ 0 := hm.ne'
  have h35 : (0 : K) < 3 / 5 := by norm_num
  refine ⟨fun hx hy => ?_, fun hx hy => ?_, fun hx hy => ?_⟩
  · have h1 := (spread_eq_zero hxn).2 hx
    have h2 := hpos hyn hy
    rw [ea, h1, aspectRatio, if_pos h2]
    simp only [Num.div, if_true, Num.infSign, h2.ne', if_false, h2, Num.mul, hm', hm, h35.ne', h35]
  · have h1 := (spread_eq_zero hyn).2 hy
    have h2 := hpos hxn hx
    rw [ea, h1, aspectRatio, if_neg (not_lt.2 h2.le)]
    simp only [Num.div, if_true, Num.infSign, h2.ne', if_false, h2, Num.mul, hm', hm, h35.ne', h35]
  · rw [ea, (spread_eq_zero hxn).2 hx, (spread_eq_zero hyn).2 hy, aspectRatio, if_neg (lt_irrefl _)]
    simp only [Num.div, if_true, Num.infSign, Num.mul]

/-- C100: there is one surface per time slice, in order of time, the first one in the legend; each is
drawn 8% of the mean step below its slice, and above the slice before it if the slices are at least a
twelfth of the mean step apart. -/
theorem C100_surfaces (cmap : Num K → Col) (x y z value : List K) (b : Bool) (fig : ScatterFig K Col)
    (h : scatter3d cmap x y z value b = .ok fig) :
    ∃ slices : List K, slices.Pairwise (· < ·) ∧ (∀ a, a ∈ slices ↔ a ∈ z) ∧
      fig.surfaces.length = slices.length ∧
      ∀ (k : Nat) s t, fig.surfaces[k]? = some s → slices[k]? = some t →
        (s.legend = true ↔ k = 0) ∧
        s.z = t - 2 / 25 * ((maxOf z - minOf z) / (slices.length : K)) ∧
        s.z ≤ t ∧ (1 < slices.length → s.z < t) ∧
        (∀ t', slices[k - 1]? = some t' → 0 < k → (maxOf z - minOf z) / (slices.length : K) < 12 * (t - t') →
          t' < s.z) := by
  obtain ⟨-, -, hzn, -, -, cs, -, es, -⟩ := scatter3d_ok h
  refine ⟨uniqueL z, uniqueL_pairwise _, fun a => mem_uniqueL, by rw [es]; simp [timeSurfaces],
    fun k s t hs ht => ?_⟩
  obtain ⟨hk, rfl⟩ := List.getElem?_eq_some_iff.1 ht
  rw [es, timeSurfaces, List.getElem?_map, List.getElem?_range hk] at hs
  have hs := Option.some.inj hs
  have h0 := zStep_nonneg hzn
  subst hs
  simp only [List.getD_eq_getElem?_getD, ht, Option.getD_some, decide_eq_true_eq]
  refine ⟨trivial, ?_, by linarith, fun hl => ?_, fun t' ht' hk0 hgap => ?_⟩
  · have e : zStep z = (maxOf z - minOf z) / ((uniqueL z).length : K) := rfl
    rw [← e]
    ring
  · have hs : 0 < spread z := by
      refine (spread_nonneg hzn).lt_of_ne fun e => ?_
      have hp := List.pairwise_iff_getElem.1 (uniqueL_pairwise z) 0 1 (by omega) hl (by omega)
      have := (spread_eq_zero hzn).1 e.symm _ (mem_uniqueL.1 (List.getElem_mem (by omega : 0 < _)))
        _ (mem_uniqueL.1 (List.getElem_mem hl))
      exact hp.ne this
    have : 0 < zStep z := div_pos hs (by exact_mod_cast (by omega : 0 < (uniqueL z).length))
    linarith
  · have e : zStep z = (maxOf z - minOf z) / ((uniqueL z).length : K) := rfl
    rw [← e] at hgap
    linarith

/-! ### Example -/

/-- Four points, clusters 1, 2, 1, 2, two time slices. -/
def exScatter : Except Err (ScatterFig ℚ (Num ℚ)) :=
  scatter3d id [0, 1, 2, 4] [0, 1, 2, 2] [0, 0, 1, 1] [1, 2, 1, 2] true

/-- The second cluster holds rows 1 and 3; hovering shows 0 and 1. -/
example : okAnd exScatter (fun fig => decide (
    fig.points.map (·.name) = [some 1, some 2] ∧ fig.points.map (·.x) = [[0, 2], [1, 4]] ∧
    fig.points.map (·.hoverIndex 0) = [some 0, some 0] ∧
    fig.points.map (·.hoverIndex 1) = [some 1, some 1] ∧
    fig.points.map (·.colour) = [some [.fin 0, .fin 0], some [.fin 1, .fin 1]] ∧
    fig.aspect = (.fin 2, .fin 1, .fin (12 / 5)) ∧ fig.xRange = (- (12 / 25), 4 + 12 / 25) ∧
    fig.surfaces.map (·.z) = [- (1 / 25), 1 - 1 / 25])) = true ∧
    maskEq ([1, 2, 1, 2] : List ℚ) 2 = [1, 3] :=
  ⟨by decide +kernel, by decide +kernel⟩

/-- The embedding plot of the same clusters shows rows 1 and 3. -/
example : okAnd (embeddingPlot (id : Num ℚ → Num ℚ) [0, 1, 2, 4] [0, 1, 2, 2] [1, 2, 1, 2] [0, 0, 1, 1])
    (fun ts => decide (ts.map (·.custom) = [[(0, 0), (1, 2)], [(0, 1), (1, 3)]])) = true := by
  decide +kernel

end Geo
