import Verif.Model.AleScripts
import Verif.Props.ExampleScripts
import Verif.Props.AleCurve
import Verif.Props.AlePlot
import Verif.Props.Constructor
import Verif.Props.Importance
/-
C163: the local-ALE figures of `simulation_for_ale.py` and `simulation_data_fitting.py`: which figures
there are, what their curves are, and how the two scripts end.
-/
set_option linter.unusedSectionVars false
namespace Geo
variable {K : Type} [Field K] [LinearOrder K] [IsStrictOrderedRing K] [FloorRing K]
variable {F S T V : Type}

theorem maskRows_col0 (X : Mat K) (idx : List Nat) :
    (maskRows X idx).col 0 = idx.map fun j => X.get j 0 := by
  apply List.ext_getElem (by simp [Mat.col, maskRows])
  intro i h1 h2
  have h3 : i < idx.length := by simpa using h2
  simp [Mat.col, maskRows, h3]

/-- What a curve tells about its sample. -/
theorem curve_facts {X : Mat K} {pred : List K → K} {w q ale : List K}
    (h : weightedAle X 0 pred (some w) false 5 = .ok (q, ale)) :
    0 < X.c ∧ 5 < X.r ∧ (∃ i < X.r, ∃ j < X.r, X.get i 0 ≠ X.get j 0) ∧ ale.length = q.length ∧
      2 ≤ q.length ∧ q.Pairwise (· < ·) ∧ q.getD 0 0 = minOf (X.col 0) ∧
      q.getD (q.length - 1) 0 = maxOf (X.col 0) := by
  obtain ⟨hc, -, hb, -⟩ := weightedAle_ok (by norm_num) h
  have hr : 5 < X.r := by
    by_contra hr
    rw [C62_too_few X 0 pred (some w) false 5 hc (.inl (by omega))] at h
    cases h
  have hne : X.col 0 ≠ [] := by
    intro h0
    have := congrArg List.length h0
    simp [Mat.col] at this
    omega
  refine ⟨hc, hr, ?_, C59_one_value_per_grid_point X 0 pred (some w) false 5 (by norm_num) q ale h,
    hb.two, hb.grid.strict, ?_, ?_⟩
  · by_contra hcon
    rw [C62_degenerate X 0 pred (some w) false 5 hc (by omega) (by omega) (.inr fun i hi j hj => by
      by_contra hij
      exact hcon ⟨i, hi, j, hj, hij⟩)] at h
    cases h
  · obtain ⟨a, ha, hm, hle⟩ := hb.grid.first
    have hq : q.getD 0 0 = a := by
      cases q with
      | nil => cases ha
      | cons b l => injection ha
    rw [hq]
    have := minOf_isLeast hne
    exact le_antisymm (hle _ this.1) (this.2 hm)
  · obtain ⟨a, ha, hm, hle⟩ := hb.grid.last
    have hq : q.getD (q.length - 1) 0 = a := by
      rw [List.getLast?_eq_getElem?] at ha
      simp [List.getD_eq_getElem?_getD, ha]
    rw [hq]
    have := maxOf_isGreatest hne
    exact le_antisymm (this.2 hm) (hle _ this.1)

/-- What a finished scatter tells. -/
theorem stalePanel_ok {L : Learner K F} {st : WMState K F (Mat K)} {X : Mat K} {y : List K} {i : Nat}
    {q : StalePanel K} (hX : st.X = some X) (h : stalePanel L st X y i = .ok q) :
    ∃ es B W f, st.estimators = some es ∧ st.neighbourMatrix = some (.dense B) ∧
      st.weightMatrix = some (.dense W) ∧ es.getD i none = some f ∧ B.c = X.r ∧
      weightedAle (maskRows X (trueIdx B i)) 0 (L.predict f) (some ((trueIdx B i).map (W.get i)))
        false 5 = .ok q.curve ∧ q.xs = (trueIdx B i).map fun j => X.get j 0 := by
  unfold stalePanel at h
  rw [hX] at h
  cases hes : st.estimators with
  | none => rw [hes] at h; cases h
  | some es =>
  rcases hB : st.neighbourMatrix with _ | B | B
  · rw [hes, hB] at h; cases h
  · rcases hW : st.weightMatrix with _ | W | W
    · rw [hes, hB, hW] at h; cases h
    · simp only [hes, hB, hW] at h
      split at h
      · cases h
      rename_i hc
      split at h
      · cases h
      rename_i f hf
      split at h
      · cases h
      rename_i curve hcv
      split at h
      · cases h
      cases h
      exact ⟨es, B, W, f, rfl, rfl, rfl, hf, by by_contra hc2; exact hc (by tauto), hcv, rfl⟩
    · rw [hes, hB, hW] at h; cases h
  · rw [hes, hB] at h; cases h

/-- Unit weights never make a curve fail that exists with other weights, on any larger sample. -/
theorem unit_curve {X : Mat K} {pred : List K → K} {w : List K} {r : List K × List K}
    {idx idx' : List Nat} (hsub : ∀ j ∈ idx, j ∈ idx') (hlen : idx.length ≤ idx'.length)
    (h : weightedAle (maskRows X idx) 0 pred (some w) false 5 = .ok r) :
    ∃ r', weightedAle (maskRows X idx') 0 pred (some (List.replicate idx'.length 1)) false 5 =
      .ok r' := by
  obtain ⟨h1, h2, ⟨i, hi, j, hj, hij⟩, -⟩ := curve_facts (q := r.1) (ale := r.2) h
  simp only [maskRows] at h1 h2 hi hj hij
  obtain ⟨i', hi', hei⟩ := List.getElem_of_mem (hsub _ (List.getElem_mem hi))
  obtain ⟨j', hj', hej⟩ := List.getElem_of_mem (hsub _ (List.getElem_mem hj))
  obtain ⟨q, ale, hq⟩ := (C62_succeeds (maskRows X idx') 0 pred false 5 h1 (by norm_num)
    (by simp only [maskRows]; omega) (by simp only [maskRows]; omega)
    ⟨i', by simpa [maskRows] using hi', j', by simpa [maskRows] using hj', by
      simp only [maskRows, List.getD_eq_getElem _ _ hi', List.getD_eq_getElem _ _ hj', hei, hej]
      simpa [hi, hj] using hij⟩).2.2
    (List.replicate idx'.length 1) (by simp [maskRows]) (by
      intro x hx
      rw [List.eq_of_mem_replicate hx]
      exact one_pos)
  exact ⟨_, hq⟩

theorem rowsInRange_sub {X : Mat K} {B : Mat Bool} {i : Nat} (hB : B.c = X.r) {xs : List K}
    (hx : xs = (trueIdx B i).map fun j => X.get j 0) :
    (∀ j ∈ trueIdx B i, j ∈ rowsInRange X (minOf xs) (maxOf xs)) ∧
      (trueIdx B i).length ≤ (rowsInRange X (minOf xs) (maxOf xs)).length := by
  have key : ∀ j ∈ trueIdx B i, j ∈ rowsInRange X (minOf xs) (maxOf xs) := by
    intro j hj
    have hm : X.get j 0 ∈ xs := by rw [hx]; exact List.mem_map.2 ⟨j, hj, rfl⟩
    have hne : xs ≠ [] := List.ne_nil_of_mem hm
    have hr := (List.mem_filter.1 hj).1
    rw [hB] at hr
    exact List.mem_filter.2 ⟨hr, decide_eq_true ⟨(minOf_isLeast hne).2 hm,
      (maxOf_isGreatest hne).2 hm⟩⟩
  refine ⟨key, ?_⟩
  exact (List.Nodup.subperm (List.Nodup.filter _ List.nodup_range) key).length_le

/-- A round of the loop fails exactly if its scatter fails; otherwise all its parts exist. -/
theorem alePanel_cases {nb : Bool} {L : Learner K F} {st : WMState K F (Mat K)} {X : Mat K}
    {y : List K} (hX : st.X = some X) (hc : X.c = 2) (beta mean : K) (uni cho : List K) (i : Nat) :
    (∀ e, stalePanel L st X y i = .error e →
      alePanel nb L st X y beta mean uni cho i = .error e) ∧
    ∀ q, stalePanel L st X y i = .ok q → ∃ f fig c,
      (∃ es, st.estimators = some es ∧ es.getD i none = some f) ∧
      plotAle q.curve.1 (anchored (baseValue (L.predict f) (minOf q.xs) uni) q.curve.2) q.xs =
        .ok fig ∧
      weightedAle (maskRows X (rowsInRange X (minOf q.xs) (maxOf q.xs))) 0 (L.predict f)
        (some (List.replicate (rowsInRange X (minOf q.xs) (maxOf q.xs)).length 1)) false 5 = .ok c ∧
      alePanel nb L st X y beta mean uni cho i =
        .ok ⟨fig, q, truthLine beta mean (minOf q.xs) (maxOf q.xs),
          c.1.zip (anchored (baseValue (L.predict f) (minOf q.xs) cho) c.2)⟩ := by
  refine ⟨fun e he => by unfold alePanel; rw [he], fun q hq => ?_⟩
  obtain ⟨es, B, W, f, hes, hB, hW, hf, hBc, hcv, hxs⟩ := stalePanel_ok hX hq
  obtain ⟨h1, h2⟩ := rowsInRange_sub hBc hxs
  obtain ⟨c, hcc⟩ := unit_curve h1 h2 hcv
  obtain ⟨c', hcn⟩ := unit_curve (fun _ h => h) le_rfl hcv
  obtain ⟨-, -, -, hl, -⟩ := curve_facts (q := q.curve.1) (ale := q.curve.2) hcv
  have hfig : ∃ fig, plotAle q.curve.1
      (anchored (baseValue (L.predict f) (minOf q.xs) uni) q.curve.2) q.xs = .ok fig := by
    unfold plotAle
    rw [if_neg (by simp [anchored, hl])]
    exact ⟨_, rfl⟩
  obtain ⟨fig, hfig⟩ := hfig
  refine ⟨f, fig, c, ⟨es, hes, hf⟩, hfig, hcc, ?_⟩
  have hnb : (if nb then neighbourCurve L st f i else .ok ()) = .ok () := by
    cases nb with
    | false => rfl
    | true =>
      simp only [if_true, neighbourCurve, hB, hX, hcn]
      rfl
  unfold alePanel
  simp only [hq, hes, Option.getD_some, hf, hc, ne_eq, not_true_eq_false, if_false, hfig, hnb, hcc]

/-! ### loops -/

theorem figureLoop_map {α β : Type} {f : Nat → Except Err α} {g : Nat → Except Err β} {m : α → β} :
    ∀ {l : List Nat}, (∀ i ∈ l, (f i).map m = g i) →
      (∀ bs, mapE g l = .ok bs → (figureLoop f l).1.map m = bs ∧ (figureLoop f l).2 = .ok ()) ∧
      ∀ e, mapE g l = .error e → (figureLoop f l).2 = .error e ∧
        (figureLoop f l).1.length < l.length ∧
        mapE g (l.take (figureLoop f l).1.length) = .ok ((figureLoop f l).1.map m) ∧
        g (l.getD (figureLoop f l).1.length 0) = .error e := by
  intro l
  induction l with
  | nil =>
    intro _
    refine ⟨fun bs h => ?_, fun e h => ?_⟩
    · cases h; exact ⟨rfl, rfl⟩
    · cases h
  | cons i l ih =>
    intro h
    have hi := h i (by simp)
    obtain ⟨ih1, ih2⟩ := ih fun j hj => h j (by simp [hj])
    simp only [figureLoop, mapE]
    cases hf : f i with
    | error e =>
      rw [hf] at hi
      rw [← hi]
      refine ⟨fun bs h => (by cases h), fun e' h => ?_⟩
      cases h
      refine ⟨rfl, by simp, rfl, ?_⟩
      exact hi.symm
    | ok a =>
      rw [hf] at hi
      have hi : g i = .ok (m a) := hi.symm
      rw [hi]
      cases hm : mapE g l with
      | error e =>
        obtain ⟨k1, k2, k3, k4⟩ := ih2 e hm
        refine ⟨fun bs h => (by cases h), fun e' h => ?_⟩
        cases h
        refine ⟨k1, by simpa using k2, ?_, by simpa using k4⟩
        simp only [List.length_cons, List.take_succ_cons, mapE, hi, k3, List.map_cons]
      | ok bs =>
        obtain ⟨k1, k2⟩ := ih1 bs hm
        refine ⟨fun bs' h => ?_, fun e' h => (by cases h)⟩
        cases h
        exact ⟨by simp [k1], k2⟩

/-! ### C163 -/

/-- The two scripts draw the same figures: the further curve of one of them never fails. -/
theorem alePanel_flag {L : Learner K F} {st : WMState K F (Mat K)} {X : Mat K}
    {y : List K} (hX : st.X = some X) (hc : X.c = 2) (beta mean : K) (uni cho : List K) (i : Nat) :
    alePanel true L st X y beta mean uni cho i = alePanel false L st X y beta mean uni cho i := by
  obtain ⟨a1, a2⟩ := alePanel_cases (nb := true) (L := L) (y := y) hX hc beta mean uni cho i
  obtain ⟨b1, b2⟩ := alePanel_cases (nb := false) (L := L) (y := y) hX hc beta mean uni cho i
  cases h : stalePanel L st X y i with
  | error e => rw [a1 e h, b1 e h]
  | ok q =>
    obtain ⟨f, fig, c, ⟨es, h1, h2⟩, h3, h4, h5⟩ := a2 q h
    obtain ⟨f', fig', c', ⟨es', h1', h2'⟩, h3', h4', h5'⟩ := b2 q h
    rw [h1] at h1'
    cases h1'
    rw [h2] at h2'
    cases h2'
    rw [h3] at h3'
    cases h3'
    rw [h4] at h4'
    cases h4'
    rw [h5, h5']

theorem alePanel_scatter {nb : Bool} {L : Learner K F} {st : WMState K F (Mat K)} {X : Mat K}
    {y : List K} (hX : st.X = some X) (hc : X.c = 2) (beta mean : K) (uni cho : List K) (i : Nat) :
    (alePanel nb L st X y beta mean uni cho i).map AlePanel.scatter = stalePanel L st X y i := by
  obtain ⟨a1, a2⟩ := alePanel_cases (nb := nb) (L := L) (y := y) hX hc beta mean uni cho i
  cases h : stalePanel L st X y i with
  | error e => rw [a1 e h]; rfl
  | ok q =>
    obtain ⟨f, fig, c, -, -, -, h5⟩ := a2 q h
    rw [h5]
    rfl

/-- C163: `draw_graph` of `simulation_for_ale.py` saves one figure per location, in order, as long as
the local curves exist. If `local_ALE(0)` succeeds, so does the script, and the figures show its
curves; otherwise the script ends with the same error, at the first location without a curve, and the
figures of the locations before it have been saved. -/
theorem C163_files (L : Learner K F) (rng : Rng S) (cpu : Nat)
    (weights : Mat K → Mat K → Except Err (Mat K)) (D : AleSample K) (s : S) (hc : D.X.c = 2)
    (hok : (aleScriptFit L rng cpu weights D s).result = .ok ()) :
    (∀ cs, localAle L (aleScriptFit L rng cpu weights D s).state 0 = .ok cs →
      (aleScript L rng cpu weights D s).2 = .ok () ∧
      (aleScript L rng cpu weights D s).1.map (fun p => p.scatter.curve) = cs ∧
      cs.length = D.X.r) ∧
    ∀ e, localAle L (aleScriptFit L rng cpu weights D s).state 0 = .error e →
      (aleScript L rng cpu weights D s).2 = .error e ∧
      (aleScript L rng cpu weights D s).1.length < D.X.r ∧
      stalePanel L (aleScriptFit L rng cpu weights D s).state D.X D.y
        (aleScript L rng cpu weights D s).1.length = .error e := by
  obtain ⟨Dm, ps, sc, hD, hyl, hXc, -, -, hN, -, hW, hB, ⟨es, hes, hel⟩, -⟩ :=
    scriptFit_ok (L := L) (rng := rng) (p := staleParams cpu weights) (s := s) (X := D.X) (y := D.y)
      (points := D.points) rfl rfl hok
  obtain ⟨hX, -, -⟩ := fit_cached (p := staleParams cpu weights) rfl hok
  have hst : staleScript L rng cpu weights D.X D.y D.points s =
      mapE (stalePanel L (aleScriptFit L rng cpu weights D s).state D.X D.y) (List.range D.X.r) := by
    unfold staleScript
    simp only
    rw [show (wmFit L rng { scriptParams cpu weights with cacheData := true, cacheEstimator := true }
      {} s D.X D.y (some D.points) none).result = .ok () from hok, show (wmFit L rng
      { scriptParams cpu weights with cacheData := true, cacheEstimator := true }
      {} s D.X D.y (some D.points) none).state.N = some D.X.r from hN]
    rfl
  have hcv := C151_stale_curves L rng cpu weights D.X D.y D.points s hok
  rw [hst] at hcv
  change _ = localAle L (aleScriptFit L rng cpu weights D s).state 0 at hcv
  have hrun : aleScript L rng cpu weights D s = figureLoop (fun i => alePanel false L
      (aleScriptFit L rng cpu weights D s).state D.X D.y (D.beta i) (D.mean i) (D.uni i) (D.cho i) i)
      (List.range D.X.r) := by
    unfold aleScript
    rw [hok, show (aleScriptFit L rng cpu weights D s).state.N = some D.X.r from hN]
  obtain ⟨k1, k2⟩ := figureLoop_map (f := fun i => alePanel false L
      (aleScriptFit L rng cpu weights D s).state D.X D.y (D.beta i) (D.mean i) (D.uni i) (D.cho i) i)
      (g := stalePanel L (aleScriptFit L rng cpu weights D s).state D.X D.y) (m := AlePanel.scatter)
      (l := List.range D.X.r) fun i _ => alePanel_scatter hX hc _ _ _ _ i
  rw [hrun, ← hcv]
  refine ⟨fun cs h => ?_, fun e h => ?_⟩
  · cases hm : mapE (stalePanel L (aleScriptFit L rng cpu weights D s).state D.X D.y)
        (List.range D.X.r) with
    | error e => rw [hm] at h; cases h
    | ok bs =>
      rw [hm] at h
      cases h
      obtain ⟨h1, h2⟩ := k1 bs hm
      refine ⟨h2, ?_, ?_⟩
      · rw [← h1, List.map_map]
        rfl
      · have := mapE_length hm
        simpa using this
  · cases hm : mapE (stalePanel L (aleScriptFit L rng cpu weights D s).state D.X D.y)
        (List.range D.X.r) with
    | ok bs => rw [hm] at h; cases h
    | error e' =>
      rw [hm] at h
      cases h
      obtain ⟨h1, h2, -, h4⟩ := k2 _ hm
      rw [List.length_range] at h2
      refine ⟨h1, h2, ?_⟩
      rwa [List.getD_eq_getElem _ _ (by simpa using h2), List.getElem_range] at h4

theorem figureLoop_get {α : Type} {f : Nat → Except Err α} : ∀ {l : List Nat} {i : Nat} {a : α},
    (figureLoop f l).1[i]? = some a → ∃ j, l[i]? = some j ∧ f j = .ok a := by
  intro l
  induction l with
  | nil => intro i a h; simp [figureLoop] at h
  | cons j l ih =>
    intro i a h
    simp only [figureLoop] at h
    cases hf : f j with
    | error e => rw [hf] at h; simp at h
    | ok b =>
      rw [hf] at h
      cases i with
      | zero =>
        simp only [List.getElem?_cons_zero, Option.some.injEq] at h
        subst h
        exact ⟨j, rfl, hf⟩
      | succ i =>
        simp only [List.getElem?_cons_succ] at h
        obtain ⟨j', h1, h2⟩ := ih h
        exact ⟨j', by simpa using h1, h2⟩

theorem filter_range_getD {α : Type} (l : List Nat) (P : Nat → Bool) (g : Nat → α) :
    ((List.range l.length).filter fun i => P (l.getD i 0)).map (fun i => g (l.getD i 0)) =
      (l.filter P).map g := by
  have hl : l = (List.range l.length).map fun i => l.getD i 0 := by
    apply List.ext_getElem (by simp)
    intro i h1 h2
    simp [h1]
  conv_rhs => rw [hl, List.filter_map, List.map_map]
  rfl

theorem anchored_length (b : K) (l : List K) : (anchored b l).length = l.length := by
  simp [anchored]

theorem zip_head {xs vs : List K} (h2 : 2 ≤ xs.length) (hl : vs.length = xs.length) :
    (xs.zip vs).head? = some (xs.getD 0 0, vs.getD 0 0) := by
  cases xs with
  | nil => simp at h2
  | cons a xs =>
    cases vs with
    | nil => simp at hl
    | cons b vs => rfl

theorem zip_last {xs vs : List K} (h2 : 2 ≤ xs.length) (hl : vs.length = xs.length) :
    (xs.zip vs).getLast?.map Prod.fst = some (xs.getD (xs.length - 1) 0) := by
  have hn : xs.length - 1 < xs.length := by omega
  rw [List.getLast?_eq_getElem?, List.length_zip, hl, min_self,
    List.getElem?_eq_getElem (by simp [hl]; omega)]
  rw [List.getD_eq_getElem _ _ hn]
  simp

theorem anchored_head {b : K} {l : List K} (h : l ≠ []) : (anchored b l).getD 0 0 = b := by
  cases l with
  | nil => exact absurd rfl h
  | cons a l => simp [anchored]

theorem trueEffect_eq (beta mean x : K) : trueEffect beta mean x = beta * mean * x := by
  unfold trueEffect
  ring

/-- C163: a saved figure. With the neighbours of the location (the other observations with positive
weight), `lo` and `hi` the smallest and the largest of their feature values:
the curve is that of `weighted_ale` of the neighbours, moved up or down so that it starts at the mean
prediction of the local estimator for the feature value `lo`; both curves start at `lo` and end at
`hi`; the line of the true effect is `beta * mean * x` at 1000 positions from `lo` to `hi`. -/
theorem C163_figure (L : Learner K F) (rng : Rng S) (cpu : Nat)
    (weights : Mat K → Mat K → Except Err (Mat K)) (D : AleSample K) (s : S) (hc : D.X.c = 2)
    (i : Nat) (p : AlePanel K) (hp : (aleScript L rng cpu weights D s).1[i]? = some p) :
    ∃ W, weights D.points D.points = .ok W ∧
      ∃ f, ((aleScriptFit L rng cpu weights D s).state.estimators.getD []).getD i none = some f ∧
      let nb := (List.range D.X.r).filter fun j => decide (j ≠ i ∧ 0 < W.get i j)
      ∃ lo hi curve, IsLeast {x | ∃ j ∈ nb, x = D.X.get j 0} lo ∧
        IsGreatest {x | ∃ j ∈ nb, x = D.X.get j 0} hi ∧
        weightedAle (maskRows D.X nb) 0 (L.predict f) (some (nb.map (W.get i))) false 5 =
          .ok curve ∧
        (∃ δ, p.figure.line = curve.1.zip (curve.2.map (· + δ))) ∧
        p.figure.line.head? = some (lo, ((D.uni i).map fun x => L.predict f [lo, x]).sum /
          (D.uni i).length) ∧
        p.figure.line.getLast?.map Prod.fst = some hi ∧
        p.plain.head? = some (lo, ((D.cho i).map fun x => L.predict f [lo, x]).sum /
          (D.cho i).length) ∧
        p.plain.getLast?.map Prod.fst = some hi ∧
        p.truth.length = 1000 ∧ p.truth.head? = some (lo, D.beta i * D.mean i * lo) ∧
        p.truth.getLast? = some (hi, D.beta i * D.mean i * hi) ∧
        ∀ v ∈ p.truth, lo ≤ v.1 ∧ v.1 ≤ hi ∧ v.2 = D.beta i * D.mean i * v.1 := by
  unfold aleScript at hp
  cases hr : (aleScriptFit L rng cpu weights D s).result with
  | error e => rw [hr] at hp; simp at hp
  | ok u =>
  cases u
  obtain ⟨W, ps, sc, hD, -, -, -, -, hN, -, hW, hB, ⟨es, hes, -⟩, -, hDc, -⟩ :=
    scriptFit_ok (L := L) (rng := rng) (p := staleParams cpu weights) (s := s) (X := D.X) (y := D.y)
      (points := D.points) rfl rfl hr
  obtain ⟨hX, -, -⟩ := fit_cached (p := staleParams cpu weights) rfl hr
  change (aleScriptFit L rng cpu weights D s).state.N = _ at hN
  change (aleScriptFit L rng cpu weights D s).state.weightMatrix = _ at hW
  change (aleScriptFit L rng cpu weights D s).state.neighbourMatrix = _ at hB
  change (aleScriptFit L rng cpu weights D s).state.estimators = _ at hes
  change (aleScriptFit L rng cpu weights D s).state.X = _ at hX
  rw [hr, hN] at hp
  obtain ⟨j, hj, hpan⟩ := figureLoop_get hp
  rw [List.getElem?_range (by
    by_contra hcon
    rw [List.getElem?_eq_none (by simpa using hcon)] at hj
    cases hj)] at hj
  cases hj
  obtain ⟨a1, a2⟩ := alePanel_cases (nb := false) (L := L) (y := D.y) hX hc (D.beta i) (D.mean i)
    (D.uni i) (D.cho i) i
  cases hq : stalePanel L (aleScriptFit L rng cpu weights D s).state D.X D.y i with
  | error e => rw [a1 e hq] at hpan; cases hpan
  | ok q =>
  obtain ⟨f, fig, c, ⟨es', hes', hf⟩, hfig, hcc, hpe⟩ := a2 q hq
  rw [hpe] at hpan
  cases hpan
  obtain ⟨es'', B, W', f', h1, h2, h3, h4, hBc, hcv, hxs⟩ := stalePanel_ok hX hq
  rw [hB] at h2
  cases h2
  rw [hW] at h3
  cases h3
  rw [hes'] at h1
  cases h1
  rw [hf] at h4
  cases h4
  have hnb : trueIdx (gt0 (⟨W.r, W.c, fun i j => if i = j then 0 else W.get i j⟩ : Mat K)) i =
      (List.range D.X.r).filter fun j => decide (j ≠ i ∧ 0 < W.get i j) := by
    unfold trueIdx
    rw [show (gt0 (⟨W.r, W.c, fun i j => if i = j then 0 else W.get i j⟩ : Mat K)).c = D.X.r
      from hDc]
    apply List.filter_congr
    intro j _
    simp only [gt0, Mat.map]
    by_cases hij : i = j
    · subst hij
      simp
    · simp [hij, Ne.symm hij]
  rw [hnb] at hcv hxs
  refine ⟨W, hD, f, by rw [hes']; exact hf, ?_⟩
  intro nb
  change weightedAle (maskRows D.X nb) 0 _ (some (nb.map _)) _ _ = _ at hcv
  change q.xs = nb.map _ at hxs
  have hwt : nb.map (Mat.get (⟨W.r, W.c, fun i j => if i = j then 0 else W.get i j⟩ : Mat K) i) =
      nb.map (W.get i) := by
    apply List.map_congr_left
    intro j hj
    have := of_decide_eq_true (List.mem_filter.1 hj).2
    simp [Ne.symm this.1]
  rw [hwt] at hcv
  obtain ⟨-, k2, -, k4, k5, -, k7, k8⟩ := curve_facts (q := q.curve.1) (ale := q.curve.2) hcv
  obtain ⟨-, -, -, l4, l5, -, l7, l8⟩ := curve_facts (q := c.1) (ale := c.2) hcc
  rw [maskRows_col0, ← hxs] at k7 k8
  have hne : q.xs ≠ [] := by
    rw [hxs]
    intro h0
    have := congrArg List.length h0
    simp only [maskRows] at k2
    simp at this
    simp [this] at k2
  have hmin := minOf_isLeast hne
  have hmax := maxOf_isGreatest hne
  have hle : minOf q.xs ≤ maxOf q.xs := hmin.2 hmax.1
  have hset : {x | x ∈ q.xs} = {x | ∃ j ∈ nb, x = D.X.get j 0} := by
    ext x
    rw [hxs]
    simp [eq_comm]
  -- the range of the other sample
  have hcol : ∀ x, x ∈ (maskRows D.X (rowsInRange D.X (minOf q.xs) (maxOf q.xs))).col 0 ↔
      ∃ j < D.X.r, x = D.X.get j 0 ∧ minOf q.xs ≤ x ∧ x ≤ maxOf q.xs := by
    intro x
    rw [maskRows_col0]
    simp only [rowsInRange, List.mem_map, List.mem_filter, List.mem_range, decide_eq_true_eq]
    constructor
    · rintro ⟨j, ⟨h1, h2⟩, rfl⟩
      exact ⟨j, h1, rfl, h2⟩
    · rintro ⟨j, h1, rfl, h2⟩
      exact ⟨j, ⟨h1, h2⟩, rfl⟩
  have hin : ∀ x ∈ q.xs, x ∈ (maskRows D.X (rowsInRange D.X (minOf q.xs) (maxOf q.xs))).col 0 := by
    intro x hx
    have hx' := hx
    rw [hxs] at hx'
    obtain ⟨j, hj, rfl⟩ := List.mem_map.1 hx'
    exact (hcol _).2 ⟨j, List.mem_range.1 (List.mem_filter.1 hj).1, rfl, hmin.2 hx, hmax.2 hx⟩
  have hne2 : (maskRows D.X (rowsInRange D.X (minOf q.xs) (maxOf q.xs))).col 0 ≠ [] :=
    List.ne_nil_of_mem (hin _ hmin.1)
  have l7' : c.1.getD 0 0 = minOf q.xs := by
    rw [l7]
    have := minOf_isLeast hne2
    obtain ⟨_, _, _, h, _⟩ := (hcol _).1 this.1
    exact le_antisymm (this.2 (hin _ hmin.1)) h
  have l8' : c.1.getD (c.1.length - 1) 0 = maxOf q.xs := by
    rw [l8]
    have := maxOf_isGreatest hne2
    obtain ⟨_, _, _, _, h⟩ := (hcol _).1 this.1
    exact le_antisymm h (this.2 (hin _ hmax.1))
  have hfl : fig.line = q.curve.1.zip
      (anchored (baseValue (L.predict f) (minOf q.xs) (D.uni i)) q.curve.2) := by
    unfold plotAle at hfig
    split at hfig
    · cases hfig
    · cases hfig; rfl
  have ne1 : q.curve.2 ≠ [] := by intro h0; rw [h0] at k4; simp at k4; omega
  have ne2 : c.2 ≠ [] := by intro h0; rw [h0] at l4; simp at l4; omega
  have hedge0 : histEdge (minOf q.xs) (maxOf q.xs) 999 0 = minOf q.xs := by simp [histEdge]
  have hedge1 : histEdge (minOf q.xs) (maxOf q.xs) 999 999 = maxOf q.xs := by
    unfold histEdge
    push_cast
    rw [mul_div_assoc, div_self (by norm_num)]
    ring
  refine ⟨minOf q.xs, maxOf q.xs, q.curve, hset ▸ hmin, hset ▸ hmax, hcv,
    ⟨-(q.curve.2.getD 0 0 - baseValue (L.predict f) (minOf q.xs) (D.uni i)), ?_⟩, ?_, ?_, ?_, ?_,
    by simp [truthLine], ?_, ?_, ?_⟩
  · simp only [hfl, anchored, sub_eq_add_neg]
  · simp only [hfl]
    rw [zip_head k5 (by rw [anchored_length, k4]), k7, anchored_head ne1]
    rfl
  · simp only [hfl]
    rw [zip_last k5 (by rw [anchored_length, k4]), k8]
  · simp only
    rw [zip_head l5 (by rw [anchored_length, l4]), l7', anchored_head ne2]
    rfl
  · simp only
    rw [zip_last l5 (by rw [anchored_length, l4]), l8']
  · simp only [truthLine]
    rw [List.head?_map, List.head?_range]
    simp [hedge0, trueEffect_eq]
  · simp only [truthLine]
    rw [List.getLast?_map, List.getLast?_range]
    simp [hedge1, trueEffect_eq]
  · intro v hv
    simp only [truthLine, List.mem_map, List.mem_range] at hv
    obtain ⟨k, hk, rfl⟩ := hv
    have hk' : (k : K) ≤ ((999 : Nat) : K) := Nat.cast_le.2 (by omega)
    refine ⟨?_, ?_, trueEffect_eq _ _ _⟩
    · change _ ≤ histEdge _ _ _ _
      unfold histEdge
      have : 0 ≤ (maxOf q.xs - minOf q.xs) * (k : K) / ((999 : Nat) : K) :=
        div_nonneg (mul_nonneg (sub_nonneg.2 hle) (Nat.cast_nonneg _)) (Nat.cast_nonneg _)
      linarith
    · change histEdge _ _ _ _ ≤ _
      unfold histEdge
      have : (maxOf q.xs - minOf q.xs) * (k : K) / ((999 : Nat) : K) ≤ maxOf q.xs - minOf q.xs := by
        rw [div_le_iff₀ (by norm_num)]
        exact mul_le_mul_of_nonneg_left hk' (sub_nonneg.2 hle)
      linarith

theorem aleScript_get {L : Learner K F} {rng : Rng S} {cpu : Nat}
    {weights : Mat K → Mat K → Except Err (Mat K)} {D : AleSample K} {s : S} (hc : D.X.c = 2)
    {i : Nat} {p : AlePanel K} (hp : (aleScript L rng cpu weights D s).1[i]? = some p) :
    ∃ f c lo hi, ((aleScriptFit L rng cpu weights D s).state.estimators.getD []).getD i none =
        some f ∧
      weightedAle (maskRows D.X (rowsInRange D.X lo hi)) 0 (L.predict f)
        (some (List.replicate (rowsInRange D.X lo hi).length 1)) false 5 = .ok c ∧
      ∃ b, p.plain = c.1.zip (anchored b c.2) := by
  unfold aleScript at hp
  cases hr : (aleScriptFit L rng cpu weights D s).result with
  | error e => rw [hr] at hp; simp at hp
  | ok u =>
  cases u
  obtain ⟨W, ps, sc, -, -, -, -, -, hN, -⟩ :=
    scriptFit_ok (L := L) (rng := rng) (p := staleParams cpu weights) (s := s) (X := D.X) (y := D.y)
      (points := D.points) rfl rfl hr
  obtain ⟨hX, -, -⟩ := fit_cached (p := staleParams cpu weights) rfl hr
  change (aleScriptFit L rng cpu weights D s).state.N = _ at hN
  change (aleScriptFit L rng cpu weights D s).state.X = _ at hX
  rw [hr, hN] at hp
  obtain ⟨j, hj, hpan⟩ := figureLoop_get hp
  rw [List.getElem?_range (by
    by_contra hcon
    rw [List.getElem?_eq_none (by simpa using hcon)] at hj
    cases hj)] at hj
  cases hj
  obtain ⟨a1, a2⟩ := alePanel_cases (nb := false) (L := L) (y := D.y) hX hc (D.beta i) (D.mean i)
    (D.uni i) (D.cho i) i
  cases hq : stalePanel L (aleScriptFit L rng cpu weights D s).state D.X D.y i with
  | error e => rw [a1 e hq] at hpan; cases hpan
  | ok q =>
  obtain ⟨f, fig, c, ⟨es', hes', hf⟩, hfig, hcc, hpe⟩ := a2 q hq
  rw [hpe] at hpan
  cases hpan
  exact ⟨f, c, _, _, by rw [hes']; exact hf, hcc, _, rfl⟩

/-- C163: the second curve of a figure ignores the weights: from one of its points to the next it
changes by the mean change of the local estimator's prediction, over all observations (not only the
neighbours) whose feature value lies between the two points, of which there are at least six. -/
theorem C163_plain_steps (L : Learner K F) (rng : Rng S) (cpu : Nat)
    (weights : Mat K → Mat K → Except Err (Mat K)) (D : AleSample K) (s : S) (hc : D.X.c = 2)
    (i : Nat) (p : AlePanel K) (hp : (aleScript L rng cpu weights D s).1[i]? = some p) :
    ∃ f, ((aleScriptFit L rng cpu weights D s).state.estimators.getD []).getD i none = some f ∧
      2 ≤ p.plain.length ∧
      ∀ k a b, p.plain[k]? = some a → p.plain[k + 1]? = some b →
        let obs := (List.range D.X.r).filter fun j =>
          decide (((k = 0 ∧ a.1 = D.X.get j 0) ∨ a.1 < D.X.get j 0) ∧ D.X.get j 0 ≤ b.1)
        a.1 < b.1 ∧ 5 < obs.length ∧
        b.2 - a.2 = (obs.map fun j => L.predict f [b.1, D.X.get j 1] -
          L.predict f [a.1, D.X.get j 1]).sum / obs.length := by
  obtain ⟨f, c, lo, hi, hf, hcc, base, hpl⟩ := aleScript_get hc hp
  refine ⟨f, hf, ?_⟩
  obtain ⟨-, ⟨n, hg⟩, hb, -⟩ := weightedAle_ok (q := c.1) (ale := c.2) (by norm_num) hcc
  obtain ⟨-, hbin⟩ := adaptiveGrid_bins (by norm_num) hg hb.two
  obtain ⟨hl, h2, hst⟩ := C60_steps _ 0 _ _ false 5 (by norm_num) c.1 c.2 hcc
  have hlen : p.plain.length = c.1.length := by rw [hpl, List.length_zip, anchored_length, hl, min_self]
  refine ⟨by omega, fun k a b ha hb' => ?_⟩
  intro obs
  have hk : k + 1 < c.1.length := by
    rw [← hlen]
    exact (List.getElem?_eq_some_iff.1 hb').1
  have hpt : ∀ m v, m < c.1.length → p.plain[m]? = some v →
      v.1 = c.1.getD m 0 ∧ v.2 = c.2.getD m 0 - (c.2.getD 0 0 - base) := by
    intro m v hm hv
    rw [hpl, List.getElem?_eq_getElem (by rw [List.length_zip, anchored_length, hl, min_self]; exact hm)] at hv
    injection hv with hv
    subst hv
    rw [List.getElem_zip, List.getD_eq_getElem _ _ hm, List.getD_eq_getElem _ _ (hl ▸ hm)]
    simp [anchored]
  obtain ⟨a1, a2⟩ := hpt k a (by omega) ha
  obtain ⟨b1, b2⟩ := hpt (k + 1) b hk hb'
  -- the members of the bin
  have hmono : ∀ m m', m ≤ m' → m' < c.1.length → c.1.getD m 0 ≤ c.1.getD m' 0 := by
    intro m m' h h'
    rcases Nat.lt_or_eq_of_le h with h | h
    · rw [List.getD_eq_getElem _ _ (by omega), List.getD_eq_getElem _ _ h']
      exact (List.pairwise_iff_getElem.1 hb.grid.strict m m' (by omega) h' h).le
    · rw [h]
  have hlt : c.1.getD k 0 < c.1.getD (k + 1) 0 := by
    rw [List.getD_eq_getElem _ _ (by omega), List.getD_eq_getElem _ _ hk]
    exact List.pairwise_iff_getElem.1 hb.grid.strict k (k + 1) (by omega) hk (by omega)
  have hends : c.1.getD 0 0 ∈ (maskRows D.X (rowsInRange D.X lo hi)).col 0 ∧
      (∀ v ∈ (maskRows D.X (rowsInRange D.X lo hi)).col 0, c.1.getD 0 0 ≤ v) ∧
      c.1.getD (c.1.length - 1) 0 ∈ (maskRows D.X (rowsInRange D.X lo hi)).col 0 := by
    obtain ⟨x, hx, hm, hle⟩ := hb.grid.first
    obtain ⟨z, hz, hm', -⟩ := hb.grid.last
    have e1 : c.1.getD 0 0 = x := by
      rw [List.head?_eq_getElem?] at hx
      simp [List.getD_eq_getElem?_getD, hx]
    have e2 : c.1.getD (c.1.length - 1) 0 = z := by
      rw [List.getLast?_eq_getElem?] at hz
      simp [List.getD_eq_getElem?_getD, hz]
    rw [e1, e2]
    exact ⟨hm, hle, hm'⟩
  have hcol : ∀ x, x ∈ (maskRows D.X (rowsInRange D.X lo hi)).col 0 → lo ≤ x ∧ x ≤ hi := by
    intro x hx
    rw [maskRows_col0] at hx
    obtain ⟨j, hj, rfl⟩ := List.mem_map.1 hx
    exact of_decide_eq_true (List.mem_filter.1 hj).2
  have hobs : obs = (rowsInRange D.X lo hi).filter fun j => decide (InBin c.1 k (D.X.get j 0)) := by
    simp only [obs, rowsInRange, List.filter_filter]
    apply List.filter_congr
    intro j hj
    have hj := List.mem_range.1 hj
    rw [← Bool.decide_and]
    apply decide_eq_decide.2
    rw [a1, b1]
    unfold InBin
    have hlo := (hcol _ hends.1).1
    have hhi := (hcol _ hends.2.2).2
    have h0k := hmono 0 k (by omega) (by omega)
    have hkl := hmono (k + 1) (c.1.length - 1) (by omega) (by omega)
    constructor
    · rintro ⟨h1 | h1, h3⟩
      · exact ⟨⟨hk, .inl h1.1, h3⟩, h1.2 ▸ hlo.trans h0k, h3.trans (hkl.trans hhi)⟩
      · exact ⟨⟨hk, .inr h1, h3⟩, (hlo.trans h0k).trans h1.le, h3.trans (hkl.trans hhi)⟩
    · rintro ⟨⟨-, h1 | h1, h3⟩, h4, h5⟩
      · subst h1
        have := hends.2.1 (D.X.get j 0) (by
          rw [maskRows_col0]
          exact List.mem_map.2 ⟨j, List.mem_filter.2 ⟨List.mem_range.2 hj,
            decide_eq_true ⟨h4, h5⟩⟩, rfl⟩)
        rcases this.lt_or_eq with h | h
        · exact ⟨.inr h, h3⟩
        · exact ⟨.inl ⟨rfl, h⟩, h3⟩
      · exact ⟨.inr h1, h3⟩
  have hsum : ∀ g : Nat → K, binSum (maskRows D.X (rowsInRange D.X lo hi)) 0 c.1 k
      (fun m => g ((rowsInRange D.X lo hi).getD m 0)) = (obs.map g).sum := by
    intro g
    rw [hobs, ← filter_range_getD]
    rfl
  have hcnt : (binMembers (maskRows D.X (rowsInRange D.X lo hi)) 0 c.1 k).length = obs.length := by
    have := congrArg List.length (filter_range_getD (rowsInRange D.X lo hi)
      (fun j => decide (InBin c.1 k (D.X.get j 0))) id)
    rw [List.length_map, List.length_map, ← hobs] at this
    exact this
  have hone : ∀ m ∈ binMembers (maskRows D.X (rowsInRange D.X lo hi)) 0 c.1 k,
      (List.replicate (rowsInRange D.X lo hi).length (1 : K)).getD m 0 = 1 := by
    intro m hm
    have := List.mem_range.1 (List.mem_filter.1 hm).1
    simp only [maskRows] at this
    simp [List.getD_eq_getElem?_getD, this]
  refine ⟨by rw [a1, b1]; exact hlt, ?_, ?_⟩
  · have := hbin k hk
    rw [hcnt] at this
    exact_mod_cast this
  rw [b2, a2, sub_sub_sub_cancel_right, (hst k hk).2, a1, b1]
  congr 1
  · rw [← hsum]
    unfold binSum
    congr 1
    apply List.map_congr_left
    intro m hm
    rw [hone m hm, one_mul]
    simp [Mat.row, maskRows, hc, List.range_succ]
  · unfold binSum
    rw [List.map_congr_left hone]
    simp [hcnt]

/-- C163: `draw_graph` of `simulation_data_fitting.py` shows the figures that `simulation_for_ale.py`
would save for the same data, and then always fails: a `WeightModel`, made with whatever arguments, has
no attribute `stacking_predict_`. It never saves `residual.png` or `ale_global.png`. -/
theorem C163_fitting_script (L : Learner K F) (rng : Rng S) (cpu : Nat)
    (weights : Mat K → Mat K → Except Err (Mat K)) (pos : List (PyVal V))
    (kw : List (String × PyVal V)) (model : ModelObject V)
    (hm : weightModelInit cpu pos kw = .ok model) (g : PRng T) (t : T) (seeds : Nat → T)
    (D : AleSample K) (s : S) :
    (fittingScript L rng cpu weights model g t seeds D s).saved = [] ∧
    (∃ e, (fittingScript L rng cpu weights model g t seeds D s).result = .error e) ∧
    (D.X.c = 2 → (fittingScript L rng cpu weights model g t seeds D s).shown =
      (aleScript L rng cpu weights D s).1) ∧
    (D.X.c = 2 → ∀ e, (aleScript L rng cpu weights D s).2 = .error e →
      (fittingScript L rng cpu weights model g t seeds D s).result = .error e) ∧
    (D.X.c = 2 → (aleScript L rng cpu weights D s).2 = .ok () →
      (∃ v, (importanceGlobal L g (staleParams cpu weights)
        (aleScriptFit L rng cpu weights D s).state t 5).result = .ok v) →
      (∃ v, importanceLocal L g seeds (staleParams cpu weights)
        (aleScriptFit L rng cpu weights D s).state 5 = .ok v) →
      (fittingScript L rng cpu weights model g t seeds D s).result = .error .attributeError) := by
  have hattr : model.attrs "stacking_predict_" = none := by
    obtain ⟨b, hb, rfl, -⟩ := weightModelInit_attr hm
    obtain ⟨-, -, hfill, -⟩ := bindCall_ok hb
    have := (fillParams_get hfill weightModelSig_nodup).1 "stacking_predict_"
      (by simp [weightModelSig])
    simp [weightModelBody, weightModelBlank, this]
  have hloop : D.X.c = 2 → (aleScriptFit L rng cpu weights D s).result = .ok () → ∀ N,
      figureLoop (fun i => alePanel true L (aleScriptFit L rng cpu weights D s).state D.X D.y
        (D.beta i) (D.mean i) (D.uni i) (D.cho i) i) (List.range N) =
      figureLoop (fun i => alePanel false L (aleScriptFit L rng cpu weights D s).state D.X D.y
        (D.beta i) (D.mean i) (D.uni i) (D.cho i) i) (List.range N) := by
    intro hc hok N
    obtain ⟨hX, -, -⟩ := fit_cached (p := staleParams cpu weights) rfl hok
    congr 1
    funext i
    exact alePanel_flag hX hc _ _ _ _ i
  unfold fittingScript aleScript
  simp only [hattr]
  cases hr : (aleScriptFit L rng cpu weights D s).result with
  | error e => exact ⟨rfl, ⟨e, rfl⟩, fun _ => rfl, fun _ e' h => h, fun _ h => by cases h⟩
  | ok u =>
  cases u
  cases hN : (aleScriptFit L rng cpu weights D s).state.N with
  | none => exact ⟨rfl, ⟨_, rfl⟩, fun _ => rfl, fun _ e' h => h, fun _ h => by cases h⟩
  | some N =>
  have hloop := fun hc => hloop hc hr N
  revert hloop
  simp only
  generalize figureLoop (fun i => alePanel true L (aleScriptFit L rng cpu weights D s).state D.X D.y
        (D.beta i) (D.mean i) (D.uni i) (D.cho i) i) (List.range N) = A
  generalize figureLoop (fun i => alePanel false L (aleScriptFit L rng cpu weights D s).state D.X D.y
        (D.beta i) (D.mean i) (D.uni i) (D.cho i) i) (List.range N) = A'
  intro hloop
  obtain ⟨shown, res⟩ := A
  cases res with
  | error e =>
    refine ⟨rfl, ⟨e, rfl⟩, fun hc => by rw [← hloop hc]; rfl, fun hc e' h => ?_, fun hc h => ?_⟩
    · rw [← hloop hc] at h
      exact h
    · rw [← hloop hc] at h
      cases h
  | ok u =>
  cases u
  have hno : ∀ (_ : D.X.c = 2) e', A'.2 = .error e' → False := by
    intro hc e' h
    rw [← hloop hc] at h
    cases h
  rcases (importanceGlobal L g (staleParams cpu weights)
      (aleScriptFit L rng cpu weights D s).state t 5).result with e | v
  · exact ⟨rfl, ⟨e, rfl⟩, fun hc => by rw [← hloop hc]; rfl, fun hc e' h => (hno hc e' h).elim,
      fun hc _ h' => by obtain ⟨v, hv⟩ := h'; cases hv⟩
  rcases importanceLocal L g seeds (staleParams cpu weights)
      (aleScriptFit L rng cpu weights D s).state 5 with e | v'
  · exact ⟨rfl, ⟨e, rfl⟩, fun hc => by rw [← hloop hc]; rfl, fun hc e' h => (hno hc e' h).elim,
      fun hc _ _ h' => by obtain ⟨v, hv⟩ := h'; cases hv⟩
  exact ⟨rfl, ⟨_, rfl⟩, fun hc => by rw [← hloop hc]; rfl, fun hc e' h => (hno hc e' h).elim,
    fun hc _ _ _ => rfl⟩

/-! ### concrete cases -/

/-- Nine observations with two features on a line. -/
def exAle : AleSample ℚ where
  X := ⟨9, 2, fun i j => if j = 0 then i else 1⟩
  y := [0, 1, 4, 9, 16, 25, 36, 49, 64]
  points := ⟨9, 1, fun i _ => i⟩
  beta := fun i => i
  mean := fun _ => 3
  uni := fun i => [1, i]
  cho := fun _ => [1, 1]

/-- Four observations only: no curve exists. -/
def exAleFew : AleSample ℚ := { exAle with X := ⟨4, 2, fun i j => if j = 0 then i else 1⟩
                                           y := [0, 1, 4, 9]
                                           points := ⟨4, 1, fun i _ => i⟩ }

/-- The hypotheses are met: the fit succeeds with two features, nine figures are saved, each from the
smallest to the largest feature value of its neighbours; and with four observations none is saved,
because `local_ALE(0)` raises `ValueError`. -/
example : exAle.X.c = 2 ∧ exAleFew.X.c = 2 ∧
    (aleScriptFit meanLearner rotRng 2 exHeldNear exAle 0).result = .ok () ∧
    (aleScriptFit meanLearner rotRng 2 exHeldNear exAleFew 0).result = .ok () ∧
    (aleScript meanLearner rotRng 2 exHeldNear exAle 0).2 = .ok () ∧
    (aleScript meanLearner rotRng 2 exHeldNear exAle 0).1.map
      (fun p => (p.figure.line.map Prod.fst, p.plain.map Prod.fst)) =
      ([([1, 8], [1, 8])] : List (List ℚ × List ℚ)) ++ List.replicate 7 ([0, 8], [0, 8]) ++
        [([0, 7], [0, 7])] ∧
    (aleScript meanLearner rotRng 2 exHeldNear exAleFew 0).2 = .error .valueError ∧
    (aleScript meanLearner rotRng 2 exHeldNear exAleFew 0).1 = [] := by
  refine ⟨rfl, rfl, ?_, ?_, ?_, ?_, ?_, ?_⟩ <;> decide +kernel

/-- The hypothesis on the object is met by the call of the script, and its run on the nine observations
shows nine figures and ends in `AttributeError`. -/
example : okAnd (weightModelInit (V := String) 2 [.obj "forest", .obj "euclidean", .obj "bisquare"]
      [("neighbour_count", .float (1 / 20)), ("cache_data", .bool true),
        ("cache_estimator", .bool true)]) (fun m =>
      decide ((fittingScript meanLearner rotRng 2 exHeldNear m flipRng 0 id exAle 0).shown.length = 9 ∧
        (fittingScript meanLearner rotRng 2 exHeldNear m flipRng 0 id exAle 0).result =
          .error .attributeError)) = true := by decide +kernel

end Geo
