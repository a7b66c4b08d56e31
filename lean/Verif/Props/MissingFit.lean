import Verif.Props.Missing
/-
C159, continued: neighbour counts, several dimensions, coordinates, and what it does to a fit.
-/
set_option linter.unusedSectionVars false
namespace Geo
variable {K : Type} [Field K] [LinearOrder K] [IsStrictOrderedRing K] [FloorRing K]
variable {F S : Type}

/-- C159: with a whole neighbour count (computed eagerly) the missing distances come on top. The bandwidth
of a row is the distance to the k-th nearest of the observations whose distance is not missing: fewer than
`k` of them are nearer, at least `k` are within it. Observations with a missing distance have weight one
besides. If fewer than `k` distances are not missing, the bandwidth is NaN and all weights of the row are
one. -/
theorem C159_count (env : Env K) (he : env.Ok) (inf : List (Num K) → K → Num K) (D : Mat (Num K))
    (name : String) (k : ℤ) (V : Mat (Num K))
    (h : weightByDistanceAny env inf false D name none (some (.int k)) none = .ok V) (i : Nat) :
    (∀ j, D.get i j = .nan → V.get i j = .fin 1) ∧
    ((presentCount (D.row i) : ℤ) < k → ∀ j, V.get i j = .fin 1) ∧
    (k ≤ presentCount (D.row i) → ∃ w b, kernelElemAny env false name = .ok w ∧ isNan b = false ∧
      (∃ j < D.c, D.get i j = b) ∧
      ((D.row i).countP (fun x => Num.lt x b) : ℤ) < k ∧
      k ≤ (D.row i).countP (fun x => !isNan x && !Num.lt b x) ∧
      ∀ j, V.get i j = w (D.get i j) b) := by
  obtain ⟨w, bw, hw, rfl, hbw⟩ := DimAny_weights_ok (d := { dist := D, kernel := name, count := some (.int k) })
    (lazy := false) h
  obtain ⟨w', hw', h1, h2⟩ := C159_kernel env he false _ (kernelElemAny_known hw)
  obtain rfl : w' = w := by rw [hw] at hw'; injection hw' with e; exact e.symm
  rcases hbw with ⟨b, hb', -, -⟩ | ⟨n, -, hn, hbw⟩
  · cases hb'
  injection hn with hn
  subst hn
  simp only [Bool.false_eq_true, if_false] at hbw
  unfold adaptiveBandwidthEagerAny at hbw
  simp only at hbw
  split at hbw
  · cases hbw
  rename_i hk0
  split at hbw
  · rename_i hkc
    injection hbw with hbw
    subst hbw
    have hkk : ((k.toNat : ℕ) : ℤ) = k := Int.toNat_of_nonneg (by omega)
    have hsub : (k - 1).toNat = k.toNat - 1 := by omega
    obtain ⟨g1, g2⟩ := sortAny_kth (l := D.row i) (k := k.toNat) (by omega) (by simp; omega)
    refine ⟨fun j hj => ?_, fun hlt j => ?_, fun hge => ?_⟩
    · simp only [hj, h1]
    · have := g1 (by omega)
      simp only [hsub, this, h2]
    · obtain ⟨b, hb, hbn, hmem, hc1, hc2⟩ := g2 (by omega)
      refine ⟨w', b, hw, hbn, Mat.mem_row.1 hmem, by omega, by omega, fun j => ?_⟩
      simp only [hsub, hb]
  · cases hbw

theorem prodK_append (A B : List (Mat (Num K))) (i j : Nat) :
    prodK (A ++ B) i j = prodK A i j * prodK B i j := by
  simp [prodK]

/-- C159: with several dimensions a fractional neighbour count in a dimension in which an observation
has no coordinates takes that dimension out. If every row has a NaN in it, the result is the result of
the call without that dimension. -/
theorem C159_dimension_drops (env : Env K) (he : env.Ok) (inf : List (Num K) → K → Num K) (hinf : InfOk inf)
    (lazy : Bool) (l₁ l₂ : List (DimAny K)) (d : DimAny K) (hl : ∀ e ∈ l₁ ++ d :: l₂, e.Ok)
    (hne : l₁ ++ l₂ ≠ []) (hf : d.Fraction lazy) (hnan : ∀ i < d.dist.r, ∃ k < d.dist.c, d.dist.get i k = .nan)
    (W : Mat (Num K)) (h : weightMatrixAny env inf lazy (l₁ ++ d :: l₂) = .ok W) :
    ∃ W', weightMatrixAny env inf lazy (l₁ ++ l₂) = .ok W' ∧ SameMat W W' := by
  obtain ⟨Ws, hWs, -, hsh, hu, hr, hc, hlog, hW⟩ := weightMatrixAny_ok he hinf hl h
  obtain ⟨d1, d2⟩ := hsh d (by simp)
  rw [mapE_append] at hWs
  obtain ⟨A, B, hA, hB, rfl⟩ : ∃ A B, mapE (DimAny.weights env inf lazy) l₁ = .ok A ∧
      mapE (DimAny.weights env inf lazy) (d :: l₂) = .ok B ∧ Ws = A ++ B := by
    cases hA : mapE (DimAny.weights env inf lazy) l₁ with
    | error e => rw [hA] at hWs; cases hWs
    | ok A =>
      cases hB : mapE (DimAny.weights env inf lazy) (d :: l₂) with
      | error e => rw [hA, hB] at hWs; cases hWs
      | ok B =>
        rw [hA, hB] at hWs
        injection hWs with hWs
        exact ⟨A, B, rfl, rfl, hWs.symm⟩
  cases hV : d.weights env inf lazy with
  | error e => simp [mapE, hV] at hB
  | ok V =>
    cases hB' : mapE (DimAny.weights env inf lazy) l₂ with
    | error e => simp [mapE, hV, hB'] at hB
    | ok B' =>
      have hBe : B = V :: B' := by
        simp only [mapE, hV, hB'] at hB
        injection hB with hB
        exact hB.symm
      subst hBe
      have hVone : ∀ i < W.r, ∀ j, V.get i j = .fin 1 := by
        intro i hi j
        obtain ⟨k, hk, hkn⟩ := hnan i (d1 ▸ hi)
        exact fraction_nan he hf hV hk hkn j
      have hprod : ∀ i < W.r, ∀ j, prodK (A ++ V :: B') i j = prodK (A ++ B') i j := by
        intro i hi j
        have : prodK (V :: B') i j = prodK B' i j := by
          simp [prodK, hVone i hi j, Num.toK]
        rw [prodK_append, prodK_append, this]
      have hu' : UnitWs (A ++ B') W.r W.c := by
        intro U hU
        refine hu U ?_
        simp only [List.mem_append, List.mem_cons] at hU ⊢
        rcases hU with hU | hU
        · exact .inl hU
        · exact .inr (.inr hU)
      have hnorm : ∀ i < W.r, normK (A ++ V :: B') W.c i = normK (A ++ B') W.c i := by
        intro i hi
        unfold normK
        simp only [hprod i hi]
      have hsame : SameMat W (normalizeRows ⟨W.r, W.c, prodEntry (A ++ B')⟩) := by
        refine ⟨rfl, rfl, fun i hi j hj => ?_⟩
        rw [hW i hi j hj, hu'.normalized hi hj, hprod i hi j, hnorm i hi]
      refine ⟨_, ?_, hsame⟩
      have hmap : mapE (DimAny.weights env inf lazy) (l₁ ++ l₂) = .ok (A ++ B') := by
        rw [mapE_append, hA, hB']
      have hded : ((l₁ ++ l₂).map fun d => (d.dist.r, d.dist.c)).dedup.length = 1 := by
        have e : (l₁ ++ l₂).map (fun d => (d.dist.r, d.dist.c)) =
            List.replicate (l₁ ++ l₂).length (W.r, W.c) := by
          rw [List.eq_replicate_iff]
          refine ⟨by simp, fun s hs => ?_⟩
          obtain ⟨e, he', rfl⟩ := List.mem_map.1 hs
          have hm : e ∈ l₁ ++ d :: l₂ := by
            simp only [List.mem_append, List.mem_cons] at he' ⊢
            rcases he' with h | h
            · exact .inl h
            · exact .inr (.inr h)
          rw [(hsh e hm).1, (hsh e hm).2]
        rw [e, List.replicate_dedup (by
          intro h0
          exact hne (List.length_eq_zero_iff.1 h0))]
        rfl
      have hmem : ∀ e ∈ l₁ ++ l₂, e ∈ l₁ ++ d :: l₂ := by
        intro e he'
        simp only [List.mem_append, List.mem_cons] at he' ⊢
        rcases he' with h | h
        · exact .inl h
        · exact .inr (.inr h)
      generalize l₁ ++ l₂ = l at hmap hded hne hmem ⊢
      cases l with
      | nil => exact absurd rfl hne
      | cons e l =>
        obtain ⟨r1, c1⟩ := hsh e (hmem e (by simp))
        unfold weightMatrixAny
        rw [if_neg (not_not.2 hded), hmap]
        simp only [bind, Except.bind, r1, c1]
        rw [← logStats_congr hsame, hlog]

/-! ### From coordinates -/

theorem foldl_add_nan_any (l : List (Num K)) : l.foldl Num.add .nan = .nan := by
  induction l with
  | nil => rfl
  | cons a l ih => simp [Num.add, ih]

theorem sum_nan_any {l : List (Num K)} (h : Num.nan ∈ l) : Num.sum l = .nan := by
  unfold Num.sum
  generalize (Num.fin 0 : Num K) = s
  induction l generalizing s with
  | nil => cases h
  | cons a l ih =>
    rw [List.foldl_cons]
    rcases List.mem_cons.1 h with e | h
    · subst e
      have : s.add .nan = .nan := by cases s <;> rfl
      rw [this, foldl_add_nan_any]
    · exact ih h _

theorem zipWith_nan {g : Num K → Num K → Num K} (g1 : ∀ b, g .nan b = .nan) (g2 : ∀ a, g a .nan = .nan)
    {p q : List (Num K)} (hl : p.length = q.length) (h : Num.nan ∈ p ∨ Num.nan ∈ q) :
    Num.nan ∈ List.zipWith g p q := by
  induction p generalizing q with
  | nil =>
    cases q with
    | nil => simp at h
    | cons b q => simp at hl
  | cons a p ih =>
    cases q with
    | nil => simp at hl
    | cons b q =>
      simp only [List.zipWith_cons_cons, List.mem_cons]
      simp only [List.length_cons, Nat.add_right_cancel_iff] at hl
      simp only [List.mem_cons] at h
      rcases h with (h | h) | (h | h)
      · left; rw [← h, g1]
      · right; exact ih hl (.inl h)
      · left; rw [← h, g2]
      · right; exact ih hl (.inr h)

/-- A metric that passes missing coordinates on: NaN as soon as one coordinate of one of the two points
is NaN. -/
def PassesNan (metric : List (Num K) → List (Num K) → Num K) : Prop :=
  ∀ p q, p.length = q.length → Num.nan ∈ p ∨ Num.nan ∈ q → metric p q = .nan

/-- C159: the metrics `euclidean` and `cityblock` pass missing coordinates on: one missing coordinate of
one of the points makes the distance NaN. -/
theorem C159_metrics (root : K → K) : PassesNan (euclideanAny root) ∧ PassesNan (cityblockAny (K := K)) := by
  constructor
  · intro p q hl h
    unfold euclideanAny
    rw [sum_nan_any (zipWith_nan (g := fun a b => Num.sq (Num.sub a b)) (fun b => ?_) (fun a => ?_) hl h)]
    · rfl
    · cases b <;> rfl
    · cases a <;> rfl
  · intro p q hl h
    unfold cityblockAny
    exact sum_nan_any (zipWith_nan (g := fun a b => Num.abs (Num.sub a b)) (fun b => by cases b <;> rfl)
      (fun a => by cases a <;> rfl) hl h)

theorem sum_pinf {l : List (Num K)} (hl : ∀ x ∈ l, x = .pinf ∨ ∃ y, x = .fin y) (h : Num.pinf ∈ l) :
    Num.sum l = .pinf := by
  have key : ∀ (l : List (Num K)), (∀ x ∈ l, x = .pinf ∨ ∃ y, x = .fin y) → ∀ s : Num K,
      (s = .pinf ∨ (∃ y, s = .fin y) ∧ Num.pinf ∈ l) → l.foldl Num.add s = .pinf := by
    intro l
    induction l with
    | nil =>
      rintro - s (rfl | ⟨-, h⟩)
      · rfl
      · cases h
    | cons a l ih =>
      intro hl s hs
      rw [List.foldl_cons]
      refine ih (fun x hx => hl x (by simp [hx])) _ ?_
      rcases hl a (by simp) with rfl | ⟨y, rfl⟩
      · left
        rcases hs with rfl | ⟨⟨y, rfl⟩, -⟩ <;> rfl
      · rcases hs with rfl | ⟨⟨z, rfl⟩, h⟩
        · left; rfl
        · right
          refine ⟨⟨z + y, rfl⟩, ?_⟩
          simpa using h
  exact key l hl _ (.inr ⟨⟨0, rfl⟩, h⟩)

/-- C159: an infinite coordinate: the euclidean distance of such a point to points with finite coordinates is
infinite, and its distance to itself is NaN. -/
theorem C159_infinite_coordinates (root : K → K) (p q : List (Num K)) (hl : p.length = q.length)
    (hp : ∀ x ∈ p, x ≠ .nan) (hinf : Num.pinf ∈ p ∨ Num.ninf ∈ p) (hq : ∀ x ∈ q, ∃ y, x = .fin y) :
    euclideanAny root p q = .pinf ∧ euclideanAny root p p = .nan := by
  have hterms : ∀ x ∈ List.zipWith (fun a b => Num.sq (Num.sub a b)) p q, x = .pinf ∨ ∃ y, x = .fin y := by
    clear hinf hl
    induction p generalizing q with
    | nil => simp
    | cons a p ih =>
      cases q with
      | nil => simp
      | cons b q =>
        intro x hx
        simp only [List.zipWith_cons_cons, List.mem_cons] at hx
        rcases hx with rfl | hx
        · obtain ⟨y, rfl⟩ := hq b (by simp)
          cases a with
          | nan => exact absurd rfl (hp .nan (by simp))
          | fin z => right; exact ⟨_, rfl⟩
          | pinf => left; rfl
          | ninf => left; rfl
        · exact ih q (fun x hx => hp x (by simp [hx])) (fun x hx => hq x (by simp [hx])) x hx
  have hone : Num.pinf ∈ List.zipWith (fun a b => Num.sq (Num.sub a b)) p q := by
    clear hterms hp
    induction p generalizing q with
    | nil => simp at hinf
    | cons a p ih =>
      cases q with
      | nil => simp at hl
      | cons b q =>
        simp only [List.zipWith_cons_cons, List.mem_cons]
        simp only [List.length_cons, Nat.add_right_cancel_iff] at hl
        obtain ⟨y, rfl⟩ := hq b (by simp)
        simp only [List.mem_cons] at hinf
        have ih := ih q hl
        rcases hinf with (rfl | h) | (rfl | h)
        · left; rfl
        · right; exact ih (.inl h) fun x hx => hq x (by simp [hx])
        · left; rfl
        · right; exact ih (.inr h) fun x hx => hq x (by simp [hx])
  constructor
  · unfold euclideanAny
    rw [sum_pinf hterms hone]
    rfl
  · unfold euclideanAny
    have : Num.nan ∈ List.zipWith (fun a b => Num.sq (Num.sub a b)) p p := by
      clear hterms hone hq hl hp
      induction p with
      | nil => simp at hinf
      | cons a p ih =>
        simp only [List.zipWith_cons_cons, List.mem_cons]
        simp only [List.mem_cons] at hinf
        rcases hinf with (rfl | h) | (rfl | h)
        · left; rfl
        · right; exact ih (.inl h)
        · left; rfl
        · right; exact ih (.inr h)
    rw [sum_nan_any this]
    rfl

/-- The metric gives possible distances. -/
def MetricOk (metric : List (Num K) → List (Num K) → Num K) : Prop := ∀ p q, OkDist (metric p q)

/-- The weights of a fit with a fractional neighbour count when one observation has no coordinates. -/
theorem pointSourceAny_uniform {env : Env K} (he : env.Ok) {inf : List (Num K) → K → Num K}
    (hinf : InfOk inf) {metric : List (Num K) → List (Num K) → Num K} (hok : MetricOk metric)
    (hm : PassesNan metric) {kernel : String} {q : K} {t : Mat (Num K)} {D : Mat K}
    (h : pointSourceAny env inf metric kernel none (some (.float q)) t t = .ok D) {k : Nat} (hk : k < t.r)
    (hmiss : Num.nan ∈ t.row k) : D.r = t.r ∧ D.c = t.r ∧ ∀ i < t.r, ∀ j < t.r, D.get i j = 1 / (t.r : K) := by
  unfold pointSourceAny at h
  split at h
  · cases h
  · split at h
    · cases h
    · rename_i W hW
      split at h
      · injection h with h
        subst h
        have hds : ∀ d ∈ ([{ dist := cdistAny metric t t, kernel := kernel, count := some (.float q) }] :
            List (DimAny K)), d.Ok := by
          intro d hd
          rw [List.mem_singleton] at hd
          subst hd
          exact ⟨fun i _ j _ => hok _ _, (fun b hb => by cases hb), (fun S hS => by cases hS)⟩
        obtain ⟨-, -, -, hsh, -⟩ := weightMatrixAny_ok he hinf hds hW
        obtain ⟨e1, e2⟩ := hsh _ (List.mem_singleton.2 rfl)
        have e1 : t.r = W.r := e1
        have e2 : t.r = W.c := e2
        refine ⟨e1.symm, e2.symm, fun i hi j hj => ?_⟩
        have := C159_fraction env he inf hinf false _ hds (fun d hd => by
            rw [List.mem_singleton] at hd
            subst hd
            exact ⟨rfl, ⟨q, rfl⟩, fun h => by cases h⟩) W hW i (e1 ▸ hi) (fun d hd => by
            rw [List.mem_singleton] at hd
            subst hd
            exact ⟨k, e2 ▸ hk, hm _ _ (by simp) (.inr hmiss)⟩) j (e2 ▸ hj)
        simp only [Mat.map, this, Num.toK, e2]
      · cases h

/-- C159: what that does to a model. With a fractional neighbour count and one observation without
coordinates (one coordinate missing is enough) every local prediction of a fit is the leave-one-out
prediction of the global model: the regressor fitted to all other observations, near or far, with one
common weight. -/
theorem C159_fit (env : Env K) (he : env.Ok) (inf : List (Num K) → K → Num K) (hinf : InfOk inf)
    (metric : List (Num K) → List (Num K) → Num K) (hmo : MetricOk metric) (hm : PassesNan metric)
    (kernel : String) (q : K) (L : Learner K F) (hclone : ∀ e e', L.fit e = L.fit e') (rng : Rng S)
    (hrng : rng.Valid) (p : WMParams K (Mat (Num K)))
    (hp : p.weights = pointSourceAny env inf metric kernel none (some (.float q)))
    (hrate : ∀ r, p.sampleRate = some r → 0 ≤ r ∧ r ≤ 1)
    (hal : p.nJobs = none ∨ p.sampleRate = none) (hlo : p.leaveLocalOut = true)
    (st : WMState K F (Mat (Num K))) (s : S) (X : Mat K) (y : List K) (t : Mat (Num K)) (ht : t.r = X.r)
    (hok : (wmFit L rng p st s X y (some t) none).result = .ok ())
    (m : Nat) (hmr : m < t.r) (hmiss : Num.nan ∈ t.row m)
    {idx : List Nat} (hidx : (wmFit L rng p st s X y (some t) none).state.localIndices = some idx)
    (k i : Nat) (hk : idx[k]? = some i) :
    ∃ f, L.fit 0 ((othersOf X.r i).map X.row) ((othersOf X.r i).map fun j => y.getD j 0)
        ((othersOf X.r i).map fun _ => 1 / (X.r : K)) = .ok f ∧
      (ScaleFree L → L.fit 0 ((othersOf X.r i).map X.row) ((othersOf X.r i).map fun j => y.getD j 0)
        ((othersOf X.r i).map fun _ => 1) = .ok f) ∧
      (wmFit L rng p st s X y (some t) none).state.localPredict.bind (·[k]?) =
        some (L.predict f (X.row i)) := by
  cases hw : p.weights t t with
  | error e =>
    exfalso
    obtain ⟨W0, idx0, s', res, sc, hck, hW0, -⟩ := wmFit_ok hok
    simp [chosenWeights, hw, Except.map] at hW0
  | ok D =>
    have hD : chosenWeights p (some t) none = .ok (.dense D) := by
      simp [chosenWeights, hw, Except.map]
    rw [hp] at hw
    obtain ⟨-, e2, hu⟩ := pointSourceAny_uniform he hinf hmo hm hw hmr hmiss
    have hpos : (0 : K) < 1 / (X.r : K) := by
      apply one_div_pos.2
      have : 0 < X.r := by omega
      exact_mod_cast this
    refine C97_leave_one_out L hclone rng hrng p hrate hal hlo st s X y (some t) none hok hD hidx
      (1 / (X.r : K)) hpos (fun a ha b hb => ?_) k i hk
    rw [hu a (ht ▸ ha) b (e2 ▸ hb), ht]

/-- C159: a new place without coordinates. With any kernel and any bandwidth or neighbour count,
`predict_by_weight` returns there the plain mean of what all local models predict, near or far. -/
theorem C159_predict_by_weight (env : Env K) (he : env.Ok) (inf : List (Num K) → K → Num K) (hinf : InfOk inf)
    (metric : List (Num K) → List (Num K) → Num K) (hmo : MetricOk metric) (hm : PassesNan metric)
    (kernel : String) (bandwidth : Option K) (hb : ∀ b, bandwidth = some b → 0 ≤ b)
    (count : Option (Count K)) (L : Learner K F) (p : WMParams K (Mat (Num K)))
    (hp : p.weights = pointSourceAny env inf metric kernel bandwidth count)
    (hd : p.cacheData = true) (hce : p.cacheEstimator = true) (st : WMState K F (Mat (Num K)))
    (ests : List F) (hest : st.estimators = some (ests.map some)) (hne : ests ≠ []) (t : Mat (Num K))
    (ht : st.coords = some t) (htr : t.r = ests.length) (Xn : Mat K) (c : Mat (Num K)) (hc : c.r = Xn.r)
    (M : Mat K) (hM : p.weights c t = .ok M) (i : Nat) (hi : i < c.r) (hmiss : Num.nan ∈ c.row i) :
    ∃ ps, predictByWeight L p st Xn (some c) none = .ok ps ∧
      ps[i]? = some ((ests.map fun f => L.predict f (Xn.row i)).sum / (ests.length : K)) := by
  have hM' := hM
  rw [hp] at hM'
  unfold pointSourceAny at hM'
  split at hM'
  · cases hM'
  · rename_i hcc
    have hcc : c.c = t.c := not_not.1 hcc
    split at hM'
    · cases hM'
    · rename_i W hW
      split at hM'
      · injection hM' with h
        have hds : ∀ d ∈ ([{ dist := cdistAny metric c t, kernel := kernel, bandwidth := bandwidth, count := count }] :
            List (DimAny K)), d.Ok := by
          intro d hd
          rw [List.mem_singleton] at hd
          subst hd
          exact ⟨fun i _ j _ => hmo _ _, hb, (fun S hS => by cases hS)⟩
        obtain ⟨-, -, -, hsh, -⟩ := weightMatrixAny_ok he hinf hds hW
        obtain ⟨e1, e2⟩ := hsh _ (List.mem_singleton.2 rfl)
        have e1 : c.r = W.r := e1
        have e2 : t.r = W.c := e2
        have hu : ∀ j < W.c, W.get i j = .fin (1 / (W.c : K)) :=
          C159_place_without_coordinates env he inf hinf false _ hds W hW i (e1 ▸ hi) (fun d hd j hj => by
            rw [List.mem_singleton] at hd
            subst hd
            exact hm _ _ (by simp [hcc]) (.inl hmiss))
        have hMr : M.r = Xn.r := by rw [← h, ← hc]; exact e1.symm
        have hMc : M.c = ests.length := by rw [← h, ← htr]; exact e2.symm
        refine ⟨_, C43_weighted_sum L p st Xn c t M ests hd hce hest hne ht hM hMr hMc, ?_⟩
        have hrow : M.row i = ests.map fun _ => 1 / (ests.length : K) := by
          apply List.ext_getElem
          · simp [hMc]
          · intro j h1 h2
            have hj : j < W.c := by
              have : j < M.c := by simpa using h1
              rw [← h] at this
              exact this
            simp only [Mat.row, List.getElem_map, List.getElem_range]
            rw [← h]
            simp only [Mat.map, hu j hj, Num.toK, ← htr, e2]
        rw [List.getElem?_map, List.getElem?_range (hc ▸ hi), Option.map_some, hrow]
        congr 1
        rw [List.zipWith_map_left, List.zipWith_self, List.sum_map_mul_left, mul_comm, mul_one_div]
      · cases hM'

/-! ### Examples -/

/-- Five observations on a line; the third has no coordinate. -/
def gapPoints : Mat (Num ℚ) := ⟨5, 1, fun i _ => if i = 2 then .nan else .fin i⟩

/-- No quantile of a row with infinities is looked at. -/
def noInf : List (Num ℚ) → ℚ → Num ℚ := fun _ _ => .nan

theorem noInf_ok : InfOk noInf := fun _ _ _ => trivial

theorem cityblock_ok : MetricOk (cityblockAny (K := ℚ)) := by
  intro p q
  unfold cityblockAny Num.sum
  have key : ∀ (l : List (Num ℚ)) (s : Num ℚ), OkDist s → (∀ x ∈ l, OkDist x) → OkDist (l.foldl Num.add s) := by
    intro l
    induction l with
    | nil => intro s hs _; exact hs
    | cons a l ih =>
      intro s hs hl
      rw [List.foldl_cons]
      refine ih _ ?_ fun x hx => hl x (by simp [hx])
      have ha := hl a (by simp)
      cases s <;> cases a <;> first | exact add_nonneg hs ha | trivial | exact absurd hs id | exact absurd ha id
  refine key _ _ le_rfl ?_
  intro x hx
  induction p generalizing q with
  | nil => simp at hx
  | cons a p ih =>
    cases q with
    | nil => simp at hx
    | cons b q =>
      simp only [List.zipWith_cons_cons, List.mem_cons] at hx
      rcases hx with rfl | hx
      · cases Num.sub a b with
        | fin z => exact abs_nonneg z
        | _ => trivial
      · exact ih q hx

/-- The dimension of the five observations. -/
def gapDim (bandwidth : Option ℚ) (count : Option (Count ℚ)) (kernel : String) : DimAny ℚ :=
  ⟨cdistAny cityblockAny gapPoints gapPoints, kernel, bandwidth, count, none⟩

/-- The weights of the five observations. -/
def gapWeights (bandwidth : Option ℚ) (count : Option (Count ℚ)) (kernel : String) : Except Err (Mat (Num ℚ)) :=
  weightMatrixAny ratEnv noInf false [gapDim bandwidth count kernel]

theorem gapDims_ok (bandwidth : Option ℚ) (hb : ∀ b, bandwidth = some b → 0 ≤ b) (count : Option (Count ℚ))
    (kernel : String) : ∀ d ∈ [gapDim bandwidth count kernel], d.Ok := by
  intro d hd
  rw [List.mem_singleton] at hd
  subst hd
  exact ⟨fun i _ j _ => cityblock_ok _ _, hb, fun S hS => by cases hS⟩

/-- Fixed bandwidth, bisquare: in the first row the neighbour at distance one is far lighter than the
observation that is nowhere, and the observation at distance four has no weight. -/
example : okAnd (gapWeights (some 2) none "bisquare") fun W =>
    decide ((W.row 0).map Num.toK = [16 / 41, 9 / 41, 16 / 41, 0, 0]) := by decide +kernel

/-- A whole neighbour count of two: itself, the nearest, and the observation that is nowhere. -/
example : okAnd (gapWeights none (some (.int 2)) "boxcar") fun W =>
    decide ((W.row 0).map Num.toK = [1 / 3, 1 / 3, 1 / 3, 0, 0]) := by decide +kernel

/-- A fractional neighbour count: every weight is a fifth. -/
example : okAnd (gapWeights none (some (.float (1 / 2))) "bisquare") fun W =>
    decide (W.toLists.map (List.map Num.toK) = List.replicate 5 (List.replicate 5 (1 / 5))) := by decide +kernel

/-- Without the missing coordinate the same call gives different weights. -/
example : okAnd (weightMatrixAny ratEnv noInf false
    [⟨cdistAny cityblockAny ⟨5, 1, fun i _ => .fin i⟩ ⟨5, 1, fun i _ => .fin i⟩, "bisquare", none,
      some (.float (1 / 2)), none⟩]) fun W =>
    decide ((W.get 0 0).toK ≠ (W.get 0 1).toK ∧ (W.get 0 4).toK = 0) := by decide +kernel

example : ∃ W, gapWeights (some 2) none "bisquare" = .ok W ∧ ∀ i < 5, 0 < (W.get i 2).toK ∧
    ∀ k < 5, (W.get i k).toK ≤ (W.get i 2).toK := by
  have hok : (gapWeights (some 2) none "bisquare").isOk = true := by decide +kernel
  have hs : okAnd (gapWeights (some 2) none "bisquare") (fun W => decide (W.r = 5 ∧ W.c = 5)) = true := by
    decide +kernel
  cases hW : gapWeights (some 2) none "bisquare" with
  | error e => rw [hW] at hok; cases hok
  | ok W =>
    rw [hW] at hs
    obtain ⟨h1, h2⟩ := of_decide_eq_true hs
    refine ⟨W, rfl, fun i hi => ?_⟩
    have := C159_heaviest ratEnv ratEnv_pos.toOk noInf noInf_ok false _
      (gapDims_ok (some 2) (fun b hb => by injection hb with hb; rw [← hb]; norm_num) none "bisquare") W hW i 2
      (h1 ▸ hi) (by omega) (fun d hd => by
        rw [List.mem_singleton] at hd
        subst hd
        exact (C159_metrics (fun x => x)).2 _ _ (by simp) (.inr (by
          show Num.nan ∈ gapPoints.row 2
          exact Mat.mem_row.2 ⟨0, by decide, rfl⟩)))
    rw [h2] at this
    exact this

/-- A fit that uses three quarters of the observations around each location and caches everything. -/
def gapP : WMParams ℚ (Mat (Num ℚ)) :=
  { cacheData := true, cacheEstimator := true, leaveLocalOut := true, cpu := 2,
    weights := pointSourceAny ratEnv noInf cityblockAny "bisquare" none (some (.float (3 / 4))) }

/-- With all coordinates present the five local predictions are local; with one missing coordinate
each of them is the mean of the other four targets (all five add up to eighteen; `meanLearner` adds the
value of the predictor, here the square of the row number). -/
example : (wmFit meanLearner countRng gapP {} 0 exX5 exY5 (some gapPoints) none).result.isOk = true ∧
    (wmFit meanLearner countRng gapP {} 0 exX5 exY5 (some gapPoints) none).state.localPredict =
      some [(18 - 1) / 4, (18 - 5) / 4 + 1, (18 - 2) / 4 + 4, (18 - 7) / 4 + 9, (18 - 3) / 4 + 16] ∧
    (wmFit meanLearner countRng gapP {} 0 exX5 exY5 (some ⟨5, 1, fun i _ => .fin i⟩) none).state.localPredict =
      some [26062 / 6369, 9352 / 3369, 10, 39166 / 3369, 135886 / 6369] := by decide +kernel

example : Num.nan ∈ gapPoints.row 2 ∧ MetricOk (cityblockAny (K := ℚ)) ∧ PassesNan (cityblockAny (K := ℚ)) :=
  ⟨Mat.mem_row.2 ⟨0, by decide, rfl⟩, cityblock_ok, (C159_metrics (fun x => x)).2⟩

/-- A model fitted to complete data, asked at two new places of which the second has no coordinate:
there the answer is the mean of what the five local models predict for the features given. -/
def wholeFitted : WMState ℚ ℚ (Mat (Num ℚ)) :=
  (wmFit meanLearner countRng gapP {} 0 exX5 exY5 (some ⟨5, 1, fun i _ => .fin i⟩) none).state

example : okAnd (predictByWeight meanLearner gapP wholeFitted ⟨2, 1, fun _ _ => 3⟩
      (some ⟨2, 1, fun i _ => if i = 1 then .nan else .fin 0⟩) none) (fun ps =>
    decide (ps.length = 2 ∧ ps[0]? ≠ ps[1]? ∧
      ps[1]? = (wholeFitted.estimators.map fun es => (es.map fun f => f.getD 0 + 3).sum / 5))) ∧
    (wholeFitted.estimators.map List.length) = some 5 := by decide +kernel

end Geo
