import Verif.Model.Importance
import Verif.Props.WeightModelPredict
/-
C46-C48, C75: permutation importance and interaction scores.
-/
set_option linter.unusedSectionVars false
namespace Geo
variable {K : Type} [Field K] [LinearOrder K] [IsStrictOrderedRing K] [FloorRing K]
variable {F C S : Type}

/-! ### Statements -/

/-- The coefficient of determination of predictions `p` for targets `y`, with scikit-learn's
convention for constant targets. -/
def R2Of (n : Nat) (y p : Nat → K) : K :=
  let sse := ∑ i ∈ Finset.range n, (y i - p i) ^ 2
  let sst := ∑ i ∈ Finset.range n, (y i - (∑ i ∈ Finset.range n, y i) / n) ^ 2
  if sst = 0 then (if sse = 0 then 1 else 0) else 1 - sse / sst

/-- Every permutation the generator produces is one. -/
def PRng.Valid (g : PRng S) : Prop := ∀ s n, (g.perm s n).1.Perm (List.range n)

theorem sum_map_range' (f : Nat → K) (n : Nat) :
    ((List.range n).map f).sum = ∑ i ∈ Finset.range n, f i := by
  induction n with
  | zero => simp
  | succ n ih => simp [List.range_succ, Finset.sum_range_succ, ih]

theorem zip_map_range (f g : Nat → K) (n : Nat) :
    ((List.range n).map f).zip ((List.range n).map g) = (List.range n).map fun i => (f i, g i) := by
  rw [List.zip_map']

theorem skR2_value {n : Nat} {y p : Nat → K} {v : K}
    (h : skR2 ((List.range n).map y) ((List.range n).map p) = .ok v) : v = R2Of n y p := by
  unfold skR2 at h
  split at h
  · cases h
  split at h
  · cases h
  simp only [zip_map_range, List.map_map, List.length_map, List.length_range] at h
  injection h with h
  rw [← h]
  simp only [R2Of, sum_map_range', Function.comp_def]
  by_cases hd : ∑ i ∈ Finset.range n, (y i - (∑ i ∈ Finset.range n, y i) / n) ^ 2 = 0
  · simp only [hd, ne_eq, not_true_eq_false, if_false, if_true]
  · simp only [hd, ne_eq, not_false_eq_true, if_false, if_true]

theorem drawPerms_length (g : PRng S) (n k : Nat) (s : S) : (drawPerms g n k s).1.length = k := by
  induction k generalizing s with
  | zero => rfl
  | succ k ih => simp [drawPerms, ih]

theorem drawPerms_valid {g : PRng S} (hg : g.Valid) (n k : Nat) (s : S) :
    ∀ l ∈ (drawPerms g n k s).1, l.Perm (List.range n) := by
  induction k generalizing s with
  | zero => simp [drawPerms]
  | succ k ih =>
    intro l hl
    simp only [drawPerms, List.mem_cons] at hl
    rcases hl with rfl | hl
    · exact hg s n
    · exact ih _ l hl

/-- The state of the generator after `k` permutations of `n` items. -/
def genAfter (g : PRng S) (n k : Nat) (s : S) : S := (fun s => (g.perm s n).2)^[k] s

theorem drawPerms_state (g : PRng S) (n k : Nat) (s : S) :
    (drawPerms g n k s).2 = genAfter g n k s := by
  induction k generalizing s with
  | zero => rfl
  | succ k ih =>
    simp only [drawPerms, ih, genAfter, Function.iterate_succ_apply]

theorem drawPerms_get (g : PRng S) (n : Nat) {k q : Nat} (s : S) (hq : q < k) :
    (drawPerms g n k s).1.getD q [] = (g.perm (genAfter g n q s) n).1 := by
  induction k generalizing s q with
  | zero => omega
  | succ k ih =>
    cases q with
    | zero => rfl
    | succ q =>
      simp only [drawPerms, List.getD_cons_succ, ih _ (Nat.lt_of_succ_lt_succ hq), genAfter,
        Function.iterate_succ_apply]

theorem tiled_row (X : Mat K) (perms : List (List Nat)) (R i f r : Nat) :
    ((List.range X.c).map fun a => tiledEntry X perms R i a f r) =
      (X.row i).set f (X.get ((perms.getD (f * R + r) []).getD i 0) f) := by
  apply List.ext_getElem (by simp)
  intro k h1 h2
  simp only [List.length_map, List.length_range] at h1
  simp only [List.getElem_map, List.getElem_range, tiledEntry, List.getElem_set, Mat.row]
  by_cases hk : k = f
  · rw [if_pos hk, if_pos hk.symm]
  · rw [if_neg hk, if_neg (fun h => hk h.symm)]

theorem fittedParts_ok {st : WMState K F C} {d : FittedParts K F} (h : fittedParts st = .ok d) :
    st.X = some d.X ∧ st.y = some d.y ∧ st.score = some d.score ∧ st.estimators = some d.ests ∧
      d.y.length = d.X.r ∧ st.N = some d.X.r ∧ st.nFeatures = some d.X.c := by
  unfold fittedParts at h
  split at h
  · rename_i h1 h2 h3 h4 h5 h6
    split at h
    · rename_i hc
      injection h with h
      subst h
      obtain ⟨rfl, rfl, hy⟩ := hc
      exact ⟨h3, h4, h6, h5, hy, h1, h2⟩
    · cases h
  · cases h

theorem permPredict_ok {L : Learner K F} {d : FittedParts K F} {perms : List (List Nat)} {R i : Nat}
    {row : List K} (h : permPredict L d perms R i = .ok row) :
    ∃ f, d.ests[i]? = some (some f) ∧ row = (permBatch d.X perms R i).map (L.predict f) := by
  unfold permPredict at h
  cases h1 : pyGet d.ests i with
  | error e => rw [h1] at h; cases h
  | ok e =>
    rw [h1] at h
    unfold pyGet at h1
    split at h1
    · rename_i a ha
      injection h1 with h1
      subst h1
      cases a with
      | none => cases h
      | some f =>
        refine ⟨f, ha, ?_⟩
        injection h with h
        exact h.symm
    · cases h1

theorem batch_get (L : Learner K F) (f : F) (X : Mat K) (perms : List (List Nat)) {R i k r : Nat}
    (hk : k < X.c) (hr : r < R) :
    ((permBatch X perms R i).map (L.predict f)).getD (k * R + r) 0 =
      L.predict f ((X.row i).set k (X.get ((perms.getD (k * R + r) []).getD i 0) k)) := by
  have hlt : k * R + r < X.c * R := by
    calc k * R + r < k * R + R := by omega
      _ = (k + 1) * R := by ring
      _ ≤ X.c * R := Nat.mul_le_mul_right _ hk
  have h1 : (k * R + r) / R = k := by
    rw [add_comm, Nat.add_mul_div_right _ _ (by omega), Nat.div_eq_of_lt hr, zero_add]
  have h2 : (k * R + r) % R = r := by
    rw [add_comm, Nat.add_mul_mod_self_right, Nat.mod_eq_of_lt hr]
  unfold permBatch
  rw [List.getD_eq_getElem?_getD]
  simp only [List.map_map, List.getElem?_map, List.getElem?_range hlt, Option.map_some,
    Option.getD_some, Function.comp, h1, h2]
  rw [tiled_row]

/-- The score decrease that a permutation `pi` of the rows causes when it is applied to feature
`k` only: every location is predicted by its own local model. -/
def decreaseOf (L : Learner K F) (X : Mat K) (y : List K) (score : K) (est : Nat → F) (k : Nat)
    (pi : Nat → Nat) : K :=
  score - R2Of X.r (fun i => y.getD i 0)
    fun i => L.predict (est i) ((X.row i).set k (X.get (pi i) k))

theorem permDecreases_ok {L : Learner K F} {d : FittedParts K F} {perms : List (List Nat)} {R : Nat}
    {dec : List (List K)} (hy : d.y.length = d.X.r) (h : permDecreases L d perms R = .ok dec) :
    ∃ est : Nat → Option F, (∀ i < d.X.r, (est i).isSome ∧ d.ests[i]? = some (est i)) ∧
      ∀ est' : Nat → F, (∀ i < d.X.r, est i = some (est' i)) →
      dec = (List.range d.X.c).map fun k => (List.range R).map fun r =>
        decreaseOf L d.X d.y d.score est' k
          fun i => (perms.getD (k * R + r) []).getD i 0 := by
  unfold permDecreases at h
  cases ht : mapE (permPredict L d perms R) (List.range d.X.r) with
  | error e => rw [ht] at h; cases h
  | ok table =>
    rw [ht] at h
    change mapE (fun f => mapE (permDecrease d R table f) (List.range R)) (List.range d.X.c)
      = .ok dec at h
    have hrow : ∀ i < d.X.r, ∃ f, d.ests[i]? = some (some f) ∧
        table[i]? = some ((permBatch d.X perms R i).map (L.predict f)) := by
      intro i hi
      have := mapE_get ht (i := i) (by simpa using hi)
      simp only [List.getElem_range] at this
      obtain ⟨f, h1, h2⟩ := permPredict_ok this
      refine ⟨f, h1, ?_⟩
      rw [← h2]
      exact List.getElem?_eq_getElem _
    refine ⟨fun i => (d.ests[i]?).getD none, ?_, ?_⟩
    · intro i hi
      obtain ⟨f, h1, _⟩ := hrow i hi
      simp [h1]
    · intro est' hest
      have htab : table = (List.range d.X.r).map fun i =>
          (permBatch d.X perms R i).map (L.predict (est' i)) := by
        apply List.ext_getElem?
        intro i
        by_cases hi : i < d.X.r
        · obtain ⟨f, h1, h2⟩ := hrow i hi
          have := hest i hi
          simp only [h1, Option.getD_some, Option.some.injEq] at this
          subst this
          rw [h2]
          simp [List.getElem?_range hi]
        · have hl := mapE_length ht
          simp only [List.length_range] at hl
          rw [List.getElem?_eq_none (by omega), List.getElem?_eq_none (by simp; omega)]
      have hdy : d.y = (List.range d.X.r).map fun i => d.y.getD i 0 := by
        apply List.ext_getElem (by simp [hy])
        intro i h1 h2
        simp [h1]
      have key : ∀ k < d.X.c, ∀ r < R, ∀ v, permDecrease d R table k r = .ok v →
          v = decreaseOf L d.X d.y d.score est' k
            fun i => (perms.getD (k * R + r) []).getD i 0 := by
        intro k hk r hr v hv
        unfold permDecrease at hv
        cases hs : skR2 d.y (table.map fun row => row.getD (k * R + r) 0) with
        | error e => rw [hs] at hv; cases hv
        | ok sc =>
          rw [hs] at hv
          injection hv with hv
          rw [htab, hdy, List.map_map] at hs
          have := skR2_value (n := d.X.r) hs
          rw [← hv, this]
          unfold decreaseOf
          congr 2
          funext i
          exact batch_get L (est' i) d.X perms hk hr
      have hout := mapE_length h
      simp only [List.length_range] at hout
      apply List.ext_getElem (by simp [hout])
      intro k h1 h2
      have hk : k < d.X.c := by omega
      have h3 := mapE_get h (i := k) (by simpa using hk)
      simp only [List.getElem_range] at h3
      have h4 := mapE_length h3
      simp only [List.length_range] at h4
      apply List.ext_getElem (by simp [h4])
      intro r h5 h6
      have hr : r < R := by omega
      have h7 := mapE_get h3 (i := r) (by simpa using hr)
      simp only [List.getElem_range] at h7
      simp only [List.getElem_map, List.getElem_range]
      exact key k hk r hr _ h7

/-- The columns of score decreases that a call draws. -/
def drawnTable (L : Learner K F) (g : PRng S) (st : WMState K F C) (s : S) (R : Nat) :
    List (List K) :=
  match fittedParts st with
  | .error _ => []
  | .ok d =>
    match permDecreases L d (drawPerms g d.X.r (d.X.c * R) s).1 R with
    | .error _ => []
    | .ok dec => dec

/-- What a successful call consists of. -/
theorem importance_ok {L : Learner K F} {g : PRng S} {p : WMParams K C} {st : WMState K F C} {s : S}
    {R : Nat} {v : List K} (h : (importanceGlobal L g p st s R).result = .ok v) :
    ∃ d dec all, p.cacheData = true ∧ p.cacheEstimator = true ∧ fittedParts st = .ok d ∧ 0 < R ∧
      permDecreases L d (drawPerms g d.X.r (d.X.c * R) s).1 R = .ok dec ∧
      drawnTable L g st s R = dec ∧
      appendTrials st.permDecrease dec = .ok all ∧ v = all.map meanL ∧
      importanceGlobal L g p st s R = ⟨.ok v, { st with permDecrease := some all },
        (drawPerms g d.X.r (d.X.c * R) s).2⟩ := by
  unfold importanceGlobal at h ⊢
  by_cases hc : (!p.cacheData || !p.cacheEstimator) = true
  · rw [if_pos hc] at h; cases h
  rw [if_neg hc] at h ⊢
  simp only [Bool.or_eq_true, Bool.not_eq_true', not_or, Bool.not_eq_false] at hc
  cases hd : fittedParts st with
  | error e => rw [hd] at h; cases h
  | ok d =>
    rw [hd] at h
    simp only at h ⊢
    by_cases hR : R = 0
    · rw [if_pos hR] at h; cases h
    rw [if_neg hR] at h ⊢
    cases hp : permDecreases L d (drawPerms g d.X.r (d.X.c * R) s).1 R with
    | error e => rw [hp] at h; cases h
    | ok dec =>
      rw [hp] at h
      simp only at h ⊢
      cases ha : appendTrials st.permDecrease dec with
      | error e => rw [ha] at h; cases h
      | ok all =>
        rw [ha] at h
        simp only at h ⊢
        injection h with h
        refine ⟨d, dec, all, hc.1, hc.2, rfl, by omega, hp, ?_, ha, h.symm, ?_⟩
        · simp only [drawnTable, hd, hp]
        · rw [h]

/-- C47: each score decrease that a call draws comes from predictions at rows in which one
feature is replaced by its value in the row given by a permutation of all rows, each row being
predicted by the local model of its own location. Every feature and every repetition has a draw of its
own: the permutation of feature `k`, repetition `r` is what the generator gives after `k * R + r`
earlier draws, and the call leaves the generator after all its draws. -/
theorem C47_one_feature_permuted {L : Learner K F} {g : PRng S} (hg : g.Valid) {p : WMParams K C}
    {st : WMState K F C} {s : S} {R : Nat} {v : List K}
    (h : (importanceGlobal L g p st s R).result = .ok v) :
    ∃ (X : Mat K) (y : List K) (score : K) (ests : List (Option F)),
      st.X = some X ∧ st.y = some y ∧ st.score = some score ∧ st.estimators = some ests ∧
      (∀ i < X.r, ∃ f, ests[i]? = some (some f)) ∧
      ∃ perm : Nat → Nat → Nat → Nat,
        (∀ k < X.c, ∀ r < R, ((List.range X.r).map (perm k r)).Perm (List.range X.r) ∧
          (List.range X.r).map (perm k r) = (g.perm (genAfter g X.r (k * R + r) s) X.r).1) ∧
        (importanceGlobal L g p st s R).rng = genAfter g X.r (X.c * R) s ∧
        ∀ est : Nat → F, (∀ i < X.r, ests[i]? = some (some (est i))) →
          drawnTable L g st s R = (List.range X.c).map fun k => (List.range R).map fun r =>
            score - R2Of X.r (fun i => y.getD i 0)
              fun i => L.predict (est i) ((X.row i).set k (X.get (perm k r i) k)) := by
  obtain ⟨d, dec, all, _, _, hd, _, hp, hdr, _, _, hout⟩ := importance_ok h
  obtain ⟨h1, h2, h3, h4, hy, -⟩ := fittedParts_ok hd
  obtain ⟨est, he1, he2⟩ := permDecreases_ok hy hp
  refine ⟨d.X, d.y, d.score, d.ests, h1, h2, h3, h4, ?_,
    fun k r i => ((drawPerms g d.X.r (d.X.c * R) s).1.getD (k * R + r) []).getD i 0, ?_,
    by rw [hout]; exact drawPerms_state _ _ _ _, ?_⟩
  · intro i hi
    obtain ⟨h5, h6⟩ := he1 i hi
    obtain ⟨f, hf⟩ := Option.isSome_iff_exists.1 h5
    exact ⟨f, by rw [h6, hf]⟩
  · intro k hk r hr
    have hlt : k * R + r < d.X.c * R := by
      calc k * R + r < k * R + R := by omega
        _ = (k + 1) * R := by ring
        _ ≤ d.X.c * R := Nat.mul_le_mul_right _ hk
    have hlen := drawPerms_length g d.X.r (d.X.c * R) s
    have hmem : (drawPerms g d.X.r (d.X.c * R) s).1.getD (k * R + r) [] ∈
        (drawPerms g d.X.r (d.X.c * R) s).1 := by
      rw [List.getD_eq_getElem _ _ (by omega)]
      exact List.getElem_mem _
    have hperm := drawPerms_valid hg _ _ _ _ hmem
    rw [← drawPerms_get g d.X.r s hlt]
    simp only
    generalize (drawPerms g d.X.r (d.X.c * R) s).1.getD (k * R + r) [] = l at hperm ⊢
    have hl : l.length = d.X.r := by simpa using hperm.length_eq
    have : (List.range d.X.r).map (fun i => l.getD i 0) = l := by
      apply List.ext_getElem (by simp [hl])
      intro i h1 h2
      simp [h2]
    rw [this]
    exact ⟨hperm, rfl⟩
  · intro est' hest
    rw [hdr, he2 est' fun i hi => ?_]
    · rfl
    · have := (he1 i hi).2
      rw [hest i hi] at this
      exact (Option.some.inj this).symm

/-! ### C46: the returned scores average over the whole history of the object -/

/-- A call on a model object. -/
inductive MOp (K C : Type)
  | fit (X : Mat K) (y : List K) (coords : Option C) (W : Option (WMat K))
  | importance (R : Nat)
  | interaction (R : Nat) (junk : Nat → Nat → Nat → K)

/-- An object, the generator, and the tables of score decreases drawn so far by calls that
succeeded in drawing and recording them. -/
structure History (K F C S : Type) where
  st : WMState K F C
  s : S
  tables : List (List (List K))

/-- The table recorded by `importance_score_global`, if any. -/
def recorded (L : Learner K F) (g : PRng S) (p : WMParams K C) (st : WMState K F C) (s : S)
    (R : Nat) : List (List (List K)) :=
  match (importanceGlobal L g p st s R).result with
  | .ok _ => [drawnTable L g st s R]
  | .error _ => []

/-- One call, whether it succeeds or not. `interaction_score_global` draws five single-feature
trials when there are none yet. -/
def MOp.run (L : Learner K F) (rng : Rng S) (g : PRng S) (p : WMParams K C) (h : History K F C S) :
    MOp K C → History K F C S
  | .fit X y coords W =>
    ⟨(wmFit L rng p h.st h.s X y coords W).state, (wmFit L rng p h.st h.s X y coords W).rng, h.tables⟩
  | .importance R =>
    ⟨(importanceGlobal L g p h.st h.s R).state, (importanceGlobal L g p h.st h.s R).rng,
      h.tables ++ recorded L g p h.st h.s R⟩
  | .interaction R junk =>
    ⟨(interactionGlobal L g junk p h.st h.s R).state, (interactionGlobal L g junk p h.st h.s R).rng,
      h.tables ++ if h.st.permDecrease.isSome then [] else recorded L g p h.st h.s 5⟩

theorem wmFit_permDecrease (L : Learner K F) (rng : Rng S) (p : WMParams K C) (st : WMState K F C)
    (s : S) (X : Mat K) (y : List K) (coords : Option C) (W : Option (WMat K)) :
    (wmFit L rng p st s X y coords W).state.permDecrease = st.permDecrease := by
  have hb : (stateBegin p st X y coords W).permDecrease = st.permDecrease := by
    unfold stateBegin
    simp only
    split_ifs <;> rfl
  have he : ∀ (st : WMState K F C) ys res, (stateEnd p st ys res).2.permDecrease = st.permDecrease := by
    intro st ys res
    unfold stateEnd
    simp only
    split <;> rfl
  unfold wmFit
  split
  · split
    · exact hb
    · rw [← hb]
      unfold fitWith
      simp only
      split
      · rfl
      · split
        · rfl
        · exact he _ _ _
  · rfl

/-- The invariant: the stored array holds, feature by feature, all recorded tables. -/
def HInv (h : History K F C S) : Prop :=
  match h.st.permDecrease with
  | none => h.tables = []
  | some all => (∀ T ∈ h.tables, T.length = all.length) ∧
      ∀ k < all.length, all.getD k [] = h.tables.flatMap fun T => T.getD k []

theorem appendTrials_inv {old : Option (List (List K))} {dec all : List (List K)}
    {tables : List (List (List K))} {n : Nat} (ha : appendTrials old dec = .ok all)
    (hinv : match (generalizing := false) old with
      | none => tables = []
      | some o => (∀ T ∈ tables, T.length = o.length) ∧
          ∀ k < o.length, o.getD k [] = tables.flatMap fun T => T.getD k [])
    (hn : dec.length = n) :
    all.length = n ∧ (∀ T ∈ tables ++ [dec], T.length = n) ∧
      ∀ k < n, all.getD k [] = (tables ++ [dec]).flatMap fun T => T.getD k [] := by
  subst hn
  cases old with
  | none =>
    simp only [appendTrials] at ha
    injection ha with ha
    subst ha
    simp only at hinv
    subst hinv
    simp
  | some o =>
    simp only [appendTrials] at ha
    split at ha
    · rename_i hl
      injection ha with ha
      subst ha
      simp only at hinv
      refine ⟨by simp [hl], ?_, ?_⟩
      · intro T hT
        simp only [List.mem_append, List.mem_singleton] at hT
        rcases hT with hT | rfl
        · rw [hinv.1 T hT, hl]
        · rfl
      · intro k hk
        have h1 := hinv.2 k (by omega)
        simp only [List.flatMap_append, List.flatMap_cons, List.flatMap_nil, List.append_nil]
        rw [← h1]
        have h2 : k < o.length := by omega
        simp [List.getD_eq_getElem?_getD, h2, hk]
    · cases ha

theorem importance_error_state {L : Learner K F} {g : PRng S} {p : WMParams K C}
    {st : WMState K F C} {s : S} {R : Nat} {e : Err}
    (h : (importanceGlobal L g p st s R).result = .error e) :
    (importanceGlobal L g p st s R).state = st := by
  unfold importanceGlobal at h ⊢
  split
  · rfl
  · rename_i hc
    rw [if_neg hc] at h
    split
    · rfl
    · rename_i d hd
      rw [hd] at h
      simp only at h
      split
      · rfl
      · rename_i hR
        rw [if_neg hR] at h
        split
        · rfl
        · rename_i dec hdec
          rw [hdec] at h
          simp only at h
          split
          · rfl
          · rename_i all hall
            rw [hall] at h
            cases h

theorem importance_inv {L : Learner K F} {g : PRng S} {p : WMParams K C} {h : History K F C S}
    (hi : HInv h) (R : Nat) :
    HInv ⟨(importanceGlobal L g p h.st h.s R).state, (importanceGlobal L g p h.st h.s R).rng,
      h.tables ++ recorded L g p h.st h.s R⟩ := by
  unfold recorded
  cases hr : (importanceGlobal L g p h.st h.s R).result with
  | error e =>
    simp only [List.append_nil]
    unfold HInv
    simp only [importance_error_state hr]
    exact hi
  | ok v =>
    obtain ⟨d, dec, all, _, _, hd, _, hp, hdr, ha, hv, heq⟩ := importance_ok hr
    simp only [hdr]
    obtain ⟨h1, h2, h3⟩ := appendTrials_inv ha hi rfl
    unfold HInv
    rw [heq]
    simp only
    exact ⟨fun T hT => by rw [h1]; exact h2 T hT, fun k hk => h3 k (by rw [← h1]; exact hk)⟩

theorem interactionWith_permDecrease (L : Learner K F) (g : PRng S) (junk : Nat → Nat → Nat → K)
    (st : WMState K F C) (s : S) (R : Nat) (single : List K) :
    (interactionWith L g junk st s R single).state.permDecrease = st.permDecrease := by
  unfold interactionWith
  split
  · rfl
  · split
    · rfl
    · split
      · rfl
      · split <;> rfl

theorem interaction_permDecrease (L : Learner K F) (g : PRng S) (junk : Nat → Nat → Nat → K)
    (p : WMParams K C) (st : WMState K F C) (s : S) (R : Nat) :
    (interactionGlobal L g junk p st s R).state.permDecrease =
      if st.permDecrease.isSome then st.permDecrease
      else (importanceGlobal L g p st s 5).state.permDecrease := by
  unfold interactionGlobal
  split
  · rename_i hc
    have : (importanceGlobal L g p st s 5).state = st := by
      unfold importanceGlobal; rw [if_pos hc]
    rw [this]
    split <;> rfl
  · split
    · rename_i dec hdec
      rw [interactionWith_permDecrease]
      simp [hdec]
    · rename_i hdec
      simp only [hdec, Option.isSome_none, Bool.false_eq_true, if_false]
      split
      · rename_i heq
        rw [heq]
      · rename_i heq
        rw [interactionWith_permDecrease, heq]

theorem run_inv {L : Learner K F} {rng : Rng S} {g : PRng S} {p : WMParams K C}
    {h : History K F C S} (hi : HInv h) (op : MOp K C) : HInv (op.run L rng g p h) := by
  cases op with
  | fit X y coords W =>
    unfold HInv MOp.run
    simp only [wmFit_permDecrease]
    exact hi
  | importance R => exact importance_inv hi R
  | interaction R junk =>
    unfold MOp.run
    by_cases hs : h.st.permDecrease.isSome = true
    · unfold HInv
      simp only [interaction_permDecrease, hs, if_true, List.append_nil]
      exact hi
    · have := importance_inv (L := L) (g := g) (p := p) hi 5
      unfold HInv at this ⊢
      simp only [interaction_permDecrease, hs]
      exact this

/-- C46: after any sequence of calls on a new object, `importance_score_global` returns for every
feature the mean of all score decreases drawn since the object was created: `n_repeats` new ones
and those of all earlier calls, whatever was fitted in between. -/
theorem C46_mean_over_history (L : Learner K F) (rng : Rng S) (g : PRng S) (p : WMParams K C)
    (s : S) (ops : List (MOp K C)) (R : Nat) (v : List K)
    (hv : (importanceGlobal L g p (ops.foldl (MOp.run L rng g p) ⟨{}, s, []⟩).st
      (ops.foldl (MOp.run L rng g p) ⟨{}, s, []⟩).s R).result = .ok v) :
    let h := ops.foldl (MOp.run L rng g p) ⟨{}, s, []⟩
    let D := drawnTable L g h.st h.s R
    v.length = D.length ∧ (∀ T ∈ h.tables, T.length = D.length) ∧ (∀ row ∈ D, row.length = R) ∧
      ∀ k < v.length, v[k]? =
        some (let all := (h.tables ++ [D]).flatMap fun T => T.getD k []
          all.sum / (all.length : K)) := by
  intro h D
  have hinv : HInv h := by
    have : ∀ (ops : List (MOp K C)) (h0 : History K F C S), HInv h0 →
        HInv (ops.foldl (MOp.run L rng g p) h0) := by
      intro ops
      induction ops with
      | nil => exact fun _ h => h
      | cons op ops ih => exact fun h0 hh => ih _ (run_inv hh op)
    exact this ops ⟨{}, s, []⟩ rfl
  obtain ⟨d, dec, all, _, _, hd, hR, hp, hdr, ha, rfl, heq⟩ := importance_ok hv
  have hD : D = dec := hdr
  obtain ⟨h1, h2, h3⟩ := appendTrials_inv ha hinv rfl
  rw [hD]
  refine ⟨by simp [h1], fun T hT => h2 T (by simp [hT]), ?_, ?_⟩
  · intro row hrow
    unfold permDecreases at hp
    cases ht : mapE (permPredict L d (drawPerms g d.X.r (d.X.c * R) h.s).1 R) (List.range d.X.r) with
    | error e => rw [ht] at hp; cases hp
    | ok table =>
      rw [ht] at hp
      change mapE (fun f => mapE (permDecrease d R table f) (List.range R)) (List.range d.X.c)
        = .ok dec at hp
      obtain ⟨k, hk, rfl⟩ := List.getElem_of_mem hrow
      have hl := mapE_length hp
      have := mapE_get hp (i := k) (by rw [← hl]; exact hk)
      simpa using mapE_length this
  · intro k hk
    simp only [List.length_map] at hk
    rw [List.getElem?_map, List.getElem?_eq_getElem hk]
    simp only [Option.map_some, meanL]
    have := h3 k (by omega)
    rw [List.getD_eq_getElem _ _ hk] at this
    rw [this]

/-- C46: scores recorded for another number of features are not dropped by a refit: every later
call raises and leaves the object as it is. -/
theorem C46_other_feature_count (L : Learner K F) (g : PRng S) (p : WMParams K C)
    (st : WMState K F C) (s : S) (R : Nat) (old : List (List K)) (X : Mat K)
    (ho : st.permDecrease = some old) (hX : st.X = some X) (hne : old.length ≠ X.c) :
    (∃ e, (importanceGlobal L g p st s R).result = .error e) ∧
      (importanceGlobal L g p st s R).state = st := by
  have : ∃ e, (importanceGlobal L g p st s R).result = .error e := by
    cases hr : (importanceGlobal L g p st s R).result with
    | error e => exact ⟨e, rfl⟩
    | ok v =>
      obtain ⟨d, dec, all, _, _, hd, _, hp, _, ha, -⟩ := importance_ok hr
      obtain ⟨h1, h2, h3, h4, hy, -⟩ := fittedParts_ok hd
      rw [hX] at h1
      injection h1 with h1
      have hl : dec.length = d.X.c := by
        unfold permDecreases at hp
        cases ht : mapE (permPredict L d (drawPerms g d.X.r (d.X.c * R) s).1 R)
            (List.range d.X.r) with
        | error e => rw [ht] at hp; cases hp
        | ok table =>
          rw [ht] at hp
          simpa using mapE_length hp
      rw [ho] at ha
      simp only [appendTrials] at ha
      rw [if_neg (by rw [hl, ← h1]; exact hne)] at ha
      cases ha
  obtain ⟨e, he⟩ := this
  exact ⟨⟨e, he⟩, importance_error_state he⟩

/-! ### C75: sampled locations -/

/-- C75: after a fit at a sample of the locations, both scores raise, for every number of repeats
(the interaction score only when there is a pair of features). -/
theorem C75_not_after_sampled_fit (L : Learner K F) (rng : Rng S) (g : PRng S) (p : WMParams K C)
    (st : WMState K F C) (s s1 : S) (X : Mat K) (y : List K) (coords : Option C)
    (W : Option (WMat K)) (idx : List Nat)
    (hfit : (wmFit L rng p st s X y coords W).result = .ok ())
    (hidx : (wmFit L rng p st s X y coords W).state.localIndices = some idx)
    (hlt : idx.length < X.r) (R : Nat) (v : List K) (hcd : p.cacheData = true) :
    (importanceGlobal L g p (wmFit L rng p st s X y coords W).state s1 R).result ≠ .ok v ∧
    ∀ junk M, 2 ≤ X.c → 0 < R →
      (interactionGlobal L g junk p (wmFit L rng p st s X y coords W).state s1 R).result ≠ .ok M := by
  obtain ⟨W0, idx', s', res, score, hxy, hW0, hsamp, hfa, hlen, h2, hsc, heq⟩ := wmFit_ok hfit
  have hX : (wmFit L rng p st s X y coords W).state.X = some X ∧
      (wmFit L rng p st s X y coords W).state.y = some y ∧
      ∃ es, (wmFit L rng p st s X y coords W).state.estimators = some es ∧ es.length < X.r := by
    rw [heq] at hidx ⊢
    simp only [Option.some.injEq] at hidx
    subst hidx
    have hb : (stateBegin p st X y coords W).X = some X ∧
        (stateBegin p st X y coords W).y = some y := by
      unfold stateBegin
      have hn : (coords.isNone && W.isNone) = false := by
        cases coords <;> cases W <;> first | rfl | (cases hW0)
      simp only [hn, hcd, Bool.false_eq_true, if_false, if_true, and_self]
    refine ⟨hb.1, hb.2, _, rfl, ?_⟩
    simp only [List.length_map]
    omega
  generalize (wmFit L rng p st s X y coords W).state = st1 at hX
  obtain ⟨hX, hy, es, hes, hl⟩ := hX
  have hno : ∀ R s1 v, (importanceGlobal L g p st1 s1 R).result ≠ .ok v := by
    intro R s1 v hr
    obtain ⟨d, dec, all, _, _, hd, _, hp, _, ha, -⟩ := importance_ok hr
    obtain ⟨h1, h2, h3, h4, hy', -⟩ := fittedParts_ok hd
    obtain ⟨est, he1, -⟩ := permDecreases_ok hy' hp
    rw [hX] at h1
    rw [hes] at h4
    injection h1 with h1
    injection h4 with h4
    have := (he1 es.length (by rw [← h1]; exact hl)).2
    rw [← h4, List.getElem?_eq_none (le_refl _)] at this
    cases this
  refine ⟨hno R s1 v, fun junk M hF hR hr => ?_⟩
  have hw : ∀ s R single M, 0 < R → (interactionWith L g junk st1 s R single).result ≠ .ok M := by
    intro s R single M hR hr
    unfold interactionWith at hr
    cases hd : fittedParts st1 with
    | error e => rw [hd] at hr; cases hr
    | ok d =>
      rw [hd] at hr
      simp only at hr
      obtain ⟨h1, h2, h3, h4, hy', -⟩ := fittedParts_ok hd
      rw [hX] at h1
      rw [hes] at h4
      injection h1 with h1
      injection h4 with h4
      have hfail : ∀ s, ∃ e s', pairLoop L g d R (featurePairs d.X.c) s = (.error e, s') := by
        intro s
        obtain ⟨ab, rest, hrest⟩ : ∃ ab rest, featurePairs d.X.c = ab :: rest := by
          have hm : (0, 1) ∈ featurePairs d.X.c := by
            rw [← h1]
            unfold featurePairs
            simp only [List.mem_flatMap, List.mem_range, List.mem_map, List.mem_filter,
              decide_eq_true_eq]
            exact ⟨0, by omega, 1, ⟨by omega, by omega⟩, rfl⟩
          exact List.exists_cons_of_ne_nil (List.ne_nil_of_mem hm)
        rw [hrest]
        obtain ⟨R', rfl⟩ : ∃ R', R = R' + 1 := ⟨R - 1, by omega⟩
        have hpd : ∀ ia ib, ∃ e, pairDecrease L d ab.1 ab.2 ia ib = .error e := by
          intro ia ib
          unfold pairDecrease
          cases hm : mapE (zipPredict L)
              (d.ests.zip ((List.range d.X.r).map (pairRow d.X ab.1 ab.2 ia ib))) with
          | error e => exact ⟨e, rfl⟩
          | ok ps =>
            have hlen := mapE_length hm
            simp only [List.length_zip, List.length_map, List.length_range, ← h4, ← h1] at hlen
            cases hs : skR2 d.y ps with
            | error e => exact ⟨e, by simp only [bind, Except.bind, hs]⟩
            | ok sc =>
              have := (skR2_ok hs).1
              rw [hy', ← h1] at this
              omega
        simp only [pairLoop, pairRepeats]
        obtain ⟨e, he⟩ := hpd (shuffleList g s (List.range d.X.r)).1
          (shuffleList g (shuffleList g s (List.range d.X.r)).2
            (shuffleList g s (List.range d.X.r)).1).1
        rw [he]
        exact ⟨_, _, rfl⟩
      obtain ⟨e, s', he⟩ := hfail s
      rw [he] at hr
      cases hr
  unfold interactionGlobal at hr
  split at hr
  · cases hr
  · split at hr
    · exact hw _ _ _ _ hR hr
    · cases hi : importanceGlobal L g p st1 s1 5 with
      | mk res st2 s2 =>
        rw [hi] at hr
        cases res with
        | error e => cases hr
        | ok v => exact hno 5 s1 v (by rw [hi])

/-! ### C48 -/

theorem pairLoop_keys {L : Learner K F} {g : PRng S} {d : FittedParts K F} {R : Nat}
    {ps : List (Nat × Nat)} {s s' : S} {l : List ((Nat × Nat) × List K)}
    (h : pairLoop L g d R ps s = (.ok l, s')) : l.map Prod.fst = ps := by
  induction ps generalizing s l s' with
  | nil => simp only [pairLoop] at h; injection h with h; injection h with h; subst h; rfl
  | cons ab rest ih =>
    simp only [pairLoop] at h
    cases h1 : pairRepeats L g d ab.1 ab.2 R s with
    | mk r1 s1 =>
      rw [h1] at h
      cases r1 with
      | error e => cases h
      | ok vs =>
        simp only at h
        cases h2 : pairLoop L g d R rest s1 with
        | mk r2 s2 =>
          rw [h2] at h
          cases r2 with
          | error e => cases h
          | ok l' =>
            simp only at h
            injection h with h
            injection h with h
            subst h
            simp [ih h2]

theorem lookup_none {l : List ((Nat × Nat) × List K)} {n : Nat}
    (h : l.map Prod.fst = featurePairs n) {a b : Nat} (hab : b ≤ a) : l.lookup (a, b) = none := by
  rw [List.lookup_eq_none_iff]
  intro p hp
  have : p.1 ∈ featurePairs n := h ▸ List.mem_map_of_mem hp
  unfold featurePairs at this
  simp only [List.mem_flatMap, List.mem_range, List.mem_map, List.mem_filter,
    decide_eq_true_eq] at this
  obtain ⟨x, _, z, ⟨_, hz⟩, hp1⟩ := this
  rw [← hp1]
  rw [bne_iff_ne]
  intro h
  injection h with h1 h2
  omega

/-- What a successful call consists of, apart from the uninitialised memory. -/
theorem interaction_ok {L : Learner K F} {g : PRng S} {junk : Nat → Nat → Nat → K}
    {p : WMParams K C} {st : WMState K F C} {s : S} {R : Nat} {M : Mat K}
    (h : (interactionGlobal L g junk p st s R).result = .ok M) :
    ∃ d l single T all, fittedParts st = .ok d ∧ l.map Prod.fst = featurePairs d.X.c ∧
      addTranspose (pairMatrix d.X.c R junk single l) = .ok T ∧
      appendArr3 st.interaction T = .ok all ∧ M = meanArr3 all ∧
      ∀ junk' T' all', addTranspose (pairMatrix d.X.c R junk' single l) = .ok T' →
        appendArr3 st.interaction T' = .ok all' →
        (interactionGlobal L g junk' p st s R).result = .ok (meanArr3 all') := by
  have hw : ∀ (st1 : WMState K F C) s single, fittedParts st1 = fittedParts st → st1.interaction = st.interaction →
      (interactionWith L g junk st1 s R single).result = .ok M →
      ∃ d l T all, fittedParts st = .ok d ∧ l.map Prod.fst = featurePairs d.X.c ∧
      addTranspose (pairMatrix d.X.c R junk single l) = .ok T ∧
      appendArr3 st.interaction T = .ok all ∧ M = meanArr3 all ∧
      ∀ junk' T' all', addTranspose (pairMatrix d.X.c R junk' single l) = .ok T' →
        appendArr3 st.interaction T' = .ok all' →
        (interactionWith L g junk' st1 s R single).result = .ok (meanArr3 all') := by
    intro st1 s single hf hint h
    unfold interactionWith at h ⊢
    rw [hf, hint] at h ⊢
    cases hd : fittedParts st with
    | error e => rw [hd] at h; cases h
    | ok d =>
      rw [hd] at h
      simp only at h ⊢
      cases hl : pairLoop L g d R (featurePairs d.X.c) s with
      | mk r s1 =>
        rw [hl] at h
        cases r with
        | error e => cases h
        | ok l =>
          simp only at h
          cases hT : addTranspose (pairMatrix d.X.c R junk single l) with
          | error e => rw [hT] at h; cases h
          | ok T =>
            rw [hT] at h
            simp only at h
            cases ha : appendArr3 st.interaction T with
            | error e => rw [ha] at h; cases h
            | ok all =>
              rw [ha] at h
              simp only at h
              injection h with h
              refine ⟨d, l, T, all, rfl, pairLoop_keys hl, hT, ha, h.symm, ?_⟩
              intro junk' T' all' hT' hall'
              simp only [hT', hall']
  unfold interactionGlobal at h ⊢
  split at h
  · cases h
  · rename_i hc
    simp only [hc]
    cases hp : st.permDecrease with
    | some dec =>
      rw [hp] at h
      simp only at h ⊢
      obtain ⟨d, l, T, all, h1, h2, h3, h4, h5, h6⟩ := hw st s _ rfl rfl h
      exact ⟨d, l, _, T, all, h1, h2, h3, h4, h5, h6⟩
    | none =>
      rw [hp] at h
      simp only at h ⊢
      cases hi : importanceGlobal L g p st s 5 with
      | mk res st2 s2 =>
        rw [hi] at h
        cases res with
        | error e => cases h
        | ok v =>
          simp only at h ⊢
          have hi2 : (importanceGlobal L g p st s 5).result = .ok v := by rw [hi]
          obtain ⟨_, _, _, _, _, _, _, _, _, _, _, heq⟩ := importance_ok hi2
          rw [hi] at heq
          injection heq with _ hst _
          obtain ⟨d, l, T, all, h1, h2, h3, h4, h5, h6⟩ :=
            hw st2 s2 v (by rw [hst]; rfl) (by rw [hst]) h
          exact ⟨d, l, _, T, all, h1, h2, h3, h4, h5, h6⟩

theorem addTranspose_ok {M T : Arr3 K} (h : addTranspose M = .ok T) :
    (M.a = M.c ∨ M.a = 1 ∨ M.c = 1) ∧ T.a = max M.a M.c ∨ (M.a = 0 ∨ M.c = 0) := by
  by_cases h0 : M.a = 0 ∨ M.c = 0
  · exact Or.inr h0
  left
  unfold addTranspose at h
  split at h
  · rename_i a b c ha hb hc
    injection h with h
    subst h
    unfold bcast at ha
    simp only
    split_ifs at ha with h1 h2 h3
    · cases ha; exact ⟨Or.inl h1, by omega⟩
    · cases ha; exact ⟨Or.inr (Or.inl h2), by omega⟩
    · cases ha; exact ⟨Or.inr (Or.inr h3), by omega⟩
  · cases h

/-- C48, negation: with at least two features, `interaction_score_global(n_repeats)` raises unless
`n_repeats` is 1 or the number of features. -/
theorem C48_raises (L : Learner K F) (g : PRng S) (junk : Nat → Nat → Nat → K) (p : WMParams K C)
    (st : WMState K F C) (s : S) (R : Nat) (X : Mat K) (hX : st.X = some X) (hF : 2 ≤ X.c)
    (hR1 : R ≠ 1) (hRF : R ≠ X.c) :
    ∃ e, (interactionGlobal L g junk p st s R).result = .error e := by
  cases h : (interactionGlobal L g junk p st s R).result with
  | error e => exact ⟨e, rfl⟩
  | ok M =>
    obtain ⟨d, l, single, T, all, hd, hk, hT, -⟩ := interaction_ok h
    have h1 := (fittedParts_ok hd).1
    rw [hX] at h1
    injection h1 with h1
    unfold addTranspose pairMatrix bcast at hT
    simp only [← h1] at hT
    have hc : X.c ≠ 1 := by omega
    rw [if_neg (fun h => hRF h.symm), if_neg hc, if_neg hR1] at hT
    cases hT

theorem sum_shift (f f' : Nat → K) (cnt : Nat → Nat) (δ : K) (n : Nat)
    (h : ∀ k < n, f' k = f k + δ * (cnt k : K)) :
    ((List.range n).map f').sum =
      ((List.range n).map f).sum + δ * ((∑ k ∈ Finset.range n, cnt k : Nat) : K) := by
  rw [sum_map_range', sum_map_range', Nat.cast_sum, Finset.mul_sum, ← Finset.sum_add_distrib]
  exact Finset.sum_congr rfl fun k hk => h k (Finset.mem_range.1 hk)

/-- C48, negation: whenever a call with at least two features returns, an entry of the result is
decided by uninitialised memory: for every value there are memory contents for which the same
call on the same object returns a matrix of the same shape with that value in the last row of the
first column. -/
theorem C48_uninitialised (L : Learner K F) (g : PRng S) (junk : Nat → Nat → Nat → K)
    (p : WMParams K C) (st : WMState K F C) (s : S) (R : Nat) (X : Mat K) (hX : st.X = some X)
    (hF : 2 ≤ X.c) (M : Mat K) (h : (interactionGlobal L g junk p st s R).result = .ok M) (v : K) :
    ∃ junk' M', (interactionGlobal L g junk' p st s R).result = .ok M' ∧
      M'.r = M.r ∧ M'.c = M.c ∧ X.c - 1 < M.r ∧ M'.get (X.c - 1) 0 = v := by
  obtain ⟨d, l, single, T, all, hd, hk, hT, hall, rfl, hre⟩ := interaction_ok h
  have h1 := (fittedParts_ok hd).1
  rw [hX] at h1
  injection h1 with h1
  rw [← h1] at hk hT hre
  -- the shape
  have hRcase : R = 1 ∨ R = X.c := by
    by_contra hcon
    push Not at hcon
    obtain ⟨e, he⟩ := C48_raises L g junk p st s R X hX hF hcon.1 hcon.2
    rw [he] at h; cases h
  have hAdd : ∀ jk, addTranspose (pairMatrix X.c R jk single l) = .ok ⟨X.c, X.c, X.c, fun i j k =>
      (pairMatrix X.c R jk single l).get i j (if R = 1 then 0 else k) +
        (pairMatrix X.c R jk single l).get k j (if R = 1 then 0 else i)⟩ := by
    intro jk
    unfold addTranspose bcast
    simp only [pairMatrix]
    have hc : X.c ≠ 1 := by omega
    rcases hRcase with rfl | rfl
    · simp [hc, hc.symm]
    · simp [hc]
  let hit : Nat → Nat → Nat → Nat := fun a b r => if a = X.c - 1 ∧ b = 0 ∧ r = 0 then 1 else 0
  have hshift : ∀ δ : K, ∀ a b r,
      (pairMatrix X.c R (fun a b r => junk a b r + δ * (hit a b r : K)) single l).get a b r =
        (pairMatrix X.c R junk single l).get a b r + δ * (hit a b r : K) := by
    intro δ a b r
    simp only [pairMatrix]
    split
    · rename_i vs hvs
      have : hit a b r = 0 := by
        simp only [hit]
        split
        · rename_i hc
          rw [hc.1, hc.2.1, lookup_none hk (by omega)] at hvs
          cases hvs
        · rfl
      rw [this]; simp
    · rfl
  rw [hAdd junk] at hT
  injection hT with hT
  -- the old columns
  let cnt : Nat → Nat := fun k => hit (X.c - 1) 0 (if R = 1 then 0 else k) +
    hit k 0 (if R = 1 then 0 else X.c - 1)
  have hcnt0 : 1 ≤ cnt 0 := by
    simp only [cnt, hit]
    split <;> simp
  have hnew : ∀ δ : K, ∃ T', addTranspose (pairMatrix X.c R
      (fun a b r => junk a b r + δ * (hit a b r : K)) single l) = .ok T' ∧ T'.a = T.a ∧ T'.b = T.b ∧
      T'.c = T.c ∧ ∀ k, T'.get (X.c - 1) 0 k = T.get (X.c - 1) 0 k + δ * (cnt k : K) := by
    intro δ
    refine ⟨_, hAdd _, by rw [← hT], by rw [← hT], by rw [← hT], fun k => ?_⟩
    rw [← hT]
    simp only [hshift, cnt, Nat.cast_add]
    ring
  have hTc : T.c = X.c ∧ T.a = X.c := by rw [← hT]; exact ⟨rfl, rfl⟩
  -- the whole array
  obtain ⟨cnt', hpos, hfin⟩ : ∃ cnt' : Nat → Nat, 0 < ∑ k ∈ Finset.range all.c, cnt' k ∧
      ∀ δ : K, ∃ junk' all', (interactionGlobal L g junk' p st s R).result = .ok (meanArr3 all') ∧
        all'.a = all.a ∧ all'.b = all.b ∧ all'.c = all.c ∧
        ∀ k < all.c, all'.get (X.c - 1) 0 k = all.get (X.c - 1) 0 k + δ * (cnt' k : K) := by
    cases hint : st.interaction with
    | none =>
      rw [hint] at hall
      injection hall with hall
      subst hall
      refine ⟨cnt, ?_, fun δ => ?_⟩
      · refine Finset.sum_pos' (fun _ _ => Nat.zero_le _) ⟨0, ?_, hcnt0⟩
        rw [Finset.mem_range]; omega
      · obtain ⟨T', h1, h2, h3, h4, h5⟩ := hnew δ
        exact ⟨_, T', hre _ _ _ h1 (by rw [hint]; rfl), h2, h3, h4, fun k _ => h5 k⟩
    | some o =>
      rw [hint] at hall
      simp only [appendArr3] at hall
      split at hall
      swap
      · cases hall
      rename_i hs
      injection hall with hall
      subst hall
      refine ⟨fun k => if k < o.c then 0 else cnt (k - o.c), ?_, fun δ => ?_⟩
      · refine Finset.sum_pos' (fun _ _ => Nat.zero_le _) ⟨o.c, ?_, ?_⟩
        · rw [Finset.mem_range]; simp only; omega
        · simp only [lt_self_iff_false, if_false, Nat.sub_self]; omega
      · obtain ⟨T', h1, h2, h3, h4, h5⟩ := hnew δ
        have happ : appendArr3 st.interaction T' = .ok ⟨o.a, o.b, o.c + T'.c, fun i j k =>
            if k < o.c then o.get i j k else T'.get i j (k - o.c)⟩ := by
          rw [hint]
          simp only [appendArr3]
          rw [if_pos (by rw [h2, h3]; exact hs)]
        refine ⟨_, _, hre _ _ _ h1 happ, rfl, rfl, by simp only [h4], ?_⟩
        intro k hk
        simp only
        split
        · simp
        · exact h5 _
  have hn : (0 : K) < ((∑ k ∈ Finset.range all.c, cnt' k : Nat) : K) := Nat.cast_pos.2 hpos
  have hc0 : 0 < all.c := by
    rcases Nat.eq_zero_or_pos all.c with h0 | h0
    · rw [h0] at hpos; simp at hpos
    · exact h0
  have hcK : (0 : K) < (all.c : K) := Nat.cast_pos.2 hc0
  obtain ⟨junk', all', hr, ha, hb, hc, hg⟩ := hfin
    ((v * (all.c : K) - ((List.range all.c).map (all.get (X.c - 1) 0)).sum) /
      ((∑ k ∈ Finset.range all.c, cnt' k : Nat) : K))
  have halla : X.c - 1 < all.a := by
    cases hint : st.interaction with
    | none =>
      rw [hint] at hall
      injection hall with hall
      rw [← hall, hTc.2]; omega
    | some o =>
      rw [hint] at hall
      simp only [appendArr3] at hall
      split at hall
      · rename_i hs
        injection hall with hall
        rw [← hall]; simp only; rw [hs.1, hTc.2]; omega
      · cases hall
  refine ⟨junk', meanArr3 all', hr, ha, hb, halla, ?_⟩
  simp only [meanArr3, meanL, List.length_map, List.length_range, hc]
  rw [sum_shift _ _ cnt' _ _ hg, div_mul_cancel₀ _ hn.ne']
  rw [add_sub_cancel]
  exact mul_div_cancel_right₀ v hcK.ne'


/-! ### Examples -/

def exX2 : Mat ℚ := ⟨4, 2, fun i j => if j = 0 then i else i * i⟩
def exY4 : List ℚ := [1, 5, 2, 7]
def exW4 : Mat ℚ := ⟨4, 4, fun i j => (i + j + 1 : ℚ)⟩
/-- A generator that reverses, or rotates by one, alternately. -/
def flipRng : PRng Nat := ⟨fun s n =>
  (if s % 2 = 0 then (List.range n).reverse
    else (List.range n).map fun i => (i + 1) % n, s + 1)⟩

theorem flipRng_valid : flipRng.Valid := by
  intro s n
  simp only [flipRng]
  split
  · exact List.reverse_perm _
  · cases n with
    | zero => simp
    | succ n =>
      have : (List.range (n + 1)).map (fun i => (i + 1) % (n + 1)) =
          (List.range n).map (· + 1) ++ [0] := by
        rw [List.range_succ, List.map_append]
        congr 1
        · apply List.map_congr_left
          intro i hi
          rw [List.mem_range] at hi
          exact Nat.mod_eq_of_lt (by omega)
        · simp
      rw [this]
      refine (List.perm_append_comm).trans ?_
      rw [List.range_succ_eq_map]
      exact List.Perm.refl _

def exFit4 : FitOut ℚ ℚ Unit Nat :=
  wmFit meanLearner countRng exP {} 0 exX2 exY4 none (some (.dense exW4))

/-- The hypotheses of C46 and C47 are met by a fit followed by two calls; the generator's
permutations are not trivial and the scores decrease. -/
example :
    exFit4.result = .ok () ∧
    okAnd (importanceGlobal meanLearner flipRng exP exFit4.state 0 2).result
      (fun v => v.length == 2 && decide (v.getD 0 0 ≠ 0) && decide (v.getD 1 0 ≠ v.getD 0 0)) = true ∧
    okAnd (importanceGlobal meanLearner flipRng exP
      (importanceGlobal meanLearner flipRng exP exFit4.state 0 2).state 4 3).result
      (fun v => v.length == 2) = true ∧
    ((importanceGlobal meanLearner flipRng exP
      (importanceGlobal meanLearner flipRng exP exFit4.state 0 2).state 4 3).state.permDecrease.map
        (List.map List.length)) = some [5, 5] := by
  refine ⟨?_, ?_, ?_, ?_⟩ <;> decide +kernel

/-- The hypotheses of `C46_other_feature_count` are met by a refit with one feature. -/
example :
    let st := (importanceGlobal meanLearner flipRng exP exFit4.state 0 2).state
    let st2 := (wmFit meanLearner countRng exP st 0 exX exY none (some (.dense exWd))).state
    (wmFit meanLearner countRng exP st 0 exX exY none (some (.dense exWd))).result = .ok () ∧
    st2.permDecrease.map List.length = some 2 ∧ st2.X.map Mat.c = some 1 := by
  refine ⟨?_, ?_, ?_⟩ <;> decide +kernel

/-- The hypotheses of C75 are met. -/
example :
    let p := { exP with sampleRate := some (3 / 4 : ℚ) }
    let o := wmFit meanLearner lastRng p {} 0 exX2 exY4 none (some (.dense exW4))
    o.result = .ok () ∧ o.state.localIndices = some [1, 2, 3] ∧ exX2.r = 4 ∧ exX2.c = 2 := by
  refine ⟨?_, ?_, rfl, rfl⟩ <;> decide +kernel

/-- The hypotheses of C48 are met: with two features, one or two repeats return, three raise. -/
example :
    okAnd (interactionGlobal meanLearner flipRng (fun _ _ _ => 7) exP exFit4.state 0 1).result
      (fun M => M.r == 2 && M.c == 2) = true ∧
    okAnd (interactionGlobal meanLearner flipRng (fun _ _ _ => 7) exP exFit4.state 0 2).result
      (fun M => M.r == 2 && M.c == 2) = true ∧
    okAnd (interactionGlobal meanLearner flipRng (fun _ _ _ => 7) exP exFit4.state 0 3).result
      (fun _ => true) = false := by
  refine ⟨?_, ?_, ?_⟩ <;> decide +kernel

end Geo
