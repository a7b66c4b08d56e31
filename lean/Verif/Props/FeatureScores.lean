import Verif.Props.FeatureCode
import Verif.Props.ImportanceLocal
import Verif.Props.AleUnits
import Verif.Model.LocalPd
/-
Property C118, continued: importance and interaction scores when every feature is written down in
another way (another unit, offset, or scale).
-/
set_option linter.unusedSectionVars false
namespace Geo
variable {K : Type} [Field K] [LinearOrder K] [IsStrictOrderedRing K] [FloorRing K]
variable {F F' G C S : Type}

/-- Every feature rewritten on its own. -/
def eachFeature (h : Nat → K → K) (x : List K) : List K := x.mapIdx h

theorem eachFeature_length (h : Nat → K → K) (x : List K) :
    (eachFeature h x).length = x.length := List.length_mapIdx

theorem eachFeature_widths (h : Nat → K → K) (n : Nat) : Widths (eachFeature h) n n :=
  ⟨fun x hx => by rw [eachFeature_length, hx], Iff.rfl⟩

theorem eachFeature_range (h : Nat → K → K) (n : Nat) (g : Nat → K) :
    eachFeature h ((List.range n).map g) = (List.range n).map fun a => h a (g a) := by
  unfold eachFeature
  apply List.ext_getElem
  · simp
  · intro k h1 h2
    simp

theorem recoded_get {h : Nat → K → K} {X : Mat K} {n : Nat} (hX : X.c = n) (i : Nat) {j : Nat}
    (hj : j < n) : (recoded (eachFeature h) n X).get i j = h j (X.get i j) := by
  unfold recoded Mat.row
  simp only [eachFeature_range]
  rw [List.getD_eq_getElem _ _ (by simpa [hX] using hj)]
  simp

/-- What the two methods read from two objects that correspond to each other. -/
def CodeParts (n : Nat) (h : Nat → K → K) (L : Learner K F) (L' : Learner K F')
    (d : FittedParts K F) (d' : FittedParts K F') : Prop :=
  d.X.c = n ∧ d'.X = recoded (eachFeature h) n d.X ∧ d'.y = d.y ∧ d'.score = d.score ∧
    List.Forall₂ (Option.Rel (Agrees n (eachFeature h) L L')) d.ests d'.ests

theorem fittedParts_code {n : Nat} {h : Nat → K → K} {L : Learner K F} {L' : Learner K F'}
    {st : WMState K F C} {st' : WMState K F' C}
    (hst : CodeState n (eachFeature h) n L L' st st') :
    ERel (CodeParts n h L L') (fittedParts st) (fittedParts st') := by
  obtain ⟨-, hn, hN, hX, hw, hy, -, -, -, -, -, he, -, hs, -, -, -⟩ := hst
  unfold fittedParts
  rw [hN, hX, hy, hs]
  have hn' : st'.nFeatures = st.nFeatures := by
    rcases hn with ⟨h1, h2⟩ | ⟨h1, h2⟩ <;> rw [h1, h2]
  rw [hn']
  revert he hw
  generalize st.estimators = l
  generalize st'.estimators = l'
  generalize st.X = X
  intro hw he
  cases st.N with
  | none => rfl
  | some N =>
  cases st.nFeatures with
  | none => rfl
  | some nf =>
  cases X with
  | none => rfl
  | some X =>
  cases st.y with
  | none => rfl
  | some y =>
  cases he with
  | none => rfl
  | some he =>
  cases st.score with
  | none => rfl
  | some sc =>
    have hX := hw X rfl
    simp only [Option.map_some]
    have hcc : (N = (recoded (eachFeature h) n X).r ∧ nf = (recoded (eachFeature h) n X).c ∧
        y.length = N) ↔ (N = X.r ∧ nf = X.c ∧ y.length = N) := by
      rw [hX]
      exact Iff.rfl
    by_cases hc : N = X.r ∧ nf = X.c ∧ y.length = N
    · rw [if_pos hc, if_pos (hcc.2 hc)]
      exact ⟨hX, rfl, rfl, rfl, he⟩
    · rw [if_neg hc, if_neg (fun h' => hc (hcc.1 h'))]
      rfl

theorem pyGet_code {α β : Type} {R : α → β → Prop} {l : List α} {l' : List β}
    (h : List.Forall₂ R l l') (i : Nat) : ERel R (pyGet l i) (pyGet l' i) := by
  unfold pyGet
  have hl := h.length_eq
  by_cases hi : i < l.length
  · rw [List.getElem?_eq_getElem hi, List.getElem?_eq_getElem (hl ▸ hi)]
    exact (List.forall₂_iff_get.1 h).2 i hi (hl ▸ hi)
  · rw [List.getElem?_eq_none (by omega), List.getElem?_eq_none (by omega)]
    rfl

theorem cachedOne_code {α β : Type} {R : α → β → Prop} {a : Option α} {b : Option β}
    (h : Option.Rel R a b) : ERel R (cachedOne a) (cachedOne b) := by
  cases h with
  | none => rfl
  | some h => exact h

theorem ERel.eq {α : Type} {r r' : Except Err α} (h : ERel Eq r r') : r' = r := by
  cases r with
  | error e => exact h.error
  | ok a =>
    obtain ⟨b, rfl, hb⟩ := h.ok
    rw [hb]

theorem permPredict_code {n : Nat} {h : Nat → K → K} {L : Learner K F} {L' : Learner K F'}
    {d : FittedParts K F} {d' : FittedParts K F'} (hd : CodeParts n h L L' d d')
    (perms : List (List Nat)) (R i : Nat) :
    permPredict L' d' perms R i = permPredict L d perms R i := by
  obtain ⟨hX, hX', -, -, he⟩ := hd
  refine ERel.eq (ERel.bind (pyGet_code he i) fun a b hab =>
    ERel.bind (cachedOne_code hab) fun f f' hf => ?_)
  change List.map _ _ = List.map _ _
  rw [hX']
  unfold permBatch
  rw [List.map_map, List.map_map, show (recoded (eachFeature h) n d.X).c = n from rfl, hX]
  apply List.map_congr_left
  intro k _
  simp only [Function.comp]
  rw [← hf _ (by simp), eachFeature_range]
  congr 1
  apply List.map_congr_left
  intro a ha
  have ha' := List.mem_range.1 ha
  unfold tiledEntry
  split
  · rename_i hak
    rw [← hak, recoded_get hX _ ha']
  · rw [recoded_get hX _ ha']

theorem permDecreases_code {n : Nat} {h : Nat → K → K} {L : Learner K F} {L' : Learner K F'}
    {d : FittedParts K F} {d' : FittedParts K F'} (hd : CodeParts n h L L' d d')
    (perms : List (List Nat)) (R : Nat) :
    permDecreases L' d' perms R = permDecreases L d perms R := by
  unfold permDecreases
  rw [funext (permPredict_code hd perms R)]
  obtain ⟨hX, hX', hy, hs, -⟩ := hd
  have h1 : permDecrease d' R = permDecrease d R := by
    funext table f r
    unfold permDecrease
    rw [hy, hs]
  rw [h1, hX']
  simp only [recoded, hX]

/-- C118: the global importance of the features. -/
theorem C118_importance {n : Nat} (h : Nat → K → K) {L : Learner K F} {L' : Learner K F'}
    (g : PRng S) (p : WMParams K C) {st : WMState K F C} {st' : WMState K F' C}
    (hst : CodeState n (eachFeature h) n L L' st st') (s : S) (R : Nat) :
    let o := importanceGlobal L g p st s R
    let o' := importanceGlobal L' g p st' s R
    o'.result = o.result ∧ o'.rng = o.rng ∧ CodeState n (eachFeature h) n L L' o.state o'.state := by
  intro o o'
  simp only [o, o']
  unfold importanceGlobal
  split
  · exact ⟨rfl, rfl, hst⟩
  have hp := fittedParts_code hst
  cases hm : fittedParts st with
  | error e =>
    rw [hm] at hp
    rw [hp.error]
    exact ⟨rfl, rfl, hst⟩
  | ok d =>
    rw [hm] at hp
    obtain ⟨d', hd', hd⟩ := hp.ok
    rw [hd']
    simp only
    split
    · exact ⟨rfl, rfl, hst⟩
    rw [permDecreases_code hd]
    obtain ⟨hX, hX', -, -, -⟩ := hd
    rw [show d'.X.r = d.X.r by rw [hX']; rfl, show d'.X.c = d.X.c by rw [hX', hX]; rfl]
    cases permDecreases L d (drawPerms g d.X.r (d.X.c * R) s).1 R with
    | error e => exact ⟨rfl, rfl, hst⟩
    | ok dec =>
      simp only
      rw [hst.permDecrease]
      cases appendTrials st.permDecrease dec with
      | error e => exact ⟨rfl, rfl, hst⟩
      | ok all => exact ⟨rfl, rfl, { hst with permDecrease := rfl }⟩

theorem mapE_zip_code {n : Nat} {φ : List K → List K} {L : Learner K F} {L' : Learner K F'}
    {l : List (Option F)} {l' : List (Option F')}
    (hl : List.Forall₂ (Option.Rel (Agrees n φ L L')) l l') {xs xs' : List (List K)}
    (hx : xs' = xs.map φ) (hn : ∀ x ∈ xs, x.length = n) :
    mapE (zipPredict L') (l'.zip xs') = mapE (zipPredict L) (l.zip xs) := by
  subst hx
  induction hl generalizing xs with
  | nil => rfl
  | cons h1 _ ih =>
    cases xs with
    | nil => rfl
    | cons x xs =>
      simp only [List.map_cons, List.zip_cons_cons, mapE]
      rw [ih fun x' hx' => hn x' (by simp [hx'])]
      have : zipPredict L' (_, φ x) = zipPredict L (_, x) :=
        ERel.eq (ERel.map (cachedOne_code h1) fun f f' hf => (hf x (hn x (by simp))).symm)
      rw [this]

theorem pairDecrease_code {n : Nat} {h : Nat → K → K} {L : Learner K F} {L' : Learner K F'}
    {d : FittedParts K F} {d' : FittedParts K F'} (hd : CodeParts n h L L' d d') (a b : Nat)
    (ia ib : List Nat) : pairDecrease L' d' a b ia ib = pairDecrease L d a b ia ib := by
  obtain ⟨hX, hX', hy, hs, he⟩ := hd
  unfold pairDecrease
  rw [hy, hs, mapE_zip_code he (xs := (List.range d.X.r).map (pairRow d.X a b ia ib))]
  · rw [hX', List.map_map]
    apply List.map_congr_left
    intro i _
    simp only [Function.comp]
    unfold pairRow
    rw [show (recoded (eachFeature h) n d.X).c = n from rfl, hX, eachFeature_range]
    apply List.map_congr_left
    intro k hk
    have hk' := List.mem_range.1 hk
    split
    · rw [recoded_get hX _ hk']
    split
    · rw [recoded_get hX _ hk']
    · rw [recoded_get hX _ hk']
  · intro x hx
    obtain ⟨i, -, rfl⟩ := List.mem_map.1 hx
    simp [pairRow, hX]

theorem pairRepeats_code {n : Nat} {h : Nat → K → K} {L : Learner K F} {L' : Learner K F'}
    (g : PRng S) {d : FittedParts K F} {d' : FittedParts K F'} (hd : CodeParts n h L L' d d')
    (a b r : Nat) (s : S) : pairRepeats L' g d' a b r s = pairRepeats L g d a b r s := by
  induction r generalizing s with
  | zero => rfl
  | succ r ih =>
    simp only [pairRepeats]
    rw [show d'.X.r = d.X.r by rw [hd.2.1]; rfl, pairDecrease_code hd, ih]

theorem pairLoop_code {n : Nat} {h : Nat → K → K} {L : Learner K F} {L' : Learner K F'}
    (g : PRng S) {d : FittedParts K F} {d' : FittedParts K F'} (hd : CodeParts n h L L' d d')
    (R : Nat) (l : List (Nat × Nat)) (s : S) : pairLoop L' g d' R l s = pairLoop L g d R l s := by
  induction l generalizing s with
  | nil => rfl
  | cons ab l ih =>
    simp only [pairLoop]
    rw [pairRepeats_code g hd]
    simp only [ih]

theorem interactionWith_code {n : Nat} {h : Nat → K → K} {L : Learner K F} {L' : Learner K F'}
    (g : PRng S) (junk : Nat → Nat → Nat → K) {st : WMState K F C} {st' : WMState K F' C}
    (hst : CodeState n (eachFeature h) n L L' st st') (s : S) (R : Nat) (one : List K) :
    let o := interactionWith L g junk st s R one
    let o' := interactionWith L' g junk st' s R one
    o'.result = o.result ∧ o'.rng = o.rng ∧ CodeState n (eachFeature h) n L L' o.state o'.state := by
  intro o o'
  simp only [o, o']
  unfold interactionWith
  have hp := fittedParts_code hst
  cases hm : fittedParts st with
  | error e =>
    rw [hm] at hp
    rw [hp.error]
    exact ⟨rfl, rfl, hst⟩
  | ok d =>
    rw [hm] at hp
    obtain ⟨d', hd', hd⟩ := hp.ok
    rw [hd']
    simp only
    rw [pairLoop_code g hd, show d'.X.c = d.X.c by rw [hd.2.1, hd.1]; rfl]
    rcases pairLoop L g d R (featurePairs d.X.c) s with ⟨e | l, s1⟩
    · exact ⟨rfl, rfl, hst⟩
    simp only
    cases addTranspose (pairMatrix d.X.c R junk one l) with
    | error e => exact ⟨rfl, rfl, hst⟩
    | ok M =>
      simp only
      rw [hst.interaction]
      cases appendArr3 st.interaction M with
      | error e => exact ⟨rfl, rfl, hst⟩
      | ok all => exact ⟨rfl, rfl, { hst with interaction := rfl }⟩

/-- C118: the interaction scores. -/
theorem C118_interaction {n : Nat} (h : Nat → K → K) {L : Learner K F} {L' : Learner K F'}
    (g : PRng S) (junk : Nat → Nat → Nat → K) (p : WMParams K C) {st : WMState K F C}
    {st' : WMState K F' C} (hst : CodeState n (eachFeature h) n L L' st st') (s : S) (R : Nat) :
    let o := interactionGlobal L g junk p st s R
    let o' := interactionGlobal L' g junk p st' s R
    o'.result = o.result ∧ o'.rng = o.rng ∧ CodeState n (eachFeature h) n L L' o.state o'.state := by
  intro o o'
  simp only [o, o']
  unfold interactionGlobal
  split
  · exact ⟨rfl, rfl, hst⟩
  rw [hst.permDecrease]
  cases st.permDecrease with
  | some dec => exact interactionWith_code g junk hst s R _
  | none =>
    simp only
    obtain ⟨h1, h2, h3⟩ := C118_importance h g p hst s 5
    revert h1 h2 h3
    generalize importanceGlobal L g p st s 5 = q
    generalize importanceGlobal L' g p st' s 5 = q'
    intro h1 h2 h3
    rcases q with ⟨r, st1, s1⟩
    rcases q' with ⟨r', st1', s1'⟩
    simp only at h1 h2 h3
    subst h1 h2
    cases r' with
    | error e => exact ⟨rfl, rfl, h3⟩
    | ok one => exact interactionWith_code g junk h3 _ R one

/-! ### Local importance -/

theorem scoreRows_code {n : Nat} {φ : List K → List K} {L : Learner K F} {L' : Learner K F'}
    {f : F} {f' : F'} (hf : Agrees n φ L L' f f') {rows : List (List K)}
    (hr : ∀ x ∈ rows, x.length = n) (ys ws : List K) :
    scoreRows L' f' (rows.map φ) ys ws = scoreRows L f rows ys ws := by
  unfold scoreRows
  rw [List.map_map]
  congr 1
  exact List.map_congr_left fun x hx => hf x (hr x hx)

theorem takeColumn_code {n : Nat} (h : Nat → K → K) {rows : List (List K)}
    (hr : ∀ x ∈ rows, x.length = n) {col : Nat} (hc : col < n) {idx : List Nat}
    (hi : ∀ i, idx.getD i 0 < rows.length ∨ rows = []) :
    takeColumn (rows.map (eachFeature h)) col idx = (takeColumn rows col idx).map (eachFeature h) ∧
      ∀ x ∈ takeColumn rows col idx, x.length = n := by
  have hrow : ∀ i, i < rows.length → (rows.getD i []).length = n := fun i hi => by
    rw [List.getD_eq_getElem _ _ hi]
    exact hr _ (List.getElem_mem hi)
  have hget : ∀ i, i < rows.length →
      (rows.map (eachFeature h)).getD i [] = eachFeature h (rows.getD i []) := fun i hi => by
    rw [List.getD_eq_getElem _ _ hi, List.getD_eq_getElem _ _ (by simpa using hi), List.getElem_map]
  unfold takeColumn
  refine ⟨?_, ?_⟩
  · rw [List.map_map, List.length_map]
    apply List.map_congr_left
    intro i hm
    have him := List.mem_range.1 hm
    have hj : idx.getD i 0 < rows.length := by
      rcases hi i with h | h
      · exact h
      · rw [h] at him; simp at him
    simp only [Function.comp]
    rw [hget i him, hget _ hj]
    unfold eachFeature
    apply List.ext_getElem
    · simp
    · intro k h1 h2
      simp only [List.getElem_set, List.getElem_mapIdx]
      split
      · rename_i hck
        have hc2 : col < (rows.getD (idx.getD i 0) []).length := by rw [hrow _ hj]; exact hc
        rw [List.getD_eq_getElem _ _ (by simpa using hc2), List.getElem_mapIdx,
          List.getD_eq_getElem _ _ hc2]
        subst hck
        rfl
      · rfl
  · intro x hx
    obtain ⟨i, him, rfl⟩ := List.mem_map.1 hx
    rw [List.length_set]
    exact hrow i (List.mem_range.1 him)

theorem takeColumn_length (rows : List (List K)) (col : Nat) (idx : List Nat) :
    (takeColumn rows col idx).length = rows.length := by simp [takeColumn]

theorem shuffleScores_code {n : Nat} (h : Nat → K → K) {L : Learner K F} {L' : Learner K F'}
    {g : PRng S} (hg : g.Valid) {f : F} {f' : F'} (hf : Agrees n (eachFeature h) L L' f f')
    (ys ws : List K) {col : Nat} (hc : col < n) (R : Nat) (s : S) {idx : List Nat}
    {rows : List (List K)} (hi : idx.Perm (List.range rows.length))
    (hr : ∀ x ∈ rows, x.length = n) :
    shuffleScores L' g f' ys ws col R s idx (rows.map (eachFeature h)) =
      shuffleScores L g f ys ws col R s idx rows := by
  induction R generalizing s idx rows with
  | zero => rfl
  | succ R ih =>
    simp only [shuffleScores]
    have h1 := shuffleList_perm hg s hi
    have h2 : ∀ i, (shuffleList g s idx).1.getD i 0 < rows.length ∨ rows = [] := by
      intro i
      by_cases hlen : rows.length = 0
      · exact .inr (List.length_eq_zero_iff.1 hlen)
      left
      by_cases hil : i < (shuffleList g s idx).1.length
      · rw [List.getD_eq_getElem _ _ hil]
        exact List.mem_range.1 (h1.mem_iff.1 (List.getElem_mem hil))
      · rw [List.getD_eq_default _ _ (by omega)]
        omega
    obtain ⟨h3, h4⟩ := takeColumn_code h hr hc h2
    rw [h3, scoreRows_code hf h4, ih _ (by rw [takeColumn_length]; exact h1) h4]

theorem localImportance_code {n : Nat} (h : Nat → K → K) {L : Learner K F} {L' : Learner K F'}
    {g : PRng S} (hg : g.Valid) {f : F} {f' : F'} (hf : Agrees n (eachFeature h) L L' f f') (s : S)
    (ys ws : List K) (R : Nat) {rows : List (List K)} (hr : ∀ x ∈ rows, x.length = n) :
    localImportance L' g s f' (rows.map (eachFeature h)) ys ws n R =
      localImportance L g s f rows ys ws n R := by
  unfold localImportance
  rw [scoreRows_code hf hr]
  simp only [List.map_eq_nil_iff]
  split
  · rfl
  cases scoreRows L f rows ys ws with
  | error e => rfl
  | ok base =>
    simp only
    apply mapE_congr
    intro col hcol
    unfold featureImportance
    rw [List.length_map, shuffleScores_code h hg hf ys ws (List.mem_range.1 hcol) R s (.refl _) hr]

/-- The arguments of two jobs. -/
def CodeJob (n : Nat) (h : Nat → K → K) (L : Learner K F) (L' : Learner K F')
    (j : Option F × List (List K) × List K × List K)
    (j' : Option F' × List (List K) × List K × List K) : Prop :=
  Option.Rel (Agrees n (eachFeature h) L L') j.1 j'.1 ∧ j'.2.1 = j.2.1.map (eachFeature h) ∧
    (∀ x ∈ j.2.1, x.length = n) ∧ j'.2.2 = j.2.2

theorem forall₂_getD_none {α β : Type} {R : α → β → Prop} {l : List (Option α)}
    {l' : List (Option β)} (h : List.Forall₂ (Option.Rel R) l l') (i : Nat) :
    Option.Rel R (l.getD i none) (l'.getD i none) := by
  have hl := h.length_eq
  by_cases hi : i < l.length
  · rw [List.getD_eq_getElem _ _ hi, List.getD_eq_getElem _ _ (hl ▸ hi)]
    exact (List.forall₂_iff_get.1 h).2 i hi (hl ▸ hi)
  · rw [List.getD_eq_default _ _ (by omega), List.getD_eq_default _ _ (by omega)]
    exact .none

theorem mapE_zip_rel {α β γ δ : Type} {R : α → β → Prop} {Q : γ → δ → Prop} {l : List α}
    {l' : List β} (hl : List.Forall₂ R l l') {idx : List Nat} {f : Nat × α → Except Err γ}
    {f' : Nat × β → Except Err δ} (h : ∀ i a b, R a b → ERel Q (f (i, a)) (f' (i, b))) :
    ERel (List.Forall₂ Q) (mapE f (idx.zip l)) (mapE f' (idx.zip l')) := by
  induction hl generalizing idx with
  | nil => cases idx <;> exact .nil
  | @cons a b l l' h1 _ ih =>
    cases idx with
    | nil => exact .nil
    | cons i idx =>
      simp only [List.zip_cons_cons, mapE]
      have h2 := h i a b h1
      have h3 := ih (idx := idx)
      cases hf : f (i, a) with
      | error e => rw [hf] at h2; rw [h2.error]; rfl
      | ok c =>
        rw [hf] at h2
        obtain ⟨d, hd, hcd⟩ := h2.ok
        rw [hd]
        cases hm : mapE f (idx.zip l) with
        | error e => rw [hm] at h3; rw [h3.error]; rfl
        | ok cs =>
          rw [hm] at h3
          obtain ⟨ds, hds, hcs⟩ := h3.ok
          rw [hds]
          exact .cons hcd hcs

theorem forall₂_eq {α : Type} {l l' : List α} (h : List.Forall₂ Eq l l') : l' = l := by
  induction h with
  | nil => rfl
  | cons h1 _ ih => rw [h1, ih]

/-- C118: the importance of the features at every location. -/
theorem C118_importance_local {n : Nat} (h : Nat → K → K) {L : Learner K F} {L' : Learner K F'}
    (g : PRng S) (hg : g.Valid) (seeds : Nat → S) (p : WMParams K C) {st : WMState K F C}
    {st' : WMState K F' C} (hst : CodeState n (eachFeature h) n L L' st st') (R : Nat) :
    importanceLocal L' g seeds p st' R = importanceLocal L g seeds p st R := by
  obtain ⟨-, hn, hN, hX, hw, hy, -, hW, hB, -, -, he, -, -, -, -, -⟩ := hst
  unfold importanceLocal
  split
  · rfl
  rw [hN, hX, hy, hW, hB]
  revert he hw
  generalize st.estimators = l
  generalize st'.estimators = l'
  generalize st.X = X
  intro hw he
  cases st.N with
  | none => rfl
  | some N =>
  cases he with
  | none => rfl
  | @some es es' he =>
  cases X with
  | none => rfl
  | some X =>
  cases st.y with
  | none => rfl
  | some y =>
  have hXn := hw X rfl
  cases st.weightMatrix with
  | none => rfl
  | some W =>
  cases st.neighbourMatrix with
  | none => cases W <;> rfl
  | some B =>
  cases W with
  | sparse A => cases B <;> rfl
  | dense W =>
  cases B with
  | sparse B => rfl
  | dense B =>
    simp only [Option.map_some]
    have hj : ERel (List.Forall₂ (CodeJob n h L L')) (mapE (importanceJob X y W B es) (List.range N))
        (mapE (importanceJob (recoded (eachFeature h) n X) y W B es') (List.range N)) := by
      refine ERel.mapE fun i _ => ?_
      unfold importanceJob
      rw [← he.length_eq]
      simp only [show (recoded (eachFeature h) n X).r = X.r from rfl]
      split
      · rfl
      · refine ⟨forall₂_getD_none he i, recoded_rows (eachFeature_widths h n) hXn _, ?_, rfl⟩
        intro x hx
        obtain ⟨k, -, rfl⟩ := List.mem_map.1 hx
        rw [Mat.row_length, hXn]
    cases hm : mapE (importanceJob X y W B es) (List.range N) with
    | error e =>
      rw [hm] at hj
      rw [hj.error]
    | ok jobs =>
      rw [hm] at hj
      obtain ⟨jobs', hjobs, hr⟩ := hj.ok
      rw [hjobs]
      simp only [show (recoded (eachFeature h) n X).c = n from rfl, hXn]
      refine ERel.eq (ERel.mono (mapE_zip_rel hr (Q := Eq) fun i a b hab => ?_) fun a b hab =>
        (forall₂_eq hab).symm)
      obtain ⟨o, rows, ys, ws⟩ := a
      obtain ⟨o', rows', ys', ws'⟩ := b
      obtain ⟨h1, h2, h3, h4⟩ := hab
      simp only [Prod.mk.injEq] at h1 h2 h3 h4
      obtain ⟨rfl, rfl⟩ := h4
      subst h2
      unfold runImportanceJob
      cases h1 with
      | none =>
        simp only [List.map_eq_nil_iff]
        split <;> rfl
      | some hf =>
        simp only
        rw [localImportance_code h hg hf _ _ _ R h3]
        exact ERel.refl _

/-! ### Curves -/

theorem withFeature_code {n : Nat} {h : Nat → K → K} {X : Mat K} (hX : X.c = n) {a b : K}
    {feature : Nat} (ha : h feature = fun v => a * v + b) (i : Nat) (v : K) :
    ((recoded (eachFeature h) n X).row i).set feature (a * v + b) =
      eachFeature h ((X.row i).set feature v) := by
  rw [recoded_row (eachFeature_widths h n) hX]
  unfold eachFeature
  apply List.ext_getElem
  · simp
  · intro k h1 h2
    simp only [List.getElem_set, List.getElem_mapIdx]
    split
    · rename_i hk
      subst hk
      rw [ha]
    · rfl

/-- C118: `local_ALE` gives the same values, at the grid points in the new unit. -/
theorem C118_local_ale {n : Nat} (h : Nat → K → K) {L : Learner K F} {L' : Learner K F'}
    {st : WMState K F C} {st' : WMState K F' C} (hst : CodeState n (eachFeature h) n L L' st st')
    {feature : Nat} {a b : K} (ha : 0 < a) (hu : h feature = fun v => a * v + b) :
    localAle L' st' feature = (localAle L st feature).map fun l =>
      l.map fun r => (r.1.map fun v => a * v + b, r.2) := by
  obtain ⟨-, hn, hN, hX, hw, hy, -, hW, hB, -, -, he, -, -, -, -, -⟩ := hst
  unfold localAle
  rw [hX, hW, hB]
  revert he hw
  generalize st.estimators = l
  generalize st'.estimators = l'
  generalize st.X = X
  intro hw he
  cases he with
  | none => rfl
  | @some es es' he =>
  cases X with
  | none => rfl
  | some X =>
  have hXn := hw X rfl
  cases st.weightMatrix with
  | none => rfl
  | some W =>
  cases st.neighbourMatrix with
  | none => cases W <;> rfl
  | some B =>
  cases W with
  | sparse A =>
    cases B with
    | dense B => rfl
    | sparse B =>
      cases he with
      | nil => rfl
      | cons _ _ => rfl
  | dense W =>
  cases B with
  | sparse B => rfl
  | dense B =>
    simp only [Option.map_some]
    rw [← he.length_eq]
    have h1 : ERel (List.Forall₂ fun r r' => r' = (r.1.map fun v => a * v + b, r.2))
        (mapE (fun i => localAleOne L X W B feature i (es.getD i none)) (List.range es.length))
        (mapE (fun i => localAleOne L' (recoded (eachFeature h) n X) W B feature i
          (es'.getD i none)) (List.range es.length)) := by
      refine ERel.mapE fun i _ => ?_
      have hg := forall₂_getD_none he i
      unfold localAleOne
      simp only [show (recoded (eachFeature h) n X).r = X.r from rfl]
      split
      · rfl
      revert hg
      generalize es.getD i none = q
      generalize es'.getD i none = q'
      intro hg
      cases hg with
      | none => rfl
      | some hf =>
        simp only
        by_cases hfn : n ≤ feature
        · unfold weightedAle
          rw [if_pos (show (maskRows X _).c ≤ feature by simpa [maskRows, hXn] using hfn),
            if_pos (show (maskRows (recoded (eachFeature h) n X) _).c ≤ feature from hfn)]
          rfl
        have hM : maskRows (recoded (eachFeature h) n X) (trueIdx B i) =
            recoded (eachFeature h) n (maskRows X (trueIdx B i)) := rfl
        have hc : (maskRows X (trueIdx B i)).c = n := hXn
        rw [hM, C117_feature_units (maskRows X (trueIdx B i))
          (recoded (eachFeature h) n (maskRows X (trueIdx B i))) feature _ _ a b ha rfl hc.symm ?_ ?_]
        · cases weightedAle (maskRows X (trueIdx B i)) feature (L.predict _) _ false 5 <;> rfl
        · intro k _
          rw [recoded_get hc _ (by omega), hu]
        · intro k _ v
          rw [withFeature_code hc hu]
          exact hf _ (by simp [hc])
    cases hm : mapE (fun i => localAleOne L X W B feature i (es.getD i none))
        (List.range es.length) with
    | error e =>
      rw [hm] at h1
      rw [h1.error]
      rfl
    | ok c =>
      rw [hm] at h1
      obtain ⟨c', hc', hr⟩ := h1.ok
      rw [hc']
      simp only [Except.map]
      congr 1
      clear hm h1 hc'
      induction hr with
      | nil => rfl
      | cons h1 _ ih => rw [List.map_cons, h1, ih]

/-- C118: `global_ALE` gives the same values, at the grid points in the new unit. -/
theorem C118_global_ale {n : Nat} (h : Nat → K → K) {L : Learner K F} {L' : Learner K F'}
    {st : WMState K F C} {st' : WMState K F' C} (hst : CodeState n (eachFeature h) n L L' st st')
    {feature : Nat} {a b : K} (ha : 0 < a) (hu : h feature = fun v => a * v + b) :
    globalAle L' st' feature = (globalAle L st feature).map
      fun r => (r.1.map fun v => a * v + b, r.2) := by
  obtain ⟨-, hn, hN, hX, hw, hy, -, hW, hB, -, -, he, -, -, -, -, -⟩ := hst
  unfold globalAle
  rw [hX]
  revert he hw
  generalize st.estimators = l
  generalize st'.estimators = l'
  generalize st.X = X
  intro hw he
  cases X with
  | none => rfl
  | some X =>
  cases he with
  | none => rfl
  | @some es es' he =>
    have hXn := hw X rfl
    simp only [Option.map_some, show (recoded (eachFeature h) n X).c = n from rfl, hXn]
    split
    · rfl
    rename_i hfn
    have hcol : (recoded (eachFeature h) n X).col feature =
        (X.col feature).map fun v => a * v + b := by
      unfold Mat.col
      rw [List.map_map]
      apply List.map_congr_left
      intro i _
      rw [recoded_get hXn _ (by omega), hu]
      rfl
    rw [hcol, adaptiveGrid_affine ha]
    cases adaptiveGrid (X.col feature) 1 with
    | error e => rfl
    | ok qn =>
      obtain ⟨q, m⟩ := qn
      simp only [Except.map, aleIdx_affine ha]
      rw [lookup_affine a b q (fun i => i - 1), lookup_affine a b q (fun i => i)]
      cases hlo : mapE (fun i => pyGet q (i - 1)) (aleIdx q (X.col feature)) with
      | error e => rfl
      | ok lows =>
        cases hhi : mapE (fun i => pyGet q i) (aleIdx q (X.col feature)) with
        | error e => rfl
        | ok highs =>
          simp only [Except.map]
          have hll : lows.length = X.r := by
            rw [mapE_length hlo]
            simp [aleIdx, Mat.col]
          have hhl : highs.length = X.r := by
            rw [mapE_length hhi]
            simp [aleIdx, Mat.col]
          rw [← he.length_eq]
          have hps : mapE (fun i => globalPair L' (recoded (eachFeature h) n X) feature
              (lows.map fun v => a * v + b) (highs.map fun v => a * v + b) i (es'.getD i none))
              (List.range es.length) =
              mapE (fun i => globalPair L X feature lows highs i (es.getD i none))
                (List.range es.length) := by
            apply mapE_congr
            intro i _
            unfold globalPair
            simp only [show (recoded (eachFeature h) n X).r = X.r from rfl]
            split
            · rfl
            rename_i hi
            have hg := forall₂_getD_none he i
            revert hg
            generalize es.getD i none = o
            generalize es'.getD i none = o'
            intro hg
            cases hg with
            | none => rfl
            | some hf =>
              simp only [withFeature]
              rw [getD_affine a b (by omega), getD_affine a b (by omega),
                withFeature_code hXn hu, withFeature_code hXn hu,
                hf _ (by simp [hXn]), hf _ (by simp [hXn])]
          rw [hps]
          cases mapE (fun i => globalPair L X feature lows highs i (es.getD i none))
              (List.range es.length) with
          | error e => rfl
          | ok ps =>
            simp only
            unfold globalFinish
            split
            · rfl
            · cases centre (accumulate (groupMeans (aleIdx q (X.col feature)) fun i =>
                (ps.getD i (0, 0)).2 - (ps.getD i (0, 0)).1)) (bincount (aleIdx q (X.col feature)))
                <;> rfl

/-- The curves of one location in the new units: only the grid points change. -/
def curvesIn (a b : Nat → K) (l : List (List K × List K)) : List (List K × List K) :=
  l.mapIdx fun f r => (r.1.map fun v => a f * v + b f, r.2)

theorem pdFeature_code {n : Nat} {a b : Nat → K} (ha : ∀ f < n, 0 < a f)
    {wide : List K → Except Err (List K)}
    (hwide : ∀ f < n, ∀ l, wide (l.map fun v => a f * v + b f) =
      (wide l).map fun q => q.map fun v => a f * v + b f)
    {X : Mat K} (hX : X.c = n) {pred pred' : List K → K}
    (hp : ∀ x, x.length = n → pred' (eachFeature (fun f v => a f * v + b f) x) = pred x)
    (ws : List K) (feature : Nat) :
    pdFeature wide pred' (recoded (eachFeature fun f v => a f * v + b f) n X) ws feature =
      (pdFeature wide pred X ws feature).map fun r =>
        (r.1.map fun v => a feature * v + b feature, r.2) := by
  unfold pdFeature
  simp only [show (recoded (eachFeature fun f v => a f * v + b f) n X).c = n from rfl,
    show (recoded (eachFeature fun f v => a f * v + b f) n X).r = X.r from rfl, hX]
  split
  · rfl
  rename_i hfn
  have hf : feature < n := by omega
  have hcol : (recoded (eachFeature fun f v => a f * v + b f) n X).col feature =
      (X.col feature).map fun v => a feature * v + b feature := by
    unfold Mat.col
    rw [List.map_map]
    apply List.map_congr_left
    intro i _
    rw [recoded_get hX _ hf]
    rfl
  have hgrid : pdGrid wide ((X.col feature).map fun v => a feature * v + b feature) =
      (pdGrid wide (X.col feature)).map fun q => q.map fun v => a feature * v + b feature := by
    unfold pdGrid
    rw [uniqueL_affine (ha feature hf), List.length_map, hwide feature hf]
    split <;> rfl
  rw [hcol, hgrid]
  cases pdGrid wide (X.col feature) with
  | error e => rfl
  | ok grid =>
    simp only [Except.map]
    rw [List.map_map]
    have hcols : (grid.map ((icePoint (recoded (eachFeature fun f v => a f * v + b f) n X) feature
        pred') ∘ fun v => a feature * v + b feature)) = grid.map (icePoint X feature pred) := by
      apply List.map_congr_left
      intro v _
      simp only [Function.comp, icePoint, atValue]
      apply List.map_congr_left
      intro i _
      rw [withFeature_code (h := fun f v => a f * v + b f) hX rfl]
      exact hp _ (by simp [hX])
    rw [hcols]
    cases averageColumns (grid.map (icePoint X feature pred)) X.r ws <;> rfl

theorem localPd_code {n : Nat} {a b : Nat → K} (ha : ∀ f < n, 0 < a f)
    {wide : List K → Except Err (List K)}
    (hwide : ∀ f < n, ∀ l, wide (l.map fun v => a f * v + b f) =
      (wide l).map fun q => q.map fun v => a f * v + b f)
    {X : Mat K} (hX : X.c = n) {pred pred' : List K → K}
    (hp : ∀ x, x.length = n → pred' (eachFeature (fun f v => a f * v + b f) x) = pred x)
    (ws : List K) (nf : Nat) :
    localPd wide pred' (recoded (eachFeature fun f v => a f * v + b f) n X) ws nf =
      (localPd wide pred X ws nf).map (curvesIn a b) := by
  unfold localPd
  have h1 : ∀ (k m : Nat), mapE (pdFeature wide pred'
      (recoded (eachFeature fun f v => a f * v + b f) n X) ws) (List.range' k m) =
      (mapE (pdFeature wide pred X ws) (List.range' k m)).map fun l =>
        l.mapIdx fun f r => (r.1.map fun v => a (k + f) * v + b (k + f), r.2) := by
    intro k m
    induction m generalizing k with
    | zero => rfl
    | succ m ih =>
      simp only [List.range'_succ, mapE]
      rw [pdFeature_code ha hwide hX hp, ih]
      cases pdFeature wide pred X ws k with
      | error e => rfl
      | ok r =>
        simp only [Except.map]
        cases mapE (pdFeature wide pred X ws) (List.range' (k + 1) m) with
        | error e => rfl
        | ok l =>
          simp only [List.mapIdx_cons, Nat.add_zero]
          congr 3
          funext f r
          rw [show k + 1 + f = k + (f + 1) by omega]
  have := h1 0 nf
  simp only [Nat.zero_add] at this
  rw [List.range_eq_range', this]
  rfl

theorem curvesIn_lengths (a b : Nat → K) (l : List (List (List K × List K))) :
    (l.map (curvesIn a b)).flatten.map (fun r => r.1.length) = l.flatten.map fun r => r.1.length := by
  induction l with
  | nil => rfl
  | cons c l ih =>
    simp only [List.map_cons, List.flatten_cons, List.map_append, ih]
    congr 1
    unfold curvesIn
    apply List.ext_getElem
    · simp
    · intro k h1 h2
      simp

theorem allSameLength_iff (l : List (List (List K × List K))) :
    allSameLength l = match l.flatten.map fun r => r.1.length with
      | [] => true
      | c :: cs => cs.all fun d => d == c := by
  unfold allSameLength
  cases l.flatten with
  | nil => rfl
  | cons c cs =>
    simp only [List.map_cons, List.all_map]
    rfl

/-- C118: `partial_dependence` gives the same values, at the grid points in the new units. -/
theorem C118_partial_dependence {n : Nat} {a b : Nat → K} (ha : ∀ f < n, 0 < a f)
    (wide : List K → Except Err (List K))
    (hwide : ∀ f < n, ∀ l, wide (l.map fun v => a f * v + b f) =
      (wide l).map fun q => q.map fun v => a f * v + b f)
    {L : Learner K F} {L' : Learner K F'} {st : WMState K F C} {st' : WMState K F' C}
    (hst : CodeState n (eachFeature fun f v => a f * v + b f) n L L' st st') (old : PdOut K) :
    (partialDependence wide L' st' old).result =
      (partialDependence wide L st old).result.map fun l => l.map (curvesIn a b) := by
  obtain ⟨-, hn, hN, hX, hw, hy, -, hW, hB, -, -, he, -, -, -, -, -⟩ := hst
  have hn' : st'.nFeatures = st.nFeatures := by
    rcases hn with ⟨h1, h2⟩ | ⟨h1, h2⟩ <;> rw [h1, h2]
  unfold partialDependence
  rw [hN, hn', hX, hW, hB]
  revert he hw
  generalize st.estimators = l
  generalize st'.estimators = l'
  generalize st.X = X
  intro hw he
  cases st.N with
  | none => rfl
  | some N =>
  cases st.nFeatures with
  | none => rfl
  | some nf =>
  cases he with
  | none => rfl
  | @some es es' he =>
  cases X with
  | none => rfl
  | some X =>
  have hXn := hw X rfl
  cases st.weightMatrix with
  | none => rfl
  | some W =>
  cases st.neighbourMatrix with
  | none => cases W <;> rfl
  | some B =>
  cases W with
  | sparse A =>
    cases B with
    | dense B => rfl
    | sparse B =>
      simp only [Option.map_some]
      by_cases h0 : N = 0
      · rw [if_pos h0]
        simp [pdFinish, allSameLength, Except.map]
      · rw [if_neg h0]
        rfl
  | dense W =>
  cases B with
  | sparse B => rfl
  | dense B =>
    simp only [Option.map_some]
    have h1 : ERel (List.Forall₂ fun r r' => r' = curvesIn a b r)
        (mapE (pdLocation wide L X W B es nf) (List.range N))
        (mapE (pdLocation wide L' (recoded (eachFeature fun f v => a f * v + b f) n X) W B es' nf)
          (List.range N)) := by
      refine ERel.mapE fun i _ => ?_
      have hg := forall₂_getD_none he i
      unfold pdLocation
      rw [← he.length_eq]
      simp only [show (recoded (eachFeature fun f v => a f * v + b f) n X).r = X.r from rfl]
      split
      · rfl
      revert hg
      generalize es.getD i none = q
      generalize es'.getD i none = q'
      intro hg
      cases hg with
      | none => rfl
      | some hf =>
        simp only
        have hM : maskRows (recoded (eachFeature fun f v => a f * v + b f) n X) (trueIdx B i) =
            recoded (eachFeature fun f v => a f * v + b f) n (maskRows X (trueIdx B i)) := rfl
        rw [hM, localPd_code ha hwide (X := maskRows X (trueIdx B i)) hXn hf]
        cases localPd wide (L.predict _) (maskRows X (trueIdx B i)) _ nf <;> rfl
    cases hm : mapE (pdLocation wide L X W B es nf) (List.range N) with
    | error e =>
      rw [hm] at h1
      rw [h1.error]
      rfl
    | ok c =>
      rw [hm] at h1
      obtain ⟨c', hc', hr⟩ := h1.ok
      rw [hc']
      have hcc : c' = c.map (curvesIn a b) := by
        clear hm h1 hc'
        induction hr with
        | nil => rfl
        | cons h1 _ ih => rw [List.map_cons, h1, ih]
      subst hcc
      have hs : allSameLength (c.map (curvesIn a b)) = allSameLength c := by
        rw [allSameLength_iff, allSameLength_iff, curvesIn_lengths]
      simp only [pdFinish, hs]
      by_cases hl : allSameLength c = true
      · rw [if_pos hl, if_pos hl]
        rfl
      · rw [if_neg hl, if_neg hl]
        rfl

/-! ### A regressor that does not mind the unit of its features -/

/-- Adds the targets of the training rows whose first feature is at most that of the new row: a
regressor that only compares feature values. -/
def stepLearner : Learner ℚ (List (ℚ × ℚ)) where
  fit _ rows ys _ := if rows = [] then .error .valueError
    else .ok (List.zipWith (fun x v => (x.getD 0 0, v)) rows ys)
  predict f x := ((f.filter fun e => decide (e.1 ≤ x.getD 0 0)).map Prod.snd).sum

theorem stepLearner_codeFree {n : Nat} (hn : 0 < n) (h : Nat → ℚ → ℚ) (h0 : StrictMono (h 0)) :
    CodeFree n (eachFeature h) stepLearner stepLearner := by
  have hkey : ∀ x : List ℚ, x.length = n → (eachFeature h x).getD 0 0 = h 0 (x.getD 0 0) := by
    intro x hx
    unfold eachFeature
    rw [List.getD_eq_getElem _ _ (by simpa [hx] using hn), List.getElem_mapIdx,
      List.getD_eq_getElem _ _ (by rw [hx]; exact hn)]
  intro e rows ys ws hr
  simp only [stepLearner, List.map_eq_nil_iff]
  split
  · rfl
  intro x hx
  simp only
  rw [hkey x hx]
  clear * - hr hkey h0
  induction rows generalizing ys with
  | nil => rfl
  | cons r rows ih =>
    cases ys with
    | nil => rfl
    | cons v ys =>
      have h1 := ih ys fun x hx => hr x (by simp [hx])
      simp only [List.map_cons, List.zipWith_cons_cons, List.filter_cons, hkey r (hr r (by simp)),
        h0.le_iff_le, decide_eq_true_eq]
      split
      · simp only [List.map_cons, List.sum_cons, h1]
      · exact h1

/-- The features in other units: the first from degrees Celsius to Fahrenheit, the second shifted. -/
def fahrenheit : Nat → ℚ → ℚ := fun f v => (if f = 0 then 9 / 5 else 1) * v + (if f = 0 then 32 else -7)

theorem fahrenheit_mono : StrictMono (fahrenheit 0) := by
  intro u v huv
  simp only [fahrenheit, if_true]
  linarith

/-- The hypotheses of the theorems on weight models hold for two new objects, the fits succeed, and
the results are not constant. -/
example : Widths (eachFeature fahrenheit) alX.c alX.c ∧
    CodeFree alX.c (eachFeature fahrenheit) stepLearner stepLearner ∧
    CodeState alX.c (eachFeature fahrenheit) alX.c stepLearner stepLearner
      ({} : WMState ℚ (List (ℚ × ℚ)) Unit) {} ∧
    (wmFit stepLearner lastRng edP {} 0 alX edY none (some (.dense edW))).result = .ok () ∧
    okAnd (localAle stepLearner
      (wmFit stepLearner lastRng edP {} 0 alX edY none (some (.dense edW))).state 0)
      (fun cs => cs.length == 12 && cs.all fun r => r.2.getD 0 0 != r.2.getD 1 0) = true ∧
    okAnd (predictByFit stepLearner edP
      (wmFit stepLearner lastRng edP {} 0 alX edY none (some (.dense edW))).state alX (some ())
      (some edW)) (fun l => l.length == 12 && l.getD 0 0 != l.getD 1 0) = true :=
  ⟨eachFeature_widths _ _, stepLearner_codeFree (by decide) _ fahrenheit_mono,
    CodeState.new _ _ _ _ _, by decide +kernel, by decide +kernel, by decide +kernel⟩

/-- The same for stacking. -/
example : CodeFree seX.c (eachFeature fahrenheit) stepLearner stepLearner ∧
    CodeStack seX.c (eachFeature fahrenheit) seX.c stepLearner stepLearner meanLearner
      ({} : SState ℚ (List (ℚ × ℚ)) ℚ Unit) {} ∧
    (stackFit stepLearner meanLearner meanLearner rotRng seP {} 0 seX seY none
      (some (.dense seW))).result = .ok () ∧
    (stackFit stepLearner meanLearner meanLearner rotRng seP {} 0 seX seY none
      (some (.sparse seA))).result = .ok () :=
  ⟨stepLearner_codeFree (by decide) _ fahrenheit_mono, CodeStack.new _ _ _ _ _ _, by decide +kernel,
    by decide +kernel⟩

end Geo
