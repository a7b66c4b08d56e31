import Verif.Props.ImportanceLocal
/-
C48: what the entries of the interaction array that are not uninitialised hold.
-/
set_option linter.unusedSectionVars false
namespace Geo
open Finset
variable {K : Type} [Field K] [LinearOrder K] [IsStrictOrderedRing K] [FloorRing K]
variable {F C S : Type}

/-- The drop of the score when features `a` and `b` of observation `i` are taken from observations
`σ i` and `τ i`; everything else is unchanged. -/
def jointDrop (L : Learner K F) (X : Mat K) (y : List K) (score : K) (fs : Nat → F) (a b : Nat)
    (σ τ : Nat → Nat) : K :=
  score - R2Of X.r (fun i => y.getD i 0)
    fun i => L.predict (fs i) (((X.row i).set a (X.get (σ i) a)).set b (X.get (τ i) b))

theorem pairRow_eq (X : Mat K) (a b : Nat) (ia ib : List Nat) (i : Nat) :
    pairRow X a b ia ib i =
      ((X.row i).set a (X.get (ia.getD i 0) a)).set b (X.get (ib.getD i 0) b) := by
  apply List.ext_getElem (by simp [pairRow, Mat.row])
  intro k h1 h2
  simp only [pairRow, List.getElem_map, List.getElem_range, List.getElem_set, Mat.row]
  by_cases hb : k = b
  · subst hb
    simp
  · rw [if_neg hb, if_neg (Ne.symm hb)]
    by_cases ha : k = a
    · subst ha
      simp
    · rw [if_neg ha, if_neg (Ne.symm ha)]

theorem zipPredict_ok {L : Learner K F} {e : Option F × List K} {v : K}
    (h : zipPredict L e = .ok v) : ∃ f, e.1 = some f ∧ v = L.predict f e.2 := by
  unfold zipPredict at h
  cases he : e.1 with
  | none => rw [he] at h; cases h
  | some f =>
    rw [he] at h
    injection h with h
    exact ⟨f, rfl, h.symm⟩

theorem pairDecrease_ok {L : Learner K F} {d : FittedParts K F} (hy : d.y.length = d.X.r)
    {a b : Nat} {ia ib : List Nat} {v : K} (h : pairDecrease L d a b ia ib = .ok v) (fs : Nat → F)
    (hfs : ∀ i f, d.ests[i]? = some (some f) → fs i = f) :
    v = jointDrop L d.X d.y d.score fs a b (fun i => ia.getD i 0) (fun i => ib.getD i 0) := by
  unfold pairDecrease at h
  cases hm : mapE (zipPredict L)
      (d.ests.zip ((List.range d.X.r).map (pairRow d.X a b ia ib))) with
  | error e => rw [hm] at h; cases h
  | ok ps =>
    rw [hm] at h
    simp only [bind, Except.bind] at h
    cases hs : skR2 d.y ps with
    | error e => rw [hs] at h; cases h
    | ok sc =>
      rw [hs] at h
      simp only at h
      injection h with h
      have hl : ps.length = d.X.r := by rw [← hy]; exact (skR2_ok hs).1.symm
      have hzl := mapE_length hm
      have hes : d.X.r ≤ d.ests.length := by
        simp only [List.length_zip, List.length_map, List.length_range] at hzl
        omega
      have hps : ps = (List.range d.X.r).map fun i => L.predict (fs i)
          (((d.X.row i).set a (d.X.get (ia.getD i 0) a)).set b (d.X.get (ib.getD i 0) b)) := by
        apply List.ext_getElem (by simp [hl])
        intro i h1 h2
        have hi : i < d.X.r := by omega
        have hg := mapE_get hm (i := i) (by omega)
        obtain ⟨f, hf, hv⟩ := zipPredict_ok hg
        simp only [List.getElem_zip, List.getElem_map, List.getElem_range] at hf hv
        rw [hv, pairRow_eq]
        simp only [List.getElem_map, List.getElem_range]
        rw [hfs i f (by rw [List.getElem?_eq_getElem (by omega), hf])]
      have hyy : d.y = (List.range d.X.r).map fun i => d.y.getD i 0 := by
        apply List.ext_getElem (by simp [hy])
        intro i h1 h2
        simp [List.getElem?_eq_getElem h1]
      rw [hyy, hps] at hs
      rw [← h, skR2_value hs]
      rfl

/-- `v` is a drop of the score for some permutations of the two features. -/
def IsJointDrop (L : Learner K F) (X : Mat K) (y : List K) (score : K) (fs : Nat → F) (a b : Nat)
    (v : K) : Prop :=
  ∃ σ τ : Nat → Nat, PermBelow σ X.r ∧ PermBelow τ X.r ∧ v = jointDrop L X y score fs a b σ τ

theorem pairRepeats_ok {L : Learner K F} {g : PRng S} (hg : g.Valid) {d : FittedParts K F}
    (hy : d.y.length = d.X.r) (fs : Nat → F) (hfs : ∀ i f, d.ests[i]? = some (some f) → fs i = f)
    {a b R : Nat} {s s' : S} {vs : List K} (h : pairRepeats L g d a b R s = (.ok vs, s')) :
    vs.length = R ∧ ∀ v ∈ vs, IsJointDrop L d.X d.y d.score fs a b v := by
  induction R generalizing s vs s' with
  | zero =>
    simp only [pairRepeats] at h
    injection h with h
    injection h with h
    subst h
    simp
  | succ R ih =>
    simp only [pairRepeats] at h
    have p1 := shuffleList_perm hg s (List.Perm.refl (List.range d.X.r))
    have p2 := shuffleList_perm hg (shuffleList g s (List.range d.X.r)).2 p1
    cases h1 : pairDecrease L d a b (shuffleList g s (List.range d.X.r)).1
        (shuffleList g (shuffleList g s (List.range d.X.r)).2
          (shuffleList g s (List.range d.X.r)).1).1 with
    | error e => rw [h1] at h; cases h
    | ok v =>
      rw [h1] at h
      simp only at h
      cases h2 : pairRepeats L g d a b R (shuffleList g (shuffleList g s (List.range d.X.r)).2
          (shuffleList g s (List.range d.X.r)).1).2 with
      | mk r s2 =>
        rw [h2] at h
        cases r with
        | error e => cases h
        | ok vs' =>
          simp only at h
          injection h with h
          injection h with h
          subst h
          obtain ⟨hl, hv⟩ := ih h2
          refine ⟨by simp [hl], fun u hu => ?_⟩
          rcases List.mem_cons.1 hu with rfl | hu
          · exact ⟨_, _, permBelow_getD p1, permBelow_getD p2, pairDecrease_ok hy h1 fs hfs⟩
          · exact hv u hu

theorem pairLoop_lookup {L : Learner K F} {g : PRng S} (hg : g.Valid) {d : FittedParts K F}
    (hy : d.y.length = d.X.r) (fs : Nat → F) (hfs : ∀ i f, d.ests[i]? = some (some f) → fs i = f)
    {R : Nat} {ps : List (Nat × Nat)} {s s' : S} {l : List ((Nat × Nat) × List K)}
    (h : pairLoop L g d R ps s = (.ok l, s')) {a b : Nat} (hab : (a, b) ∈ ps) :
    ∃ vs, l.lookup (a, b) = some vs ∧ vs.length = R ∧
      ∀ v ∈ vs, IsJointDrop L d.X d.y d.score fs a b v := by
  induction ps generalizing s l s' with
  | nil => simp at hab
  | cons q rest ih =>
    simp only [pairLoop] at h
    cases h1 : pairRepeats L g d q.1 q.2 R s with
    | mk r1 s1 =>
      rw [h1] at h
      cases r1 with
      | error e => cases h
      | ok vs =>
        simp only at h
        cases h2 : pairLoop L g d R rest s1 with
        | mk r2 s2 =>
          rw [h2] at h
          cases r2 with
          | error e => cases h
          | ok l' =>
            simp only at h
            injection h with h
            injection h with h
            subst h
            rw [List.lookup_cons]
            by_cases hq : (a, b) = q
            · subst hq
              simp only [beq_self_eq_true]
              obtain ⟨hl, hv⟩ := pairRepeats_ok hg hy fs hfs h1
              exact ⟨vs, rfl, hl, hv⟩
            · have : ((a, b) == q) = false := by simpa using hq
              simp only [this]
              exact ih h2 ((List.mem_cons.1 hab).resolve_left hq)

theorem mem_featurePairs {n a b : Nat} : (a, b) ∈ featurePairs n ↔ a < b ∧ b < n := by
  unfold featurePairs
  simp only [List.mem_flatMap, List.mem_range, List.mem_map, List.mem_filter, decide_eq_true_eq]
  constructor
  · rintro ⟨x, hx, y, ⟨hy, hxy⟩, h⟩
    injection h with h1 h2
    omega
  · rintro ⟨h1, h2⟩
    exact ⟨a, by omega, b, ⟨h2, h1⟩, rfl⟩

/-- C48: where the array stored by the first successful call with as many repeats as features is
determined, it mixes two pairs of features: entry `(a, b, k)` with `a < b` and `k < b` is an
interaction of `a` and `b` (the drop of the score when both are permuted, less their mean single
drops) plus an interaction of `k` and `b`. -/
theorem C48_mixed_pairs {L : Learner K F} {g : PRng S} (hg : g.Valid)
    {junk : Nat → Nat → Nat → K} {p : WMParams K C} {st : WMState K F C} {s : S} {R : Nat}
    {M : Mat K} (h : (interactionGlobal L g junk p st s R).result = .ok M) {X : Mat K} {y : List K}
    {score : K} {es : List (Option F)} (hX : st.X = some X) (hy : st.y = some y)
    (hs : st.score = some score) (he : st.estimators = some es) (hF : 2 ≤ X.c) (hR : R = X.c)
    (hi : st.interaction = none) (fs : Nat → F) (hfs : ∀ i f, es[i]? = some (some f) → fs i = f) :
    ∃ T dec, (interactionGlobal L g junk p st s R).state.interaction = some T ∧
      (interactionGlobal L g junk p st s R).state.permDecrease = some dec ∧
      ∀ a b k, a < b → b < X.c → k < b → ∃ v v',
        IsJointDrop L X y score fs a b v ∧ IsJointDrop L X y score fs k b v' ∧
        T.get a b k = (v - meanL (dec.getD a []) - meanL (dec.getD b [])) +
          (v' - meanL (dec.getD k []) - meanL (dec.getD b [])) := by
  have key : ∀ (st1 : WMState K F C) s dec, st1.permDecrease = some dec →
      fittedParts st1 = fittedParts st → st1.interaction = none →
      (interactionWith L g junk st1 s R (dec.map meanL)).result = .ok M →
      ∃ T, (interactionWith L g junk st1 s R (dec.map meanL)).state.interaction = some T ∧
        (interactionWith L g junk st1 s R (dec.map meanL)).state.permDecrease = some dec ∧
        ∀ a b k, a < b → b < X.c → k < b → ∃ v v',
          IsJointDrop L X y score fs a b v ∧ IsJointDrop L X y score fs k b v' ∧
          T.get a b k = (v - meanL (dec.getD a []) - meanL (dec.getD b [])) +
            (v' - meanL (dec.getD k []) - meanL (dec.getD b [])) := by
    intro st1 s dec hdec hfp hint h
    unfold interactionWith at h ⊢
    rw [hfp, hint] at h ⊢
    cases hd : fittedParts st with
    | error e => rw [hd] at h; cases h
    | ok d =>
      obtain ⟨q1, q2, q3, q4, q5, -, -⟩ := fittedParts_ok hd
      rw [hX] at q1
      rw [hy] at q2
      rw [hs] at q3
      rw [he] at q4
      injection q1 with q1
      injection q2 with q2
      injection q3 with q3
      injection q4 with q4
      rw [hd] at h
      simp only at h ⊢
      cases hl : pairLoop L g d R (featurePairs d.X.c) s with
      | mk r s1 =>
        rw [hl] at h
        cases r with
        | error e => cases h
        | ok l =>
          simp only at h ⊢
          have hT : addTranspose (pairMatrix d.X.c R junk (dec.map meanL) l) =
              .ok ⟨X.c, X.c, X.c, fun i j k =>
                (pairMatrix X.c R junk (dec.map meanL) l).get i j k +
                  (pairMatrix X.c R junk (dec.map meanL) l).get k j i⟩ := by
            rw [← q1, hR]
            unfold addTranspose bcast
            simp only [pairMatrix]
            have hc : X.c ≠ 1 := by omega
            simp [hc]
          rw [hT] at h ⊢
          simp only [appendArr3] at h ⊢
          refine ⟨_, rfl, hdec, fun a b k hab hb hkb => ?_⟩
          have hval : ∀ a r, a < b → r < X.c → ∃ v, IsJointDrop L X y score fs a b v ∧
              (pairMatrix X.c R junk (dec.map meanL) l).get a b r =
                v - meanL (dec.getD a []) - meanL (dec.getD b []) := by
            intro a r hab hr
            obtain ⟨vs, hv1, hv2, hv3⟩ := pairLoop_lookup hg q5 fs (by rw [← q4]; exact hfs) hl
              (a := a) (b := b) (mem_featurePairs.2 ⟨hab, by rw [← q1]; exact hb⟩)
            have hr' : r < vs.length := by omega
            refine ⟨vs.getD r 0, ?_, ?_⟩
            · have := hv3 (vs.getD r 0) (by simp [List.getElem?_eq_getElem hr'])
              rw [← q1, ← q2, ← q3] at this
              exact this
            · unfold pairMatrix
              simp only [hv1]
              have hm : ∀ j, (dec.map meanL).getD j 0 = meanL (dec.getD j []) := by
                intro j
                by_cases hj : j < dec.length
                · simp [List.getElem?_eq_getElem hj]
                · have : dec[j]? = none := List.getElem?_eq_none (by omega)
                  simp [this, meanL]
              rw [hm, hm]
          obtain ⟨v, hv1, hv2⟩ := hval a k hab (by omega)
          obtain ⟨v', hv3, hv4⟩ := hval k a hkb (by omega)
          exact ⟨v, v', hv1, hv3, by simp only [hv2, hv4]⟩
  unfold interactionGlobal at h ⊢
  split at h
  · cases h
  · rename_i hc
    simp only [hc]
    cases hp : st.permDecrease with
    | some dec =>
      rw [hp] at h
      simp only at h ⊢
      obtain ⟨T, h1, h2, h3⟩ := key st s dec hp rfl hi h
      exact ⟨T, dec, h1, h2, h3⟩
    | none =>
      rw [hp] at h
      simp only at h ⊢
      cases hg5 : importanceGlobal L g p st s 5 with
      | mk res st2 s2 =>
        rw [hg5] at h
        cases res with
        | error e => cases h
        | ok v =>
          simp only at h ⊢
          have hi2 : (importanceGlobal L g p st s 5).result = .ok v := by rw [hg5]
          obtain ⟨_, _, all, _, _, _, _, _, _, _, hv, heq⟩ := importance_ok hi2
          rw [hg5] at heq
          injection heq with _ hst _
          subst hv
          obtain ⟨T, h1, h2, h3⟩ := key st2 s2 all (by rw [hst]) (by rw [hst]; rfl)
            (by rw [hst]; exact hi) h
          exact ⟨T, all, h1, h2, h3⟩

/-- The hypotheses of `C48_mixed_pairs` hold for the model of three locations with its score. -/
example : (match (interactionGlobal (F := Unit) (S := Unit)
    ⟨fun _ _ _ _ => .ok (), fun _ r => r.getD 0 0 + r.getD 1 0⟩
    ⟨fun s n => ((List.range n).reverse, s)⟩ (fun _ _ _ => 0)
    { cacheData := true, cacheEstimator := true, weights := fun _ _ => .error .exception }
    { impState with score := some 1 } () 2).result with
    | .ok _ => true
    | .error _ => false) = true := by decide +kernel

end Geo
