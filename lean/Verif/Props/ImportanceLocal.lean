import Verif.Model.ImportanceLocal
import Verif.Props.Importance
import Verif.Props.WeightMatrixArgs
import Verif.Basic.MapE
import Verif.Props.VizDistance
import Mathlib.Algebra.BigOperators.Group.Finset.Basic
import Mathlib.Algebra.Order.BigOperators.Ring.Finset
import Mathlib.Tactic.Ring
import Mathlib.Tactic.Linarith
/-
C84: local permutation importance.
-/
set_option linter.unusedSectionVars false
namespace Geo
open Finset
variable {K : Type} [Field K] [LinearOrder K] [IsStrictOrderedRing K] [FloorRing K]
variable {F C S : Type}

/-- The weighted coefficient of determination of predictions `p` for targets `y`, with the usual
conventions for constant targets. -/
def r2Spec (m : Nat) (w y p : Nat → K) : K :=
  if ∑ k ∈ range m, w k * (y k - (∑ k ∈ range m, w k * y k) / ∑ k ∈ range m, w k) ^ 2 ≠ 0 then
    1 - (∑ k ∈ range m, w k * (y k - p k) ^ 2) /
      ∑ k ∈ range m, w k * (y k - (∑ k ∈ range m, w k * y k) / ∑ k ∈ range m, w k) ^ 2
  else if ∑ k ∈ range m, w k * (y k - p k) ^ 2 = 0 then 1 else 0

theorem sum_map_range_eq (m : Nat) (h : Nat → K) :
    ((List.range m).map h).sum = ∑ k ∈ range m, h k := by
  induction m with
  | zero => simp
  | succ m ih => rw [List.range_succ, List.map_append, List.sum_append, ih, sum_range_succ]; simp

theorem weightedR2_map (m : Nat) (w y p : Nat → K) :
    weightedR2 ((List.range m).map y) ((List.range m).map p) ((List.range m).map w) =
      if m < 2 then .ok none
      else if ∑ k ∈ range m, w k = 0 then .error .zeroDivisionError
      else .ok (some (r2Spec m w y p)) := by
  unfold weightedR2
  simp only [List.length_map, List.length_range, ne_eq, not_true_eq_false, or_self, if_false]
  have z : ∀ (a b : Nat → K), (((List.range m).map a).zip ((List.range m).map b)) =
      (List.range m).map fun k => (a k, b k) := fun a b => by
    simp [List.zip_eq_zipWith, List.zipWith_map]
  rw [z y p, z w y]
  have z3 : (((List.range m).map w).zip ((List.range m).map fun k => (y k, p k))) =
      (List.range m).map fun k => (w k, (y k, p k)) := by
    simp [List.zip_eq_zipWith, List.zipWith_map]
  rw [z3]
  simp only [List.map_map, Function.comp_def, sum_map_range_eq]
  rfl

/-- The rows with column `col` taken from rows `σ`. -/
def permRows (rows : List (List K)) (col : Nat) (σ : Nat → Nat) : List (List K) :=
  (List.range rows.length).map fun i =>
    (rows.getD i []).set col ((rows.getD (σ i) []).getD col 0)

/-- The rearrangements of the column, one per repeat. -/
def sigmas (g : PRng S) : Nat → S → List Nat → (Nat → Nat) → List (Nat → Nat)
  | 0, _, _, _ => []
  | r + 1, s, idx, σ =>
    (fun k => σ ((shuffleList g s idx).1.getD k 0)) ::
      sigmas g r (shuffleList g s idx).2 (shuffleList g s idx).1
        fun k => σ ((shuffleList g s idx).1.getD k 0)

theorem sigmas_length (g : PRng S) (r : Nat) (s : S) (idx : List Nat) (σ : Nat → Nat) :
    (sigmas g r s idx σ).length = r := by
  induction r generalizing s idx σ with
  | zero => rfl
  | succ r ih => simp [sigmas, ih]

theorem shuffleList_perm {g : PRng S} (hg : g.Valid) (s : S) {idx : List Nat} {m : Nat}
    (h : idx.Perm (List.range m)) : (shuffleList g s idx).1.Perm (List.range m) := by
  have hl : idx.length = m := by simpa using h.length_eq
  unfold shuffleList
  refine List.Perm.trans ?_ h
  refine ((hg s idx.length).map fun k => idx.getD k 0).trans ?_
  have : ((List.range idx.length).map fun k => idx.getD k 0) = idx := by
    apply List.ext_getElem (by simp)
    intro i h1 h2
    simp [List.getElem?_eq_getElem h2]
  rw [this]

theorem permBelow_getD {l : List Nat} {m : Nat} (h : l.Perm (List.range m)) :
    PermBelow (fun k => l.getD k 0) m := by
  have hl : l.length = m := by simpa using h.length_eq
  have hnd : l.Nodup := h.nodup_iff.2 List.nodup_range
  constructor
  · intro j hj
    have : l.getD j 0 ∈ l := by simp [List.getElem?_eq_getElem (show j < l.length by omega)]
    simpa using h.mem_iff.1 this
  · intro j hj k hk hjk
    simp only [List.getD_eq_getElem?_getD, List.getElem?_eq_getElem (show j < l.length by omega),
      List.getElem?_eq_getElem (show k < l.length by omega), Option.getD_some] at hjk
    exact (List.Nodup.getElem_inj_iff hnd).1 hjk

theorem sigmas_valid {g : PRng S} (hg : g.Valid) (m r : Nat) (s : S) (idx : List Nat)
    (hidx : idx.Perm (List.range m)) (σ : Nat → Nat) (hσ : PermBelow σ m) :
    ∀ τ ∈ sigmas g r s idx σ, PermBelow τ m := by
  induction r generalizing s idx σ with
  | zero => intro τ h; simp [sigmas] at h
  | succ r ih =>
    have h1 := shuffleList_perm hg s hidx
    have h2 := permBelow_getD h1
    have h3 : PermBelow (fun k => σ ((shuffleList g s idx).1.getD k 0)) m :=
      ⟨fun j hj => hσ.1 _ (h2.1 j hj), fun j hj k hk h =>
        h2.2 j hj k hk (hσ.2 _ (h2.1 j hj) _ (h2.1 k hk) h)⟩
    intro τ hτ
    rcases List.mem_cons.1 hτ with rfl | hτ
    · exact h3
    · exact ih _ _ h1 _ h3 τ hτ

theorem takeColumn_permRows (rows : List (List K)) (col : Nat) (σ : Nat → Nat)
    (hr : ∀ r ∈ rows, col < r.length) (idx : List Nat)
    (hidx : ∀ i < rows.length, idx.getD i 0 < rows.length) :
    takeColumn (permRows rows col σ) col idx = permRows rows col fun k => σ (idx.getD k 0) := by
  have hl : (permRows rows col σ).length = rows.length := by simp [permRows]
  have hget : ∀ i < rows.length, (permRows rows col σ).getD i [] =
      (rows.getD i []).set col ((rows.getD (σ i) []).getD col 0) := by
    intro i hi
    unfold permRows
    rw [List.getD_eq_getElem?_getD, List.getElem?_map, List.getElem?_range hi]
    rfl
  unfold takeColumn
  rw [hl]
  unfold permRows
  apply List.map_congr_left
  intro i hi
  have hi : i < rows.length := by simpa using hi
  have h2 := hidx i hi
  have e1 := hget i hi
  have e2 := hget _ h2
  unfold permRows at e1 e2
  rw [e1, e2, List.set_set]
  congr 1
  generalize ((rows.getD (σ (idx.getD i 0)) []).getD col 0) = v
  clear e1 e2
  generalize idx.getD i 0 = q at h2 ⊢
  have : col < (rows[q]).length := hr _ (List.getElem_mem _)
  simp [List.getElem?_eq_getElem h2, this]

theorem permRows_id (rows : List (List K)) (col : Nat) (hr : ∀ r ∈ rows, col < r.length) :
    permRows rows col id = rows := by
  unfold permRows
  apply List.ext_getElem (by simp)
  intro i h1 h2
  have : col < (rows[i]).length := hr _ (List.getElem_mem _)
  simp [List.getElem?_eq_getElem h2, List.getElem?_eq_getElem this]

theorem shuffleScores_eq {g : PRng S} (hg : g.Valid) (L : Learner K F) (f : F) (ys ws : List K)
    (rows : List (List K)) (col : Nat) (hr : ∀ r ∈ rows, col < r.length) (R : Nat) (s : S)
    (idx : List Nat) (hidx : idx.Perm (List.range rows.length)) (σ : Nat → Nat) :
    shuffleScores L g f ys ws col R s idx (permRows rows col σ) =
      mapE (fun τ => scoreRows L f (permRows rows col τ) ys ws) (sigmas g R s idx σ) := by
  induction R generalizing s idx σ with
  | zero => rfl
  | succ R ih =>
    have h1 := shuffleList_perm hg s hidx
    unfold shuffleScores sigmas
    rw [takeColumn_permRows rows col σ hr _ (permBelow_getD h1).1, ih _ _ h1]
    rw [mapE]
    cases scoreRows L f (permRows rows col fun k => σ ((shuffleList g s idx).1.getD k 0)) ys ws with
    | error e => rfl
    | ok v =>
      simp only
      cases mapE (fun τ => scoreRows L f (permRows rows col τ) ys ws)
          (sigmas g R (shuffleList g s idx).2 (shuffleList g s idx).1
            fun k => σ ((shuffleList g s idx).1.getD k 0)) with
      | error e => rfl
      | ok vs => rfl

/-- The neighbours of location `i`. -/
def neighboursOf (B : Mat Bool) (n i : Nat) : List Nat := (List.range n).filter fun k => B.get i k

theorem importanceLocal_ok {L : Learner K F} {g : PRng S} {seeds : Nat → S} {p : WMParams K C}
    {st : WMState K F C} {R : Nat} {M : List (List (Option K))}
    (h : importanceLocal L g seeds p st R = .ok M) {N : Nat} {es : List (Option F)} {X : Mat K}
    {y : List K} {W : Mat K} {B : Mat Bool} (hN : st.N = some N) (he : st.estimators = some es)
    (hX : st.X = some X) (hy : st.y = some y) (hW : st.weightMatrix = some (.dense W))
    (hB : st.neighbourMatrix = some (.dense B)) :
    M.length = N ∧ ∀ i < N, ∃ f, es.getD i none = some f ∧ B.c = X.r ∧
      localImportance L g (seeds i) f ((neighboursOf B X.r i).map X.row)
        ((neighboursOf B X.r i).map fun k => y.getD k 0)
        ((neighboursOf B X.r i).map (W.get i)) X.c R = .ok (M.getD i []) := by
  unfold importanceLocal at h
  split at h
  · exact absurd h (by simp)
  rw [hN, he, hX, hy, hW, hB] at h
  simp only at h
  cases hj : mapE (importanceJob X y W B es) (List.range N) with
  | error e => rw [hj] at h; exact absurd h (by simp)
  | ok jobs =>
    rw [hj] at h
    simp only at h
    have hjl : jobs.length = N := by simpa using mapE_length hj
    have hz : ((List.range N).zip jobs).length = N := by simp [hjl]
    have hl := mapE_length h
    refine ⟨by rw [hl, hz], fun i hi => ?_⟩
    have hg1 := mapE_get hj (i := i) (by simpa using hi)
    have hg2 := mapE_get h (i := i) (by omega)
    simp only [List.getElem_range] at hg1
    simp only [List.getElem_zip, List.getElem_range] at hg2
    unfold importanceJob at hg1
    split at hg1
    · exact absurd hg1 (by simp)
    · rename_i hc
      push Not at hc
      injection hg1 with hg1
      rw [← hg1] at hg2
      unfold runImportanceJob at hg2
      simp only at hg2
      have htr : trueIdx B i = neighboursOf B X.r i := by
        unfold trueIdx neighboursOf
        rw [hc.2.2.2.1]
      cases hf : es.getD i none with
      | none =>
        rw [hf] at hg2
        simp only at hg2
        split at hg2 <;> exact absurd hg2 (by simp)
      | some f =>
        rw [hf] at hg2
        simp only at hg2
        rw [htr] at hg2
        refine ⟨f, rfl, hc.2.2.2.1, ?_⟩
        rw [hg2]
        have : i < M.length := by omega
        simp [List.getElem?_eq_getElem this]

theorem localImportance_ok {L : Learner K F} {g : PRng S} (hg : g.Valid) {s : S} {f : F} {X : Mat K}
    {nb : List Nat} {y w : Nat → K} {R : Nat} {l : List (Option K)}
    (h : localImportance L g s f (nb.map X.row) (nb.map y) (nb.map w) X.c R = .ok l) :
    nb ≠ [] ∧ l.length = X.c ∧ (2 ≤ nb.length → (nb.map w).sum ≠ 0) ∧
    ∀ c < X.c, l.getD c none = if nb.length < 2 ∨ R = 0 then none else
      some ((∑ r ∈ range R, (r2Spec nb.length (fun k => w (nb.getD k 0)) (fun k => y (nb.getD k 0))
            (fun k => L.predict f (X.row (nb.getD k 0))) -
          r2Spec nb.length (fun k => w (nb.getD k 0)) (fun k => y (nb.getD k 0))
            (fun k => L.predict f ((X.row (nb.getD k 0)).set c
              (X.get (nb.getD ((sigmas g R s (List.range nb.length) id).getD r id k) 0) c))))) /
        (R : K)) := by
  have hmap : ∀ {β : Type} (q : Nat → β), nb.map q =
      (List.range nb.length).map fun k => q (nb.getD k 0) := by
    intro β q
    apply List.ext_getElem (by simp)
    intro i h1 h2
    have h1 : i < nb.length := by simpa using h1
    simp [List.getElem?_eq_getElem h1]
  have hws : (nb.map w).sum = ∑ k ∈ range nb.length, w (nb.getD k 0) := by
    rw [hmap w, sum_map_range_eq]
  unfold localImportance at h
  split at h
  · exact absurd h (by simp)
  rename_i hne
  have hne : nb ≠ [] := by simpa using hne
  have hpr : ∀ c < X.c, ∀ τ : Nat → Nat, PermBelow τ nb.length →
      (permRows (nb.map X.row) c τ).map (L.predict f) = (List.range nb.length).map fun k =>
        L.predict f ((X.row (nb.getD k 0)).set c (X.get (nb.getD (τ k) 0) c)) := by
    intro c hc τ hτ
    unfold permRows
    rw [List.map_map, List.length_map]
    apply List.map_congr_left
    intro k hk
    have hk : k < nb.length := by simpa using hk
    have hk2 := hτ.1 k hk
    simp only [Function.comp_def, List.getD_eq_getElem?_getD, List.getElem?_map,
      List.getElem?_eq_getElem hk, List.getElem?_eq_getElem hk2, Option.map_some, Option.getD_some]
    congr 2
    simp [Mat.row, hc]
  have hscore : ∀ c < X.c, ∀ τ : Nat → Nat, PermBelow τ nb.length →
      scoreRows L f (permRows (nb.map X.row) c τ) (nb.map y) (nb.map w) =
      if nb.length < 2 then .ok none
      else if ∑ k ∈ range nb.length, w (nb.getD k 0) = 0 then .error .zeroDivisionError
      else .ok (some (r2Spec nb.length (fun k => w (nb.getD k 0)) (fun k => y (nb.getD k 0))
        (fun k => L.predict f ((X.row (nb.getD k 0)).set c (X.get (nb.getD (τ k) 0) c))))) := by
    intro c hc τ hτ
    unfold scoreRows
    rw [hpr c hc τ hτ, hmap y, hmap w, weightedR2_map]
  have hbase : scoreRows L f (nb.map X.row) (nb.map y) (nb.map w) =
      if nb.length < 2 then .ok none
      else if ∑ k ∈ range nb.length, w (nb.getD k 0) = 0 then .error .zeroDivisionError
      else .ok (some (r2Spec nb.length (fun k => w (nb.getD k 0)) (fun k => y (nb.getD k 0))
        (fun k => L.predict f (X.row (nb.getD k 0))))) := by
    unfold scoreRows
    rw [List.map_map, hmap (L.predict f ∘ X.row), hmap y, hmap w, weightedR2_map]
    rfl
  rw [hbase] at h
  have hrows : ∀ c < X.c, ∀ r ∈ nb.map X.row, c < r.length := by
    intro c hc r hr
    obtain ⟨k, -, rfl⟩ := List.mem_map.1 hr
    simpa [Mat.row] using hc
  have hshuf : ∀ c < X.c, shuffleScores L g f (nb.map y) (nb.map w) c R s
      (List.range (nb.map X.row).length) (nb.map X.row) =
      mapE (fun τ => scoreRows L f (permRows (nb.map X.row) c τ) (nb.map y) (nb.map w))
        (sigmas g R s (List.range nb.length) id) := by
    intro c hc
    have := shuffleScores_eq hg L f (nb.map y) (nb.map w) (nb.map X.row) c (hrows c hc) R s
      (List.range (nb.map X.row).length) (List.Perm.refl _) id
    rw [permRows_id _ _ (hrows c hc)] at this
    rw [this, List.length_map]
  have hval := sigmas_valid hg nb.length R s (List.range nb.length) (List.Perm.refl _) id
    ⟨fun j hj => hj, fun j _ k _ h => h⟩
  have hslen := sigmas_length g R s (List.range nb.length) id
  by_cases hm : nb.length < 2
  · rw [if_pos hm] at h
    simp only at h
    have hl : l.length = X.c := by simpa using mapE_length h
    refine ⟨hne, hl, fun h2 => by omega, fun c hc => ?_⟩
    have hgc := mapE_get h (i := c) (by simpa using hc)
    simp only [List.getElem_range] at hgc
    unfold featureImportance at hgc
    have hsc : mapE (fun τ => scoreRows L f (permRows (nb.map X.row) c τ) (nb.map y) (nb.map w))
        (sigmas g R s (List.range nb.length) id) =
        .ok ((sigmas g R s (List.range nb.length) id).map fun _ => none) :=
      mapE_of_forall fun τ hτ => by rw [hscore c hc τ (hval τ hτ), if_pos hm]
    rw [hshuf c hc, hsc] at hgc
    simp only [Except.map, Except.ok.injEq] at hgc
    rw [if_pos (.inl hm)]
    rw [List.getD_eq_getElem?_getD, List.getElem?_eq_getElem (by omega), Option.getD_some, ← hgc]
    unfold optMean
    rw [if_pos]
    by_cases he : sigmas g R s (List.range nb.length) id = []
    · left; simp [he]
    · right
      obtain ⟨τ, rest, ht⟩ := List.exists_cons_of_ne_nil he
      simp [ht, optSub]
  · rw [if_neg hm] at h
    by_cases hs : ∑ k ∈ range nb.length, w (nb.getD k 0) = 0
    · rw [if_pos hs] at h
      exact absurd h (by simp)
    · rw [if_neg hs] at h
      simp only at h
      have hl : l.length = X.c := by simpa using mapE_length h
      refine ⟨hne, hl, fun _ => by rw [hws]; exact hs, fun c hc => ?_⟩
      have hgc := mapE_get h (i := c) (by simpa using hc)
      simp only [List.getElem_range] at hgc
      unfold featureImportance at hgc
      have hsc : mapE (fun τ => scoreRows L f (permRows (nb.map X.row) c τ) (nb.map y)
          (nb.map w)) (sigmas g R s (List.range nb.length) id) =
          .ok ((sigmas g R s (List.range nb.length) id).map fun τ => some (r2Spec nb.length
            (fun k => w (nb.getD k 0)) (fun k => y (nb.getD k 0))
            (fun k => L.predict f ((X.row (nb.getD k 0)).set c (X.get (nb.getD (τ k) 0) c))))) :=
        mapE_of_forall fun τ hτ => by rw [hscore c hc τ (hval τ hτ), if_neg hm, if_neg hs]
      rw [hshuf c hc, hsc] at hgc
      simp only [Except.map, Except.ok.injEq, List.map_map, Function.comp_def, optSub] at hgc
      rw [List.getD_eq_getElem?_getD, List.getElem?_eq_getElem (by omega), Option.getD_some, ← hgc]
      unfold optMean
      by_cases hR : R = 0
      · rw [if_pos (show nb.length < 2 ∨ R = 0 from .inr hR), if_pos]
        left
        rw [← List.length_eq_zero_iff, List.length_map, hslen, hR]
      · rw [if_neg (by omega : ¬(nb.length < 2 ∨ R = 0)), if_neg]
        · rw [List.map_map]
          unfold meanL
          congr 1
          rw [List.length_map, hslen]
          congr 1
          clear hgc hsc hshuf hval
          generalize sigmas g R s (List.range nb.length) id = T at hslen ⊢
          rw [← sum_map_range_eq]
          have hT : T = (List.range R).map fun r => T.getD r id := by
            apply List.ext_getElem (by simp [hslen])
            intro i h1 h2
            simp [List.getElem?_eq_getElem h1]
          conv_lhs => rw [hT]
          rw [List.map_map]
          rfl
        · rintro (h0 | h0)
          · rw [← List.length_eq_zero_iff, List.length_map, hslen] at h0
            exact hR h0
          · simp at h0

/-- C84: row `i` of the result belongs to the estimator of location `i`. Entry `c` is the mean over
the repeats of the drop of the weighted R² on the location's neighbours when feature `c` is
rearranged among the neighbours and nothing else is changed; the rearrangements are permutations of
the neighbours and the same for all features. With a single neighbour or no repeat it is NaN. -/
theorem C84_value {L : Learner K F} {g : PRng S} (hg : g.Valid) {seeds : Nat → S} {p : WMParams K C}
    {st : WMState K F C} {R : Nat} {M : List (List (Option K))}
    (h : importanceLocal L g seeds p st R = .ok M) {N : Nat} {es : List (Option F)} {X : Mat K}
    {y : List K} {W : Mat K} {B : Mat Bool} (hN : st.N = some N) (he : st.estimators = some es)
    (hX : st.X = some X) (hy : st.y = some y) (hW : st.weightMatrix = some (.dense W))
    (hB : st.neighbourMatrix = some (.dense B)) :
    M.length = N ∧ ∀ i < N, ∃ f, es.getD i none = some f ∧ (M.getD i []).length = X.c ∧
      ∃ nb : List Nat, nb.Pairwise (· < ·) ∧ (∀ k, k ∈ nb ↔ k < X.r ∧ B.get i k = true) ∧ nb ≠ [] ∧
      ∃ σ : Nat → Nat → Nat, (∀ r < R, PermBelow (σ r) nb.length) ∧ ∀ c < X.c,
        (M.getD i []).getD c none = if nb.length < 2 ∨ R = 0 then none else
          some ((∑ r ∈ range R, (r2Spec nb.length (fun k => W.get i (nb.getD k 0))
                (fun k => y.getD (nb.getD k 0) 0) (fun k => L.predict f (X.row (nb.getD k 0))) -
              r2Spec nb.length (fun k => W.get i (nb.getD k 0)) (fun k => y.getD (nb.getD k 0) 0)
                (fun k => L.predict f ((X.row (nb.getD k 0)).set c
                  (X.get (nb.getD (σ r k) 0) c))))) / (R : K)) := by
  obtain ⟨hl, hi⟩ := importanceLocal_ok h hN he hX hy hW hB
  refine ⟨hl, fun i hin => ?_⟩
  obtain ⟨f, hf, -, hrun⟩ := hi i hin
  obtain ⟨hne, hlen, -, hv⟩ := localImportance_ok hg (X := X) (nb := neighboursOf B X.r i)
    (y := fun k => y.getD k 0) (w := W.get i) hrun
  refine ⟨f, hf, hlen, neighboursOf B X.r i, ?_, ?_, hne,
    fun r => (sigmas g R (seeds i) (List.range (neighboursOf B X.r i).length) id).getD r id, ?_, hv⟩
  · exact (List.pairwise_lt_range).filter _
  · intro k
    simp [neighboursOf]
  · intro r hr
    have hlen := sigmas_length g R (seeds i) (List.range (neighboursOf B X.r i).length) id
    apply sigmas_valid hg _ R (seeds i) _ (List.Perm.refl _) id
      ⟨fun j hj => hj, fun j _ k _ h => h⟩
    beta_reduce
    rw [List.getD_eq_getElem?_getD, List.getElem?_eq_getElem (by omega), Option.getD_some]
    exact List.getElem_mem _

theorem r2Spec_congr (m : Nat) {w y p p' : Nat → K} (h : ∀ k < m, p k = p' k) :
    r2Spec m w y p = r2Spec m w y p' := by
  unfold r2Spec
  have : ∑ k ∈ range m, w k * (y k - p k) ^ 2 = ∑ k ∈ range m, w k * (y k - p' k) ^ 2 :=
    sum_congr rfl fun k hk => by rw [h k (by simpa using hk)]
  rw [this]

/-- C84: a feature the estimator does not use, and a feature that is constant among the
neighbours, has local importance exactly zero. -/
theorem C84_unused {L : Learner K F} {g : PRng S} (hg : g.Valid) {seeds : Nat → S}
    {p : WMParams K C} {st : WMState K F C} {R : Nat} {M : List (List (Option K))}
    (h : importanceLocal L g seeds p st R = .ok M) {N : Nat} {es : List (Option F)} {X : Mat K}
    {y : List K} {W : Mat K} {B : Mat Bool} (hN : st.N = some N) (he : st.estimators = some es)
    (hX : st.X = some X) (hy : st.y = some y) (hW : st.weightMatrix = some (.dense W))
    (hB : st.neighbourMatrix = some (.dense B)) (i : Nat) (hi : i < N) (c : Nat) (hc : c < X.c)
    (hR : R ≠ 0) (h2 : ∃ k k', k ≠ k' ∧ k < X.r ∧ k' < X.r ∧ B.get i k = true ∧ B.get i k' = true)
    (hu : (∀ f, es.getD i none = some f → ∀ r v, L.predict f (r.set c v) = L.predict f r) ∨
      ∃ v, ∀ k < X.r, B.get i k = true → X.get k c = v) :
    (M.getD i []).getD c none = some 0 := by
  obtain ⟨-, hv⟩ := C84_value hg h hN he hX hy hW hB
  obtain ⟨f, hf, -, nb, hnb, hmem, -, σ, hσ, hval⟩ := hv i hi
  have hlen : ¬(nb.length < 2 ∨ R = 0) := by
    obtain ⟨k, k', hne, hk, hk', hb, hb'⟩ := h2
    have m1 := (hmem k).2 ⟨hk, hb⟩
    have m2 := (hmem k').2 ⟨hk', hb'⟩
    intro hh
    rcases hh with hh | hh
    · match nb, hh, m1, m2 with
      | [a], _, m1, m2 => exact hne (by rw [List.mem_singleton.1 m1, List.mem_singleton.1 m2])
      | [], _, m1, _ => simp at m1
    · exact hR hh
  rw [hval c hc, if_neg hlen]
  congr 1
  rw [sum_eq_zero, zero_div]
  intro r hr
  rw [sub_eq_zero]
  apply r2Spec_congr
  intro k hk
  rcases hu with hu | ⟨v, hu⟩
  · rw [hu f hf]
  · have hin : ∀ j < nb.length, X.get (nb.getD j 0) c = v := by
      intro j hj
      have : nb.getD j 0 ∈ nb := by simp [List.getElem?_eq_getElem hj]
      obtain ⟨a, b⟩ := (hmem _).1 this
      exact hu _ a b
    rw [hin _ ((hσ r (by simpa using hr)).1 k hk), ← hin k hk]
    congr 1
    apply List.ext_getElem (by simp)
    intro j h1 h3
    rw [List.getElem_set]
    split
    · rename_i hcj
      subst hcj
      simp [Mat.row]
    · rfl

/-- C84: an estimator that reproduces the targets of its neighbours has no negative importance, for
weights that are not negative and targets that differ. -/
theorem C84_nonneg {L : Learner K F} {g : PRng S} (hg : g.Valid) {seeds : Nat → S}
    {p : WMParams K C} {st : WMState K F C} {R : Nat} {M : List (List (Option K))}
    (h : importanceLocal L g seeds p st R = .ok M) {N : Nat} {es : List (Option F)} {X : Mat K}
    {y : List K} {W : Mat K} {B : Mat Bool} (hN : st.N = some N) (he : st.estimators = some es)
    (hX : st.X = some X) (hy : st.y = some y) (hW : st.weightMatrix = some (.dense W))
    (hB : st.neighbourMatrix = some (.dense B)) (i : Nat) (hi : i < N)
    (hw : ∀ k < X.r, B.get i k = true → 0 ≤ W.get i k)
    (hf : ∀ f, es.getD i none = some f → ∀ k < X.r, B.get i k = true →
      L.predict f (X.row k) = y.getD k 0) :
    ∀ c < X.c, ∀ v, (M.getD i []).getD c none = some v → 0 ≤ v := by
  intro c hc v hv
  obtain ⟨-, hall⟩ := C84_value hg h hN he hX hy hW hB
  obtain ⟨f, hff, -, nb, hnb, hmem, -, σ, hσ, hval⟩ := hall i hi
  rw [hval c hc] at hv
  split at hv
  · exact absurd hv (by simp)
  injection hv with hv
  rw [← hv]
  have hin : ∀ j < nb.length, nb.getD j 0 < X.r ∧ B.get i (nb.getD j 0) = true := by
    intro j hj
    apply (hmem _).1
    simp [List.getElem?_eq_getElem hj]
  apply div_nonneg _ (Nat.cast_nonneg R)
  apply sum_nonneg
  intro r hr
  rw [sub_nonneg]
  have hone : r2Spec nb.length (fun k => W.get i (nb.getD k 0)) (fun k => y.getD (nb.getD k 0) 0)
      (fun k => L.predict f (X.row (nb.getD k 0))) = 1 := by
    have hz : ∑ k ∈ range nb.length, W.get i (nb.getD k 0) *
        (y.getD (nb.getD k 0) 0 - L.predict f (X.row (nb.getD k 0))) ^ 2 = 0 := by
      apply sum_eq_zero
      intro k hk
      obtain ⟨a, b⟩ := hin k (by simpa using hk)
      rw [hf f hff _ a b, sub_self]
      ring
    unfold r2Spec
    simp only [hz]
    simp
  rw [hone]
  unfold r2Spec
  split
  · rename_i hden
    have h1 : 0 ≤ ∑ k ∈ range nb.length, W.get i (nb.getD k 0) * (y.getD (nb.getD k 0) 0 -
        L.predict f ((X.row (nb.getD k 0)).set c (X.get (nb.getD (σ r k) 0) c))) ^ 2 :=
      sum_nonneg fun k hk => mul_nonneg
        (by obtain ⟨a, b⟩ := hin k (by simpa using hk); exact hw _ a b) (sq_nonneg _)
    have h2 : 0 ≤ ∑ k ∈ range nb.length, W.get i (nb.getD k 0) * (y.getD (nb.getD k 0) 0 -
        (∑ k ∈ range nb.length, W.get i (nb.getD k 0) * y.getD (nb.getD k 0) 0) /
          ∑ k ∈ range nb.length, W.get i (nb.getD k 0)) ^ 2 :=
      sum_nonneg fun k hk => mul_nonneg
        (by obtain ⟨a, b⟩ := hin k (by simpa using hk); exact hw _ a b) (sq_nonneg _)
    have := div_nonneg h1 h2
    linarith
  · split
    · exact le_refl 1
    · exact zero_le_one

/-- C84: row `i` depends only on the location's own estimator, its neighbours' rows and targets,
and its weights for them: data of other observations do not matter. -/
theorem C84_local {L : Learner K F} {g : PRng S} {seeds : Nat → S} {p p' : WMParams K C}
    {st st' : WMState K F C} {R : Nat} {M M' : List (List (Option K))}
    (h : importanceLocal L g seeds p st R = .ok M)
    (h' : importanceLocal L g seeds p' st' R = .ok M') {N N' : Nat} {es es' : List (Option F)}
    {X X' : Mat K} {y y' : List K} {W W' : Mat K} {B B' : Mat Bool}
    (hN : st.N = some N) (he : st.estimators = some es) (hX : st.X = some X) (hy : st.y = some y)
    (hW : st.weightMatrix = some (.dense W)) (hB : st.neighbourMatrix = some (.dense B))
    (hN' : st'.N = some N') (he' : st'.estimators = some es') (hX' : st'.X = some X')
    (hy' : st'.y = some y') (hW' : st'.weightMatrix = some (.dense W'))
    (hB' : st'.neighbourMatrix = some (.dense B')) (hr : X'.r = X.r) (hc : X'.c = X.c)
    (i : Nat) (hi : i < N) (hi' : i < N') (hes : es'.getD i none = es.getD i none)
    (hnb : ∀ k < X.r, B'.get i k = B.get i k)
    (hdata : ∀ k < X.r, B.get i k = true → W'.get i k = W.get i k ∧ y'.getD k 0 = y.getD k 0 ∧
      ∀ c < X.c, X'.get k c = X.get k c) :
    M'.getD i [] = M.getD i [] := by
  obtain ⟨-, h1⟩ := importanceLocal_ok h hN he hX hy hW hB
  obtain ⟨-, h2⟩ := importanceLocal_ok h' hN' he' hX' hy' hW' hB'
  obtain ⟨f, hf, -, e1⟩ := h1 i hi
  obtain ⟨f', hf', -, e2⟩ := h2 i hi'
  rw [hes, hf] at hf'
  injection hf' with hf'
  subst hf'
  have hn : neighboursOf B' X'.r i = neighboursOf B X.r i := by
    unfold neighboursOf
    rw [hr]
    exact List.filter_congr fun k hk => hnb k (by simpa using hk)
  have hm : ∀ k ∈ neighboursOf B X.r i, k < X.r ∧ B.get i k = true := by
    intro k hk
    simpa [neighboursOf] using hk
  have r1 : (neighboursOf B X.r i).map X'.row = (neighboursOf B X.r i).map X.row :=
    List.map_congr_left fun k hk => Mat.row_congr hc fun j hj =>
      (hdata k (hm k hk).1 (hm k hk).2).2.2 j (by omega)
  have r2 : ((neighboursOf B X.r i).map fun k => y'.getD k 0) =
      (neighboursOf B X.r i).map fun k => y.getD k 0 :=
    List.map_congr_left fun k hk => (hdata k (hm k hk).1 (hm k hk).2).2.1
  have r3 : (neighboursOf B X.r i).map (W'.get i) = (neighboursOf B X.r i).map (W.get i) :=
    List.map_congr_left fun k hk => (hdata k (hm k hk).1 (hm k hk).2).1
  rw [hn, r1, r2, r3, hc, e1] at e2
  injection e2 with e2
  exact e2.symm

/-- C84: the method is refused without cached data and estimators; with sparse matrices, and after
a fit on fewer locations than observations, it raises `IndexError`. -/
theorem C84_refused (L : Learner K F) (g : PRng S) (seeds : Nat → S) (p : WMParams K C)
    (st : WMState K F C) (R : Nat) :
    (p.cacheData = false ∨ p.cacheEstimator = false →
      importanceLocal L g seeds p st R = .error .exception) ∧
    (p.cacheData = true → p.cacheEstimator = true → ∀ N es X y,
      st.N = some N → st.estimators = some es → st.X = some X → st.y = some y → 0 < N →
      (∀ A A', st.weightMatrix = some (.sparse A) → st.neighbourMatrix = some (.sparse A') →
        importanceLocal L g seeds p st R = .error .indexError) ∧
      (∀ W B, st.weightMatrix = some (.dense W) → st.neighbourMatrix = some (.dense B) →
        es.length < N → importanceLocal L g seeds p st R = .error .indexError)) := by
  constructor
  · intro hc
    unfold importanceLocal
    rw [if_pos (by rcases hc with hc | hc <;> simp [hc])]
  · intro h1 h2 N es X y hN he hX hy hpos
    constructor
    · intro A A' hW hB
      unfold importanceLocal
      rw [if_neg (by simp [h1, h2]), hN, he, hX, hy, hW, hB]
      simp only
      rw [if_neg (by omega)]
    · intro W B hW hB hlt
      unfold importanceLocal
      rw [if_neg (by simp [h1, h2]), hN, he, hX, hy, hW, hB]
      simp only
      have hbad : importanceJob X y W B es es.length = .error .indexError := by
        unfold importanceJob
        rw [if_pos (.inl (le_refl _))]
      obtain ⟨e, hee⟩ := mapE_error_of_mem (f := importanceJob X y W B es) (l := List.range N)
        (a := es.length) (by simpa using hlt) ⟨_, hbad⟩
      have hidx : ∀ (l : List Nat) e, mapE (importanceJob X y W B es) l = .error e →
          e = .indexError := by
        intro l
        induction l with
        | nil => intro e h; simp [mapE] at h
        | cons a l ih =>
          intro e h
          unfold mapE at h
          cases ha : importanceJob X y W B es a with
          | error e' =>
            rw [ha] at h
            unfold importanceJob at ha
            split at ha
            · injection ha with ha
              injection h with h
              rw [← h, ← ha]
            · exact absurd ha (by simp)
          | ok v =>
            rw [ha] at h
            simp only at h
            cases hl : mapE (importanceJob X y W B es) l with
            | error e' =>
              rw [hl] at h
              injection h with h
              rw [← h]
              exact ih e' hl
            | ok vs => rw [hl] at h; exact absurd h (by simp)
      rw [hee, hidx _ _ hee]

/-- C84: with matrices that fit the data, an estimator for every location, and weights of the
neighbours that do not add up to zero, the method returns a result. -/
theorem C84_succeeds {L : Learner K F} {g : PRng S} (hg : g.Valid) (seeds : Nat → S)
    {p : WMParams K C} {st : WMState K F C} (R : Nat) {es : List (Option F)} {X : Mat K}
    {y : List K} {W : Mat K} {B : Mat Bool} (hN : st.N = some X.r) (he : st.estimators = some es)
    (hX : st.X = some X) (hy : st.y = some y) (hW : st.weightMatrix = some (.dense W))
    (hB : st.neighbourMatrix = some (.dense B)) (h1 : p.cacheData = true)
    (h2 : p.cacheEstimator = true) (hes : ∀ i < X.r, ∃ f, es[i]? = some (some f))
    (hyl : y.length = X.r) (hWr : W.r = X.r) (hWc : W.c = X.r) (hBr : B.r = X.r) (hBc : B.c = X.r)
    (hnb : ∀ i < X.r, ∃ k < X.r, B.get i k = true)
    (hsum : ∀ i < X.r, ∑ k ∈ (range X.r).filter (fun k => B.get i k = true), W.get i k ≠ 0) :
    ∃ M, importanceLocal L g seeds p st R = .ok M := by
  have hj : ∀ i ∈ List.range X.r, importanceJob X y W B es i = .ok (es.getD i none,
      (trueIdx B i).map X.row, (trueIdx B i).map fun k => y.getD k 0,
      (trueIdx B i).map (W.get i)) := by
    intro i hi
    have hi : i < X.r := by simpa using hi
    obtain ⟨f, hf⟩ := hes i hi
    have : i < es.length := (List.getElem?_eq_some_iff.1 hf).1
    unfold importanceJob
    rw [if_neg (by omega)]
  unfold importanceLocal
  rw [if_neg (by simp [h1, h2]), hN, he, hX, hy, hW, hB]
  simp only
  rw [mapE_of_forall hj]
  simp only
  apply mapE_exists
  intro ij hij
  obtain ⟨n, hn, rfl⟩ := List.getElem_of_mem hij
  have hn : n < X.r := by simpa using hn
  simp only [List.getElem_zip, List.getElem_range, List.getElem_map]
  obtain ⟨f, hf⟩ := hes n hn
  unfold runImportanceJob
  simp only [List.getD_eq_getElem?_getD, hf, Option.getD_some]
  have htr : trueIdx B n = neighboursOf B X.r n := by unfold trueIdx neighboursOf; rw [hBc]
  simp only [← List.getD_eq_getElem?_getD]
  rw [htr]
  have hne : neighboursOf B X.r n ≠ [] := by
    obtain ⟨k, hk, hb⟩ := hnb n hn
    exact List.ne_nil_of_mem (a := k) (by simp [neighboursOf, hk, hb])
  have hs : ((neighboursOf B X.r n).map (W.get n)).sum ≠ 0 := by
    have e : ((neighboursOf B X.r n).map (W.get n)).sum =
        ∑ k ∈ (range X.r).filter (fun k => B.get n k = true), W.get n k := by
      unfold neighboursOf
      rw [← List.sum_toFinset _ ((List.nodup_range).filter _)]
      congr 1
      ext k
      simp
    rw [e]
    exact hsum n hn
  generalize neighboursOf B X.r n = nb at hne hs ⊢
  unfold localImportance
  rw [if_neg (by simpa using hne)]
  have hsc : ∀ rows : List (List K), rows.length = nb.length →
      ∃ v, scoreRows L f rows (nb.map fun k => y.getD k 0) (nb.map (W.get n)) = .ok v := by
    intro rows hr
    unfold scoreRows weightedR2
    simp only [List.length_map, hr, ne_eq, not_true_eq_false, or_self, if_false, hs]
    split
    · exact ⟨_, rfl⟩
    · exact ⟨_, rfl⟩
  obtain ⟨b, hb⟩ := hsc (nb.map X.row) (by simp)
  rw [hb]
  simp only
  apply mapE_exists
  intro c hc
  have hc : c < X.c := by simpa using hc
  have hrows : ∀ r ∈ nb.map X.row, c < r.length := by
    intro r hr
    obtain ⟨k, -, rfl⟩ := List.mem_map.1 hr
    simpa [Mat.row] using hc
  have := shuffleScores_eq hg L f (nb.map fun k => y.getD k 0) (nb.map (W.get n)) (nb.map X.row) c
    hrows R (seeds n) (List.range (nb.map X.row).length) (List.Perm.refl _) id
  rw [permRows_id _ _ hrows] at this
  unfold featureImportance
  rw [this]
  obtain ⟨l, hl⟩ := mapE_exists (f := fun τ => scoreRows L f (permRows (nb.map X.row) c τ)
    (nb.map fun k => y.getD k 0) (nb.map (W.get n)))
    (l := sigmas g R (seeds n) (List.range (nb.map X.row).length) id)
    fun τ _ => hsc _ (by simp [permRows])
  rw [hl]
  exact ⟨_, rfl⟩

/-- A fitted model of three locations: the estimator adds the features and predicts its targets
exactly; the last feature is not used. Shuffling reverses. -/
def impState : WMState ℚ Unit Unit where
  isFitted := true
  N := some 3
  nFeatures := some 2
  X := some ⟨3, 2, fun i j => if j = 0 then i else 5⟩
  y := some [0, 1, 2]
  weightMatrix := some (.dense ⟨3, 3, fun i j => if i = j then 0 else 1 / 2⟩)
  neighbourMatrix := some (.dense ⟨3, 3, fun i j => decide (i ≠ j)⟩)
  estimators := some [some (), some (), some ()]

/-- The hypotheses of C84 hold for it, and the result is not trivial. -/
example : importanceLocal (F := Unit) ⟨fun _ _ _ _ => .ok (), fun _ r => r.getD 0 0⟩
    (⟨fun s n => ((List.range n).reverse, s)⟩ : PRng Unit) (fun _ => ())
    { cacheData := true, cacheEstimator := true, weights := fun _ _ => .error .exception } impState
    1 = .ok [[some 4, some 0], [some 4, some 0], [some 4, some 0]] := by decide +kernel

end Geo
