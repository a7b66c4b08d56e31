import Verif.Model.RoundedAle
import Verif.Props.RoundedGrid
import Verif.Props.RoundedMoran
set_option linter.unusedSectionVars false
/-
C182: effect curves in floating point.
-/
namespace Geo
section
variable {K : Type} [Field K] [LinearOrder K] [IsStrictOrderedRing K] {a : Arith K}
variable {shape : List (Num K) → SumTree K}

/-- if it is finite, it is a float -/
def Num.IsFl (a : Arith K) (z : Num K) : Prop := ∀ x, z = .fin x → a.Float x

theorem rnd_isFl (ha : a.Ok) (z : Num K) : (Num.rnd a.op z).IsFl a := by
  intro x hx
  cases z with
  | fin y => exact ha.op_float y x hx
  | pinf => cases hx
  | ninf => cases hx
  | nan => cases hx

/-- a later value of a curve that does not fall: NaN, or not smaller -/
def Num.Up (x y : Num K) : Prop := y = .nan ∨ Num.le x y

theorem add_up (ha : a.Ok) {s x : Num K} (hs : s.NotNeg) (hf : s.IsFl a) (hx : x.NotNeg) :
    s.Up (Num.rnd a.op (.add s x)) := by
  rcases hs with rfl | rfl | ⟨u, rfl, hu⟩ <;> rcases hx with rfl | rfl | ⟨v, rfl, hv⟩
  · exact .inl rfl
  · exact .inl rfl
  · exact .inl rfl
  · exact .inl rfl
  · exact .inr trivial
  · exact .inr trivial
  · exact .inl rfl
  · exact .inr trivial
  · refine .inr ?_
    have := ha.op.mono u (u + v) (by linarith)
    rw [hf u rfl] at this
    exact this

theorem cumsum_up (ha : a.Ok) (l : List (Num K)) (hl : ∀ x ∈ l, x.NotNeg) (s : Num K) (hs : s.NotNeg) (hf : s.IsFl a) :
    (s :: cumsumFromR a s l).IsChain Num.Up ∧ ∀ x ∈ cumsumFromR a s l, x.NotNeg := by
  induction l generalizing s with
  | nil => exact ⟨.singleton _, by simp [cumsumFromR]⟩
  | cons x l ih =>
    have hx := hl x (by simp)
    have h := ih (fun y hy => hl y (by simp [hy])) (Num.rnd a.op (.add s x)) (addR_notNeg ha hs hx) (rnd_isFl ha _)
    refine ⟨.cons_cons (add_up ha hs hf hx) h.1, ?_⟩
    intro y hy
    rcases List.mem_cons.1 hy with rfl | hy
    · exact addR_notNeg ha hs hx
    · exact h.2 y hy

theorem accumulate_up (ha : a.Ok) (avg : List (Num K)) (h : ∀ x ∈ avg, x.NotNeg ∧ x.IsFl a) :
    (accumulateR a avg).IsChain Num.Up ∧ ∀ x ∈ accumulateR a avg, x.NotNeg := by
  have h0 : (Num.fin (0 : K)).NotNeg := .inr (.inr ⟨0, rfl, le_rfl⟩)
  cases avg with
  | nil => exact ⟨.singleton _, by simpa [accumulateR] using h0⟩
  | cons x l =>
    have hx := h x (by simp)
    have hc := cumsum_up ha l (fun y hy => (h y (by simp [hy])).1) x hx.1 hx.2
    constructor
    · refine .cons_cons ?_ hc.1
      rcases hx.1 with rfl | rfl | ⟨v, rfl, hv⟩
      · exact .inl rfl
      · exact .inr trivial
      · exact .inr hv
    · intro y hy
      rcases List.mem_cons.1 hy with rfl | hy
      · exact h0
      · rcases List.mem_cons.1 hy with rfl | hy
        · exact hx.1
        · exact hc.2 y hy

/-- a curve that does not fall has finite values if the last one is finite -/
theorem up_finite (l : List (Num K)) (hc : l.IsChain Num.Up) (hn : ∀ x ∈ l, x.NotNeg) (hne : l ≠ [])
    (v : K) (hv : l.getLast hne = .fin v) : ∀ x ∈ l, ∃ u, x = .fin u := by
  induction l with
  | nil => exact absurd rfl hne
  | cons x l ih =>
    cases l with
    | nil =>
      intro y hy
      rw [List.mem_singleton.1 hy]
      exact ⟨v, hv⟩
    | cons y l =>
      rw [List.isChain_cons_cons] at hc
      have h := ih hc.2 (fun z hz => hn z (by simp [hz])) (by simp) (by simpa using hv)
      intro z hz
      rcases List.mem_cons.1 hz with rfl | hz
      · obtain ⟨u, rfl⟩ := h y (by simp)
        rcases hn z (by simp) with rfl | rfl | ⟨w, rfl, -⟩
        · rcases hc.1 with h | h
          · cases h
          · exact h.elim
        · rcases hc.1 with h | h
          · cases h
          · exact h.elim
        · exact ⟨w, rfl⟩
      · exact h z hz

theorem add_const_up (ha : a.Ok) {x y c : Num K} (h : x.Up y) :
    Num.rnd a.op (.add x c) = .nan ∨ (Num.rnd a.op (.add x c)).Up (Num.rnd a.op (.add y c)) := by
  have top : ∀ z : Num K, z ≠ .nan → Num.le z .pinf := by
    intro z hz
    cases z with
    | nan => exact absurd rfl hz
    | _ => trivial
  have bot : ∀ z : Num K, z ≠ .nan → Num.le .ninf z := by
    intro z hz
    cases z with
    | nan => exact absurd rfl hz
    | _ => trivial
  cases x <;> cases y <;> cases c <;>
    first
    | exact .inl rfl
    | exact .inr (.inl rfl)
    | exact .inr (.inr trivial)
    | exact .inr (.inr (top _ (op_ne_nan ha _)))
    | exact .inr (.inr (bot _ (op_ne_nan ha _)))
    | exact (h.elim (fun h => by cases h) fun h => h.elim)
    | skip
  rename_i u v w
  rcases h with h | h
  · cases h
  · exact .inr (.inr (ha.op.mono _ _ (by have : u ≤ v := h; linarith)))

theorem sumR_notNeg (ha : a.Ok) (hs : SumsAll shape) (ws : List (Num K)) (h : ∀ z ∈ ws, z.NotNeg) :
    (sumR a shape ws).NotNeg := by
  unfold sumR
  split_ifs with h0
  · exact .inr (.inr ⟨0, rfl, le_rfl⟩)
  · exact SumTree.value_notNeg ha _ fun z hz => h z ((hs _ h0).mem_iff.1 hz)

theorem npAverageR_notNeg (ha : a.Ok) (hs : SumsAll shape) {xs ws : List (Num K)} {v : Num K}
    (hx : ∀ z ∈ xs, z.NotNeg) (hw : ∀ z ∈ ws, z.NotNeg) (h : npAverageR a shape xs ws = .ok v) :
    v.NotNeg ∧ v.IsFl a := by
  unfold npAverageR at h
  split_ifs at h with h0
  cases h
  refine ⟨divR_notNeg ha (sumR_notNeg ha hs _ fun z hz => ?_) (sumR_notNeg ha hs _ hw), rnd_isFl ha _⟩
  obtain ⟨i, hi, rfl⟩ := List.getElem_of_mem hz
  rw [List.getElem_zipWith]
  exact mulR_notNeg ha (hx _ (List.getElem_mem _)) (hw _ (List.getElem_mem _))

/-- the shape of a curve that does not fall -/
structure Rising (ale : List (Num K)) : Prop where
  step : ale.IsChain fun x y => x = .nan ∨ y = .nan ∨ Num.le x y
  last : ∀ (hne : ale ≠ []) (v : K), ale.getLast hne = .fin v → ale.IsChain Num.le ∧ ∀ x ∈ ale, x ≠ .nan

theorem add_fin_fin {x c : Num K} {v : K} (h : Num.rnd a.op (.add x c) = .fin v) :
    (∃ u, x = .fin u) ∧ ∃ w, c = .fin w := by
  cases x <;> cases c <;> first | exact ⟨⟨_, rfl⟩, ⟨_, rfl⟩⟩ | cases h

theorem rising_of_up (ha : a.Ok) {accum : List (Num K)} (hc : accum.IsChain Num.Up)
    (hn : ∀ x ∈ accum, x.NotNeg) (c : Num K) : Rising (accum.map fun x => Num.rnd a.op (.add x c)) := by
  constructor
  · rw [List.isChain_map]
    refine hc.imp fun x y h => ?_
    rcases add_const_up (c := c) ha h with h | h | h
    · exact .inl h
    · exact .inr (.inl h)
    · exact .inr (.inr h)
  · intro hne v hv
    have hne' : accum ≠ [] := by simpa using hne
    rw [List.getLast_map] at hv
    obtain ⟨⟨u, hu⟩, w, rfl⟩ := add_fin_fin hv
    have hfin := up_finite accum hc hn hne' u hu
    constructor
    · rw [List.isChain_map]
      have h2 : accum.IsChain fun x y => Num.Up x y ∧ (∃ u, x = .fin u) ∧ ∃ u, y = .fin u := by
        clear hv hne hu hne'
        induction accum with
        | nil => exact .nil
        | cons x l ih =>
          cases l with
          | nil => exact .singleton _
          | cons y l =>
            rw [List.isChain_cons_cons] at hc ⊢
            exact ⟨⟨hc.1, hfin x (by simp), hfin y (by simp)⟩,
              ih hc.2 (fun z hz => hn z (by simp [hz])) (fun z hz => hfin z (by simp [hz]))⟩
      refine h2.imp fun x y h => ?_
      obtain ⟨h, ⟨x, rfl⟩, y, rfl⟩ := h
      rcases h with h | h
      · cases h
      · exact ha.op.mono _ _ (by have : x ≤ y := h; linarith)
    · intro z hz
      obtain ⟨x, hx, rfl⟩ := List.mem_map.1 hz
      obtain ⟨x, rfl⟩ := hfin x hx
      exact op_ne_nan ha _

theorem aleWeightedR_ok {idx : List Nat} {low high : Nat → K} {weights : Option (List K)} {normalize : Bool}
    {ale : List (Num K)} (h : aleWeightedR a shape idx low high weights normalize = .ok ale) :
    ∃ (w : List K) (base : Num K) (avg : List (Num K)), weights = some w ∧ idx ≠ [] ∧
      List.Forall₂ (fun k v => npAverageR a shape
        ((members idx k).map fun i => Num.rnd a.op (.sub (.fin (high i)) (.fin (low i))))
        ((members idx k).map fun i => .fin (w.getD i 0)) = .ok v) (uniqueL idx) avg ∧
      aleFinishR a shape normalize base (bincount idx) (accumulateR a avg) = .ok ale := by
  unfold aleWeightedR at h
  cases weights with
  | none => cases h
  | some w =>
    simp only at h
    split_ifs at h with h1
    split at h
    · cases h
    · rename_i base hb
      split at h
      · cases h
      · rename_i avg havg
        refine ⟨w, base, avg, rfl, ?_, mapE_ok_iff.1 havg, h⟩
        rintro rfl
        simp [members, npAverageR, sumR] at hb

theorem getD_nonneg {w : List K} (hw : ∀ x ∈ w, 0 ≤ x) (i : Nat) : 0 ≤ w.getD i 0 := by
  rw [List.getD_eq_getElem?_getD]
  cases h : w[i]? with
  | none => exact le_rfl
  | some x => exact hw x (List.mem_of_getElem? h)

theorem aleFinishR_rising (ha : a.Ok) {avg : List (Num K)} (hav : ∀ v ∈ avg, v.NotNeg ∧ v.IsFl a)
    {normalize : Bool} {base : Num K} {counts : List Nat} {ale : List (Num K)}
    (hfin : aleFinishR a shape normalize base counts (accumulateR a avg) = .ok ale) : Rising ale := by
  have hup := accumulate_up ha avg hav
  unfold aleFinishR at hfin
  split_ifs at hfin with hnorm hlen
  · cases hfin
    exact rising_of_up ha hup.1 hup.2 (meanEffectR a shape (accumulateR a avg) counts).neg
  · cases hfin
    exact rising_of_up ha hup.1 hup.2 base

theorem aleWeightedR_rising (ha : a.Ok) (hs : SumsAll shape) {idx : List Nat} {low high : Nat → K}
    {w : List K} {normalize : Bool} {ale : List (Num K)} (hw : ∀ x ∈ w, 0 ≤ x) (hlh : ∀ i, low i ≤ high i)
    (h : aleWeightedR a shape idx low high (some w) normalize = .ok ale) : Rising ale := by
  obtain ⟨w', base, avg, hw', -, havg, hfin⟩ := aleWeightedR_ok h
  cases hw'
  have hav : ∀ v ∈ avg, v.NotNeg ∧ v.IsFl a := by
    intro v hv
    obtain ⟨i, hi, rfl⟩ := List.getElem_of_mem hv
    have := (List.forall₂_iff_get.1 havg).2 i (by rw [havg.length_eq]; exact hi) hi
    refine npAverageR_notNeg ha hs ?_ ?_ this
    · intro z hz
      obtain ⟨j, -, rfl⟩ := List.mem_map.1 hz
      exact .inr (ha.op.nonneg (by have := hlh j; linarith))
    · intro z hz
      obtain ⟨j, -, rfl⟩ := List.mem_map.1 hz
      exact .inr (.inr ⟨_, rfl, getD_nonneg hw j⟩)
  exact aleFinishR_rising ha hav hfin

theorem npAverageR_zero (ha : a.Ok) (hs : SumsAll shape) {xs ws : List (Num K)} {v : Num K}
    (hx : ∀ z ∈ xs, z = .fin 0) (hw : ∀ z ∈ ws, ∃ x, z = .fin x ∧ 0 ≤ x) (h : npAverageR a shape xs ws = .ok v) :
    v = .fin 0 := by
  unfold npAverageR at h
  split_ifs at h with h0
  cases h
  have h1 : sumR a shape (List.zipWith (fun x w => Num.rnd a.op (.mul x w)) xs ws) = .fin 0 := by
    unfold sumR
    split_ifs with h2
    · rfl
    · refine SumTree.value_zero ha _ fun z hz => ?_
      have hz := (hs _ h2).mem_iff.1 hz
      obtain ⟨i, hi, rfl⟩ := List.getElem_of_mem hz
      rw [List.getElem_zipWith, hx _ (List.getElem_mem _)]
      obtain ⟨x, hx, -⟩ := hw _ (List.getElem_mem (by rw [List.length_zipWith] at hi; omega : i < ws.length))
      rw [hx]
      simp [Num.mul, Num.rnd, ha.op.zero]
  rw [h1]
  have h2 : (sumR a shape ws).NonNeg := by
    unfold sumR at h0 ⊢
    split_ifs with h2
    · exact .inr ⟨0, rfl, le_rfl⟩
    · exact SumTree.value_nonneg ha _ fun z hz => .inr (hw z ((hs _ h2).mem_iff.1 hz))
  rcases h2 with h2 | ⟨y, h2, -⟩
  · rw [h2]
    exact ha.op.zero
  · rw [h2] at h0 ⊢
    have hy : y ≠ 0 := fun e => h0 (by rw [e])
    simp [Num.div, hy, Num.rnd, ha.op.zero]

theorem cumsumFromR_zero (ha : a.Ok) (l : List (Num K)) (h : ∀ x ∈ l, x = .fin 0) :
    ∀ x ∈ cumsumFromR a (.fin 0) l, x = .fin 0 := by
  induction l with
  | nil => simp [cumsumFromR]
  | cons y l ih =>
    have hy : Num.rnd a.op (.add (.fin 0) y) = .fin 0 := by
      rw [h y (by simp)]
      simp [Num.add, Num.rnd, ha.op.zero]
    intro x hx
    rw [cumsumFromR, hy] at hx
    rcases List.mem_cons.1 hx with rfl | hx
    · rfl
    · exact ih (fun z hz => h z (by simp [hz])) x hx

theorem accumulateR_zero (ha : a.Ok) (avg : List (Num K)) (h : ∀ x ∈ avg, x = .fin 0) :
    ∀ x ∈ accumulateR a avg, x = .fin 0 := by
  cases avg with
  | nil => simp [accumulateR]
  | cons y l =>
    intro x hx
    rw [accumulateR, h y (by simp)] at hx
    rcases List.mem_cons.1 hx with rfl | hx
    · rfl
    · rcases List.mem_cons.1 hx with rfl | hx
      · rfl
      · exact cumsumFromR_zero ha l (fun z hz => h z (by simp [hz])) x hx

theorem aleFinishR_flat (ha : a.Ok) (hs : SumsAll shape) {idx : List Nat} (hidx : idx ≠ []) {avg : List (Num K)}
    (hav : ∀ v ∈ avg, v = .fin 0) {normalize : Bool} {base : Num K} {ale : List (Num K)}
    (hfin : aleFinishR a shape normalize base (bincount idx) (accumulateR a avg) = .ok ale) :
    ∃ b, (∀ x ∈ ale, x = b) ∧ (normalize = true → b = .fin 0) := by
  have hac := accumulateR_zero ha avg hav
  unfold aleFinishR at hfin
  split_ifs at hfin with hnorm hlen
  · cases hfin
    have hme : meanEffectR a shape (accumulateR a avg) (bincount idx) = .fin 0 := by
      have h1 : sumR a shape (List.zipWith (fun s (c : Nat) => Num.rnd a.op (.mul s (.fin (c : K))))
          (List.zipWith (fun x y => Num.rnd a.op (.mul (.fin (1 / 2)) (Num.rnd a.op (.add x y))))
            (accumulateR a avg).dropLast ((accumulateR a avg).drop 1))
          ((bincount idx).drop 1)) = .fin 0 := by
        unfold sumR
        split_ifs with h2
        · rfl
        · refine SumTree.value_zero ha _ fun z hz => ?_
          have hz := (hs _ h2).mem_iff.1 hz
          obtain ⟨i, hi, rfl⟩ := List.getElem_of_mem hz
          rw [List.getElem_zipWith, List.getElem_zipWith,
            hac _ (List.mem_of_mem_dropLast (List.getElem_mem _)), hac _ (List.mem_of_mem_drop (List.getElem_mem _))]
          simp [Num.add, Num.mul, Num.rnd, ha.op.zero]
      have hn : (((bincount idx).sum : Nat) : K) ≠ 0 := by
        rw [sum_bincount]
        exact Nat.cast_ne_zero.2 (List.length_pos_iff.2 hidx).ne'
      rw [meanEffectR, h1]
      simp only [Num.div, hn, if_false, zero_div, Num.rnd, ha.op.zero]
    refine ⟨.fin 0, fun x hx => ?_, fun _ => rfl⟩
    obtain ⟨y, hy, rfl⟩ := List.mem_map.1 hx
    rw [hac y hy, hme]
    simp [Num.sub, Num.neg, Num.add, Num.rnd, ha.op.zero]
  · cases hfin
    refine ⟨Num.rnd a.op (.add (.fin 0) base), fun x hx => ?_, fun hn => absurd hn hnorm⟩
    obtain ⟨y, hy, rfl⟩ := List.mem_map.1 hx
    rw [hac y hy]

theorem aleWeightedR_flat (ha : a.Ok) (hs : SumsAll shape) {idx : List Nat} {low high : Nat → K}
    {w : List K} {normalize : Bool} {ale : List (Num K)} (hw : ∀ x ∈ w, 0 ≤ x) (hlh : ∀ i, low i = high i)
    (h : aleWeightedR a shape idx low high (some w) normalize = .ok ale) :
    ∃ b, (∀ x ∈ ale, x = b) ∧ (normalize = true → b = .fin 0) := by
  obtain ⟨w', base, avg, hw', hidx, havg, hfin⟩ := aleWeightedR_ok h
  cases hw'
  have hav : ∀ v ∈ avg, v = .fin 0 := by
    intro v hv
    obtain ⟨i, hi, rfl⟩ := List.getElem_of_mem hv
    have := (List.forall₂_iff_get.1 havg).2 i (by rw [havg.length_eq]; exact hi) hi
    refine npAverageR_zero ha hs ?_ ?_ this
    · intro z hz
      obtain ⟨j, -, rfl⟩ := List.mem_map.1 hz
      rw [hlh j]
      simp [Num.sub, Num.neg, Num.add, Num.rnd, ha.op.zero]
    · intro z hz
      obtain ⟨j, -, rfl⟩ := List.mem_map.1 hz
      exact ⟨_, rfl, getD_nonneg hw j⟩
  exact aleFinishR_flat ha hs hidx hav hfin

theorem lookups_le {q : List K} (hq : q.Pairwise (· < ·)) {idx : List Nat} {lows highs : List K}
    (h1 : mapE (fun i => pyGet q (i - 1)) idx = .ok lows) (h2 : mapE (fun i => pyGet q i) idx = .ok highs) (i : Nat) :
    lows.getD i 0 ≤ highs.getD i 0 := by
  have f1 := List.forall₂_iff_get.1 (mapE_ok_iff.1 h1)
  have f2 := List.forall₂_iff_get.1 (mapE_ok_iff.1 h2)
  by_cases hi : i < idx.length
  · have g1 := f1.2 i hi (by rw [← f1.1]; exact hi)
    have g2 := f2.2 i hi (by rw [← f2.1]; exact hi)
    rw [List.getD_eq_getElem _ _ (by rw [← f1.1]; exact hi), List.getD_eq_getElem _ _ (by rw [← f2.1]; exact hi)]
    simp only [List.get_eq_getElem] at g1 g2
    generalize lows[i] = u at g1
    generalize highs[i] = v at g2
    unfold pyGet at g1 g2
    split at g1
    · rename_i u' hu
      cases g1
      split at g2
      · rename_i v' hv
        cases g2
        obtain ⟨l1, e1⟩ := List.getElem?_eq_some_iff.1 hu
        obtain ⟨l2, e2⟩ := List.getElem?_eq_some_iff.1 hv
        rw [← e1, ← e2]
        rcases Nat.eq_or_lt_of_le (Nat.sub_le idx[i] 1) with e | e
        · simp [e]
        · exact (List.pairwise_iff_getElem.1 hq _ _ l1 l2 e).le
      · cases g2
    · cases g1
  · rw [List.getD_eq_default _ _ (by rw [← f1.1]; omega), List.getD_eq_default _ _ (by rw [← f2.1]; omega)]

end

section
variable {K : Type} [Field K] [LinearOrder K] [IsStrictOrderedRing K] [FloorRing K]
variable {F : Fmt} {shape : List (Num K) → SumTree K}

theorem weightedAleR_ok {X : Mat K} {feature : Nat} {pred : List K → K} {weights : Option (List K)}
    {normalize : Bool} {m : ℤ} {q : List K} {ale : List (Num K)}
    (h : weightedAleR F shape X feature pred weights normalize m = .ok (q, ale)) :
    ∃ lows highs : List K, (∀ i, lows.getD i 0 ≤ highs.getD i 0) ∧
      aleWeightedR F.arith shape (aleIdx q (X.col feature)) (fun i => pred (withFeature X feature lows i))
        (fun i => pred (withFeature X feature highs i)) weights normalize = .ok ale := by
  unfold weightedAleR at h
  split_ifs at h
  split at h
  · cases h
  · rename_i q' n hq
    split at h
    · cases h
    · rename_i lows h1
      split at h
      · cases h
      · rename_i highs h2
        have hsorted : q'.Pairwise (· < ·) := by
          unfold adaptiveGridR at hq
          split at hq
          · cases hq
          · split at hq
            · cases hq
            · cases hq
              exact uniqueL_pairwise _
        cases hr : aleWeightedR F.arith shape (aleIdx q' (X.col feature))
            (fun i => pred (withFeature X feature lows i))
            (fun i => pred (withFeature X feature highs i)) weights normalize with
        | error e => rw [hr] at h; cases h
        | ok ale' =>
          rw [hr] at h
          cases h
          exact ⟨lows, highs, lookups_le hsorted h1 h2, hr⟩

/-- C182: a feature the predictor ignores. In every IEEE format and order of summation its curve is exactly flat,
and exactly zero if normalised, for all weights that are not negative. -/
theorem C182_flat (hF : F.Ok) (hs : SumsAll shape) (X : Mat K) (feature : Nat) (pred : List K → K) (w : List K)
    (hw : ∀ x ∈ w, 0 ≤ x) (normalize : Bool) (m : ℤ)
    (hp : ∀ (row : List K) (u v : K), pred (row.set feature u) = pred (row.set feature v)) (q : List K)
    (ale : List (Num K)) (h : weightedAleR F shape X feature pred (some w) normalize m = .ok (q, ale)) :
    ∃ b, (∀ x ∈ ale, x = b) ∧ (normalize = true → b = .fin 0) := by
  obtain ⟨lows, highs, -, hr⟩ := weightedAleR_ok h
  exact aleWeightedR_flat (Fmt.arith_ok hF) hs hw (fun i => hp _ _ _) hr

/-- C182: monotone predictors. If the predictor never falls in the feature, neither does the curve, in every IEEE
format and order of summation and for all weights that are not negative: each value is at most the next one unless
one of the two is NaN, and if the last value is finite none is NaN. -/
theorem C182_monotone (hF : F.Ok) (hs : SumsAll shape) (X : Mat K) (feature : Nat) (pred : List K → K) (w : List K)
    (hw : ∀ x ∈ w, 0 ≤ x) (normalize : Bool) (m : ℤ)
    (hp : ∀ (row : List K) (u v : K), u ≤ v → pred (row.set feature u) ≤ pred (row.set feature v)) (q : List K)
    (ale : List (Num K)) (h : weightedAleR F shape X feature pred (some w) normalize m = .ok (q, ale)) :
    ale.IsChain (fun x y => x = .nan ∨ y = .nan ∨ Num.le x y) ∧
    ∀ (hne : ale ≠ []) (v : K), ale.getLast hne = .fin v → ale.IsChain Num.le ∧ ∀ x ∈ ale, x ≠ .nan := by
  obtain ⟨lows, highs, hle, hr⟩ := weightedAleR_ok h
  have := aleWeightedR_rising (Fmt.arith_ok hF) hs hw (fun i => hp _ _ _ (hle i)) hr
  exact ⟨this.step, this.last⟩

end

section
variable {K : Type} [Field K] [LinearOrder K] [IsStrictOrderedRing K]

theorem sumR_exact (us : List K) : sumR exactArith leftTree (us.map Num.fin) = .fin us.sum := by
  unfold sumR
  split_ifs with h
  · rw [List.map_eq_nil_iff.1 h, List.sum_nil]
  · exact leftTree_exact us

theorem npAverageR_exact (xs ws : List K) :
    npAverageR exactArith leftTree (xs.map Num.fin) (ws.map Num.fin) = (npAverage xs ws).map Num.fin := by
  unfold npAverageR npAverage
  have h : List.zipWith (fun x w => Num.rnd (exactArith : Arith K).op (.mul x w)) (xs.map Num.fin) (ws.map Num.fin) =
      (List.zipWith (· * ·) xs ws).map Num.fin := by
    rw [List.zipWith_map, List.map_zipWith]
    rfl
  rw [sumR_exact, h, sumR_exact]
  by_cases h0 : ws.sum = 0
  · simp [h0, Except.map]
  · simp [h0, Except.map, Num.div, rnd_exact]

theorem mapE_except_map {α β γ : Type} (f : α → Except Err β) (g : β → γ) (l : List α) :
    mapE (fun x => (f x).map g) l = (mapE f l).map (List.map g) := by
  induction l with
  | nil => rfl
  | cons x l ih =>
    simp only [mapE]
    cases f x with
    | error e => rfl
    | ok b =>
      simp only [Except.map] at ih ⊢
      rw [ih]
      cases mapE f l <;> rfl

theorem cumsumFromR_exact (s : K) (l : List K) :
    cumsumFromR exactArith (.fin s) (l.map Num.fin) = (cumsumFrom s l).map Num.fin := by
  induction l generalizing s with
  | nil => rfl
  | cons x l ih => 
    rw [List.map_cons, cumsumFromR, cumsumFrom, List.map_cons, ← ih]
    rfl

theorem accumulateR_exact (l : List K) :
    accumulateR exactArith (l.map Num.fin) = (accumulate l).map Num.fin := by
  cases l with
  | nil => rfl
  | cons x l =>
    rw [accumulate, cumsumFrom, List.map_cons, List.map_cons, accumulateR, List.map_cons, zero_add,
      cumsumFromR_exact]

theorem aleFinishR_exact (q : List K) (normalize : Bool) (base : K) (counts : List Nat) (accum : List K)
    (hc : ((counts.sum : Nat) : K) ≠ 0) :
    aleFinishR exactArith leftTree normalize (.fin base) counts (accum.map Num.fin) =
      (aleFinish q normalize base counts accum).map fun r => r.2.map Num.fin := by
  unfold aleFinishR aleFinish centre
  cases normalize with
  | false =>
    simp only [Bool.false_eq_true, if_false, Except.map, List.map_map]
    rfl
  | true =>
    simp only [if_true, List.length_map]
    by_cases h : accum.length - 1 ≠ counts.length - 1
    · simp [h, Except.map]
    · simp only [h, if_false, Except.map, List.map_map]
      congr 1
      refine List.map_congr_left fun x _ => ?_
      have h1 : List.zipWith (fun s (c : Nat) => Num.rnd (exactArith : Arith K).op (.mul s (.fin (c : K))))
          (List.zipWith (fun x y => Num.rnd (exactArith : Arith K).op (.mul (.fin (1 / 2))
            (Num.rnd (exactArith : Arith K).op (.add x y)))) (accum.map Num.fin).dropLast ((accum.map Num.fin).drop 1))
          (counts.drop 1) =
          (List.zipWith (fun s (c : Nat) => s * (c : K))
            (List.zipWith (fun a b => 1 / 2 * (a + b)) accum.dropLast (accum.drop 1)) (counts.drop 1)).map Num.fin := by
        rw [← List.map_dropLast, ← List.map_drop, List.zipWith_map, List.map_zipWith]
        have h2 : List.zipWith (fun x y => Num.rnd (exactArith : Arith K).op (.mul (.fin (1 / 2))
            (Num.rnd (exactArith : Arith K).op (.add (Num.fin x) (Num.fin y))))) accum.dropLast (accum.drop 1) =
            (List.zipWith (fun a b => 1 / 2 * (a + b)) accum.dropLast (accum.drop 1)).map Num.fin := by
          rw [List.map_zipWith]
          rfl
        rw [h2, List.zipWith_map_left]
        rfl
      rw [Function.comp, Function.comp, meanEffectR, h1, sumR_exact]
      simp only [rnd_exact, Num.div, hc, if_false, Num.sub, Num.neg, Num.add, sub_eq_add_neg]

/-- C182: with exact arithmetic, and sums from left to right, the rounded curve is that of C60 to C62. -/
theorem C182_exact (q : List K) (idx : List Nat) (low high : Nat → K) (weights : Option (List K)) (normalize : Bool) :
    aleWeightedR exactArith leftTree idx low high weights normalize =
      (aleWeighted q idx low high weights normalize).map fun r => r.2.map Num.fin := by
  unfold aleWeightedR aleWeighted
  cases weights with
  | none => rfl
  | some w =>
    by_cases hl : w.length ≠ idx.length
    · simp [hl, Except.map]
    · simp only [hl, if_false]
      have hb : npAverageR exactArith leftTree ((members idx 1).map fun i => Num.fin (low i))
          ((members idx 1).map fun i => Num.fin (w.getD i 0)) =
          (npAverage ((members idx 1).map low) ((members idx 1).map fun i => w.getD i 0)).map Num.fin := by
        rw [← npAverageR_exact, List.map_map, List.map_map]
        rfl
      have hg : mapE (fun k => npAverageR exactArith leftTree
            ((members idx k).map fun i => Num.rnd (exactArith : Arith K).op (.sub (.fin (high i)) (.fin (low i))))
            ((members idx k).map fun i => Num.fin (w.getD i 0))) (uniqueL idx) =
          (groupAverages idx (fun i => high i - low i) (fun i => w.getD i 0)).map (List.map Num.fin) := by
        rw [groupAverages, ← mapE_except_map]
        congr 1
        funext k
        rw [← npAverageR_exact, List.map_map, List.map_map]
        congr 1
        refine List.map_congr_left fun i _ => ?_
        simp [Num.sub, Num.neg, Num.add, rnd_exact, sub_eq_add_neg]
      rw [hb, hg]
      cases hb' : npAverage ((members idx 1).map low) ((members idx 1).map fun i => w.getD i 0) with
      | error e => rfl
      | ok base =>
        cases hg' : groupAverages idx (fun i => high i - low i) (fun i => w.getD i 0) with
        | error e => rfl
        | ok avg =>
          simp only [Except.map]
          rw [accumulateR_exact]
          refine aleFinishR_exact q normalize base (bincount idx) _ ?_
          rw [sum_bincount]
          refine Nat.cast_ne_zero.2 fun h => ?_
          rw [List.length_eq_zero_iff.1 h] at hb'
          simp [members, npAverage] at hb'

end

/-- Twelve observations of one feature, 0 to 11. -/
def twelve : Mat ℚ := ⟨12, 1, fun i _ => (i : ℚ)⟩

/-- A predictor with a single step of 0.1 at 5. -/
def oneStep (row : List ℚ) : ℚ := if row.getD 0 0 ≤ 5 then 0 else tenth

/-- C182: effects are recovered up to rounding only. In double precision and with equal weights the curve of a
single step of 0.1 (a function of the feature alone, for which C60 says that the curve is the effect) ends one unit
in the last place below 0.1. -/
theorem C182_effect_rounded :
    (double.arith : Arith ℚ).Float tenth ∧
    (weightedAle twelve 0 oneStep (some (List.replicate 12 1)) false 5).toOption = some ([0, 11 / 2, 11], [0, tenth, tenth]) ∧
    (weightedAleR double leftTree twelve 0 oneStep (some (List.replicate 12 1)) false 5).toOption =
      some ([0, 11 / 2, 11], [.fin 0, .fin (tenth - 1 / 2 ^ 56), .fin (tenth - 1 / 2 ^ 56)]) := by
  refine ⟨?_, by decide +kernel, by decide +kernel⟩
  show double.toNum tenth = .fin tenth
  decide +kernel

/-- `C182_monotone` and `C182_flat` apply to these observations. -/
example : (∀ (row : List ℚ) (u v : ℚ), u ≤ v → oneStep (row.set 0 u) ≤ oneStep (row.set 0 v)) ∧
    SumsAll (leftTree : List (Num ℚ) → SumTree ℚ) ∧
    (weightedAleR double leftTree twelve 0 (fun _ => tenth) (some (List.replicate 12 tenth)) true 5).toOption =
      some ([0, 11 / 2, 11], [.fin 0, .fin 0, .fin 0]) := by
  refine ⟨?_, (C175_ieee double double_ok).2.2.1, by decide +kernel⟩
  intro row u v h
  have ht : (0 : ℚ) ≤ tenth := by norm_num [tenth]
  unfold oneStep
  cases row with
  | nil => simp
  | cons x l =>
    simp only [List.set_cons_zero, List.getD_cons_zero]
    split_ifs with h1 h2 h2
    · exact le_rfl
    · exact ht
    · exact absurd (h.trans h2) h1
    · exact le_rfl

end Geo
