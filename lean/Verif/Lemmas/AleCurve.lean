import Verif.Props.Ale
import Mathlib.Tactic.FieldSimp
/-
Facts about the accumulated effects.
-/
set_option linter.unusedSectionVars false
namespace Geo
variable {K : Type} [Field K] [LinearOrder K] [IsStrictOrderedRing K] [FloorRing K] {F C S : Type}

theorem zipWith_range {α β γ : Type} (f : α → β → γ) {l : List α} {l' : List β} {n : Nat}
    (h : l.length = n) (h' : l'.length = n) (d : α) (d' : β) :
    List.zipWith f l l' = (List.range n).map fun k => f (l.getD k d) (l'.getD k d') := by
  apply List.ext_getElem
  · simp [h, h']
  · intro k h1 h2
    simp only [List.length_map, List.length_range] at h2
    rw [List.getElem_zipWith, List.getElem_map, List.getElem_range,
      List.getD_eq_getElem _ _ (by omega : k < l.length),
      List.getD_eq_getElem _ _ (by omega : k < l'.length)]

theorem cumsumFrom_length (a : K) (l : List K) : (cumsumFrom a l).length = l.length := by
  induction l generalizing a with
  | nil => rfl
  | cons x l ih => simp [cumsumFrom, ih]

theorem accumulate_length (l : List K) : (accumulate l).length = l.length + 1 := by
  simp [accumulate, cumsumFrom_length]

theorem cumsum_step (a : K) (l : List K) (k : Nat) (hk : k < l.length) :
    (a :: cumsumFrom a l).getD (k + 1) 0 = (a :: cumsumFrom a l).getD k 0 + l.getD k 0 := by
  induction l generalizing a k with
  | nil => simp at hk
  | cons x l ih =>
    cases k with
    | zero => simp [cumsumFrom]
    | succ k =>
      simp only [List.length_cons] at hk
      have := ih (a + x) k (by omega)
      simp only [cumsumFrom, List.getD_cons_succ] at this ⊢
      exact this

theorem accumulate_step (l : List K) (k : Nat) (hk : k < l.length) :
    (accumulate l).getD (k + 1) 0 = (accumulate l).getD k 0 + l.getD k 0 := cumsum_step 0 l k hk

theorem accumulate_zero (l : List K) : (accumulate l).getD 0 0 = 0 := rfl

/-- The indices are exactly `1 .. n`. -/
structure IdxSpec (idx : List Nat) (n : Nat) : Prop where
  pos : 1 ≤ n
  range : ∀ a ∈ idx, 1 ≤ a ∧ a ≤ n
  all : ∀ k < n, k + 1 ∈ idx

theorem IdxSpec.groups {idx : List Nat} {n : Nat} (h : IdxSpec idx n) :
    uniqueL idx = (List.range n).map (· + 1) := by
  apply strict_ext (uniqueL_pairwise _)
  · rw [List.pairwise_map]
    exact List.pairwise_lt_range.imp fun h => by omega
  · intro x
    simp only [mem_uniqueL, List.mem_map, List.mem_range]
    constructor
    · intro hx
      have := h.range x hx
      exact ⟨x - 1, by omega, by omega⟩
    · rintro ⟨k, hk, rfl⟩
      exact h.all k hk

theorem IdxSpec.max {idx : List Nat} {n : Nat} (h : IdxSpec idx n) : idx.foldr max 0 = n := by
  apply foldr_max_eq
  · have := h.all (n - 1) (by have := h.pos; omega)
    rwa [show n - 1 + 1 = n by have := h.pos; omega] at this
  · exact fun a ha => (h.range a ha).2

theorem IdxSpec.ne {idx : List Nat} {n : Nat} (h : IdxSpec idx n) : idx ≠ [] :=
  List.ne_nil_of_mem (h.all 0 h.pos)

theorem count_eq_members (idx : List Nat) (k : Nat) : idx.count k = (members idx k).length := by
  unfold members
  rw [← List.countP_eq_length_filter]
  conv_lhs => rw [show idx = (List.range idx.length).map (fun i => idx.getD i 0) by
    apply List.ext_getElem
    · simp
    · intro i h1 h2
      rw [List.getElem_map, List.getElem_range, List.getD_eq_getElem _ _ h1]]
  rw [List.count, List.countP_map]
  rfl

theorem npAverage_ok {l : List Nat} {f w : Nat → K} {x : K}
    (h : npAverage (l.map f) (l.map w) = .ok x) :
    (l.map w).sum ≠ 0 ∧ x = (l.map fun i => w i * f i).sum / (l.map w).sum := by
  unfold npAverage at h
  split at h
  · cases h
  · rename_i h0
    injection h with h
    refine ⟨h0, h.symm.trans ?_⟩
    rw [List.zipWith_map]
    congr 2
    clear h h0
    induction l with
    | nil => rfl
    | cons a l ih => simp [mul_comm]

/-- What the curve must satisfy: one value per grid point, steps equal to the weighted averages of
the differences over the bins. -/
def StepSpec (idx : List Nat) (n : Nat) (delta w : Nat → K) (ale : List K) : Prop :=
  ale.length = n + 1 ∧ ∀ k < n, ((members idx (k + 1)).map w).sum ≠ 0 ∧
    ale.getD (k + 1) 0 - ale.getD k 0 =
      ((members idx (k + 1)).map fun i => w i * delta i).sum / ((members idx (k + 1)).map w).sum

theorem StepSpec.shift {idx : List Nat} {n : Nat} {delta w : Nat → K} {ale : List K}
    (h : StepSpec idx n delta w ale) (c : K) : StepSpec idx n delta w (ale.map (· + c)) := by
  refine ⟨by simp [h.1], fun k hk => ⟨(h.2 k hk).1, ?_⟩⟩
  rw [← (h.2 k hk).2]
  have h1 : k + 1 < ale.length := by rw [h.1]; omega
  rw [List.getD_eq_getElem _ _ (by simpa using h1), List.getD_eq_getElem _ _ (by simp; omega),
    List.getD_eq_getElem _ _ h1, List.getD_eq_getElem _ _ (by omega)]
  simp

theorem groupAverages_spec {idx : List Nat} {n : Nat} (hi : IdxSpec idx n) {delta w : Nat → K}
    {avg : List K} (h : groupAverages idx delta w = .ok avg) :
    StepSpec idx n delta w (accumulate avg) := by
  unfold groupAverages at h
  rw [hi.groups] at h
  have hl := mapE_length h
  simp only [List.length_map, List.length_range] at hl
  refine ⟨by rw [accumulate_length, hl], fun k hk => ?_⟩
  have hg := mapE_get h (i := k) (by simpa using hk)
  simp only [List.getElem_map, List.getElem_range] at hg
  obtain ⟨h0, hx⟩ := npAverage_ok hg
  refine ⟨h0, ?_⟩
  rw [accumulate_step _ _ (by omega), add_sub_cancel_left, ← hx,
    List.getD_eq_getElem _ _ (by omega)]

theorem sum_map_replicate_one (l : List Nat) : (l.map fun _ => (1 : K)).sum = l.length := by
  induction l with
  | nil => simp
  | cons a l ih => simp only [List.map_cons, List.sum_cons, ih, List.length_cons]; push_cast; ring

theorem members_ne {idx : List Nat} {k : Nat} (h : k ∈ idx) : members idx k ≠ [] := by
  rw [← List.length_pos_iff, ← count_eq_members]
  exact List.count_pos_iff.2 h

theorem groupMeans_spec {idx : List Nat} {n : Nat} (hi : IdxSpec idx n) (delta : Nat → K) :
    StepSpec idx n delta (fun _ => 1) (accumulate (groupMeans idx delta)) := by
  unfold groupMeans
  rw [hi.groups]
  refine ⟨by rw [accumulate_length]; simp, fun k hk => ?_⟩
  have hne := members_ne (hi.all k hk)
  refine ⟨?_, ?_⟩
  · rw [sum_map_replicate_one]
    have := List.length_pos_iff.2 hne
    exact_mod_cast this.ne'
  · rw [accumulate_step _ _ (by simpa using hk), add_sub_cancel_left,
      List.getD_eq_getElem _ _ (by simpa using hk), sum_map_replicate_one]
    simp [meanL]

/-- The counts without the entry 0. -/
theorem IdxSpec.counts {idx : List Nat} {n : Nat} (h : IdxSpec idx n) :
    (bincount idx).length = n + 1 ∧
    (bincount idx).drop 1 = (List.range n).map (fun k => (members idx (k + 1)).length) ∧
    ((List.range n).map (fun k => (members idx (k + 1)).length)).sum = idx.length := by
  have hl : (bincount idx).length = n + 1 := by rw [bincount_length h.ne, h.max]
  have hd : (bincount idx).drop 1 = (List.range n).map (fun k => (members idx (k + 1)).length) := by
    apply List.ext_getElem
    · simp [hl]
    · intro k h1 h2
      simp only [List.length_map, List.length_range] at h2
      rw [List.getElem_drop, List.getElem_map, List.getElem_range, ← count_eq_members,
        ← bincount_getD, List.getD_eq_getElem _ _ (by omega)]
      congr 1; omega
  refine ⟨hl, hd, ?_⟩
  rw [← hd]
  have h0 : (bincount idx)[0]'(by omega) = 0 := by
    have := bincount_getD idx 0
    rw [List.getD_eq_getElem _ _ (by omega)] at this
    rw [this, List.count_eq_zero]
    intro hc
    have := (h.range 0 hc).1
    omega
  have := sum_bincount idx
  rw [← this]
  conv_rhs => rw [← List.take_append_drop 1 (bincount idx), List.sum_append]
  have ht : (bincount idx).take 1 = [0] := by
    apply List.ext_getElem
    · simp [hl]
    · intro k h1 h2
      simp only [List.length_singleton] at h2
      obtain rfl : k = 0 := by omega
      simpa using h0
  rw [ht]
  simp

/-- The mean of the interval midpoints, weighted by the counts. -/
def midMean (idx : List Nat) (n : Nat) (ale : List K) : K :=
  ((List.range n).map fun k => ((members idx (k + 1)).length : K) *
    ((ale.getD k 0 + ale.getD (k + 1) 0) / 2)).sum

theorem sum_map_sub_const {l : List Nat} (f c : Nat → K) (a : K) :
    (l.map fun k => c k * (f k - a)).sum = (l.map fun k => c k * f k).sum - (l.map c).sum * a := by
  induction l with
  | nil => simp
  | cons x l ih => simp only [List.map_cons, List.sum_cons, ih]; ring

theorem natCast_list_sum (l : List Nat) : ((l.sum : Nat) : K) = (l.map fun (c : Nat) => (c : K)).sum := by
  induction l with
  | nil => simp
  | cons a l ih => simp [ih]

/-- The centring step always succeeds, shifts the curve by a constant, and makes the mean zero. -/
theorem centre_spec {idx : List Nat} {n : Nat} (hi : IdxSpec idx n) {accum : List K}
    (hl : accum.length = n + 1) :
    ∃ c, centre accum (bincount idx) = .ok (accum.map (· + c)) ∧
      midMean idx n (accum.map (· + c)) = 0 := by
  obtain ⟨h1, h2, h3⟩ := hi.counts
  have hN : (0 : K) < (idx.length : K) := by
    have := List.length_pos_iff.2 hi.ne
    exact_mod_cast this
  unfold centre
  rw [if_neg (by simp only [hl, h1, ne_eq, not_true_eq_false, not_false_eq_true])]
  have hz : (List.zipWith (fun s (c : Nat) => s * (c : K))
        (List.zipWith (fun a b => 1 / 2 * (a + b)) accum.dropLast (accum.drop 1))
        ((bincount idx).drop 1)) =
      (List.range n).map fun k => ((members idx (k + 1)).length : K) *
        ((accum.getD k 0 + accum.getD (k + 1) 0) / 2) := by
    rw [h2, zipWith_range _ (n := n) (by simp [hl]) (by simp) 0 0]
    apply List.map_congr_left
    intro k hk
    have hk := List.mem_range.1 hk
    rw [zipWith_range _ (n := n) (by simp [hl]) (by simp [hl]) 0 0,
      List.getD_eq_getElem _ _ (by simpa using hk), List.getD_eq_getElem _ _ (by simpa using hk)]
    simp only [List.getElem_map, List.getElem_range]
    rw [List.getD_eq_getElem _ _ (by simp [hl]; omega), List.getD_eq_getElem _ _ (by simp [hl]; omega),
      List.getD_eq_getElem _ _ (by omega), List.getD_eq_getElem _ _ (by omega)]
    simp only [List.getElem_dropLast, List.getElem_drop]
    simp only [show 1 + k = k + 1 by omega]
    ring
  refine ⟨-(midMean idx n accum / (idx.length : K)), ?_, ?_⟩
  · rw [hz, sum_bincount]
    simp only [sub_eq_add_neg]
    rfl
  · have hmid : midMean idx n (accum.map (· + -(midMean idx n accum / (idx.length : K)))) =
        ((List.range n).map fun k => ((members idx (k + 1)).length : K) *
          ((accum.getD k 0 + accum.getD (k + 1) 0) / 2 - midMean idx n accum / (idx.length : K))).sum := by
      generalize midMean idx n accum / (idx.length : K) = c
      unfold midMean
      apply congrArg List.sum
      apply List.map_congr_left
      intro k hk
      have hk := List.mem_range.1 hk
      rw [List.getD_eq_getElem _ _ (by simp [hl]; omega), List.getD_eq_getElem _ _ (by simp [hl]; omega),
        List.getD_eq_getElem _ _ (by omega : k < accum.length),
        List.getD_eq_getElem _ _ (by omega : k + 1 < accum.length)]
      simp only [List.getElem_map]
      ring
    rw [hmid, sum_map_sub_const]
    have : ((List.range n).map fun k => ((members idx (k + 1)).length : K)).sum =
        (idx.length : K) := by
      rw [← h3, natCast_list_sum, List.map_map]
      rfl
    rw [this]
    unfold midMean
    field_simp
    simp

/-! ### the indices of the model -/

/-- The observations whose feature value lies in bin `k` of the grid. -/
def binMembers (X : Mat K) (feature : Nat) (q : List K) (k : Nat) : List Nat :=
  (List.range X.r).filter fun i => decide (InBin q k (X.get i feature))

/-- A grid with at least two points that covers the data, no bin of which is empty. -/
structure BinsOk (X : Mat K) (feature : Nat) (q : List K) : Prop where
  grid : GridSpec (X.col feature) q
  two : 2 ≤ q.length
  full : ∀ k, k + 1 < q.length → binMembers X feature q k ≠ []

theorem aleIdx_getD {X : Mat K} {feature : Nat} {q : List K} {i : Nat} (hi : i < X.r) :
    (aleIdx q (X.col feature)).getD i 0 = binOf q (X.get i feature) := by
  rw [aleIdx_eq, List.getD_eq_getElem _ _ (by simpa [Mat.col] using hi)]
  simp [Mat.col]

theorem BinsOk.members {X : Mat K} {feature : Nat} {q : List K} (h : BinsOk X feature q) (k : Nat) :
    members (aleIdx q (X.col feature)) (k + 1) = binMembers X feature q k := by
  unfold Geo.members binMembers
  have : (aleIdx q (X.col feature)).length = X.r := by simp [aleIdx, Mat.col]
  rw [this]
  apply List.filter_congr
  intro i hi
  have hi := List.mem_range.1 hi
  rw [aleIdx_getD hi, Bool.eq_iff_iff, beq_iff_eq, decide_eq_true_eq]
  exact binOf_eq_iff h.grid.strict h.two
    (h.grid.cover (List.mem_map.2 ⟨i, List.mem_range.2 hi, rfl⟩)) k

theorem BinsOk.idx {X : Mat K} {feature : Nat} {q : List K} (h : BinsOk X feature q) :
    IdxSpec (aleIdx q (X.col feature)) (q.length - 1) := by
  have := h.two
  refine ⟨by omega, fun a ha => ?_, fun k hk => ?_⟩
  · refine ⟨?_, ?_⟩
    · obtain ⟨v, _, rfl⟩ := List.mem_map.1 ha
      exact binOf_pos q v
    · rw [← h.grid.max h.two]
      exact le_foldr_max ha
  · rw [← List.count_pos_iff, count_eq_members, h.members]
    exact List.length_pos_iff.2 (h.full k (by omega))

/-- The grid of a successful call. -/
theorem adaptiveGrid_bins {X : Mat K} {feature : Nat} {m : ℤ} (hm : 0 ≤ m) {q : List K} {n : ℤ}
    (h : adaptiveGrid (X.col feature) m = .ok (q, n)) (h2 : 2 ≤ q.length) :
    BinsOk X feature q ∧ (∀ k, k + 1 < q.length → m < (binMembers X feature q k).length) := by
  have hv : X.col feature ≠ [] := by
    intro hc
    rw [(adaptiveGrid_cases _ m).1 (Or.inr hc)] at h
    cases h
  have hlt : m < ((X.col feature).length : ℤ) := by
    by_contra hc
    rw [(adaptiveGrid_cases _ m).1 (Or.inl (by omega))] at h
    cases h
  obtain ⟨n', h1, _, hs, hg⟩ := (adaptiveGrid_cases _ m).2 hlt hv
  rw [hg] at h
  injection h with h
  injection h with hq hn
  have hn2 : 2 ≤ n' := by
    have : (uniqueL ((List.range n').map (gridPoint (X.col feature) n'))).length ≤ n' := by
      refine (List.Sublist.length_le (List.dedup_sublist _)).trans ?_
      simp
    rw [hq] at this
    omega
  have hgs := gridSpec hv hn2
  rw [minimumSatisfied_nat hv] at hs
  rw [hq] at hgs hs
  have hall : ((bincount (aleIdx q (X.col feature))).drop 1).all (fun c => decide (m < c)) = true := by
    by_contra hc
    rw [if_neg hc] at hs
    cases hs
  rw [bincount_all (by simpa [aleIdx] using hv)] at hall
  have key : ∀ k, k + 1 < q.length → m < (binMembers X feature q k).length := by
    intro k hk
    have := hall (k + 1) (by omega) (by rw [hgs.max h2]; omega)
    rw [hgs.count h2] at this
    unfold binMembers
    rw [← List.countP_eq_length_filter]
    unfold Mat.col at this
    rw [List.countP_map] at this
    exact this
  exact ⟨⟨hgs, h2, fun k hk => by
    have := key k hk
    rw [← List.length_pos_iff]
    omega⟩, key⟩

theorem mem_binMembers {X : Mat K} {feature : Nat} {q : List K} {k i : Nat} :
    i ∈ binMembers X feature q k ↔ i < X.r ∧ InBin q k (X.get i feature) := by
  simp [binMembers]

/-- Looking up the grid values below and above an observation. -/
theorem grid_lookup {X : Mat K} {feature : Nat} {q : List K} {g : Nat → Nat} {vals : List K}
    (h : mapE (fun i => pyGet q (g i)) (aleIdx q (X.col feature)) = .ok vals) {i : Nat}
    (hi : i < X.r) : g (binOf q (X.get i feature)) < q.length ∧
      vals.getD i 0 = q.getD (g (binOf q (X.get i feature))) 0 := by
  have hl := mapE_length h
  have hlen : (aleIdx q (X.col feature)).length = X.r := by simp [aleIdx, Mat.col]
  have hg := mapE_get h (i := i) (by omega)
  have : (aleIdx q (X.col feature))[i]'(by omega) = binOf q (X.get i feature) := by
    rw [← aleIdx_getD hi, List.getD_eq_getElem _ _ (by omega)]
  rw [this] at hg
  unfold pyGet at hg
  split at hg
  · rename_i a ha
    injection hg with hg
    obtain ⟨h1, h2⟩ := List.getElem?_eq_some_iff.1 ha
    refine ⟨h1, ?_⟩
    rw [List.getD_eq_getElem _ _ (by omega), ← hg, List.getD_eq_getElem _ _ h1, h2]
  · cases hg

/-- On a good grid the lookups succeed. -/
theorem grid_lookup_ok {X : Mat K} {feature : Nat} {q : List K} (h : BinsOk X feature q)
    {g : Nat → Nat} (hg : ∀ k, g k ≤ k) :
    ∃ vals, mapE (fun i => pyGet q (g i)) (aleIdx q (X.col feature)) = .ok vals := by
  refine ⟨_, mapE_of_forall (g := fun i => q.getD (g i) 0) ?_⟩
  intro a ha
  have h1 := (h.idx.range a ha).2
  have h2 := h.two
  have := hg a
  unfold pyGet
  rw [List.getElem?_eq_getElem (by omega), List.getD_eq_getElem _ _ (by omega)]

theorem BinsOk.binOf_of_mem {X : Mat K} {feature : Nat} {q : List K} (h : BinsOk X feature q)
    {k i : Nat} (hi : i ∈ binMembers X feature q k) : binOf q (X.get i feature) = k + 1 := by
  obtain ⟨h1, h2⟩ := mem_binMembers.1 hi
  exact (binOf_eq_iff h.grid.strict h.two
    (h.grid.cover (List.mem_map.2 ⟨i, List.mem_range.2 h1, rfl⟩)) k).2 h2

end Geo
