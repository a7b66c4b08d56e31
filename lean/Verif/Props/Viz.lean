import Verif.Props.VizDistance
import Verif.Props.Sample
import Mathlib.Algebra.Order.Archimedean.Basic
/-
Sampling of partial dependence lines, typical items of clusters, plot ranges and colours: C69-C71.
-/
set_option linter.unusedSectionVars false
namespace Geo
variable {K : Type} [Field K] [LinearOrder K] [IsStrictOrderedRing K] [FloorRing K] {S : Type}

/-! ### C69: sampling -/

theorem mem_whereEq {labels : List ℤ} {v : ℤ} {i : Nat} :
    i ∈ whereEq labels v ↔ i < labels.length ∧ labels.getD i 0 = v := by
  simp [whereEq]

theorem whereEq_nodup (labels : List ℤ) (v : ℤ) : (whereEq labels v).Nodup :=
  List.nodup_range.filter _

theorem whereEq_length (labels : List ℤ) (v : ℤ) :
    (whereEq labels v).length = labels.count v := by
  unfold whereEq
  induction labels using List.reverseRecOn with
  | nil => rfl
  | append_singleton l a ih =>
    rw [List.length_append, List.length_singleton, List.range_succ, List.filter_append,
      List.length_append, List.count_append]
    congr 1
    · rw [← ih]
      congr 1
      refine List.filter_congr fun i hi => ?_
      have : i < l.length := by simpa using hi
      simp [List.getElem?_append_left this]
    · by_cases h : a = v <;> simp [h]

/-- The number of lines taken from a cluster of `cnt` of the `N` lines. -/
theorem clusterSampleSize_bounds (size : ℤ) (N cnt : Nat) (h : 0 < cnt) :
    1 ≤ clusterSampleSize (K := K) size N cnt ∧ clusterSampleSize (K := K) size N cnt ≤ cnt := by
  unfold clusterSampleSize
  constructor
  · exact le_min (le_max_right _ _) (by exact_mod_cast h)
  · exact min_le_right _ _

/-- The loop draws from every cluster. -/
theorem clusterLoop_spec (rng : Rng S) (hv : rng.Valid) (jobs : List (List Nat × ℤ))
    (hj : ∀ j ∈ jobs, 0 ≤ j.2 ∧ j.2 ≤ j.1.length) (s : S) :
    ∃ cs s', clusterLoop rng s jobs = (.ok cs, s') ∧
      List.Forall₂ (fun (c : List Nat) (j : List Nat × ℤ) =>
        c.Subperm j.1 ∧ (c.length : ℤ) = j.2) cs jobs := by
  induction jobs generalizing s with
  | nil => exact ⟨[], s, rfl, .nil⟩
  | cons j jobs ih =>
    obtain ⟨l, k⟩ := j
    have hlk : 0 ≤ k ∧ k ≤ l.length := hj (l, k) (by simp)
    obtain ⟨h0, h1⟩ := hlk
    obtain ⟨n, rfl⟩ := Int.eq_ofNat_of_zero_le h0
    obtain ⟨c, hc1, hc2, hc3⟩ := hv s l n (by exact_mod_cast h1)
    obtain ⟨cs, s', hcs, hall⟩ := ih (fun j hm => hj j (by simp [hm]))
      (rng.choice s l (n : ℤ)).2
    refine ⟨c :: cs, s', ?_, .cons ⟨hc3, congrArg Nat.cast hc2⟩ hall⟩
    unfold clusterLoop
    generalize hr : rng.choice s l (n : ℤ) = r at hc1 hcs
    obtain ⟨r1, r2⟩ := r
    subst hc1
    simp only at hcs ⊢
    rw [hcs]

theorem flatten_clusters {labels : List ℤ} {f : ℤ → ℤ} :
    ∀ {us : List ℤ} {cs : List (List Nat)}, us.Nodup →
      List.Forall₂ (fun (c : List Nat) (j : List Nat × ℤ) =>
        c.Subperm j.1 ∧ (c.length : ℤ) = j.2) cs (us.map fun v => (whereEq labels v, f v)) →
      cs.flatten.Nodup ∧ (∀ i ∈ cs.flatten, i < labels.length ∧ labels.getD i 0 ∈ us) ∧
      ∀ v ∈ us, ((cs.flatten.countP fun i => labels.getD i 0 == v : Nat) : ℤ) = f v
  | [], _, _, h => by
    cases h
    simp
  | u :: us, cs, hn, h => by
    rw [List.map_cons] at h
    cases h with
    | cons hc hcs =>
      rename_i c cs
      obtain ⟨ih1, ih2, ih3⟩ := flatten_clusters (List.nodup_cons.1 hn).2 hcs
      have hu := (List.nodup_cons.1 hn).1
      have hmem : ∀ i ∈ c, i < labels.length ∧ labels.getD i 0 = u :=
        fun i hi => mem_whereEq.1 (hc.1.subset hi)
      refine ⟨?_, ?_, ?_⟩
      · rw [List.flatten_cons, List.nodup_append]
        obtain ⟨l', hp, hs⟩ := hc.1
        refine ⟨hp.nodup_iff.1 ((whereEq_nodup labels u).sublist hs), ih1, ?_⟩
        rintro a ha b hb rfl
        exact hu ((hmem a ha).2 ▸ (ih2 a hb).2)
      · intro i hi
        rw [List.flatten_cons, List.mem_append] at hi
        rcases hi with hi | hi
        · exact ⟨(hmem i hi).1, by rw [(hmem i hi).2]; simp⟩
        · exact ⟨(ih2 i hi).1, List.mem_cons_of_mem _ (ih2 i hi).2⟩
      · intro v hvm
        rw [List.flatten_cons, List.countP_append]
        rcases List.mem_cons.1 hvm with rfl | hvu
        · have e1 : (c.countP fun i => labels.getD i 0 == v) = c.length := by
            rw [List.countP_eq_length]
            intro i hi
            simp only [(hmem i hi).2, beq_self_eq_true]
          have e2 : (cs.flatten.countP fun i => labels.getD i 0 == v) = 0 := by
            rw [List.countP_eq_zero]
            intro i hi h
            rw [beq_iff_eq] at h
            exact hu (h ▸ (ih2 i hi).2)
          rw [e1, e2, add_zero]
          exact hc.2
        · have e1 : (c.countP fun i => labels.getD i 0 == v) = 0 := by
            rw [List.countP_eq_zero]
            intro i hi h
            rw [beq_iff_eq, (hmem i hi).2] at h
            exact hu (h ▸ hvu)
          rw [e1, zero_add]
          exact ih3 v hvu

/-- C69: with cluster labels the call returns different indices of lines; from every cluster it
takes `ceil (count * size / N)` lines, but at least one and at most all of them, whatever the
requested size is. -/
theorem C69_clusters (rng : Rng S) (hv : rng.Valid) (seeded : Nat → S) (near : Nat → K → Nat)
    (s : S) (lines : List (Line K)) (size : Count K) (labels : List ℤ) (hl : labels ≠ [])
    (randomState : Option Nat) :
    ∃ idx s', samplePartial rng seeded near s lines (some size) none (some labels) randomState =
        (.ok idx, s') ∧
      idx.Nodup ∧ (∀ i ∈ idx, i < labels.length) ∧
      ∀ v ∈ labels,
        ((idx.countP fun i => labels.getD i 0 == v : Nat) : ℤ) =
          min (max ⌈((labels.count v : K) * (lineSampleSize size lines.length : K)) /
            (lines.length : K)⌉ 1) (labels.count v) ∧
        1 ≤ (idx.countP fun i => labels.getD i 0 == v) ∧
        (idx.countP fun i => labels.getD i 0 == v) ≤ labels.count v := by
  unfold samplePartial sampleLines
  simp only
  generalize startState seeded s randomState = s0
  have hjobs : ∀ j ∈ clusterJobs K labels (lineSampleSize size lines.length) lines.length,
      0 ≤ j.2 ∧ j.2 ≤ j.1.length := by
    intro j hj
    obtain ⟨v, hvm, rfl⟩ := List.mem_map.1 hj
    rw [mem_uniqueL] at hvm
    have hpos : 0 < (whereEq labels v).length := by
      rw [whereEq_length]
      exact List.count_pos_iff.2 hvm
    have := clusterSampleSize_bounds (K := K) (lineSampleSize size lines.length) lines.length _ hpos
    exact ⟨by simp only; omega, this.2⟩
  obtain ⟨cs, s', hcs, hall⟩ := clusterLoop_spec rng hv _ hjobs s0
  rw [hcs]
  have hne : cs ≠ [] := by
    rintro rfl
    have h0 := hall.length_eq
    simp only [List.length_nil, clusterJobs, List.length_map] at h0
    obtain ⟨a, ha⟩ := List.exists_mem_of_ne_nil labels hl
    have := List.length_pos_of_mem (mem_uniqueL.2 ha)
    omega
  have hnd : (uniqueL labels).Nodup := (uniqueL_pairwise labels).imp ne_of_lt
  obtain ⟨f1, f2, f3⟩ := flatten_clusters (f := fun v => clusterSampleSize (K := K)
    (lineSampleSize size lines.length) lines.length (whereEq labels v).length) hnd hall
  refine ⟨cs.flatten, s', by simp [hne], f1, fun i hi => (f2 i hi).1, fun v hvm => ?_⟩
  have h3 := f3 v (mem_uniqueL.2 hvm)
  have hpos : 0 < labels.count v := List.count_pos_iff.2 hvm
  rw [whereEq_length] at h3
  have hb := clusterSampleSize_bounds (K := K) (lineSampleSize size lines.length) lines.length _ hpos
  rw [← h3] at hb
  exact ⟨h3, by omega, by omega⟩

/-- Counting by label. -/
theorem sum_count_unique {us : List ℤ} (hn : us.Nodup) {idx : List Nat} {g : Nat → ℤ}
    (h : ∀ i ∈ idx, g i ∈ us) :
    (us.map fun v => idx.countP fun i => g i == v).sum = idx.length := by
  induction us generalizing idx with
  | nil =>
    cases idx with
    | nil => rfl
    | cons i idx => exact absurd (h i (by simp)) (by simp)
  | cons u us ih =>
    rw [List.map_cons, List.sum_cons]
    have hu := (List.nodup_cons.1 hn).1
    have := ih (List.nodup_cons.1 hn).2 (idx := idx.filter fun i => !(g i == u)) (by
      intro i hi
      rw [List.mem_filter] at hi
      rcases List.mem_cons.1 (h i hi.1) with e | e
      · rw [e] at hi; simp at hi
      · exact e)
    have e : (us.map fun v => (idx.filter fun i => !(g i == u)).countP fun i => g i == v) =
        us.map fun v => idx.countP fun i => g i == v := by
      refine List.map_congr_left fun v hvm => ?_
      rw [List.countP_filter]
      refine List.countP_congr fun i _ => ?_
      simp only [Bool.and_eq_true, beq_iff_eq, Bool.not_eq_true', beq_eq_false_iff_ne]
      constructor
      · exact fun h => h.1
      · rintro rfl
        refine ⟨rfl, ?_⟩
        rintro rfl
        exact hu hvm
    rw [e] at this
    rw [this, ← List.countP_eq_length_filter]
    have := List.length_eq_countP_add_countP (fun i => g i == u) (l := idx)
    rw [this]
    congr 1
    refine List.countP_congr fun i _ => ?_
    simp

theorem sum_count_labels (labels : List ℤ) :
    ((uniqueL labels).map fun v => labels.count v).sum = labels.length := by
  have := sum_count_unique (us := uniqueL labels) ((uniqueL_pairwise labels).imp ne_of_lt)
    (idx := List.range labels.length) (g := fun i => labels.getD i 0) (by
      intro i hi
      have hi : i < labels.length := by simpa using hi
      rw [mem_uniqueL]
      simp [List.getElem?_eq_getElem hi])
  rw [List.length_range] at this
  rw [← this]
  congr 1
  refine List.map_congr_left fun v _ => ?_
  rw [← whereEq_length, whereEq, List.countP_eq_length_filter]

/-- C69: with one label per line and a requested size between 1 and the number of lines, the number
of returned lines is at least the requested one and exceeds it by less than the number of
clusters. -/
theorem C69_total (rng : Rng S) (hv : rng.Valid) (seeded : Nat → S) (near : Nat → K → Nat)
    (s : S) (lines : List (Line K)) (size : Count K) (labels : List ℤ)
    (hl : labels.length = lines.length) (h1 : 1 ≤ lineSampleSize size lines.length)
    (hN : lineSampleSize size lines.length ≤ lines.length) (randomState : Option Nat)
    (idx : List Nat) (s' : S)
    (h : samplePartial rng seeded near s lines (some size) none (some labels) randomState =
      (.ok idx, s')) :
    lineSampleSize size lines.length ≤ idx.length ∧
    (idx.length : ℤ) < lineSampleSize size lines.length + labels.dedup.length := by
  have hne : labels ≠ [] := by
    rintro rfl
    simp only [List.length_nil] at hl
    omega
  obtain ⟨idx', s'', e, h2, h3, h4⟩ :=
    C69_clusters rng hv seeded near s lines size labels hne randomState
  rw [h] at e
  injection e with e1 e2
  injection e1 with e1
  subst e1
  generalize lineSampleSize size lines.length = m at *
  have hNpos : (0 : K) < (lines.length : K) := by
    have : 0 < lines.length := by omega
    exact_mod_cast this
  have hm : (m : K) ≤ lines.length := by exact_mod_cast hN
  have hm1 : (1 : K) ≤ m := by exact_mod_cast h1
  have hcnt : ∀ v ∈ labels, ((idx.countP fun i => labels.getD i 0 == v : Nat) : ℤ) =
      ⌈((labels.count v : K) * (m : K)) / (lines.length : K)⌉ := by
    intro v hvm
    rw [(h4 v hvm).1]
    have hpos : (0 : K) < (labels.count v : K) := by
      have := List.count_pos_iff.2 hvm
      exact_mod_cast this
    have hq : 0 < ((labels.count v : K) * (m : K)) / (lines.length : K) :=
      div_pos (mul_pos hpos (by linarith)) hNpos
    have hge : 1 ≤ ⌈((labels.count v : K) * (m : K)) / (lines.length : K)⌉ := by
      have := Int.ceil_pos.2 hq
      omega
    rw [max_eq_left hge, min_eq_left]
    rw [Int.ceil_le]
    rw [div_le_iff₀ hNpos]
    have := mul_le_mul_of_nonneg_left hm hpos.le
    exact_mod_cast this
  have htot := sum_count_unique (us := uniqueL labels) ((uniqueL_pairwise labels).imp ne_of_lt)
    (idx := idx) (g := fun i => labels.getD i 0) (by
      intro i hi
      have hi := h3 i hi
      rw [mem_uniqueL]
      simp [List.getElem?_eq_getElem hi])
  have hsumc := sum_count_labels labels
  have hbound : ∀ us : List ℤ, (∀ v ∈ us, v ∈ labels) →
      (((us.map fun v => labels.count v).sum : Nat) : K) * m / lines.length ≤
        (((us.map fun v => idx.countP fun i => labels.getD i 0 == v).sum : Nat) : K) ∧
      (((us.map fun v => idx.countP fun i => labels.getD i 0 == v).sum : Nat) : K) ≤
        (((us.map fun v => labels.count v).sum : Nat) : K) * m / lines.length + us.length ∧
      (us ≠ [] →
        (((us.map fun v => idx.countP fun i => labels.getD i 0 == v).sum : Nat) : K) <
        (((us.map fun v => labels.count v).sum : Nat) : K) * m / lines.length + us.length) := by
    intro us
    induction us with
    | nil => intro _; simp
    | cons u us ih =>
      intro hus
      obtain ⟨i1, i2, -⟩ := ih fun v hvm => hus v (by simp [hvm])
      have hc := hcnt u (hus u (by simp))
      have hcK : ((idx.countP fun i => labels.getD i 0 == u : Nat) : K) =
          ((⌈((labels.count u : K) * (m : K)) / (lines.length : K)⌉ : ℤ) : K) := by
        rw [← hc]; norm_cast
      have c1 := Int.le_ceil (((labels.count u : K) * (m : K)) / (lines.length : K))
      have c2 := Int.ceil_lt_add_one (((labels.count u : K) * (m : K)) / (lines.length : K))
      simp only [List.map_cons, List.sum_cons, Nat.cast_add, List.length_cons, Nat.cast_one,
        add_mul, add_div]
      rw [hcK]
      refine ⟨by linarith, by linarith, fun _ => by linarith⟩
  have hune : uniqueL labels ≠ [] := by
    obtain ⟨a, ha⟩ := List.exists_mem_of_ne_nil labels hne
    exact List.ne_nil_of_mem (mem_uniqueL.2 ha)
  obtain ⟨b1, -, b3⟩ := hbound (uniqueL labels) fun v hvm => mem_uniqueL.1 hvm
  have b3 := b3 hune
  rw [htot, hsumc, hl, mul_comm, mul_div_assoc, div_self hNpos.ne', mul_one] at b1 b3
  have hud : (uniqueL labels).length = labels.dedup.length :=
    ((sortL_perm labels).dedup).length_eq
  rw [hud] at b3
  constructor
  · exact_mod_cast b1
  · exact_mod_cast b3

/-- C69: with a random state the result does not depend on the generator's past. -/
theorem C69_reproducible (rng : Rng S) (seeded : Nat → S) (near : Nat → K → Nat) (s₁ s₂ : S)
    (lines : List (Line K)) (size : Option (Count K)) (qs : Option (List K))
    (labels : Option (List ℤ)) (k : Nat) :
    samplePartial rng seeded near s₁ lines size qs labels (some k) =
      samplePartial rng seeded near s₂ lines size qs labels (some k) := rfl

/-- C69: exactly one of sample size and quantile must be given. -/
theorem C69_one_method (rng : Rng S) (seeded : Nat → S) (near : Nat → K → Nat) (s : S)
    (lines : List (Line K)) (size : Option (Count K)) (qs : Option (List K))
    (labels : Option (List ℤ)) (randomState : Option Nat) (h : size.isSome = qs.isSome) :
    (samplePartial rng seeded near s lines size qs labels randomState).1 = .error .exception := by
  cases size <;> cases qs <;> simp_all [samplePartial]

/-- C69: without labels the call returns as many different lines as requested. A fraction is
truncated: it may select no line at all. -/
theorem C69_plain (rng : Rng S) (hv : rng.Valid) (seeded : Nat → S) (near : Nat → K → Nat)
    (s : S) (lines : List (Line K)) (randomState : Option Nat) :
    (∀ k : Nat, k ≤ lines.length → ∃ idx,
      (samplePartial rng seeded near s lines (some (.int k)) none none randomState).1 = .ok idx ∧
      idx.length = k ∧ idx.Nodup ∧ ∀ i ∈ idx, i < lines.length) ∧
    (∀ q : K, 0 ≤ q → q ≤ 1 → ∃ idx,
      (samplePartial rng seeded near s lines (some (.float q)) none none randomState).1 =
        .ok idx ∧
      idx.length = ⌊q * (lines.length : K)⌋₊ ∧ idx.Nodup ∧ ∀ i ∈ idx, i < lines.length) := by
  have key : ∀ (s : S) (k : Nat), k ≤ lines.length → ∃ idx,
      (rng.choice s (List.range lines.length) k).1 = .ok idx ∧
      idx.length = k ∧ idx.Nodup ∧ ∀ i ∈ idx, i < lines.length := by
    intro s k hk
    obtain ⟨c, h1, h2, l', hp, hs⟩ := hv s (List.range lines.length) k (by simpa using hk)
    refine ⟨c, h1, h2, hp.nodup_iff.1 (List.nodup_range.sublist hs), fun i hi => ?_⟩
    have := hs.subset (hp.mem_iff.2 hi)
    simpa using this
  unfold samplePartial sampleLines lineSampleSize
  simp only
  generalize startState seeded s randomState = s0
  refine ⟨fun k hk => key s0 k hk, fun q h0 h1 => ?_⟩
  have hq : 0 ≤ q * (lines.length : K) := mul_nonneg h0 (Nat.cast_nonneg _)
  rw [if_pos hq, ← Int.natCast_floor_eq_floor hq]
  refine key s0 _ ?_
  have : q * (lines.length : K) ≤ (lines.length : K) := mul_le_of_le_one_left (Nat.cast_nonneg _) h1
  exact Nat.floor_le_of_le this

/-- What is assumed of the rounding of `np.quantile(.., interpolation='nearest')`. -/
def NearRank (near : Nat → K → Nat) : Prop :=
  ∀ n (q : K), 0 < n → 0 ≤ q → q ≤ 1 → near n q < n ∧
    |(near n q : K) - q * ((n : K) - 1)| ≤ 1 / 2

theorem quantileIndex_spec (near : Nat → K → Nat) (hn : NearRank near) (avg : List K)
    (hne : avg ≠ []) (q : K) (h0 : 0 ≤ q) (h1 : q ≤ 1) :
    ∃ i, quantileIndex near avg q = .ok i ∧ i < avg.length ∧
      avg.getD i 0 = (sortL avg).getD (near avg.length q) 0 ∧
      ∀ j < i, avg.getD j 0 ≠ avg.getD i 0 := by
  have hr := (hn avg.length q (List.length_pos_iff.2 hne) h0 h1).1
  have hlen : (sortL avg).length = avg.length := (sortL_perm avg).length_eq
  have hmem : (sortL avg).getD (near avg.length q) 0 ∈ avg := by
    rw [← mem_sortL]
    have : near avg.length q < (sortL avg).length := by omega
    simp [List.getElem?_eq_getElem this]
  generalize ht : (sortL avg).getD (near avg.length q) 0 = t at hmem ⊢
  obtain ⟨k, hk, hkt⟩ := List.getElem_of_mem hmem
  have hkt' : avg.getD k 0 = t := by simpa [List.getElem?_eq_getElem hk] using hkt
  cases hf : (List.range avg.length).find? fun i => decide (avg.getD i 0 = t) with
  | none =>
    rw [List.find?_eq_none] at hf
    exact absurd hkt' (by simpa using hf k (by simpa using hk))
  | some i =>
    obtain ⟨a, b, c⟩ := List.find?_range_eq_some.1 hf
    have a : avg.getD i 0 = t := by simpa using a
    have hq : ¬ (q < 0 ∨ 1 < q) := by
      rintro (h | h) <;> exact absurd h (not_lt.2 (by assumption))
    refine ⟨i, ?_, by simpa using b, a, fun j hj => ?_⟩
    · unfold quantileIndex
      rw [if_neg hq]
      rw [ht] at *
      simp only [hf]
    · have := c j hj
      rw [a]
      simpa using this

/-- C69: for levels between 0 and 1 the quantile selection returns one line per level: the first
line whose average is the order statistic of the averages nearest to the level. Level 0 gives a line
with the smallest average and level 1 one with the largest. -/
theorem C69_quantiles (rng : Rng S) (seeded : Nat → S) (near : Nat → K → Nat) (hn : NearRank near)
    (s : S) (lines : List (Line K)) (hne : lines ≠ []) (qs : List K)
    (hq : ∀ q ∈ qs, 0 ≤ q ∧ q ≤ 1) (labels : Option (List ℤ)) (randomState : Option Nat) :
    ∃ idx, (samplePartial rng seeded near s lines none (some qs) labels randomState).1 = .ok idx ∧
      idx.length = qs.length ∧ ∀ k < qs.length,
        idx.getD k 0 < lines.length ∧
        (∃ r, r < lines.length ∧ |(r : K) - qs.getD k 0 * ((lines.length : K) - 1)| ≤ 1 / 2 ∧
          (lines.map fun l => meanL l.2).getD (idx.getD k 0) 0 =
            (sortL (lines.map fun l => meanL l.2)).getD r 0) ∧
        (∀ j < idx.getD k 0, (lines.map fun l => meanL l.2).getD j 0 ≠
          (lines.map fun l => meanL l.2).getD (idx.getD k 0) 0) ∧
        (qs.getD k 0 = 0 → ∀ l ∈ lines,
          (lines.map fun l => meanL l.2).getD (idx.getD k 0) 0 ≤ meanL l.2) ∧
        (qs.getD k 0 = 1 → ∀ l ∈ lines,
          meanL l.2 ≤ (lines.map fun l => meanL l.2).getD (idx.getD k 0) 0) := by
  set avg := lines.map fun l => meanL l.2 with havg
  have hlen : avg.length = lines.length := by simp [havg]
  have hane : avg ≠ [] := by simpa [havg] using hne
  have hpos : 0 < avg.length := List.length_pos_iff.2 hane
  choose! f hf using fun q (h : 0 ≤ q ∧ q ≤ 1) => quantileIndex_spec near hn avg hane q h.1 h.2
  have hres : (samplePartial rng seeded near s lines none (some qs) labels randomState).1 =
      .ok (qs.map f) := by
    unfold samplePartial quantileLines
    simp only
    rw [if_neg hne]
    exact mapE_of_forall fun q hqm => (hf q (hq q hqm)).1
  refine ⟨qs.map f, hres, by simp, fun k hk => ?_⟩
  have hg : (qs.map f).getD k 0 = f (qs.getD k 0) := by simp [List.getElem?_eq_getElem hk]
  have hqk := hq (qs.getD k 0) (by simp [List.getElem?_eq_getElem hk])
  generalize qs.getD k 0 = q at hqk hg ⊢
  rw [hg]
  obtain ⟨-, f2, f3, f4⟩ := hf q hqk
  obtain ⟨r1, r2⟩ := hn avg.length q hpos hqk.1 hqk.2
  have hslen : (sortL avg).length = avg.length := (sortL_perm avg).length_eq
  have hsort := sortL_pairwise avg
  have hle : ∀ {a b : Nat}, a ≤ b → b < avg.length → (sortL avg).getD a 0 ≤ (sortL avg).getD b 0 := by
    intro a b hab hb
    rcases eq_or_lt_of_le hab with rfl | hab
    · exact le_rfl
    · have := List.pairwise_iff_getElem.1 hsort a b (by omega) (by omega) hab
      simpa [List.getElem?_eq_getElem (show a < (sortL avg).length by omega),
        List.getElem?_eq_getElem (show b < (sortL avg).length by omega)] using this
  have hmem : ∀ l ∈ lines, ∃ p < avg.length, (sortL avg).getD p 0 = meanL l.2 := by
    intro l hl
    have : meanL l.2 ∈ sortL avg := mem_sortL.2 (List.mem_map.2 ⟨l, hl, rfl⟩)
    obtain ⟨p, hp, hpe⟩ := List.getElem_of_mem this
    exact ⟨p, by omega, by simpa [List.getElem?_eq_getElem hp] using hpe⟩
  refine ⟨by omega, ⟨near avg.length q, by omega, by rw [hlen] at r2 ⊢; exact r2, f3⟩, f4, ?_, ?_⟩
  · rintro rfl l hl
    obtain ⟨p, hp, hpe⟩ := hmem l hl
    rw [zero_mul, sub_zero, abs_of_nonneg (Nat.cast_nonneg _)] at r2
    have h0 : near avg.length (0 : K) = 0 := by
      by_contra h
      have : (1 : K) ≤ (near avg.length (0 : K) : K) := by exact_mod_cast Nat.one_le_iff_ne_zero.2 h
      linarith
    rw [f3, ← hpe, h0]
    exact hle (Nat.zero_le _) hp
  · rintro rfl l hl
    obtain ⟨p, hp, hpe⟩ := hmem l hl
    have h1 : near avg.length (1 : K) = avg.length - 1 := by
      by_contra h
      have h' : near avg.length (1 : K) + 2 ≤ avg.length := by omega
      have h' : ((near avg.length (1 : K) : K)) + 2 ≤ (avg.length : K) := by exact_mod_cast h'
      rw [abs_le] at r2
      linarith [r2.1]
    rw [f3, ← hpe, h1]
    exact hle (by omega) (by omega)

/-- Rounding to the nearest rank, halves upwards. -/
def nearHalfUp (n : Nat) (q : K) : Nat := ⌊q * ((n : K) - 1) + 1 / 2⌋₊

theorem nearHalfUp_near : NearRank (nearHalfUp (K := K)) := by
  intro n q hn h0 h1
  have hn1 : (0 : K) ≤ (n : K) - 1 := by
    have : (1 : K) ≤ n := by exact_mod_cast hn
    linarith
  have hx : 0 ≤ q * ((n : K) - 1) := mul_nonneg h0 hn1
  have hx2 : q * ((n : K) - 1) ≤ (n : K) - 1 := mul_le_of_le_one_left hn1 h1
  have f1 := Nat.floor_le (show (0 : K) ≤ q * ((n : K) - 1) + 1 / 2 by linarith)
  have f2 := Nat.lt_floor_add_one (q * ((n : K) - 1) + 1 / 2)
  unfold nearHalfUp
  constructor
  · have : ((⌊q * ((n : K) - 1) + 1 / 2⌋₊ : Nat) : K) < n := by linarith
    exact_mod_cast this
  · rw [abs_le]
    constructor <;> linarith

/-- The hypotheses of C69 hold: three clusters, of which one is noise (`-1`); a fifth of ten lines;
quantiles of three lines. -/
example : countRng.Valid ∧ NearRank (nearHalfUp (K := ℚ)) ∧
    (samplePartial countRng id nearHalfUp 7 (List.replicate 10 (([0], [1]) : Line ℚ))
      (some (.float (2 / 5))) none (some [0, 0, -1, 0, 1, 0, 0, 0, 1, 0]) (some 3)).1 =
      .ok [2, 0, 1, 3, 4] ∧
    (samplePartial countRng id nearHalfUp 7
      [([0, 1], [5, 7]), ([0], [2]), (([0], [9]) : Line ℚ), ([0], [2])] none
      (some [0, 1 / 2, 1]) none none).1 = .ok [1, 0, 2] :=
  ⟨countRng_valid, nearHalfUp_near, by decide +kernel, by decide +kernel⟩

/-! ### C70: typical items -/

theorem argminL_spec {l : List K} (h : l ≠ []) :
    ∃ k, argminL l = .ok k ∧ k < l.length ∧ (∀ j < l.length, l.getD k 0 ≤ l.getD j 0) ∧
      ∀ j < k, l.getD k 0 < l.getD j 0 := by
  have hget : ∀ {x}, x ∈ l → ∃ j < l.length, l.getD j 0 = x := by
    intro x hx
    obtain ⟨j, hj, hjx⟩ := List.getElem_of_mem hx
    exact ⟨j, hj, by simpa [List.getElem?_eq_getElem hj] using hjx⟩
  have hmin : ∃ m ∈ l, ∀ x ∈ l, m ≤ x := by
    have hs : sortL l ≠ [] := fun h' => h (by
      have := (sortL_perm l).length_eq
      rw [h'] at this
      exact List.length_eq_zero_iff.1 this.symm)
    obtain ⟨m, t, hmt⟩ := List.exists_cons_of_ne_nil hs
    refine ⟨m, mem_sortL.1 (by rw [hmt]; simp), fun x hx => ?_⟩
    have hp := sortL_pairwise l
    rw [hmt, List.pairwise_cons] at hp
    have hx : x ∈ sortL l := mem_sortL.2 hx
    rw [hmt, List.mem_cons] at hx
    rcases hx with rfl | hx
    · exact le_rfl
    · exact hp.1 x hx
  obtain ⟨m, hm, hmin⟩ := hmin
  obtain ⟨k0, hk0, hk0m⟩ := hget hm
  unfold argminL
  cases hf : (List.range l.length).find? fun i => l.all fun x => decide (l.getD i 0 ≤ x) with
  | none =>
    rw [List.find?_eq_none] at hf
    have := hf k0 (by simpa using hk0)
    rw [hk0m] at this
    exact absurd (List.all_eq_true.2 fun x hx => by simpa using hmin x hx) this
  | some i =>
    obtain ⟨a, b, c⟩ := List.find?_range_eq_some.1 hf
    have hi : i < l.length := by simpa using b
    have a : ∀ x ∈ l, l.getD i 0 ≤ x := by
      intro x hx
      simpa using List.all_eq_true.1 a x hx
    have hm' : ∀ {j}, j < l.length → l.getD j 0 ∈ l := by
      intro j hj
      simp [List.getElem?_eq_getElem hj]
    refine ⟨i, rfl, hi, fun j hj => a _ (hm' hj), fun j hj => ?_⟩
    rw [← not_le]
    intro hle
    have hc := c j hj
    have : (l.all fun x => decide (l.getD j 0 ≤ x)) = true :=
      List.all_eq_true.2 fun x hx => by simpa using hle.trans (a x hx)
    rw [this] at hc
    cases hc

/-- The sum of the distances of item `i` to the items with label `v`. -/
def distanceSum (d : List K → List K → K) (E : Mat K) (labels : List ℤ) (v : ℤ) (i : Nat) : K :=
  (((List.range labels.length).filter fun j => labels.getD j 0 == v).map fun j =>
    d (E.row i) (E.row j)).sum

/-- C70: one index per distinct label, in the order of the labels; it has that label, and no item
with the label has a smaller sum of distances to the items with the label; earlier items with the
label have a larger sum. -/
theorem C70_medoids (d : List K → List K → K) (hd : ∀ x, d x x = 0) (hs : ∀ x y, d x y = d y x)
    (E : Mat K) (labels : List ℤ) (hl : labels.length ≤ E.r) :
    ∃ idx, chooseTypical d E labels = .ok idx ∧ idx.length = labels.dedup.length ∧
      List.Forall₂ (fun v i => i < labels.length ∧ labels.getD i 0 = v ∧
        (∀ j < labels.length, labels.getD j 0 = v →
          distanceSum d E labels v i ≤ distanceSum d E labels v j) ∧
        (∀ j < i, labels.getD j 0 = v →
          distanceSum d E labels v i < distanceSum d E labels v j)) (uniqueL labels) idx := by
  have key : ∀ v ∈ uniqueL labels, ∃ i, typicalItem d E labels v = .ok i ∧ i < labels.length ∧
      labels.getD i 0 = v ∧
        (∀ j < labels.length, labels.getD j 0 = v →
          distanceSum d E labels v i ≤ distanceSum d E labels v j) ∧
        (∀ j < i, labels.getD j 0 = v →
          distanceSum d E labels v i < distanceSum d E labels v j) := by
    intro v hv
    set w := whereEq labels v with hw
    have hwpos : 0 < w.length := by
      rw [hw, whereEq_length]
      exact List.count_pos_iff.2 (mem_uniqueL.1 hv)
    have hsum : ∀ a < w.length, ((List.range w.length).map (squareformEntry d E w a)).sum =
        distanceSum d E labels v (w.getD a 0) := by
      intro a ha
      unfold distanceSum
      have : ((List.range labels.length).filter fun j => labels.getD j 0 == v) = w := rfl
      rw [this]
      have e : w.map (fun j => d (E.row (w.getD a 0)) (E.row j)) =
          (List.range w.length).map fun b => d (E.row (w.getD a 0)) (E.row (w.getD b 0)) := by
        apply List.ext_getElem
        · simp
        · intro b h1 h2
          have hb : b < w.length := by simpa using h1
          simp [List.getElem?_eq_getElem hb]
      rw [e]
      congr 1
      refine List.map_congr_left fun b _ => ?_
      unfold squareformEntry
      by_cases hab : a = b
      · subst hab
        rw [if_pos rfl, hd]
      · rw [if_neg hab]
        rcases lt_or_gt_of_ne hab with h | h
        · rw [min_eq_left h.le, max_eq_right h.le]
        · rw [min_eq_right h.le, max_eq_left h.le, hs]
    set sums := (List.range w.length).map fun a =>
      ((List.range w.length).map (squareformEntry d E w a)).sum with hsums
    have hslen : sums.length = w.length := by simp [hsums]
    have hsget : ∀ a < w.length, sums.getD a 0 = distanceSum d E labels v (w.getD a 0) := by
      intro a ha
      rw [← hsum a ha]
      simp [hsums, List.getElem?_range ha]
    obtain ⟨k, k1, k2, k3, k4⟩ := argminL_spec (l := sums) (by
      intro h0
      rw [h0] at hslen
      simp at hslen
      omega)
    rw [hslen] at k2 k3
    have hmem : w.getD k 0 ∈ w := by simp [List.getElem?_eq_getElem k2]
    have hpos : ∀ j < labels.length, labels.getD j 0 = v → ∃ b < w.length, w.getD b 0 = j := by
      intro j hj hjv
      have hjw : j ∈ w := mem_whereEq.2 ⟨hj, hjv⟩
      obtain ⟨b, hb, hbj⟩ := List.getElem_of_mem hjw
      exact ⟨b, hb, by simpa [List.getElem?_eq_getElem hb] using hbj⟩
    have hm := mem_whereEq.1 hmem
    refine ⟨w.getD k 0, ?_, hm.1, hm.2, ?_, ?_⟩
    · unfold typicalItem
      rw [← hw, ← hsums, k1]
      simp [pyGet, List.getElem?_eq_getElem k2]
    · intro j hj hjv
      obtain ⟨b, hb, rfl⟩ := hpos j hj hjv
      rw [← hsget k k2, ← hsget b hb]
      exact k3 b hb
    · intro j hj hjv
      obtain ⟨b, hb, rfl⟩ := hpos j (by omega) hjv
      rw [← hsget k k2, ← hsget b hb]
      apply k4
      by_contra hkb
      have hsorted : w.Pairwise (· < ·) := List.pairwise_lt_range.filter _
      rcases eq_or_lt_of_le (not_lt.1 hkb) with rfl | hlt
      · exact lt_irrefl _ hj
      · have := List.pairwise_iff_getElem.1 hsorted k b k2 hb hlt
        simp only [List.getD_eq_getElem?_getD, List.getElem?_eq_getElem k2,
          List.getElem?_eq_getElem hb, Option.getD_some] at hj
        omega
  choose! f hf using key
  refine ⟨(uniqueL labels).map f, ?_, ?_, ?_⟩
  · unfold chooseTypical
    rw [if_neg (by omega)]
    exact mapE_of_forall fun v hv => (hf v hv).1
  · rw [List.length_map]
    exact ((sortL_perm labels).dedup).length_eq
  · rw [List.forall₂_map_right_iff]
    exact List.forall₂_same.2 fun v hv => (hf v hv).2

/-- Absolute difference of the first coordinate. -/
def exDist (x y : List ℚ) : ℚ := |x.getD 0 0 - y.getD 0 0|

/-- The hypotheses of C70 hold: two clusters on a line; ties go to the first item. -/
example : (∀ x, exDist x x = 0) ∧ (∀ x y, exDist x y = exDist y x) ∧
    chooseTypical exDist ⟨6, 1, fun i _ => ([0, 10, 4, 12, 5, 13] : List ℚ).getD i 0⟩
      [1, 0, 1, 0, 1, 0] = .ok [3, 2] :=
  ⟨fun x => by simp [exDist], fun x y => abs_sub_comm _ _, by decide +kernel⟩

/-! ### C71: ranges and colours -/

theorem minOf_isLeast {l : List K} (h : l ≠ []) : IsLeast {x | x ∈ l} (minOf l) := by
  have key : ∀ (l : List K) (d : K), (l.foldr min d = d ∨ l.foldr min d ∈ l) ∧
      ∀ x ∈ l, l.foldr min d ≤ x := by
    intro l d
    induction l with
    | nil => simp
    | cons a l ih =>
      simp only [List.foldr_cons, List.mem_cons]
      refine ⟨?_, ?_⟩
      · rcases min_choice a (l.foldr min d) with h | h <;> rw [h]
        · exact .inr (.inl rfl)
        · rcases ih.1 with h | h
          · exact .inl h
          · exact .inr (.inr h)
      · rintro x (rfl | hx)
        · exact min_le_left _ _
        · exact (min_le_right _ _).trans (ih.2 x hx)
  obtain ⟨a, l, rfl⟩ := List.exists_cons_of_ne_nil h
  obtain ⟨h1, h2⟩ := key (a :: l) a
  refine ⟨?_, fun x hx => h2 x hx⟩
  rcases h1 with h1 | h1
  · show (a :: l).foldr min a ∈ a :: l
    rw [h1]; simp
  · exact h1

/-- C71: for a non-negative margin the range contains all data, with the same distance to the
smallest and to the largest value. -/
theorem C71_range (v : List K) (hv : v ≠ []) (lo hi : Option K) (margin : K) (hm : 0 ≤ margin) :
    ∃ a b, rangeMargin (some v) lo hi margin = .ok (a, b) ∧ (∀ x ∈ v, a ≤ x ∧ x ≤ b) ∧
      ∃ x ∈ v, ∃ y ∈ v, x - a = (y - x) * margin ∧ b - y = (y - x) * margin := by
  have h1 := minOf_isLeast hv
  have h2 := maxOf_isGreatest hv
  have hle : minOf v ≤ maxOf v := h1.2 h2.1
  have hn : 0 ≤ (maxOf v - minOf v) * margin := mul_nonneg (sub_nonneg.2 hle) hm
  refine ⟨_, _, by unfold rangeMargin; simp only [if_neg hv]; rfl, fun x hx => ⟨?_, ?_⟩,
    minOf v, h1.1, maxOf v, h2.1, by ring, by ring⟩
  · linarith [h1.2 hx]
  · linarith [h2.2 hx]

/-- C71: the same for given limits: they are contained, with the margin times their distance on
both sides. -/
theorem C71_range_limits (lo hi margin : K) (hm : 0 ≤ margin) (hle : lo ≤ hi) :
    ∃ a b, rangeMargin none (some lo) (some hi) margin = .ok (a, b) ∧ a ≤ lo ∧ hi ≤ b ∧
      lo - a = (hi - lo) * margin ∧ b - hi = (hi - lo) * margin := by
  have hn : 0 ≤ (hi - lo) * margin := mul_nonneg (sub_nonneg.2 hle) hm
  exact ⟨_, _, rfl, by linarith, by linarith, by ring, by ring⟩

/-- C71: without data both limits are needed. -/
theorem C71_range_missing (lo hi : Option K) (margin : K) (h : lo = none ∨ hi = none) :
    rangeMargin none lo hi margin = .error .exception := by
  rcases h with rfl | rfl
  · cases hi <;> rfl
  · cases lo <;> rfl

/-- C71: a vector with two different values is mapped into [0, 1] in the same order; the smallest
values become 0, the largest 1. -/
theorem C71_normed (v : List K) (x₀ y₀ : K) (hx₀ : x₀ ∈ v) (hy₀ : y₀ ∈ v) (hne : x₀ ≠ y₀) :
    ∃ g : K → K, normed v = .ok (v.map fun x => .fin (g x)) ∧
      (∀ x ∈ v, 0 ≤ g x ∧ g x ≤ 1) ∧
      (∀ x ∈ v, ∀ y ∈ v, g x < g y ↔ x < y) ∧
      (∀ x ∈ v, (g x = 0 ↔ ∀ y ∈ v, x ≤ y) ∧ (g x = 1 ↔ ∀ y ∈ v, y ≤ x)) := by
  have hv : v ≠ [] := List.ne_nil_of_mem hx₀
  have h1 := minOf_isLeast hv
  have h2 := maxOf_isGreatest hv
  have hlt : minOf v < maxOf v := by
    rcases lt_or_gt_of_ne hne with h | h
    · exact (h1.2 hx₀).trans_lt (h.trans_le (h2.2 hy₀))
    · exact (h1.2 hy₀).trans_lt (h.trans_le (h2.2 hx₀))
  have hpos : 0 < maxOf v - minOf v := sub_pos.2 hlt
  have hg : ∀ x y : K, (x - minOf v) / (maxOf v - minOf v) < (y - minOf v) / (maxOf v - minOf v) ↔
      x < y := by
    intro x y
    rw [div_lt_div_iff_of_pos_right hpos, sub_lt_sub_iff_right]
  refine ⟨fun x => (x - minOf v) / (maxOf v - minOf v), ?_, ?_, ?_, ?_⟩
  · unfold normed
    rw [if_neg hv]
    simp [Num.div, hpos.ne']
  · intro x hx
    refine ⟨div_nonneg (sub_nonneg.2 (h1.2 hx)) hpos.le, (div_le_one hpos).2 ?_⟩
    exact sub_le_sub_right (h2.2 hx) _
  · intro x _ y _
    exact hg x y
  · intro x hx
    constructor
    · rw [div_eq_zero_iff, or_iff_left hpos.ne', sub_eq_zero]
      constructor
      · rintro rfl y hy
        exact h1.2 hy
      · intro h
        exact le_antisymm (h _ h1.1) (h1.2 hx)
    · rw [div_eq_one_iff_eq hpos.ne', sub_left_inj]
      constructor
      · rintro rfl y hy
        exact h2.2 hy
      · intro h
        exact le_antisymm (h2.2 hx) (h _ h2.1)

/-- C71: for a constant vector the normalisation is 0/0 everywhere. -/
theorem C71_constant (n : Nat) (c : K) :
    normed (List.replicate (n + 1) c) = .ok (List.replicate (n + 1) Num.nan) := by
  have hne : List.replicate (n + 1) c ≠ [] := by simp
  have h1 : minOf (List.replicate (n + 1) c) = c :=
    List.eq_of_mem_replicate (minOf_isLeast hne).1
  have h2 : maxOf (List.replicate (n + 1) c) = c :=
    List.eq_of_mem_replicate (maxOf_isGreatest hne).1
  unfold normed
  rw [if_neg hne, h1, h2, List.map_replicate]
  simp [Num.div, Num.infSign]

/-- C71: an affine change of units does not change the colours. -/
theorem C71_units (v : List K) (a b : K) (ha : 0 < a) :
    normed (v.map fun x => a * x + b) = normed v := by
  by_cases hv : v = []
  · subst hv; rfl
  have hv' : (v.map fun x => a * x + b) ≠ [] := by simpa using hv
  have hm : minOf (v.map fun x => a * x + b) = a * minOf v + b := by
    apply (minOf_isLeast hv').unique
    refine ⟨List.mem_map.2 ⟨_, (minOf_isLeast hv).1, rfl⟩, ?_⟩
    intro y hy
    obtain ⟨x, hx, rfl⟩ := List.mem_map.1 hy
    have := mul_le_mul_of_nonneg_left ((minOf_isLeast hv).2 hx) ha.le
    linarith
  have hM : maxOf (v.map fun x => a * x + b) = a * maxOf v + b := by
    apply (maxOf_isGreatest hv').unique
    refine ⟨List.mem_map.2 ⟨_, (maxOf_isGreatest hv).1, rfl⟩, ?_⟩
    intro y hy
    obtain ⟨x, hx, rfl⟩ := List.mem_map.1 hy
    have := mul_le_mul_of_nonneg_left ((maxOf_isGreatest hv).2 hx) ha.le
    linarith
  unfold normed
  rw [if_neg hv, if_neg hv', hm, hM, List.map_map]
  congr 1
  refine List.map_congr_left fun x hx => ?_
  have e1 : a * x + b - (a * minOf v + b) = a * (x - minOf v) := by ring
  have e2 : a * maxOf v + b - (a * minOf v + b) = a * (maxOf v - minOf v) := by ring
  simp only [Function.comp_apply, e1, e2, Num.div]
  by_cases hz : maxOf v - minOf v = 0
  · rw [if_pos hz, if_pos (by rw [hz, mul_zero])]
    have h1 := (minOf_isLeast hv).2 hx
    have h2 := (maxOf_isGreatest hv).2 hx
    have : x - minOf v = 0 := by linarith
    rw [this, mul_zero]
  · rw [if_neg hz, if_neg (mul_ne_zero ha.ne' hz), mul_div_mul_left _ _ ha.ne']

/-- C71: a colour channel between 0 and 1 becomes a byte, in the same order. -/
theorem C71_byte (c : K) (h0 : 0 ≤ c) (h1 : c ≤ 1) :
    0 ≤ colourByte c ∧ colourByte c ≤ 255 ∧ (colourByte c = 255 ↔ c = 1) ∧
    ∀ c' : K, c ≤ c' → colourByte c ≤ colourByte c' := by
  have hc : ∀ c : K, 0 ≤ c → colourByte c = ⌊c * 255⌋ := by
    intro c h
    unfold colourByte
    rw [if_pos (by linarith)]
  rw [hc c h0]
  refine ⟨Int.floor_nonneg.2 (by linarith), ?_, ?_, ?_⟩
  · have : ⌊c * 255⌋ ≤ ⌊(255 : K)⌋ := Int.floor_le_floor (by linarith)
    simpa using this
  · constructor
    · intro h
      have := Int.floor_le (c * 255)
      rw [h] at this
      push_cast at this
      linarith
    · rintro rfl
      simp
  · intro c' hcc
    rw [hc c' (h0.trans hcc)]
    exact Int.floor_le_floor (by linarith)

/-- The hypotheses of C71 hold for ordinary data. -/
example : rangeMargin (some [3, (1 : ℚ), 5]) none none (1 / 20) = .ok (4 / 5, 26 / 5) ∧
    normed [3, (1 : ℚ), 5] = .ok [.fin (1 / 2), .fin 0, .fin 1] ∧
    colourByte (1 / 2 : ℚ) = 127 := by
  decide +kernel

end Geo
