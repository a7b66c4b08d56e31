import Verif.Props.Distance
set_option linter.unusedSectionVars false
/-
Weights computed from points: relabelling and selecting points (C17, C18), the backend chosen by
`distance_args` (C20), and dimensions that share one file (C79).
-/
namespace Geo
variable {K : Type} [Field K] [LinearOrder K] [IsStrictOrderedRing K] [FloorRing K]

/-! ### C17: relabelling target points -/

/-- Apply a change to a two-dimensional array. -/
def DArr.onMat (g : Mat K → Mat K) : DArr K → DArr K
  | .d1 l => .d1 l
  | .d2 m => .d2 (g m)

/-- Apply a change to the distances of one dimension. -/
def DistOut.onMat (g : Mat K → Mat K) (d : DistOut K) : DistOut K := { d with arr := d.arr.onMat g }

theorem allD2_onMat (g : Mat K → Mat K) (ds : List (DistOut K)) :
    allD2 (ds.map (DistOut.onMat g)) = (allD2 ds).map (List.map g) := by
  induction ds with
  | nil => rfl
  | cons d ds ih =>
    rcases d with ⟨lz, _ | m, s⟩
    · rfl
    · simp only [List.map_cons, DistOut.onMat, DArr.onMat, allD2, ih, Option.map_map]
      rfl

/-- The points in a new order. -/
def permPoints (σ : Nat → Nat) (t : Mat K) : Mat K := selRows σ t.r t

theorem distanceMatrix_permPoints (lib : Lib K) (σ : Nat → Nat) (ud : Bool) (fs fs' : Disk K)
    (s t : Mat K) (m : Option String) :
    (distanceMatrix lib fs s (some (permPoints σ t)) m ud false {}).1 =
      (distanceMatrix lib fs' s (some t) m ud false {}).1.map (DistOut.onMat (permCols σ)) := by
  unfold distanceMatrix
  have hc : columnsDiffer s (some (permPoints σ t)) = columnsDiffer s (some t) := rfl
  rw [hc]
  split
  · rfl
  cases ud with
  | true =>
    simp only [daskDistance, cachedStore, if_true]
    cases lib.dask m <;> rfl
  | false =>
    simp only [eagerDistance, Bool.false_eq_true, if_false]
    split
    · split
      · rfl
      · split <;> rfl
    · cases lib.scipy m {} <;> rfl

theorem distanceLoop_permPoints (lib : Lib K) (σ : Nat → Nat) (ud : Bool) (srcs : List (Mat K)) :
    ∀ (tgts : List (Mat K)) (ms : List (Option String)) (n : Nat) (fs fs' : Disk K),
      (distanceLoop lib ud false fs srcs ((tgts.map (permPoints σ)).map some) ms
        (List.replicate n {})).1 =
      (distanceLoop lib ud false fs' srcs (tgts.map some) ms (List.replicate n {})).1.map
        (List.map (DistOut.onMat (permCols σ))) := by
  induction srcs with
  | nil => intros; simp [distanceLoop, Except.map]
  | cons s srcs ih =>
    intro tgts ms n fs fs'
    cases tgts with
    | nil => simp [distanceLoop, Except.map]
    | cons t tgts =>
      cases ms with
      | nil => simp [distanceLoop, Except.map]
      | cons m ms =>
        cases n with
        | zero => simp [distanceLoop, Except.map]
        | succ n =>
          simp only [List.replicate_succ, List.map_cons, distanceLoop]
          have h := distanceMatrix_permPoints lib σ ud fs fs' s t m
          rcases h1 : distanceMatrix lib fs s (some (permPoints σ t)) m ud false {} with ⟨r1, f1⟩
          rcases h2 : distanceMatrix lib fs' s (some t) m ud false {} with ⟨r2, f2⟩
          rw [h1, h2] at h
          simp only at h
          subst h
          cases r2 with
          | error e => rfl
          | ok d =>
            simp only [Except.map]
            have h := ih tgts ms n f1 f2
            rcases h3 : distanceLoop lib ud false f1 srcs ((tgts.map (permPoints σ)).map some) ms
              (List.replicate n {}) with ⟨r3, f3⟩
            rcases h4 : distanceLoop lib ud false f2 srcs (tgts.map some) ms
              (List.replicate n {}) with ⟨r4, f4⟩
            rw [h3, h4] at h
            simp only at h
            subst h
            cases r4 <;> rfl

/-- Every two-dimensional array that comes out has one column per target point. -/
theorem distanceLoop_cols (lib : Lib K) (ud : Bool) (srcs : List (Mat K)) :
    ∀ (tgts : List (Mat K)) (ms : List (Option String)) (n : Nat) (fs : Disk K)
      (ds : List (DistOut K)) (Ds : List (Mat K)),
      (distanceLoop lib ud false fs srcs (tgts.map some) ms (List.replicate n {})).1 = .ok ds →
      allD2 ds = some Ds → ∀ D ∈ Ds, ∃ t ∈ tgts, D.c = t.r := by
  induction srcs with
  | nil =>
    intro tgts ms n fs ds Ds h h2 D hD
    simp only [distanceLoop, Except.ok.injEq] at h
    subst h
    simp only [allD2, Option.some.injEq] at h2
    subst h2
    cases hD
  | cons s srcs ih =>
    intro tgts ms n fs ds Ds h h2 D hD
    cases tgts with
    | nil => simp [distanceLoop] at h
    | cons t tgts =>
      cases ms with
      | nil => simp [distanceLoop] at h
      | cons m ms =>
        cases n with
        | zero => simp [distanceLoop] at h
        | succ n =>
          simp only [List.replicate_succ, List.map_cons, distanceLoop] at h
          have hd : ∀ d f1, distanceMatrix lib fs s (some t) m ud false {} = (.ok d, f1) →
              ∀ M, d.arr = .d2 M → M.c = t.r := by
            intro d f1 h1 M hM
            unfold distanceMatrix at h1
            split at h1
            · cases h1
            cases ud with
            | true =>
              simp only [daskDistance, cachedStore, if_true] at h1
              cases hl : lib.dask m with
              | none => simp [hl] at h1
              | some f =>
                simp [hl] at h1
                obtain ⟨rfl, -⟩ := h1
                simp only [DArr.d2.injEq] at hM
                subst hM
                rfl
            | false =>
              simp only [eagerDistance, Bool.false_eq_true, if_false, Prod.mk.injEq] at h1
              obtain ⟨h1, -⟩ := h1
              split at h1
              · split at h1
                · cases h1
                · split at h1
                  · injection h1 with h1; subst h1; cases hM
                  · injection h1 with h1; subst h1
                    simp only [DArr.d2.injEq] at hM
                    subst hM
                    rfl
              · cases hl : lib.scipy m {} with
                | none => simp [hl] at h1
                | some f =>
                  simp [hl] at h1
                  subst h1
                  simp only [DArr.d2.injEq] at hM
                  subst hM
                  rfl
          rcases h1 : distanceMatrix lib fs s (some t) m ud false {} with ⟨r1, f1⟩
          rw [h1] at h
          cases r1 with
          | error e => cases h
          | ok d =>
            simp only at h
            rcases h3 : distanceLoop lib ud false f1 srcs (tgts.map some) ms
              (List.replicate n {}) with ⟨r3, f3⟩
            rw [h3] at h
            cases r3 with
            | error e => cases h
            | ok ds' =>
              injection h with h
              subst h
              have hd := hd d f1 h1
              rcases d with ⟨lz, l | M, so⟩
              · simp [allD2] at h2
              · simp only [allD2, Option.map_eq_some_iff] at h2
                obtain ⟨Ds', hDs', rfl⟩ := h2
                rcases List.mem_cons.1 hD with rfl | hD
                · exact ⟨t, by simp, hd _ rfl⟩
                · obtain ⟨t', ht', he⟩ := ih tgts ms n f1 ds' Ds' (by rw [h3]) hDs' D hD
                  exact ⟨t', by simp [ht'], he⟩

/-- C17: on points: the target points in a new order (the same in every dimension) give the
columns of the weight matrix in that order and change nothing else, not even the kind of failure;
with either backend. -/
theorem C17_target_points (lib : Lib K) (env : Env K) (fs : Disk K) (src tgt : List (Mat K))
    (measure : Param (Option String)) (p : WParams K) (distanceArgs : DistArgs K) (σ : Nat → Nat)
    (hσ : ∀ t ∈ tgt, PermBelow σ t.r) :
    (weightMatrixFromPoints lib env fs src (some (tgt.map (permPoints σ))) measure p
      distanceArgs).1 =
      (weightMatrixFromPoints lib env fs src (some tgt) measure p distanceArgs).1.map
        (permCols σ) := by
  unfold weightMatrixFromPoints distanceMatrices
  simp only [Option.getD_none, List.length_map]
  split
  · rename_i hne
    by_cases hl : src.length ≠ tgt.length
    · simp only [if_pos hl] at hne ⊢
      injection hne with h1 h2
      injection h1 with h1
      subst h1
      rfl
    · rw [if_neg hl] at hne ⊢
      have h := distanceLoop_permPoints lib σ distanceArgs.truthy src tgt
        (measure.expand src.length) src.length fs fs
      rw [hne] at h
      rcases h4 : distanceLoop lib distanceArgs.truthy false fs src (tgt.map some)
        (measure.expand src.length) (List.replicate src.length {}) with ⟨r4, f4⟩
      rw [h4] at h
      cases r4 with
      | error e => simp only [Except.map, Except.error.injEq] at h ⊢; exact h
      | ok ds => cases h
  · rename_i ds fs2 hne
    by_cases hl : src.length ≠ tgt.length
    · rw [if_pos hl] at hne; cases hne
    rw [if_neg hl] at hne ⊢
    have h := distanceLoop_permPoints lib σ distanceArgs.truthy src tgt
        (measure.expand src.length) src.length fs fs
    rw [hne] at h
    rcases h4 : distanceLoop lib distanceArgs.truthy false fs src (tgt.map some)
      (measure.expand src.length) (List.replicate src.length {}) with ⟨r4, f4⟩
    rw [h4] at h
    cases r4 with
    | error e => cases h
    | ok ds' =>
      simp only [Except.map, Except.ok.injEq] at h
      subst h
      simp only [weightFromDists, allD2_onMat]
      cases hD : allD2 ds' with
      | none => rfl
      | some Ds =>
        simp only [Option.map_some]
        apply C17_target_relabelling
        intro D hDm
        obtain ⟨t, ht, he⟩ := distanceLoop_cols lib _ src tgt _ _ fs ds' Ds (by rw [h4]) hD D hDm
        rw [he]
        exact hσ t ht

/-! ### C18: selecting source points -/

theorem distanceMatrix_selRows (lib : Lib K) (ρ : Nat → Nat) (k : Nat) (fs : Disk K)
    (s t : Mat K) (m : Option String) (hs : 0 < s.r) (hk : 0 < k) :
    (distanceMatrix lib fs (selRows ρ k s) (some t) m false false {}).1 =
      (distanceMatrix lib fs s (some t) m false false {}).1.map (DistOut.onMat (selRows ρ k)) := by
  unfold distanceMatrix
  have hc : columnsDiffer (selRows ρ k s) (some t) = columnsDiffer s (some t) := rfl
  rw [hc]
  split
  · rfl
  simp only [eagerDistance, Bool.false_eq_true, if_false]
  have e1 : (selRows ρ k s).c = s.c := rfl
  have e2 : (selRows ρ k s).r = k := rfl
  rw [e1, e2, if_neg (by omega : ¬ k = 0), if_neg (by omega : ¬ s.r = 0)]
  split
  · split <;> rfl
  · cases lib.scipy m {} <;> rfl

theorem distanceLoop_selRows (lib : Lib K) (ρ : Nat → Nat) (k : Nat) (hk : 0 < k)
    (srcs : List (Mat K)) :
    ∀ (tgts : List (Mat K)) (ms : List (Option String)) (n : Nat) (fs fs' : Disk K),
      (∀ s ∈ srcs, 0 < s.r) →
      (distanceLoop lib false false fs (srcs.map (selRows ρ k)) (tgts.map some) ms
        (List.replicate n {})).1 =
      (distanceLoop lib false false fs' srcs (tgts.map some) ms (List.replicate n {})).1.map
        (List.map (DistOut.onMat (selRows ρ k))) := by
  induction srcs with
  | nil => intros; simp [distanceLoop, Except.map]
  | cons s srcs ih =>
    intro tgts ms n fs fs' hs
    cases tgts with
    | nil => simp [distanceLoop, Except.map]
    | cons t tgts =>
      cases ms with
      | nil => simp [distanceLoop, Except.map]
      | cons m ms =>
        cases n with
        | zero => simp [distanceLoop, Except.map]
        | succ n =>
          simp only [List.replicate_succ, List.map_cons, distanceLoop]
          have h := distanceMatrix_selRows lib ρ k fs s t m (hs s (by simp)) hk
          have e : (distanceMatrix lib fs' s (some t) m false false {}).1 =
              (distanceMatrix lib fs s (some t) m false false {}).1 := by
            unfold distanceMatrix
            split <;> rfl
          rw [← e] at h
          rcases h1 : distanceMatrix lib fs (selRows ρ k s) (some t) m false false {} with ⟨r1, f1⟩
          rcases h2 : distanceMatrix lib fs' s (some t) m false false {} with ⟨r2, f2⟩
          rw [h1, h2] at h
          simp only at h
          subst h
          cases r2 with
          | error e => rfl
          | ok d =>
            simp only [Except.map]
            have h := ih tgts ms n f1 f2 fun s hs' => hs s (by simp [hs'])
            rcases h3 : distanceLoop lib false false f1 (srcs.map (selRows ρ k)) (tgts.map some) ms
              (List.replicate n {}) with ⟨r3, f3⟩
            rcases h4 : distanceLoop lib false false f2 srcs (tgts.map some) ms
              (List.replicate n {}) with ⟨r4, f4⟩
            rw [h3, h4] at h
            simp only at h
            subst h
            cases r4 <;> rfl

/-- Without points in the wrong shape, every array that comes out has one row per source point. -/
theorem distanceLoop_rows (lib : Lib K) (srcs : List (Mat K)) :
    ∀ (tgts : List (Mat K)) (ms : List (Option String)) (n : Nat) (fs : Disk K)
      (ds : List (DistOut K)) (Ds : List (Mat K)),
      (distanceLoop lib false false fs srcs (tgts.map some) ms (List.replicate n {})).1 = .ok ds →
      allD2 ds = some Ds → ∀ D ∈ Ds, ∃ s ∈ srcs, D.r = s.r := by
  induction srcs with
  | nil =>
    intro tgts ms n fs ds Ds h h2 D hD
    simp only [distanceLoop, Except.ok.injEq] at h
    subst h
    simp only [allD2, Option.some.injEq] at h2
    subst h2
    cases hD
  | cons s srcs ih =>
    intro tgts ms n fs ds Ds h h2 D hD
    cases tgts with
    | nil => simp [distanceLoop] at h
    | cons t tgts =>
      cases ms with
      | nil => simp [distanceLoop] at h
      | cons m ms =>
        cases n with
        | zero => simp [distanceLoop] at h
        | succ n =>
          simp only [List.replicate_succ, List.map_cons, distanceLoop] at h
          have hd : ∀ d f1, distanceMatrix lib fs s (some t) m false false {} = (.ok d, f1) →
              ∀ M, d.arr = .d2 M → M.r = s.r := by
            intro d f1 h1 M hM
            unfold distanceMatrix at h1
            split at h1
            · cases h1
            simp only [eagerDistance, Bool.false_eq_true, if_false, Prod.mk.injEq] at h1
            obtain ⟨h1, -⟩ := h1
            split at h1
            · split at h1
              · cases h1
              · split at h1
                · injection h1 with h1; subst h1; cases hM
                · injection h1 with h1; subst h1
                  simp only [DArr.d2.injEq] at hM
                  subst hM
                  rfl
            · cases hl : lib.scipy m {} with
              | none => simp [hl] at h1
              | some f =>
                simp [hl] at h1
                subst h1
                simp only [DArr.d2.injEq] at hM
                subst hM
                rfl
          rcases h1 : distanceMatrix lib fs s (some t) m false false {} with ⟨r1, f1⟩
          rw [h1] at h
          cases r1 with
          | error e => cases h
          | ok d =>
            simp only at h
            rcases h3 : distanceLoop lib false false f1 srcs (tgts.map some) ms
              (List.replicate n {}) with ⟨r3, f3⟩
            rw [h3] at h
            cases r3 with
            | error e => cases h
            | ok ds' =>
              injection h with h
              subst h
              have hd := hd d f1 h1
              rcases d with ⟨lz, l | M, so⟩
              · simp [allD2] at h2
              · simp only [allD2, Option.map_eq_some_iff] at h2
                obtain ⟨Ds', hDs', rfl⟩ := h2
                rcases List.mem_cons.1 hD with rfl | hD
                · exact ⟨s, by simp, hd _ rfl⟩
                · obtain ⟨s', hs', he⟩ := ih tgts ms n f1 ds' Ds' (by rw [h3]) hDs' D hD
                  exact ⟨s', by simp [hs'], he⟩

/-- C18: on points: selecting, reordering or repeating source points (in every dimension alike)
selects, reorders or repeats the rows of the weight matrix and changes nothing else, not even the
kind of failure; without `distance_args`. -/
theorem C18_source_points (lib : Lib K) (env : Env K) (fs : Disk K) (src tgt : List (Mat K))
    (measure : Param (Option String)) (p : WParams K) (r c k : Nat) (hr : 0 < r) (hk : 0 < k)
    (hs : ∀ s ∈ src, s.r = r) (ht : ∀ t ∈ tgt, t.r = c) (ρ : Nat → Nat) (hρ : ∀ i < k, ρ i < r) :
    (weightMatrixFromPoints lib env fs (src.map (selRows ρ k)) (some tgt) measure p none).1 =
      (weightMatrixFromPoints lib env fs src (some tgt) measure p none).1.map (selRows ρ k) := by
  have hs' : ∀ s ∈ src, 0 < s.r := fun s h => by rw [hs s h]; exact hr
  have h := distanceLoop_selRows lib ρ k hk src tgt (measure.expand src.length) src.length fs fs hs'
  unfold weightMatrixFromPoints distanceMatrices
  simp only [Option.getD_none, List.length_map, DistArgs.truthy]
  by_cases hl : src.length ≠ tgt.length
  · rw [if_pos hl, if_pos hl]; rfl
  rw [if_neg hl, if_neg hl]
  rcases h3 : distanceLoop lib false false fs (src.map (selRows ρ k)) (tgt.map some)
    (measure.expand src.length) (List.replicate src.length {}) with ⟨r3, f3⟩
  rcases h4 : distanceLoop lib false false fs src (tgt.map some)
    (measure.expand src.length) (List.replicate src.length {}) with ⟨r4, f4⟩
  rw [h3, h4] at h
  simp only at h
  subst h
  cases r4 with
  | error e => rfl
  | ok ds =>
    simp only [Except.map, weightFromDists, allD2_onMat]
    cases hD : allD2 ds with
    | none => rfl
    | some Ds =>
      simp only [Option.map_some]
      refine C18_row_independence env Ds _ r c k (fun D hDm => ⟨?_, ?_⟩) hr hk ρ hρ
      · obtain ⟨s, h1, h2⟩ := distanceLoop_rows lib src tgt _ _ fs ds Ds (by rw [h4]) hD D hDm
        rw [h2, hs s h1]
      · obtain ⟨t, h1, h2⟩ := distanceLoop_cols lib _ src tgt _ _ fs ds Ds (by rw [h4]) hD D hDm
        rw [h2, ht t h1]

/-! ### C20: the backend -/

/-- C20: a non-empty `distance_args` selects the dask backend, whatever it contains: one dimension
of points is compared by the function dask knows under the metric's name, and the distances are
left in `distance_matrix.zarr`. Without `distance_args`, or with an empty one, the function of
scipy is used and no file is written. -/
theorem C20_backend (lib : Lib K) (env : Env K) (fs : Disk K) (s t : Mat K) (m : Option String)
    (p : WParams K) (f g : List K → List K → K) (hc : s.c = t.c) (hm : m ≠ some "great-circle")
    (hf : lib.dask m = some f) (hg : lib.scipy m {} = some g) (a : String × K)
    (l : List (String × K)) :
    (∃ fs', weightMatrixFromPoints lib env fs [s] (some [t]) (.scalar m) p (some (.scalar (a :: l))) =
        (weightMatrixFromDistance env true [⟨s.r, t.r, fun i j => f (s.row i) (t.row j)⟩]
          { p with sorted := .scalar none }, fs') ∧
      fs' "distance_matrix.zarr" = some (.d2 ⟨s.r, t.r, fun i j => f (s.row i) (t.row j)⟩)) ∧
    weightMatrixFromPoints lib env fs [s] (some [t]) (.scalar m) p none =
      (weightMatrixFromDistance env false [⟨s.r, t.r, fun i j => g (s.row i) (t.row j)⟩]
        { p with sorted := .scalar none }, fs) := by
  have hz : zarrPath ({} : Kwargs K) = "distance_matrix.zarr" := by
    unfold zarrPath
    simp only [Option.getD_none]
    rw [if_pos (by decide +kernel)]
  constructor
  · refine ⟨fs.write (zarrPath ({} : Kwargs K)) (.d2 (cdistMat f s t)), ?_, ?_⟩
    · simp [weightMatrixFromPoints, distanceMatrices, Param.expand, distanceLoop, distanceMatrix,
        columnsDiffer, hc, DistArgs.truthy, daskDistance, cachedStore, hf, weightFromDists, allD2,
        cdistMat]
    · rw [hz]; simp [Disk.write, cdistMat]
  · simp [weightMatrixFromPoints, distanceMatrices, Param.expand, distanceLoop, distanceMatrix,
      columnsDiffer, hc, DistArgs.truthy, eagerDistance, hm, hg, weightFromDists, allD2, cdistMat]

/-! ### C74: overwriting -/

/-- C74: with `overwrite` set, or without a store in place, the distances of the given points are
returned and stored, whatever is on the disk. -/
theorem C74_overwrite (lib : Lib K) (fs : Disk K) (src tgt : Mat K)
    (metric : Option String) (kw : Kwargs K) (f : List K → List K → K) (hc : src.c = tgt.c)
    (hm : lib.dask metric = some f)
    (hn : kw.overwrite = true ∨ fs (zarrPath kw) = none ∨ kw.filepath = none) :
    ∃ fs', distanceMatrix lib fs src (some tgt) metric true false kw =
        (.ok ⟨true, .d2 ⟨src.r, tgt.r, fun i j => f (src.row i) (tgt.row j)⟩, none⟩, fs') ∧
      fs' (zarrPath kw) = some (.d2 ⟨src.r, tgt.r, fun i j => f (src.row i) (tgt.row j)⟩) ∧
      ∀ q, q ≠ zarrPath kw → fs' q = fs q := by
  have hn : cachedStore fs kw = none := by
    unfold cachedStore
    rcases hn with h | h | h <;> simp [h]
  refine ⟨fs.write (zarrPath kw) (.d2 (cdistMat f src tgt)), ?_, ?_, ?_⟩
  · simp [distanceMatrix, columnsDiffer, hc, daskDistance, hn, hm, cdistMat]
  · simp [Disk.write, cdistMat]
  · intro q hq
    simp [Disk.write, hq]

/-! ### C79: one file for several dimensions -/

/-- What the dimensions after the first give when the store exists. -/
theorem distanceLoop_stored (lib : Lib K) (cacheSort : Bool) (fs : Disk K) (kw : Kwargs K)
    (a : DArr K) (hf : kw.filepath.isSome) (ho : kw.overwrite = false)
    (he : fs (zarrPath kw) = some a) (srcs : List (Mat K)) :
    ∀ (tgts : List (Mat K)) (ms : List (Option String)),
      List.Forall₂ (fun s t : Mat K => s.c = t.c) srcs tgts → srcs.length ≤ ms.length →
      distanceLoop lib true cacheSort fs srcs (tgts.map some) ms
        (List.replicate srcs.length kw) = (.ok (List.replicate srcs.length ⟨true, a, none⟩), fs) := by
  induction srcs with
  | nil => intros; simp [distanceLoop]
  | cons s srcs ih =>
    intro tgts ms h hm
    cases h with
    | cons hc hr =>
      cases ms with
      | nil => simp at hm
      | cons m ms =>
        simp only [List.length_cons, List.replicate_succ, List.map_cons, distanceLoop]
        rw [C74_existing_store_returned_for_any_points lib fs _ _ m cacheSort kw a hc hf ho he]
        simp only
        rw [ih _ ms hr (by simpa using hm)]

/-- C79: with dask, several dimensions and one `filepath` (passed as a keyword of the call, so
shared by all dimensions) without `overwrite`, the first dimension stores its distances and every
other dimension finds them: all dimensions get the distances of the first one. Their own points
and metrics (even unknown ones) play no role. -/
theorem C79_shared_store (lib : Lib K) (fs : Disk K) (s t : Mat K) (srcs tgts : List (Mat K))
    (m : Option String) (ms : List (Option String)) (kw : Kwargs K) (f : List K → List K → K)
    (hf : kw.filepath.isSome) (ho : kw.overwrite = false) (hnew : fs (zarrPath kw) = none)
    (hm : lib.dask m = some f) (hc : s.c = t.c)
    (hcs : List.Forall₂ (fun s t : Mat K => s.c = t.c) srcs tgts) (hms : srcs.length ≤ ms.length) :
    ∃ fs', distanceMatrices lib fs (s :: srcs) (some (t :: tgts)) (.list (m :: ms)) true false none
        kw = (.ok (List.replicate (srcs.length + 1)
          ⟨true, .d2 ⟨s.r, t.r, fun i j => f (s.row i) (t.row j)⟩, none⟩), fs') := by
  obtain ⟨fs', h1, h2, -⟩ := C74_overwrite lib fs s t m kw f hc hm (.inr (.inl hnew))
  refine ⟨fs', ?_⟩
  unfold distanceMatrices
  simp only [Option.getD_none, List.length_cons, Param.expand, List.replicate_succ,
    List.map_cons, distanceLoop]
  rw [if_neg (by simp [hcs.length_eq]), h1]
  simp only
  rw [distanceLoop_stored lib false fs' kw _ hf ho h2 srcs tgts ms hcs hms]

theorem distanceLoop_own (lib : Lib K) (kw : Kwargs K)
    (hn : kw.overwrite = true ∨ kw.filepath = none) (srcs : List (Mat K)) :
    ∀ (fs : Disk K) (tgts : List (Mat K)) (ms : List (Option String)),
      List.Forall₂ (fun s t : Mat K => s.c = t.c) srcs tgts → srcs.length ≤ ms.length →
      (∀ m ∈ ms, (lib.dask m).isSome) →
      ∃ ds, (distanceLoop lib true false fs srcs (tgts.map some) ms
          (List.replicate srcs.length kw)).1 = .ok ds ∧
        ds.length = srcs.length ∧ ∀ k (hk : k < srcs.length) (hk' : k < tgts.length)
          (hm : k < ms.length) f, lib.dask ms[k] = some f → ds[k]? = some
            ⟨true, .d2 ⟨srcs[k].r, tgts[k].r, fun i j => f (srcs[k].row i) (tgts[k].row j)⟩, none⟩ := by
  induction srcs with
  | nil => intros; exact ⟨[], by simp [distanceLoop]⟩
  | cons s srcs ih =>
    intro fs tgts ms h hm hall
    cases h with
    | cons hc hr =>
      rename_i t tgts
      cases ms with
      | nil => simp at hm
      | cons m ms =>
        obtain ⟨f, hf⟩ := Option.isSome_iff_exists.1 (hall m (by simp))
        obtain ⟨fs', h1, -⟩ := C74_overwrite lib fs s t m kw f hc hf
          (hn.imp id fun h => .inr h)
        obtain ⟨ds, h2, h3, h4⟩ := ih fs' tgts ms hr (by simpa using hm)
          fun m hm => hall m (by simp [hm])
        simp only [List.length_cons, List.replicate_succ, List.map_cons, distanceLoop, h1]
        rcases h5 : distanceLoop lib true false fs' srcs (tgts.map some) ms
          (List.replicate srcs.length kw) with ⟨r5, f5⟩
        rw [h5] at h2
        simp only at h2
        subst h2
        refine ⟨_, rfl, by simp [h3], ?_⟩
        intro k hk hk' hm' g hg
        cases k with
        | zero =>
          simp only [List.getElem_cons_zero] at hg ⊢
          rw [hf] at hg
          cases hg
          simp
        | succ k =>
          simp only [List.getElem_cons_succ] at hg ⊢
          simpa using h4 k (by simpa using hk) (by simpa using hk') (by simpa using hm') g hg

/-- C79: with `overwrite`, or without `filepath`, every dimension gets its own distances. -/
theorem C79_own_distances (lib : Lib K) (srcs : List (Mat K)) (kw : Kwargs K)
    (hn : kw.overwrite = true ∨ kw.filepath = none) (fs : Disk K) (tgts : List (Mat K))
    (ms : List (Option String)) (hcs : List.Forall₂ (fun s t : Mat K => s.c = t.c) srcs tgts)
    (hms : srcs.length ≤ ms.length) (hall : ∀ m ∈ ms, (lib.dask m).isSome) :
    ∃ ds, (distanceMatrices lib fs srcs (some tgts) (.list ms) true false none kw).1 = .ok ds ∧
      ds.length = srcs.length ∧ ∀ k (hk : k < srcs.length) (hk' : k < tgts.length)
        (hm : k < ms.length) f, lib.dask ms[k] = some f → ds[k]? = some
          ⟨true, .d2 ⟨srcs[k].r, tgts[k].r, fun i j => f (srcs[k].row i) (tgts[k].row j)⟩, none⟩ := by
  unfold distanceMatrices
  simp only [Option.getD_none, Param.expand]
  rw [if_neg (by simp [hcs.length_eq])]
  exact distanceLoop_own lib kw hn srcs fs tgts ms hcs hms hall

/-- The hypotheses of C17–C20 and C79 are met: two dimensions, a file path, an empty disk. -/
example :
    let s : Mat ℚ := ⟨2, 1, fun i _ => (i : ℚ)⟩
    let t : Mat ℚ := ⟨3, 1, fun i _ => (2 * i : ℚ)⟩
    let s' : Mat ℚ := ⟨2, 2, fun i j => (i + j : ℚ)⟩
    let t' : Mat ℚ := ⟨3, 2, fun i j => (i * j : ℚ)⟩
    let kw : Kwargs ℚ := { filepath := some "d.zarr" }
    kw.filepath.isSome ∧ kw.overwrite = false ∧
      List.Forall₂ (fun s t : Mat ℚ => s.c = t.c) [s, s'] [t, t'] ∧
      exLib.dask (some "sqeuclidean") = some sqDist ∧
      PermBelow (fun j => 2 - j) t.r ∧ PermBelow (fun j => 2 - j) t'.r ∧
      okAnd (weightMatrixFromPoints exLib ratEnv (fun _ => none) [s, s'] (some [t, t'])
        (.scalar (some "sqeuclidean")) { kernel := .scalar "boxcar", bandwidth := .scalar (some 5) }
        none).1 (fun W => W.r == 2 && W.c == 3) = true ∧
      okAnd (weightMatrixFromPoints exLib ratEnv (fun _ => none) [s] (some [t])
        (.scalar (some "sqeuclidean")) { kernel := .scalar "boxcar", bandwidth := .scalar (some 5) }
        (some (.scalar [("p", 2)]))).1 (fun W => W.r == 2 && W.c == 3) = true := by
  intro s t s' t' kw
  refine ⟨rfl, rfl, .cons rfl (.cons rfl .nil), rfl, ?_, ?_, by decide +kernel, by decide +kernel⟩ <;>
  · constructor
    · intro j hj; simp only [t, t'] at hj ⊢; omega
    · intro j hj k hk h; simp only [t, t'] at hj hk h ⊢; omega

end Geo
