import Verif.Model.Figures
set_option linter.unusedSectionVars false
/-
The plot of global importances: bars, labels and boxes belong together.
-/
namespace Geo
variable {K : Type} [Field K] [LinearOrder K] [IsStrictOrderedRing K] [FloorRing K]

/-- What `np.argsort` promises: the positions in some order along which the values do not decrease. -/
def IsArgsort (argsort : List K → List Nat) : Prop :=
  ∀ v, (argsort v).Perm (List.range v.length) ∧
    (argsort v).Pairwise fun i j => v.getD i 0 ≤ v.getD j 0

theorem mapE_eq_error {α β : Type} {f : α → Except Err β} {l : List α} {e : Err}
    (h : mapE f l = .error e) : ∃ a ∈ l, f a = .error e := by
  by_contra hn
  push Not at hn
  induction l with
  | nil => cases h
  | cons a l ih =>
    simp only [mapE] at h
    cases ha : f a with
    | error e' =>
      rw [ha] at h
      injection h with h
      exact hn a (by simp) (h ▸ ha)
    | ok b =>
      rw [ha] at h
      cases hl : mapE f l with
      | error e' =>
        rw [hl] at h
        injection h with h
        exact ih (h ▸ hl) fun x hx => hn x (by simp [hx])
      | ok bs => rw [hl] at h; cases h

theorem gather_get {α : Type} {l : List α} {idx : List Nat} {r : List α} (h : gather l idx = .ok r) :
    r.length = idx.length ∧ ∀ (k i : Nat), idx[k]? = some i → r[k]? = l[i]? ∧ i < l.length := by
  refine ⟨mapE_length h, fun k i hk => ?_⟩
  obtain ⟨hk', rfl⟩ := List.getElem?_eq_some_iff.1 hk
  have h1 := mapE_get h hk'
  unfold pyGet at h1
  split at h1
  · rename_i a ha
    injection h1 with h1
    rw [ha, h1, List.getElem?_eq_getElem (by rw [mapE_length h]; exact hk')]
    exact ⟨rfl, (List.getElem?_eq_some_iff.1 ha).1⟩
  · cases h1

theorem gather_ok {α : Type} {l : List α} {idx : List Nat} (h : ∀ i ∈ idx, i < l.length) :
    ∃ r, gather l idx = .ok r := by
  cases hg : gather l idx with
  | ok r => exact ⟨r, rfl⟩
  | error e =>
    obtain ⟨i, hi, he⟩ := mapE_eq_error hg
    unfold pyGet at he
    rw [List.getElem?_eq_getElem (h i hi)] at he
    cases he

theorem gather_error {α : Type} {l : List α} {idx : List Nat} {i : Nat} (hi : i ∈ idx)
    (h : l.length ≤ i) : gather l idx = .error .indexError := by
  cases hg : gather l idx with
  | ok r =>
    obtain ⟨k, hk, rfl⟩ := List.getElem_of_mem hi
    have := ((gather_get hg).2 k _ (List.getElem?_eq_getElem hk)).2
    omega
  | error e =>
    obtain ⟨j, hj, he⟩ := mapE_eq_error hg
    unfold pyGet at he
    split at he
    · cases he
    · injection he with he
      rw [he]

theorem importancePlot_ok {argsort : List K → List Nat} {M : Mat K} {labels : Option (List String)}
    {index : Bool} {P : ImportancePlot K} (h : importancePlot argsort M labels index = .ok P) :
    gather ((List.range M.r).map M.row)
        (argsort ((List.range M.r).map fun i => meanL (M.row i))) = .ok P.rows ∧
      gather (plotLabels M.r labels index)
        (argsort ((List.range M.r).map fun i => meanL (M.row i))) = .ok P.labels ∧
      gather ((List.range M.r).map fun i => meanL (M.row i))
        (argsort ((List.range M.r).map fun i => meanL (M.row i))) = .ok P.means := by
  unfold importancePlot at h
  simp only at h
  split at h
  · cases h
  · cases h
  · cases h
  · rename_i h1 h2 h3
    injection h with h
    rw [← h]
    exact ⟨h1, h2, h3⟩

/-- C98: the plot has one bar per feature, in the order of the mean scores, smallest first. At each
position the label, the box of scores and the bar are those of one and the same feature. -/
theorem C98_bars (argsort : List K → List Nat) (ha : IsArgsort argsort) (M : Mat K)
    (labels : Option (List String)) (index : Bool) (P : ImportancePlot K)
    (h : importancePlot argsort M labels index = .ok P) :
    P.labels.length = M.r ∧ P.rows.length = M.r ∧ P.means.length = M.r ∧
      P.means.Pairwise (· ≤ ·) ∧
      ∃ order : List Nat, order.Perm (List.range M.r) ∧
        ∀ (k i : Nat), order[k]? = some i →
          P.rows[k]? = some ((List.range M.c).map (M.get i)) ∧
          P.means[k]? = some (((List.range M.c).map (M.get i)).sum / (M.c : K)) ∧
          ∃ name, (match labels with
            | some ls => ls[i]?
            | none => some ("Feature " ++ toString (i + 1))) = some name ∧
            P.labels[k]? = some (if index then toString (i + 1) ++ ". " ++ name else name) := by
  obtain ⟨h1, h2, h3⟩ := importancePlot_ok h
  obtain ⟨hp, hs⟩ := ha ((List.range M.r).map fun i => meanL (M.row i))
  generalize argsort ((List.range M.r).map fun i => meanL (M.row i)) = order at h1 h2 h3 hp hs
  simp only [List.length_map, List.length_range] at hp
  have hl : order.length = M.r := by simpa using hp.length_eq
  refine ⟨(gather_get h2).1.trans hl, (gather_get h1).1.trans hl, (gather_get h3).1.trans hl, ?_,
    order, hp, fun k i hk => ?_⟩
  · rw [List.pairwise_iff_getElem] at hs ⊢
    intro a b hA hB hab
    have hm := (gather_get h3).1
    have e1 := ((gather_get h3).2 a _ (List.getElem?_eq_getElem (hm ▸ hA)))
    have e2 := ((gather_get h3).2 b _ (List.getElem?_eq_getElem (hm ▸ hB)))
    have := hs a b (hm ▸ hA) (hm ▸ hB) hab
    rw [List.getD_eq_getElem?_getD, List.getD_eq_getElem?_getD, ← e1.1, ← e2.1,
      List.getElem?_eq_getElem hA, List.getElem?_eq_getElem hB] at this
    exact this
  · have hi : i < M.r := by
      simpa using hp.mem_iff.1 (List.mem_of_getElem? hk)
    have e1 := ((gather_get h1).2 k i hk).1
    have e3 := ((gather_get h3).2 k i hk).1
    obtain ⟨e2, hlt⟩ := (gather_get h2).2 k i hk
    refine ⟨by rw [e1]; simp [hi, Mat.row], by rw [e3]; simp [hi, Mat.row, meanL], ?_⟩
    rw [e2]
    unfold plotLabels at hlt ⊢
    cases labels with
    | none => cases index <;> simp [numberedLabels, defaultLabels, hi]
    | some ls =>
      cases index with
      | true =>
        have : i < ls.length := by simpa [numberedLabels] using hlt
        simp [numberedLabels, this]
      | false =>
        have : i < ls.length := by simpa using hlt
        simp [this]

/-- C98: the call succeeds with the default labels and whenever there are at least as many labels as
features; with fewer labels it raises `IndexError`. -/
theorem C98_enough_labels (argsort : List K → List Nat) (ha : IsArgsort argsort) (M : Mat K)
    (index : Bool) :
    (∃ P, importancePlot argsort M none index = .ok P) ∧
    ∀ ls : List String, if M.r ≤ ls.length then ∃ P, importancePlot argsort M (some ls) index = .ok P
      else importancePlot argsort M (some ls) index = .error .indexError := by
  obtain ⟨hp, -⟩ := ha ((List.range M.r).map fun i => meanL (M.row i))
  simp only [List.length_map, List.length_range] at hp
  have hmem : ∀ i ∈ argsort ((List.range M.r).map fun i => meanL (M.row i)), i < M.r := fun i hi => by
    simpa using hp.mem_iff.1 hi
  obtain ⟨r1, h1⟩ := gather_ok (l := (List.range M.r).map M.row) (fun i hi => by simpa using hmem i hi)
  obtain ⟨r3, h3⟩ := gather_ok (l := (List.range M.r).map fun i => meanL (M.row i))
    (fun i hi => by simpa using hmem i hi)
  have hlen : ∀ labels, (plotLabels M.r labels index).length =
      (labels.getD (defaultLabels M.r)).length := by
    intro labels
    cases index <;> simp [plotLabels, numberedLabels]
  have hok : ∀ labels, M.r ≤ (labels.getD (defaultLabels M.r)).length →
      ∃ P, importancePlot argsort M labels index = .ok P := by
    intro labels hle
    obtain ⟨r2, h2⟩ := gather_ok (l := plotLabels M.r labels index)
      (idx := argsort ((List.range M.r).map fun i => meanL (M.row i)))
      (fun i hi => by rw [hlen]; exact (hmem i hi).trans_le hle)
    exact ⟨⟨r2, r1, r3⟩, by simp only [importancePlot, h1, h2, h3]⟩
  refine ⟨hok none (by simp [defaultLabels]), fun ls => ?_⟩
  split
  · exact hok (some ls) (by simpa)
  · rename_i hlt
    push Not at hlt
    have h2 : gather (plotLabels M.r (some ls) index)
        (argsort ((List.range M.r).map fun i => meanL (M.row i))) = .error .indexError :=
      gather_error (i := ls.length) (hp.mem_iff.2 (by simpa using hlt)) (by rw [hlen]; simp)
    simp only [importancePlot, h1, h2]

/-! ### Distinct labels -/

theorem takeWhile_append_of {α : Type} {p : α → Bool} {l : List α} {b : α} {l' : List α}
    (h : ∀ x ∈ l, p x = true) (hb : p b = false) : (l ++ b :: l').takeWhile p = l := by
  induction l with
  | nil => simp [hb]
  | cons a l ih =>
    simp only [List.cons_append, List.takeWhile_cons, h a (by simp), if_true]
    rw [ih fun x hx => h x (by simp [hx])]

/-- A numbered label determines the number. -/
theorem numbered_inj {a b : Nat} {s t : String}
    (h : toString a ++ ". " ++ s = toString b ++ ". " ++ t) : a = b := by
  have h := congrArg String.toList h
  simp only [String.toList_append] at h
  have key : ∀ (n : Nat) (u : String),
      ((toString n).toList ++ ". ".toList ++ u.toList).takeWhile Char.isDigit = Nat.toDigits 10 n := by
    intro n u
    have e : (toString n).toList = Nat.toDigits 10 n := by
      change (String.ofList (Nat.toDigits 10 n)).toList = _
      simp
    have e2 : ". ".toList = ['.', ' '] := by decide
    rw [e, e2, List.append_assoc]
    exact takeWhile_append_of
      (fun c hc => Nat.isDigit_of_mem_toDigits (by norm_num) (by norm_num) hc) (by decide)
  have h2 := key a s
  rw [h, key b t] at h2
  have := congrArg (fun l => Nat.ofDigitChars 10 l 0) h2
  simpa [Nat.ofDigitChars_toDigits] using this.symm

theorem barPosition_nodup {labels : List String} (h : labels.Nodup) {k : Nat} {l : String}
    (hk : labels[k]? = some l) : barPosition labels l = k := by
  obtain ⟨hk', rfl⟩ := List.getElem?_eq_some_iff.1 hk
  generalize hv : labels[k] = v
  have e : labels.takeWhile (fun x => decide (x ≠ v)) = labels.take k := by
    conv_lhs => rw [← List.take_append_drop k labels, List.drop_eq_getElem_cons hk']
    subst hv
    apply takeWhile_append_of
    · intro x hx
      obtain ⟨j, hj, rfl⟩ := List.getElem_of_mem hx
      have hj' : j < k := by simpa using (List.length_take ▸ hj : j < min k labels.length) |>.trans_le (min_le_left _ _)
      simp only [List.getElem_take, ne_eq, decide_not, Bool.not_eq_true', decide_eq_false_iff_not]
      intro e
      have := h.getElem_inj_iff.1 e
      omega
    · simp
  unfold barPosition
  rw [e, ((List.take_sublist k labels).nodup h).dedup, List.length_take]
  omega

theorem barPosition_le {labels : List String} {k : Nat} {l : String} (hk : labels[k]? = some l) :
    barPosition labels l ≤ k := by
  obtain ⟨hk', rfl⟩ := List.getElem?_eq_some_iff.1 hk
  unfold barPosition
  refine (List.dedup_sublist _).length_le.trans ?_
  by_contra hlt
  push Not at hlt
  have h1 : (labels.takeWhile fun x => decide (x ≠ labels[k]))[k] = labels[k] :=
    (List.takeWhile_prefix _).getElem hlt
  have h2 := List.all_eq_true.1 (List.all_takeWhile (p := fun x => decide (x ≠ labels[k]))
    (l := labels)) _ (List.getElem_mem hlt)
  rw [h1] at h2
  simp at h2

/-- C98: with the index in front of the labels (the default) every feature has its own bar, next to
its own box, whatever the labels are; also without it if the labels differ. -/
theorem C98_own_bar (argsort : List K → List Nat) (ha : IsArgsort argsort) (M : Mat K)
    (labels : Option (List String)) (index : Bool) (P : ImportancePlot K)
    (h : importancePlot argsort M labels index = .ok P)
    (hd : index = true ∨ ∃ ls, labels = some ls ∧ ls.Nodup) :
    P.labels.Nodup ∧ ∀ (k : Nat) l, P.labels[k]? = some l → barPosition P.labels l = k := by
  obtain ⟨hl, -, -, -, order, hp, hk⟩ := C98_bars argsort ha M labels index P h
  have hol : order.length = M.r := by simpa using hp.length_eq
  have hnd : order.Nodup := hp.nodup_iff.2 List.nodup_range
  have hnodup : P.labels.Nodup := by
    rw [List.nodup_iff_injective_getElem]
    intro ⟨a, hA⟩ ⟨b, hB⟩ hab
    have hA' : a < order.length := by omega
    have hB' : b < order.length := by omega
    obtain ⟨-, -, na, ha1, ha2⟩ := hk a _ (List.getElem?_eq_getElem hA')
    obtain ⟨-, -, nb, hb1, hb2⟩ := hk b _ (List.getElem?_eq_getElem hB')
    have hab : P.labels[a] = P.labels[b] := hab
    rw [List.getElem?_eq_getElem hA, hab] at ha2
    rw [List.getElem?_eq_getElem hB, ha2] at hb2
    have hb2 := Option.some.inj hb2
    have : order[a] = order[b] := by
      rcases hd with rfl | ⟨ls, rfl, hls⟩
      · simp only [if_true] at hb2
        exact Nat.succ_injective (numbered_inj hb2)
      · cases index with
        | true =>
          simp only [if_true] at hb2
          exact Nat.succ_injective (numbered_inj hb2)
        | false =>
          simp only [Bool.false_eq_true, if_false] at hb2
          obtain ⟨h1, h2⟩ := List.getElem?_eq_some_iff.1 ha1
          obtain ⟨h3, h4⟩ := List.getElem?_eq_some_iff.1 hb1
          exact hls.getElem_inj_iff.1 (h2.trans (hb2.trans h4.symm))
    exact Fin.ext (hnd.getElem_inj_iff.1 this)
  exact ⟨hnodup, fun k l hkl => barPosition_nodup hnodup hkl⟩

/-- C98: without the index, features with equal labels share one bar: the later one is drawn over the
earlier one, away from its own box. -/
theorem C98_shared_bar (argsort : List K → List Nat) (M : Mat K) (labels : Option (List String))
    (index : Bool) (P : ImportancePlot K)
    (_h : importancePlot argsort M labels index = .ok P) {a b : Nat} (hab : a < b) {l : String}
    (ha : P.labels[a]? = some l) (hb : P.labels[b]? = some l) :
    barPosition P.labels l < b ∧ ∀ l', P.labels[b]? = some l' →
      barPosition P.labels l' = barPosition P.labels l :=
  ⟨(barPosition_le ha).trans_lt hab, fun l' h' => by rw [hb] at h'; injection h' with h'; rw [h']⟩

/-! ### Example -/

/-- A stable `argsort`. -/
def stableArgsort (v : List ℚ) : List Nat :=
  (List.range v.length).insertionSort fun i j => v.getD i 0 ≤ v.getD j 0

theorem stableArgsort_isArgsort : IsArgsort stableArgsort := by
  intro v
  have : Std.Total (fun i j => v.getD i 0 ≤ v.getD j 0) := ⟨fun a b => le_total _ _⟩
  have : IsTrans Nat (fun i j => v.getD i 0 ≤ v.getD j 0) := ⟨fun a b c => le_trans⟩
  exact ⟨List.perm_insertionSort _ _, List.pairwise_insertionSort _ _⟩

/-- Three features with two repeats; features 1 and 3 have the same name. -/
def exScores : Mat ℚ := ⟨3, 2, fun i j => if i = 0 then 5 + j else i + j⟩

example : importancePlot stableArgsort exScores (some ["a", "b", "a"]) true =
      .ok ⟨["2. b", "3. a", "1. a"], [[1, 2], [2, 3], [5, 6]], [3 / 2, 5 / 2, 11 / 2]⟩ ∧
    importancePlot stableArgsort exScores (some ["a", "b"]) true = .error .indexError ∧
    okAnd (importancePlot stableArgsort exScores (some ["a", "b", "a"]) false) (fun P =>
      decide (P.labels = ["b", "a", "a"] ∧ P.labels.map (barPosition P.labels) = [0, 1, 1])) = true :=
  ⟨by decide +kernel, by decide +kernel, by decide +kernel⟩

end Geo
