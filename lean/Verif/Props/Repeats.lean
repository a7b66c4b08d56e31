import Verif.Props.Experiments

namespace Geo
set_option linter.unusedSectionVars false
variable {K : Type} [Field K] [LinearOrder K] [IsStrictOrderedRing K] [FloorRing K]
variable {F G C S : Type}

/-- `n` fits one after the other, each on the object and the generator the one before left, all
successful; `l` lists the base score and the stacking score after each. -/
def Successive (fit : SState K F G C → S → SOut Unit K F G C S) (n : Nat) (st : SState K F G C)
    (s : S) (l : List (Option K × Option K)) (s' : S) : Prop :=
  ∃ (sts : Nat → SState K F G C) (ss : Nat → S), sts 0 = st ∧ ss 0 = s ∧ ss n = s' ∧ l.length = n ∧
    ∀ k < n, (fit (sts k) (ss k)).result = .ok () ∧ sts (k + 1) = (fit (sts k) (ss k)).state ∧
      ss (k + 1) = (fit (sts k) (ss k)).rng ∧
      l[k]? = some ((sts (k + 1)).wm.score, (sts (k + 1)).stackScore)

theorem repeatFits_successive {fit : SState K F G C → S → SOut Unit K F G C S} {n : Nat}
    {st : SState K F G C} {s s' : S} {l : List (Option K × Option K)}
    (h : repeatFits fit n st s = (.ok l, s')) : Successive fit n st s l s' := by
  induction n generalizing st s l with
  | zero =>
    cases h
    exact ⟨fun _ => st, fun _ => s', rfl, rfl, rfl, rfl, fun k hk => absurd hk (Nat.not_lt_zero k)⟩
  | succ n ih =>
    cases hr : (fit st s).result with
    | error e => simp only [repeatFits, hr] at h; cases h
    | ok u =>
      simp only [repeatFits, hr] at h
      rcases hq : repeatFits fit n (fit st s).state (fit st s).rng with ⟨e | l', s1⟩
      · rw [hq] at h; cases h
      · rw [hq] at h
        cases h
        obtain ⟨sts, ss, h1, h2, h3, h4, h5⟩ := ih hq
        refine ⟨fun k => Nat.casesOn k st sts, fun k => Nat.casesOn k s ss, rfl, rfl, h3,
          by simp [h4], fun k hk => ?_⟩
        cases k with
        | zero => exact ⟨hr, h1, h2, by simp [h1]⟩
        | succ k => simpa using h5 k (by omega)

theorem numbers_eq {l : List (Option K)} {xs : List K} (h : l = xs.map some) :
    numbers l = some xs := by
  subst h
  induction xs with
  | nil => rfl
  | cons x xs ih => simp [numbers, ih]

theorem scoreMax_spec {xs : List K} (h : xs ≠ []) :
    scoreMax xs ∈ xs ∧ ∀ x ∈ xs, x ≤ scoreMax xs := by
  have key : ∀ (l : List K) (a : K), (l.foldl max a = a ∨ l.foldl max a ∈ l) ∧
      a ≤ l.foldl max a ∧ ∀ x ∈ l, x ≤ l.foldl max a := by
    intro l
    induction l with
    | nil => intro a; simp
    | cons c l ih =>
      intro a
      obtain ⟨h1, h2, h3⟩ := ih (max a c)
      simp only [List.foldl_cons]
      refine ⟨?_, (le_max_left _ _).trans h2, fun x hx => ?_⟩
      · rcases h1 with h1 | h1
        · rw [h1]
          rcases max_choice a c with h | h <;> rw [h] <;> simp
        · exact .inr (List.mem_cons_of_mem _ h1)
      · rcases List.mem_cons.1 hx with rfl | hx
        · exact (le_max_right _ _).trans h2
        · exact h3 x hx
  cases xs with
  | nil => exact absurd rfl h
  | cons a xs =>
    obtain ⟨h1, h2, h3⟩ := key (a :: xs) a
    refine ⟨?_, h3⟩
    rcases h1 with h1 | h1
    · simp only [scoreMax, List.headD_cons, h1, List.mem_cons, true_or]
    · exact h1

theorem scoreMin_spec {xs : List K} (h : xs ≠ []) :
    scoreMin xs ∈ xs ∧ ∀ x ∈ xs, scoreMin xs ≤ x := by
  have key : ∀ (l : List K) (a : K), (l.foldl min a = a ∨ l.foldl min a ∈ l) ∧
      l.foldl min a ≤ a ∧ ∀ x ∈ l, l.foldl min a ≤ x := by
    intro l
    induction l with
    | nil => intro a; simp
    | cons c l ih =>
      intro a
      obtain ⟨h1, h2, h3⟩ := ih (min a c)
      simp only [List.foldl_cons]
      refine ⟨?_, h2.trans (min_le_left _ _), fun x hx => ?_⟩
      · rcases h1 with h1 | h1
        · rw [h1]
          rcases min_choice a c with h | h <;> rw [h] <;> simp
        · exact .inr (List.mem_cons_of_mem _ h1)
      · rcases List.mem_cons.1 hx with rfl | hx
        · exact h2.trans (min_le_right _ _)
        · exact h3 x hx
  cases xs with
  | nil => exact absurd rfl h
  | cons a xs =>
    obtain ⟨h1, h2, h3⟩ := key (a :: xs) a
    refine ⟨?_, h3⟩
    rcases h1 with h1 | h1
    · simp only [scoreMin, List.headD_cons, h1, List.mem_cons, true_or]
    · exact h1

theorem blockEntries_keys' (root : K → K) (label : String) (l : List (Option K × Option K))
    (t : List K) :
    (blockEntries root label l t).map Prod.fst = blockKeys label l.length := by
  have hz : l.zipIdx.map Prod.snd = List.range l.length := by
    rw [List.zipIdx_map_snd, List.range_eq_range']
  simp only [blockEntries, blockKeys, ← hz, List.map_append, List.map_flatMap, List.flatMap_map]
  rfl

/-- What the record says of ten scores. -/
def Reports (root : K → K) (label : String) (l : List (Option K × Option K)) (d : Record K) :
    Prop :=
  (∀ (i : Nat) (v : Option K × Option K), l[i]? = some v →
    d.find (label ++ "_Base_" ++ toString i) = some (scoreVal v.1) ∧
    d.find (label ++ "_" ++ toString i) = some (scoreVal v.2)) ∧
  (∀ xs : List K, l.map Prod.snd = xs.map some → ∃ mean largest smallest,
    d.find (label ++ "_Mean") = some (.num mean) ∧ 10 * mean = xs.sum ∧
    d.find (label ++ "_Std") =
      some (.num (root ((xs.map fun x => (x - mean) ^ 2).sum / 10))) ∧
    d.find (label ++ "_Max") = some (.num largest) ∧ largest ∈ xs ∧ (∀ x ∈ xs, x ≤ largest) ∧
    d.find (label ++ "_Min") = some (.num smallest) ∧ smallest ∈ xs ∧ ∀ x ∈ xs, smallest ≤ x)

theorem block_find (root : K → K) (label : String) (l : List (Option K × Option K)) (t : List K)
    (d : Record K) (k : String) (v : JVal K) (hmem : (k, v) ∈ blockEntries root label l t)
    (hone : (blockKeys label l.length).count k = 1) :
    (d.puts (blockEntries root label l t)).find k = some v := by
  obtain ⟨a, b, hab⟩ := List.append_of_mem hmem
  rw [hab]
  refine Record.find_puts_last a b d _ _ fun e he hek => ?_
  rw [← blockEntries_keys' root label l t, hab] at hone
  simp only [List.map_append, List.map_cons, List.count_append, List.count_cons_self] at hone
  have : 0 < (b.map Prod.fst).count k :=
    List.count_pos_iff.2 (List.mem_map.2 ⟨e, he, hek⟩)
  omega

theorem block_reports (root : K → K) (label : String) (l : List (Option K × Option K))
    (t : List K) (d : Record K) (hl : l.length = 10)
    (hb : ∀ i < 10, (blockKeys label 10).count (label ++ "_Base_" ++ toString i) = 1)
    (hs : ∀ i < 10, (blockKeys label 10).count (label ++ "_" ++ toString i) = 1)
    (hr : ∀ k ∈ [label ++ "_Mean", label ++ "_Std", label ++ "_Max", label ++ "_Min"],
      (blockKeys label 10).count k = 1) :
    Reports root label l (d.puts (blockEntries root label l t)) := by
  refine ⟨fun i v hv => ?_, fun xs hxs => ?_⟩
  · have hi : i < 10 := by
      rw [← hl]; exact (List.getElem?_eq_some_iff.1 hv).1
    have hz : (v, i) ∈ l.zipIdx := List.mem_zipIdx_iff_getElem?.2 hv
    constructor
    · refine block_find root label l t d _ _ ?_ (hl ▸ hb i hi)
      simp only [blockEntries, List.mem_append, List.mem_flatMap]
      exact .inl ⟨(v, i), hz, by simp⟩
    · refine block_find root label l t d _ _ ?_ (hl ▸ hs i hi)
      simp only [blockEntries, List.mem_append, List.mem_flatMap]
      exact .inl ⟨(v, i), hz, by simp⟩
  · have hx : xs.length = 10 := by
      have := congrArg List.length hxs
      simpa [hl] using this.symm
    have hne : xs ≠ [] := by rintro rfl; cases hx
    have hst : ∀ f : List K → K, statVal f (l.map Prod.snd) = .num (f xs) := by
      intro f
      unfold statVal
      rw [numbers_eq hxs]
    have hfind : ∀ k v, (k, v) ∈ [(label ++ "_Mean", statVal scoreMean (l.map Prod.snd)),
        (label ++ "_Std", statVal (fun l => root (scoreVar l)) (l.map Prod.snd)),
        (label ++ "_Max", statVal scoreMax (l.map Prod.snd)),
        (label ++ "_Min", statVal scoreMin (l.map Prod.snd))] →
        (blockKeys label 10).count k = 1 →
        (d.puts (blockEntries root label l t)).find k = some v := fun k v hm h1 =>
      block_find root label l t d k v (List.mem_append_right _ hm) (hl ▸ h1)
    have ten : ((10 : ℕ) : K) = 10 := by norm_num
    refine ⟨scoreMean xs, scoreMax xs, scoreMin xs, ?_, ?_, ?_, ?_, (scoreMax_spec hne).1,
      (scoreMax_spec hne).2, ?_, (scoreMin_spec hne).1, (scoreMin_spec hne).2⟩
    · exact hst scoreMean ▸ hfind _ _ (by simp) (hr _ (by simp))
    · unfold scoreMean
      rw [hx, ten, mul_div_cancel₀]
      norm_num
    · have e : (xs.map fun x => (x - scoreMean xs) ^ 2).sum / 10 = scoreVar xs := by
        unfold scoreVar
        rw [hx, ten]
      rw [e, ← hst fun l => root (scoreVar l)]
      exact hfind _ _ (by simp) (hr _ (by simp))
    · exact hst scoreMax ▸ hfind _ _ (by simp) (hr _ (by simp))
    · exact hst scoreMin ▸ hfind _ _ (by simp) (hr _ (by simp))

theorem Reports.congr {root : K → K} {label : String} {l : List (Option K × Option K)}
    {d d' : Record K} (hl : l.length = 10) (h : Reports root label l d)
    (hd : ∀ k ∈ blockKeys label 10, d'.find k = d.find k)
    (hb : ∀ i < 10, label ++ "_Base_" ++ toString i ∈ blockKeys label 10)
    (hs : ∀ i < 10, label ++ "_" ++ toString i ∈ blockKeys label 10) :
    Reports root label l d' := by
  obtain ⟨h1, h2⟩ := h
  have hm : ∀ k ∈ [label ++ "_Mean", label ++ "_Std", label ++ "_Max", label ++ "_Min"],
      d'.find k = d.find k := fun k hk => hd k (List.mem_append_right _ hk)
  refine ⟨fun i v hv => ?_, fun xs hxs => ?_⟩
  · have hi : i < 10 := by
      rw [← hl]; exact (List.getElem?_eq_some_iff.1 hv).1
    rw [hd _ (hb i hi), hd _ (hs i hi)]
    exact h1 i v hv
  · rw [hm _ (by simp), hm _ (by simp), hm _ (by simp), hm _ (by simp)]
    exact h2 xs hxs

/-- C122: what the variation experiment records, whatever the two fit methods do. If it succeeds, ten
successive fits of each model succeeded, and the record holds the two scores after each and the
mean, spread, largest and smallest of the ten stacking scores. The record is written. -/
theorem C122_statistics {F' G' : Type} {fit : SState K F G C → S → SOut Unit K F G C S}
    {fitExtra : SState K F' G' C → S → SOut Unit K F' G' C S} {root : K → K} {t t' : List K}
    {info : Record K} {s : S} {fs : Lines K} {d : Record K}
    (h : (variation fit fitExtra root t t' info s fs).1 = .ok d)
    (hinfo : ∀ e ∈ info, e.1 ∉ blockKeys "Stacking" 10 ∧ e.1 ∉ blockKeys "Stacking_Extra" 10) :
    ∃ l l' s1 s2, Successive fit 10 {} s l s1 ∧ Successive fitExtra 10 {} s1 l' s2 ∧
      Reports root "Stacking" l d ∧ Reports root "Stacking_Extra" l' d ∧
      (variation fit fitExtra root t t' info s fs).2 =
        (s2, fs.append "simulation_variation.jsonl" [d]) := by
  rcases hq : repeatFits fit 10 {} s with ⟨e | l, s1⟩
  · simp only [variation, hq] at h; cases h
  rcases hq' : repeatFits fitExtra 10 {} s1 with ⟨e | l', s2⟩
  · simp only [variation, hq, hq'] at h; cases h
  simp only [variation, hq, hq'] at h ⊢
  cases h
  have c1 := repeatFits_successive hq
  have c2 := repeatFits_successive hq'
  obtain ⟨_, _, _, _, _, hl, _⟩ := id c1
  obtain ⟨_, _, _, _, _, hl', _⟩ := id c2
  refine ⟨l, l', s1, s2, c1, c2, ?_, ?_, rfl⟩
  · refine Reports.congr hl (block_reports root "Stacking" l t [] hl (by decide +kernel)
      (by decide +kernel) (by decide +kernel)) (fun k hk => ?_) (by decide +kernel)
      (by decide +kernel)
    have hno : k ∉ blockKeys "Stacking_Extra" 10 := by
      revert k
      decide +kernel
    rw [Record.merge, Record.find_puts_miss _ _ _ fun e he hek => (hinfo e he).1 (hek ▸ hk),
      Record.find_puts_miss _ _ _
        (notin_of_keys (hl' ▸ blockEntries_keys' root "Stacking_Extra" l' t') hno)]
  · refine Reports.congr hl' (block_reports root "Stacking_Extra" l' t'
      (Record.puts [] (blockEntries root "Stacking" l t)) hl' (by decide +kernel) (by decide +kernel) (by decide +kernel)) (fun k hk => ?_) (by decide +kernel)
      (by decide +kernel)
    rw [Record.merge, Record.find_puts_miss _ _ _ fun e he hek => (hinfo e he).2 (hek ▸ hk)]

/-- C122: if a repeat fails, the experiment fails and writes nothing. -/
theorem C122_variation_fails {F' G' : Type} {fit : SState K F G C → S → SOut Unit K F G C S}
    {fitExtra : SState K F' G' C → S → SOut Unit K F' G' C S} {root : K → K} {t t' : List K}
    {info : Record K} {s : S} {fs : Lines K} {e : Err}
    (h : (variation fit fitExtra root t t' info s fs).1 = .error e) :
    (variation fit fitExtra root t t' info s fs).2.2 = fs := by
  rcases hq : repeatFits fit 10 {} s with ⟨e | l, s1⟩
  · simp only [variation, hq]
  rcases hq' : repeatFits fitExtra 10 {} s1 with ⟨e | l', s2⟩
  · simp only [variation, hq, hq']
  · simp only [variation, hq, hq'] at h; cases h

/-- A fit whose score depends on the generator. -/
def wanderingFit (st : SState ℚ Unit Unit Unit) (s : Nat) : SOut Unit ℚ Unit Unit Unit Nat :=
  ⟨if s = 25 then .error .valueError else .ok (),
    { st with stackScore := some ((s * s : ℕ) : ℚ) }, none, s + 1⟩

/-- C122: ten fits with different scores, and an experiment in which a late repeat fails. -/
example :
    let out := variation wanderingFit wanderingFit id [] [] [] 3 fun _ => []
    let out' := variation wanderingFit wanderingFit id [] [] [] 10 fun _ => []
    let read (k : String) := out.1.toOption.bind fun d => d.score k
    (read "Stacking_Max", read "Stacking_Extra_Min", read "Stacking_2", read "Stacking_Mean") =
      (some 144, some 169, some 25, some (645 / 10)) ∧
    out'.1.toOption.isNone = true := by
  decide +kernel

end Geo
