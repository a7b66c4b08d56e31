import Mathlib.Tactic.Ring
import Mathlib.Tactic.FieldSimp
import Verif.Model.Experiments
import Verif.Props.Randomised

namespace Geo
set_option linter.unusedSectionVars false
variable {K : Type} [Field K] [LinearOrder K] [IsStrictOrderedRing K] [FloorRing K]
variable {F G C S : Type}

/-! ### Records -/

theorem Record.find_cons (k : String) (v : JVal K) (d : Record K) (k' : String) :
    Record.find ((k, v) :: d) k' = if k' = k then some v else Record.find d k' := by
  unfold Record.find
  by_cases h : k' = k
  · subst h; simp [List.lookup]
  · have : (k' == k) = false := by simpa using h
    simp [List.lookup, this, h]

theorem Record.find_put (d : Record K) (k : String) (v : JVal K) (k' : String) :
    (d.put k v).find k' = if k' = k then some v else d.find k' := by
  have hmap : ∀ d : Record K, (d.any fun e => e.1 == k) = true →
      Record.find (d.map fun e => if e.1 == k then (k, v) else e) k' =
        if k' = k then some v else d.find k' := by
    intro d
    induction d with
    | nil => intro h; cases h
    | cons a d ih =>
      intro h
      obtain ⟨q, w⟩ := a
      by_cases hq : q = k
      · subst hq
        simp only [List.map_cons, beq_self_eq_true, if_true, Record.find_cons]
        by_cases hk : k' = q
        · simp [hk]
        · rw [if_neg hk, if_neg hk]
          have : ∀ d : Record K,
              Record.find (d.map fun e => if e.1 == q then (q, v) else e) k' = d.find k' := by
            intro d
            induction d with
            | nil => rfl
            | cons b d ih' =>
              obtain ⟨r, x⟩ := b
              by_cases hr : r = q
              · subst hr
                simp only [List.map_cons, beq_self_eq_true, if_true, Record.find_cons, if_neg hk]
                exact ih'
              · have hr' : (r == q) = false := by simpa using hr
                simp only [List.map_cons, hr', Record.find_cons, Bool.false_eq_true, if_false]
                rw [ih']
          rw [this, if_neg hk]
      · have hq' : (q == k) = false := by simpa using hq
        have hd : (d.any fun e => e.1 == k) = true := by simpa [List.any_cons, hq'] using h
        simp only [List.map_cons, hq', Bool.false_eq_true, if_false, Record.find_cons]
        rw [ih hd]
        by_cases hk : k' = q
        · subst hk; simp [hq]
        · simp [hk]
  have happ : ∀ d : Record K, (d.any fun e => e.1 == k) = false →
      Record.find (d ++ [(k, v)]) k' = if k' = k then some v else d.find k' := by
    intro d
    induction d with
    | nil => intro _; exact Record.find_cons k v [] k'
    | cons a d ih =>
      intro h
      obtain ⟨q, w⟩ := a
      have h' : (q == k) = false ∧ (d.any fun e => e.1 == k) = false := by
        simpa [List.any_cons, Bool.or_eq_false_iff] using h
      have hq : q ≠ k := by simpa using h'.1
      rw [List.cons_append, Record.find_cons, Record.find_cons, ih h'.2]
      by_cases hk : k' = q
      · subst hk; simp [hq]
      · simp [hk]
  unfold Record.put
  cases h : d.any fun e => e.1 == k with
  | true => simpa [h] using hmap d h
  | false => simpa [h] using happ d h

theorem Record.find_puts_miss (l : List (String × JVal K)) (d : Record K) (k : String)
    (h : ∀ e ∈ l, e.1 ≠ k) : (d.puts l).find k = d.find k := by
  induction l generalizing d with
  | nil => rfl
  | cons a l ih =>
    have : (d.puts (a :: l)) = (d.put a.1 a.2).puts l := rfl
    rw [this, ih _ fun e he => h e (List.mem_cons_of_mem _ he), Record.find_put,
      if_neg fun e => h a List.mem_cons_self e.symm]

theorem Record.puts_append (d : Record K) (a b : List (String × JVal K)) :
    d.puts (a ++ b) = (d.puts a).puts b := List.foldl_append

theorem Record.find_puts_last (a b : List (String × JVal K)) (d : Record K) (k : String)
    (v : JVal K) (h : ∀ e ∈ b, e.1 ≠ k) : (d.puts (a ++ (k, v) :: b)).find k = some v := by
  rw [Record.puts_append]
  have : ∀ d : Record K, d.puts ((k, v) :: b) = (d.put k v).puts b := fun _ => rfl
  rw [this, Record.find_puts_miss b _ k h, Record.find_put, if_pos rfl]

/-! ### Repeated fits -/

/-- A fit whose success and scores depend neither on the object nor on the generator. -/
def Steady (fit : SState K F G C → S → SOut Unit K F G C S) : Prop :=
  ∀ st st' s s', (fit st s).result = (fit st' s').result ∧ ((fit st s).result = .ok () →
    (fit st s).state.wm.score = (fit st' s').state.wm.score ∧
    (fit st s).state.stackScore = (fit st' s').state.stackScore)

theorem repeatFits_steady {fit : SState K F G C → S → SOut Unit K F G C S} (h : Steady fit)
    (st0 : SState K F G C) (s0 : S) (hok : (fit st0 s0).result = .ok ()) (n : Nat)
    (st : SState K F G C) (s : S) :
    (repeatFits fit n st s).1 = .ok (List.replicate n
      ((fit st0 s0).state.wm.score, (fit st0 s0).state.stackScore)) := by
  induction n generalizing st s with
  | zero => rfl
  | succ n ih =>
    have h1 := h st0 st s0 s
    have hr : (fit st s).result = .ok () := h1.1 ▸ hok
    have hi := ih (fit st s).state (fit st s).rng
    simp only [repeatFits, hr]
    rcases hq : repeatFits fit n (fit st s).state (fit st s).rng with ⟨e | l, s'⟩
    · rw [hq] at hi; cases hi
    · rw [hq] at hi
      cases hi
      simp only [List.replicate_succ, (h1.2 hok).1, (h1.2 hok).2]

theorem numbers_replicate (n : Nat) (x : K) :
    numbers (List.replicate n (some x)) = some (List.replicate n x) := by
  induction n with
  | zero => rfl
  | succ n ih => simp [List.replicate_succ, numbers, ih]

theorem scoreMean_const (n : Nat) (hn : 0 < n) (x : K) : scoreMean (List.replicate n x) = x := by
  have : (n : K) ≠ 0 := by exact_mod_cast hn.ne'
  simp only [scoreMean, List.sum_replicate, List.length_replicate, nsmul_eq_mul]
  field_simp

theorem scoreVar_const (n : Nat) (hn : 0 < n) (x : K) : scoreVar (List.replicate n x) = 0 := by
  simp [scoreVar, scoreMean_const n hn x]

theorem scoreMax_const (n : Nat) (hn : 0 < n) (x : K) : scoreMax (List.replicate n x) = x := by
  have : ∀ n, (List.replicate n x).foldl max x = x := by
    intro n
    induction n with
    | zero => rfl
    | succ n ih => simp [List.replicate_succ, ih]
  obtain ⟨m, rfl⟩ : ∃ m, n = m + 1 := ⟨n - 1, by omega⟩
  have := this (m + 1)
  simpa [scoreMax, List.replicate_succ] using this

theorem scoreMin_const (n : Nat) (hn : 0 < n) (x : K) : scoreMin (List.replicate n x) = x := by
  have : ∀ n, (List.replicate n x).foldl min x = x := by
    intro n
    induction n with
    | zero => rfl
    | succ n ih => simp [List.replicate_succ, ih]
  obtain ⟨m, rfl⟩ : ∃ m, n = m + 1 := ⟨n - 1, by omega⟩
  have := this (m + 1)
  simpa [scoreMin, List.replicate_succ] using this

theorem stackFit_steady (L : Learner K F) (M Mn : Learner K G) (rng : Rng S) (p : SParams K C)
    (X : Mat K) (y : List K) (coords : Option C) :
    Steady fun st s => stackFit L M Mn rng p st s X y coords none := by
  intro st st' s s'
  obtain ⟨h1, -, h3⟩ := C116_stacking L M Mn rng p st st' s s' X y coords none
  exact ⟨h1, fun h => ⟨(h3 h).2.2.score, (h3 h).2.2.stackScore⟩⟩

theorem drawStackFit_steady (L : RandLearner K F S) (M Mn : Learner K G) (rng : Rng S)
    (p : SParams K C) (X : Mat K) (y : List K) (coords : Option C) :
    Steady fun st s => drawStackFit L M Mn rng p st s X y coords none := by
  intro st st' s s'
  obtain ⟨h1, -, h3⟩ := C121_stacking L M Mn rng p st st' s s' X y coords none
  exact ⟨h1, fun h => ⟨(h3 h).2.2.score, (h3 h).2.2.stackScore⟩⟩

/-- The names of one block, in order. -/
def blockKeys (label : String) (n : Nat) : List String :=
  ((List.range n).flatMap fun i =>
    [label ++ "_Base_" ++ toString i, label ++ "_" ++ toString i, label ++ "_Time"]) ++
  [label ++ "_Mean", label ++ "_Std", label ++ "_Max", label ++ "_Min"]

theorem blockEntries_keys (root : K → K) (label : String) (v : Option K × Option K) (n : Nat)
    (t : List K) :
    (blockEntries root label (List.replicate n v) t).map Prod.fst = blockKeys label n := by
  have hz : (List.replicate n v).zipIdx = (List.range n).map fun i => (v, i) := by
    apply List.ext_getElem <;> simp
  simp only [blockEntries, blockKeys, hz, List.map_append, List.map_flatMap, List.flatMap_map]
  rfl

theorem notin_of_keys {l : List (String × JVal K)} {ks : List String} (h : l.map Prod.fst = ks)
    {k : String} (hk : k ∉ ks) : ∀ e ∈ l, e.1 ≠ k := by
  intro e he hek
  exact hk (h ▸ hek ▸ List.mem_map_of_mem he)

theorem blockEntries_find (root : K → K) (label : String) (v : Option K × Option K) (n : Nat)
    (t : List K) (d : Record K) (i : Nat) (hi : i < n)
    (hnd : (blockKeys label n).count (label ++ "_" ++ toString i) = 1) :
    (d.puts (blockEntries root label (List.replicate n v) t)).find (label ++ "_" ++ toString i) =
      some (scoreVal v.2) := by
  have hmem : (label ++ "_" ++ toString i, scoreVal v.2) ∈
      blockEntries root label (List.replicate n v) t := by
    simp only [blockEntries, List.mem_append, List.mem_flatMap]
    refine Or.inl ⟨(v, i), ?_, by simp⟩
    rw [List.mem_iff_getElem]
    exact ⟨i, by simpa using hi, by simp⟩
  obtain ⟨a, b, hab⟩ := List.append_of_mem hmem
  rw [hab]
  refine Record.find_puts_last a b d _ _ fun e he hek => ?_
  rw [← blockEntries_keys root label v n t, hab] at hnd
  simp only [List.map_append, List.map_cons, List.count_append, List.count_cons_self] at hnd
  have : 0 < (b.map Prod.fst).count (label ++ "_" ++ toString i) :=
    List.count_pos_iff.2 (hek ▸ List.mem_map_of_mem he)
  omega

/-- What the record says of ten fits with the score `x`: every repeat has the score `x`, it is mean,
largest and smallest, and the spread is the root of zero. -/
def NoSpread (root : K → K) (label : String) (x : Option K) (d : Record K) : Prop :=
  (∀ i < 10, d.find (label ++ "_" ++ toString i) = some (scoreVal x)) ∧
  d.find (label ++ "_Mean") = some (scoreVal x) ∧
  d.find (label ++ "_Max") = some (scoreVal x) ∧
  d.find (label ++ "_Min") = some (scoreVal x) ∧
  d.find (label ++ "_Std") = some (scoreVal (x.map fun _ => root 0))

theorem statVal_const {f : List K → K} {c : K → K} (h : ∀ x, f (List.replicate 10 x) = c x)
    (x : Option K) : statVal f (List.replicate 10 x) = scoreVal (x.map c) := by
  cases x with
  | none => rfl
  | some x => simp only [statVal, numbers_replicate, h, scoreVal, Option.map_some]

theorem block_noSpread (root : K → K) (label : String) (v : Option K × Option K) (t : List K)
    (d : Record K)
    (hone : ∀ i < 10, (blockKeys label 10).count (label ++ "_" ++ toString i) = 1)
    (hd : [label ++ "_Mean", label ++ "_Std", label ++ "_Max",
      label ++ "_Min"].Nodup) :
    NoSpread root label v.2 (d.puts (blockEntries root label (List.replicate 10 v) t)) := by
  have hs : (List.replicate 10 v).map Prod.snd = List.replicate 10 v.2 := by simp
  refine ⟨fun i hi => blockEntries_find root label v 10 t d i hi (hone i hi), ?_⟩
  simp only [List.nodup_cons, List.mem_cons, not_or, List.not_mem_nil] at hd
  obtain ⟨⟨a1, a2, a3, -⟩, ⟨b1, b2, -⟩, ⟨c1, -⟩, -⟩ := hd
  unfold blockEntries
  rw [Record.puts_append]
  generalize Record.puts d _ = d'
  have hp : ∀ e1 e2 e3 e4 : String × JVal K, d'.puts [e1, e2, e3, e4] =
    (((d'.put e1.1 e1.2).put e2.1 e2.2).put e3.1 e3.2).put e4.1 e4.2 := fun _ _ _ _ => rfl
  rw [hs, hp, statVal_const (c := id) (fun x => scoreMean_const 10 (by norm_num) x),
    statVal_const (c := fun _ => root 0) (fun x => by rw [scoreVar_const 10 (by norm_num)]),
    statVal_const (c := id) (fun x => scoreMax_const 10 (by norm_num) x),
    statVal_const (c := id) (fun x => scoreMin_const 10 (by norm_num) x)]
  simp [Record.find_put, a1, a2, a3, b1, b2, c1]

theorem variation_steady {F' G' : Type} {fit : SState K F G C → S → SOut Unit K F G C S}
    {fitExtra : SState K F' G' C → S → SOut Unit K F' G' C S} (h : Steady fit)
    (h' : Steady fitExtra) (root : K → K) (t t' : List K) (info : Record K) (s s0 : S)
    (fs : Lines K) (hok : (fit {} s0).result = .ok ()) (hok' : (fitExtra {} s0).result = .ok ())
    (hinfo : ∀ e ∈ info, e.1 ∉ blockKeys "Stacking" 10 ∧ e.1 ∉ blockKeys "Stacking_Extra" 10) :
    ∃ d, (variation fit fitExtra root t t' info s fs).1 = .ok d ∧
      (variation fit fitExtra root t t' info s fs).2.2 =
        fs.append "simulation_variation.jsonl" [d] ∧
      NoSpread root "Stacking" (fit {} s0).state.stackScore d ∧
      NoSpread root "Stacking_Extra" (fitExtra {} s0).state.stackScore d := by
  have r1 := repeatFits_steady h {} s0 hok 10 {} s
  rcases hq : repeatFits fit 10 {} s with ⟨e | l, s1⟩
  · rw [hq] at r1; cases r1
  rw [hq] at r1
  cases r1
  have r2 := repeatFits_steady h' {} s0 hok' 10 {} s1
  rcases hq' : repeatFits fitExtra 10 {} s1 with ⟨e | l, s2⟩
  · rw [hq'] at r2; cases r2
  rw [hq'] at r2
  cases r2
  unfold variation
  rw [hq]
  simp only
  rw [hq']
  refine ⟨_, rfl, rfl, ?_, ?_⟩
  · have hb := block_noSpread root "Stacking"
      ((fit {} s0).state.wm.score, (fit {} s0).state.stackScore) t [] (by decide +kernel)
      (by decide +kernel)
    have hk : ∀ k ∈ blockKeys "Stacking" 10, ∀ d : Record K,
        (Record.merge (d.puts (blockEntries root "Stacking_Extra" (List.replicate 10
          ((fitExtra {} s0).state.wm.score, (fitExtra {} s0).state.stackScore)) t')) info).find k =
        d.find k := by
      intro k hk d
      rw [Record.merge, Record.find_puts_miss _ _ _ fun e he hek => (hinfo e he).1 (hek ▸ hk),
        Record.find_puts_miss _ _ _ (notin_of_keys (blockEntries_keys _ _ _ _ _) ?_)]
      revert k
      decide +kernel
    obtain ⟨c1, c2, c3, c4, c5⟩ := hb
    refine ⟨fun i hi => (hk _ ?_ _).trans (c1 i hi), (hk _ ?_ _).trans c2, (hk _ ?_ _).trans c3,
      (hk _ ?_ _).trans c4, (hk _ ?_ _).trans c5⟩
    · revert i; decide +kernel
    all_goals decide +kernel
  · generalize Record.puts [] _ = d0
    have hb := block_noSpread root "Stacking_Extra"
      ((fitExtra {} s0).state.wm.score, (fitExtra {} s0).state.stackScore) t' d0
      (by decide +kernel) (by decide +kernel)
    have hk : ∀ k ∈ blockKeys "Stacking_Extra" 10, ∀ d : Record K,
        (Record.merge d info).find k = d.find k := by
      intro k hk d
      rw [Record.merge, Record.find_puts_miss _ _ _ fun e he hek => (hinfo e he).2 (hek ▸ hk)]
    obtain ⟨c1, c2, c3, c4, c5⟩ := hb
    refine ⟨fun i hi => (hk _ ?_ _).trans (c1 i hi), (hk _ ?_ _).trans c2, (hk _ ?_ _).trans c3,
      (hk _ ?_ _).trans c4, (hk _ ?_ _).trans c5⟩
    · revert i; decide +kernel
    all_goals decide +kernel

/-- C122: ten fits of a stacking model in one process (`n_patches = 1`), with regressors that draw
from the global generator, show no variation: if one fit of each model succeeds, from any state of
the generator, the experiment succeeds and its record has the same score ten times. -/
theorem C122_variation {F' G' : Type} (L : RandLearner K F S) (M Mn : Learner K G)
    (L' : RandLearner K F' S) (M' Mn' : Learner K G') (rng : Rng S) (p p' : SParams K C)
    (X : Mat K) (y : List K) (coords : C) (root : K → K) (t t' : List K) (info : Record K)
    (s s0 : S) (fs : Lines K)
    (hok : (drawStackFit L M Mn rng p {} s0 X y (some coords) none).result = .ok ())
    (hok' : (drawStackFit L' M' Mn' rng p' {} s0 X y (some coords) none).result = .ok ())
    (hinfo : ∀ e ∈ info, e.1 ∉ blockKeys "Stacking" 10 ∧ e.1 ∉ blockKeys "Stacking_Extra" 10) :
    let out := variation (fun st s => drawStackFit L M Mn rng p st s X y (some coords) none)
      (fun st s => drawStackFit L' M' Mn' rng p' st s X y (some coords) none) root t t' info s fs
    ∃ d, out.1 = .ok d ∧ out.2.2 = fs.append "simulation_variation.jsonl" [d] ∧
      NoSpread root "Stacking"
        (drawStackFit L M Mn rng p {} s0 X y (some coords) none).state.stackScore d ∧
      NoSpread root "Stacking_Extra"
        (drawStackFit L' M' Mn' rng p' {} s0 X y (some coords) none).state.stackScore d :=
  variation_steady (drawStackFit_steady L M Mn rng p X y (some coords))
    (drawStackFit_steady L' M' Mn' rng p' X y (some coords)) root t t' info s s0 fs hok hok' hinfo

/-- C122: the same for regressors that do not draw, with any number of patches. -/
theorem C122_variation_still {F' G' : Type} (L : Learner K F) (M Mn : Learner K G)
    (L' : Learner K F') (M' Mn' : Learner K G') (rng : Rng S) (p p' : SParams K C)
    (X : Mat K) (y : List K) (coords : C) (root : K → K) (t t' : List K) (info : Record K)
    (s s0 : S) (fs : Lines K)
    (hok : (stackFit L M Mn rng p {} s0 X y (some coords) none).result = .ok ())
    (hok' : (stackFit L' M' Mn' rng p' {} s0 X y (some coords) none).result = .ok ())
    (hinfo : ∀ e ∈ info, e.1 ∉ blockKeys "Stacking" 10 ∧ e.1 ∉ blockKeys "Stacking_Extra" 10) :
    let out := variation (fun st s => stackFit L M Mn rng p st s X y (some coords) none)
      (fun st s => stackFit L' M' Mn' rng p' st s X y (some coords) none) root t t' info s fs
    ∃ d, out.1 = .ok d ∧ out.2.2 = fs.append "simulation_variation.jsonl" [d] ∧
      NoSpread root "Stacking"
        (stackFit L M Mn rng p {} s0 X y (some coords) none).state.stackScore d ∧
      NoSpread root "Stacking_Extra"
        (stackFit L' M' Mn' rng p' {} s0 X y (some coords) none).state.stackScore d :=
  variation_steady (stackFit_steady L M Mn rng p X y (some coords))
    (stackFit_steady L' M' Mn' rng p' X y (some coords)) root t t' info s s0 fs hok hok' hinfo


/-! ### The comparison of models -/

/-- C122: in the written record the remarks of the caller win over what was measured. -/
theorem C122_info_wins (d info : Record K) (k : String) (hnd : (info.map Prod.fst).Nodup) :
    (Record.merge d info).find k = (info.find k).or (d.find k) := by
  unfold Record.merge
  induction info generalizing d with
  | nil => rfl
  | cons a info ih =>
    obtain ⟨q, v⟩ := a
    simp only [List.map_cons, List.nodup_cons] at hnd
    have : d.puts ((q, v) :: info) = (d.put q v).puts info := rfl
    rw [this, Record.find_cons]
    by_cases hk : k = q
    · subst hk
      rw [if_pos rfl, Record.find_puts_miss info _ _
        fun e he hek => hnd.1 (List.mem_map.2 ⟨e, he, hek⟩), Record.find_put, if_pos rfl]
      rfl
    · rw [if_neg hk, ih _ hnd.2, Record.find_put, if_neg hk]

/-- C122: a comparison in which a model fails writes nothing. -/
theorem C122_comparison_fails (cs : List (Contest K S)) (times : List K) (info : Record K)
    (path : String) (s : S) (fs : Lines K) (e : Err)
    (h : (fitModels cs times info path s fs).1 = .error e) :
    (fitModels cs times info path s fs).2.2 = fs := by
  unfold fitModels at h ⊢
  rcases hq : contests cs times [] s with ⟨e' | d, s'⟩
  · rfl
  · rw [hq] at h; cases h

theorem contests_miss {cs : List (Contest K S)} {times : List K} {d d' : Record K} {s s' : S}
    (h : contests cs times d s = (.ok d', s')) {k : String}
    (hk : ∀ c ∈ cs, k ∉ c.names ∧ c.timeName ≠ k) : d'.find k = d.find k := by
  induction cs generalizing times d s with
  | nil => cases h; rfl
  | cons c cs ih =>
    rw [contests] at h
    rcases hq : c.fit s with ⟨e | sc, s1⟩
    · rw [hq] at h; cases h
    · rw [hq] at h
      rw [ih h fun c' hc => hk c' (List.mem_cons_of_mem _ hc), Record.find_puts_miss]
      intro e he hek
      have h0 := hk c List.mem_cons_self
      rcases List.mem_append.1 he with he | he
      · exact h0.1 (hek ▸ (List.of_mem_zip (a := e.1) (b := e.2) he).1)
      · rw [List.mem_singleton.1 he] at hek
        exact h0.2 hek

/-- C122: the comparison of `simulation_for_data_size.py` never records the score of the second
stacking model under the name the other scripts use for it. -/
theorem C122_data_size (cs : List (Contest K S)) (times : List K) (info : Record K)
    (path : String) (s : S) (fs : Lines K) (d : Record K)
    (hcs : cs.map (fun c => (c.names, c.timeName)) = dataSizeNames)
    (hinfo : ∀ e ∈ info, e.1 ≠ "Stacking_Extra")
    (h : (fitModels cs times info path s fs).1 = .ok d) :
    d.find "Stacking_Extra" = none := by
  unfold fitModels at h
  rcases hq : contests cs times [] s with ⟨e' | d', s'⟩
  · rw [hq] at h; cases h
  · rw [hq] at h
    cases h
    rw [Record.merge, Record.find_puts_miss _ _ _ hinfo, contests_miss hq]
    · rfl
    · have hall : ∀ q ∈ dataSizeNames, "Stacking_Extra" ∉ q.1 ∧ q.2 ≠ "Stacking_Extra" := by
        decide +kernel
      intro c hc
      exact hall (c.names, c.timeName)
        (hcs ▸ List.mem_map_of_mem (f := fun c => (c.names, c.timeName)) hc)

/-! ### The parameter search -/

/-- C122: a search that succeeds has one record per trial, in the order of the trials, each under
the names of its trial. -/
theorem C122_search {names : List String} {fit : S → Trial K → Except Err (List (Option K)) × S}
    {s s' : S} {ts : List (Trial K)} {l : List (Record K)}
    (h : search names fit s ts = (.ok l, s')) :
    List.Forall₂ (fun t d => ∃ q q' scores, fit q t = (.ok scores, q') ∧
      d = trialRecord names t scores) ts l := by
  induction ts generalizing s l with
  | nil => cases h; exact .nil
  | cons t ts ih =>
    rw [search] at h
    rcases hq : fit s t with ⟨e | sc, s1⟩
    · rw [hq] at h; cases h
    · rw [hq] at h
      simp only at h
      rcases hr : search names fit s1 ts with ⟨e | l', s2⟩
      · rw [hr] at h; cases h
      · rw [hr] at h
        cases h
        exact .cons ⟨s, s1, sc, hq, rfl⟩ (ih hr)

/-- C122: the record that is called best: no record has a larger score and every earlier one has a
smaller score, so that among equals the one tried first is taken. -/
theorem C122_best (key : String) (score : Record K → K) (l : List (Record K)) (b : Record K)
    (hs : ∀ d ∈ l, d.lookup key = some (.num (score d))) (h : bestOf key l = .ok b) :
    ∃ pre post, l = pre ++ b :: post ∧ (∀ a ∈ pre, score a < score b) ∧
      ∀ c ∈ post, score c ≤ score b := by
  have hs : ∀ d ∈ l, d.score key = some (score d) := by
    intro d hd
    unfold Record.score Record.find
    rw [hs d hd]
  cases l with
  | nil => cases h
  | cons a l =>
    have key' : ∀ (l pre mid : List (Record K)) (a : Record K),
        (∀ d ∈ pre ++ a :: mid ++ l, d.score key = some (score d)) →
        (∀ d ∈ pre, score d < score a) → (∀ d ∈ mid, score d ≤ score a) →
        ∃ pre' post, pre ++ a :: mid ++ l =
            pre' ++ l.foldl (fun best d => if better key d best then d else best) a :: post ∧
          (∀ d ∈ pre', score d <
            score (l.foldl (fun best d => if better key d best then d else best) a)) ∧
          ∀ d ∈ post, score d ≤
            score (l.foldl (fun best d => if better key d best then d else best) a) := by
      intro l
      induction l with
      | nil => intro pre mid a _ h1 h2; exact ⟨pre, mid, by simp, h1, h2⟩
      | cons c l ih =>
        intro pre mid a hs h1 h2
        have ha : a.score key = some (score a) := hs a (by simp)
        have hc : c.score key = some (score c) := hs c (by simp)
        simp only [List.foldl_cons]
        by_cases hlt : score a < score c
        · have hb : better key c a = true := by simp [better, ha, hc, hlt]
          rw [if_pos hb]
          obtain ⟨pre', post, e, r⟩ := ih (pre ++ a :: mid) [] c
            (fun d hd => hs d (by simpa using hd))
            (fun d hd => by
              rcases List.mem_append.1 hd with hd | hd
              · exact (h1 d hd).trans hlt
              · rcases List.mem_cons.1 hd with rfl | hd
                · exact hlt
                · exact (h2 d hd).trans_lt hlt)
            (fun d hd => by cases hd)
          exact ⟨pre', post, by rw [← e]; simp, r⟩
        · have hb : ¬ better key c a = true := by simp [better, ha, hc, hlt]
          rw [if_neg hb]
          obtain ⟨pre', post, e, r⟩ := ih pre (mid ++ [c]) a
            (fun d hd => hs d (by simpa using hd)) h1
            (fun d hd => by
              rcases List.mem_append.1 hd with hd | hd
              · exact h2 d hd
              · rw [List.mem_singleton.1 hd]; exact not_lt.1 hlt)
          exact ⟨pre', post, by rw [← e]; simp, r⟩
    cases h
    obtain ⟨pre', post, e, r⟩ := key' l [] [] a (by simpa using hs) (by simp) (by simp)
    exact ⟨pre', post, by simpa using e, r⟩

/-- C122: if the first trial has no score (`nan`), it is called best, whatever the others reach. -/
theorem C122_best_nan (key : String) (a : Record K) (l : List (Record K))
    (h : a.lookup key = some .nan) : bestOf key (a :: l) = .ok a := by
  have h : a.score key = none := by
    unfold Record.score Record.find
    rw [h]
  have hb : ∀ d, better key d a = false := by
    intro d
    unfold better
    rw [h]
    cases d.score key <;> rfl
  unfold bestOf
  induction l with
  | nil => rfl
  | cons c l ih => simpa [hb c] using ih

/-- C122: the trials of a search over neighbour counts: every count with and without the coordinates,
all with the coordinates first. -/
theorem C122_grid (counts : List K) :
    (∀ t : Trial K, t ∈ countTrials counts ↔ ∃ n ∈ counts, t.params = [("neighbour_count", n)]) ∧
    (countTrials counts).length = 2 * counts.length ∧
    (countTrials counts).Pairwise fun a b => b.plus = true → a.plus = true := by
  refine ⟨fun t => ?_, by simp [countTrials]; omega, ?_⟩
  · obtain ⟨b, ps⟩ := t
    cases b <;> simp [countTrials, eq_comm]
  · simp only [countTrials, List.flatMap_cons, List.flatMap_nil, List.append_nil,
      List.pairwise_append]
    refine ⟨?_, ?_, ?_⟩
    · exact List.pairwise_map.2 (List.pairwise_of_forall fun _ _ _ => rfl)
    · exact List.pairwise_map.2 (List.pairwise_of_forall fun _ _ h => by cases h)
    · intro a ha b _ _
      obtain ⟨n, -, rfl⟩ := List.mem_map.1 ha
      rfl

/-- C122: the same with leave-out rates. -/
theorem C122_grid_rates (counts rates : List K) :
    (∀ t : Trial K, t ∈ rateTrials counts rates ↔ ∃ n ∈ counts, ∃ r ∈ rates,
      t.params = [("neighbour_count", n), ("leave_out_rate", r)]) ∧
    (rateTrials counts rates).length = 2 * (counts.length * rates.length) ∧
    (rateTrials counts rates).Pairwise fun a b => b.plus = true → a.plus = true := by
  have hp : ∀ b, ∀ t ∈ (counts.flatMap fun n => rates.map fun r =>
      (⟨b, [("neighbour_count", n), ("leave_out_rate", r)]⟩ : Trial K)), t.plus = b := by
    intro b t ht
    obtain ⟨n, -, ht⟩ := List.mem_flatMap.1 ht
    obtain ⟨q, -, rfl⟩ := List.mem_map.1 ht
    rfl
  refine ⟨fun t => ?_, by simp [rateTrials, List.length_flatMap]; omega, ?_⟩
  · obtain ⟨b, ps⟩ := t
    cases b <;> simp [rateTrials, eq_comm]
  · simp only [rateTrials, List.flatMap_cons, List.flatMap_nil, List.append_nil,
      List.pairwise_append]
    refine ⟨?_, ?_, fun a ha b _ _ => hp true a ha⟩
    · exact List.pairwise_of_forall_mem_list fun a ha b _ _ => hp true a ha
    · exact List.pairwise_of_forall_mem_list fun a _ b hb h => by
        rw [hp false b hb] at h; cases h

/-- What a written record says of one trial of the searches with one score. -/
def Tells (name : String) (count : K) (func coef : String)
    (fit : S → Trial K → Except Err (List (Option K)) × S) (t : Trial K) (d : Record K) : Prop :=
  ∃ q q' x, fit q t = (.ok [x], q') ∧ d.find name = some (scoreVal x) ∧
    d.find "neighbour_count" = (t.params.lookup "neighbour_count").map .num ∧
    d.find "use_x_plus" = some (.flag t.plus) ∧ d.find "count" = some (.num count) ∧
    d.find "func" = some (.text func) ∧ d.find "coef" = some (.text coef)

/-- What a written record says of one trial of the search for the stacking model. -/
def TellsStacking (count : K) (func coef : String)
    (fit : S → Trial K → Except Err (List (Option K)) × S) (t : Trial K) (d : Record K) : Prop :=
  ∃ q q' x y, fit q t = (.ok [x, y], q') ∧ d.find "Stacking_Base" = some (scoreVal x) ∧
    d.find "Stacking" = some (scoreVal y) ∧
    d.find "neighbour_count" = (t.params.lookup "neighbour_count").map .num ∧
    d.find "leave_out_rate" = (t.params.lookup "leave_out_rate").map .num ∧
    d.find "use_x_plus" = some (.flag t.plus) ∧ d.find "count" = some (.num count) ∧
    d.find "func" = some (.text func) ∧ d.find "coef" = some (.text coef)

theorem tells_of_search {name : String} (hname : name = "GRF" ∨ name = "GWR")
    {fit : S → Trial K → Except Err (List (Option K)) × S}
    (hone : ∀ q t sc q', fit q t = (.ok sc, q') → sc.length = 1) {s s' : S} {counts : List K}
    {l : List (Record K)} (h : search [name] fit s (countTrials counts) = (.ok l, s'))
    (count : K) (func coef : String) :
    List.Forall₂ (Tells name count func coef fit) (countTrials counts)
      (l.map (remarked count func coef)) := by
  have hm := (C122_grid counts).1
  have := C122_search h
  generalize countTrials counts = ts at *
  rw [List.forall₂_map_right_iff]
  have hm' : ∀ t ∈ ts, ∃ n, t.params = [("neighbour_count", n)] := fun t ht =>
    let ⟨n, _, e⟩ := (hm t).1 ht; ⟨n, e⟩
  clear h hm
  induction this with
  | nil => exact .nil
  | @cons t d ts l hd _ ih =>
    refine .cons ?_ (ih fun t ht => hm' t (List.mem_cons_of_mem _ ht))
    obtain ⟨q, q', sc, hf, rfl⟩ := hd
    obtain ⟨n, hn⟩ := hm' t List.mem_cons_self
    obtain ⟨x, rfl⟩ := List.length_eq_one_iff.1 (hone _ _ _ _ hf)
    refine ⟨q, q', x, hf, ?_⟩
    rcases hname with rfl | rfl <;>
      simp [trialRecord, remarked, Record.puts, hn, Record.find_put]

theorem tells_of_search_stacking {fit : S → Trial K → Except Err (List (Option K)) × S}
    (htwo : ∀ q t sc q', fit q t = (.ok sc, q') → sc.length = 2) {s s' : S}
    {counts rates : List K} {l : List (Record K)}
    (h : search ["Stacking_Base", "Stacking"] fit s (rateTrials counts rates) = (.ok l, s'))
    (count : K) (func coef : String) :
    List.Forall₂ (TellsStacking count func coef fit) (rateTrials counts rates)
      (l.map (remarked count func coef)) := by
  have hm := (C122_grid_rates counts rates).1
  have := C122_search h
  generalize rateTrials counts rates = ts at *
  rw [List.forall₂_map_right_iff]
  have hm' : ∀ t ∈ ts, ∃ n r, t.params = [("neighbour_count", n), ("leave_out_rate", r)] :=
    fun t ht => let ⟨n, _, r, _, e⟩ := (hm t).1 ht; ⟨n, r, e⟩
  clear h hm
  induction this with
  | nil => exact .nil
  | @cons t d ts l hd _ ih =>
    refine .cons ?_ (ih fun t ht => hm' t (List.mem_cons_of_mem _ ht))
    obtain ⟨q, q', sc, hf, rfl⟩ := hd
    obtain ⟨n, r, hn⟩ := hm' t List.mem_cons_self
    obtain ⟨x, y, rfl⟩ := List.length_eq_two.1 (htwo _ _ _ _ hf)
    refine ⟨q, q', x, y, hf, ?_⟩
    simp [trialRecord, remarked, Record.puts, hn, Record.find_put, List.lookup]

/-- C122: what a whole search leaves in the files. Either a fit failed and nothing was written; or all
records were written, and then the best three, or none of these if one of the grids is empty. -/
theorem C122_files (f1 f2 f3 : S → Trial K → Except Err (List (Option K)) × S)
    (n1 r1 n2 n3 : List K) (count : K) (func coef : String) (s : S) (fs : Lines K)
    (k1 : ∀ q t sc q', f1 q t = (.ok sc, q') → sc.length = 2)
    (k2 : ∀ q t sc q', f2 q t = (.ok sc, q') → sc.length = 1)
    (k3 : ∀ q t sc q', f3 q t = (.ok sc, q') → sc.length = 1) :
    let out := testModels f1 f2 f3 n1 r1 n2 n3 count func coef s fs
    (out.2.2 = fs ∧ out.1 ≠ .ok ()) ∨
    ∃ a b c : List (Record K), 
      List.Forall₂ (TellsStacking count func coef f1) (rateTrials n1 r1) a ∧
      List.Forall₂ (Tells "GRF" count func coef f2) (countTrials n2) b ∧
      List.Forall₂ (Tells "GWR" count func coef f3) (countTrials n3) c ∧
      out.2.2 "simulation_params.jsonl" = fs "simulation_params.jsonl" ++ (a ++ b ++ c) ∧
      ((∃ x y z, bestOf "Stacking" a = .ok x ∧ bestOf "GRF" b = .ok y ∧ bestOf "GWR" c = .ok z ∧
          out.1 = .ok () ∧
          out.2.2 "simulation_param_best.jsonl" =
            fs "simulation_param_best.jsonl" ++ [x, y, z]) ∨
        ((a = [] ∨ b = [] ∨ c = []) ∧ out.1 = .error .valueError ∧
          out.2.2 "simulation_param_best.jsonl" = fs "simulation_param_best.jsonl")) := by
  intro out
  have hne : ∀ {key : String} {l : List (Record K)} {e : Err}, bestOf key l = .error e → l = [] := by
    intro key l e h
    cases l with
    | nil => rfl
    | cons a l => cases h
  have hp : ("simulation_param_best.jsonl" : String) ≠ "simulation_params.jsonl" := by decide
  rcases h1 : search ["Stacking_Base", "Stacking"] f1 s (rateTrials n1 r1) with ⟨e | a, s1⟩
  · exact .inl (by simp [out, testModels, h1])
  rcases h2 : search ["GRF"] f2 s1 (countTrials n2) with ⟨e | b, s2⟩
  · exact .inl (by simp [out, testModels, h1, h2])
  rcases h3 : search ["GWR"] f3 s2 (countTrials n3) with ⟨e | c, s3⟩
  · exact .inl (by simp [out, testModels, h1, h2, h3])
  refine .inr ⟨a.map (remarked count func coef), b.map (remarked count func coef),
    c.map (remarked count func coef), tells_of_search_stacking k1 h1 count func coef,
    tells_of_search (.inl rfl) k2 h2 count func coef,
    tells_of_search (.inr rfl) k3 h3 count func coef, ?_⟩
  simp only [out, testModels, h1, h2, h3, writeBest]
  cases ha : bestOf "Stacking" (a.map (remarked count func coef)) with
  | error e =>
    exact ⟨by simp [Lines.append], .inr ⟨.inl (hne ha), rfl, by simp [Lines.append, hp]⟩⟩
  | ok x =>
    cases hb : bestOf "GRF" (b.map (remarked count func coef)) with
    | error e =>
      exact ⟨by simp [Lines.append], .inr ⟨.inr (.inl (hne hb)), rfl, by simp [Lines.append, hp]⟩⟩
    | ok y =>
      cases hc : bestOf "GWR" (c.map (remarked count func coef)) with
      | error e =>
        exact ⟨by simp [Lines.append],
          .inr ⟨.inr (.inr (hne hc)), rfl, by simp [Lines.append, hp]⟩⟩
      | ok z =>
        exact ⟨by simp [Lines.append, hp.symm],
          .inl ⟨x, y, z, rfl, rfl, rfl, rfl, by simp [Lines.append, hp]⟩⟩

/-- C122: one trial of the search for the geographically weighted regression: the score is that of a
new `WeightModel`, fitted on the features with the coordinates beside them, or on the features. -/
theorem C122_trial {L : Learner K F} {rng : Rng S} {weights : K → Mat K → Mat K → Except Err (Mat K)}
    {cpu : Nat} {X points : Mat K} {y : List K} {s s' : S} {t : Trial K} {sc : List (Option K)}
    (h : gwrTrial L rng weights cpu X y points s t = (.ok sc, s')) :
    ∃ (p : WMParams K (Mat K)) (Z : Mat K),
      p.weights = weights ((t.params.lookup "neighbour_count").getD 0) ∧ Z.r = X.r ∧
      X.r = points.r ∧ Z.c = (if t.plus then X.c + points.c else X.c) ∧
      (∀ i j, j < X.c → Z.get i j = X.get i j) ∧
      (t.plus = true → ∀ i j, Z.get i (X.c + j) = points.get i j) ∧
      (wmFit L rng p {} s Z y (some points) none).result = .ok () ∧
      sc = [(wmFit L rng p {} s Z y (some points) none).state.score] := by
  unfold gwrTrial besideCols at h
  by_cases hr : X.r ≠ points.r
  · rw [if_pos hr] at h; cases h
  rw [if_neg hr] at h
  obtain ⟨b, ps⟩ := t
  simp only at h
  split at h
  · cases h
  · rename_i hres
    cases h
    cases b
    · exact ⟨{ cpu := cpu, weights := weights ((ps.lookup "neighbour_count").getD 0) }, X, rfl, rfl,
        not_not.1 hr, rfl, fun _ _ _ => rfl, (fun h => nomatch h), hres, rfl⟩
    · refine ⟨{ cpu := cpu, weights := weights ((ps.lookup "neighbour_count").getD 0) },
        ⟨X.r, X.c + points.c, fun i j => if j < X.c then X.get i j else points.get i (j - X.c)⟩,
        rfl, rfl, not_not.1 hr, rfl, fun i j hj => ?_, fun _ i j => ?_, hres, rfl⟩
      · simp [hj]
      · simp

/-! ### Examples -/

/-- C122: the case of the ten fits is real: both fits succeed, with regressors that draw. -/
example :
    let p : SParams ℚ Unit := { seP with nPatches := some 1, weights := fun _ _ => .ok seW }
    (drawStackFit drawnLearner meanLearner meanLearner rotRng p {} 3 seX seY (some ()) none).result
      = .ok () ∧
    p.storedPatches = some 1 ∧
    (∀ e ∈ ([("func", .text "square")] : Record ℚ),
      e.1 ∉ blockKeys "Stacking" 10 ∧ e.1 ∉ blockKeys "Stacking_Extra" 10) := by
  decide +kernel

/-- A fit for the searches: a score that depends on the trial. -/
def exTrial (k : Nat) (s : Nat) (t : Trial ℚ) : Except Err (List (Option ℚ)) × Nat :=
  (.ok (List.replicate k (some (if t.plus then 1 else 1 / 2))), s + 1)

/-- C122: the searches succeed; with equal scores the first trial is best. An empty grid leaves the
records but no best ones. -/
example :
    let out := testModels (exTrial 2) (exTrial 1) (exTrial 1) [3, 4] [1 / 10] [3, 5] [7] 100 "f"
      "c" 0 fun _ => []
    let out' := testModels (exTrial 2) (exTrial 1) (exTrial 1) [3, 4] [1 / 10] [] [7] 100 "f" "c" 0
      fun _ => []
    out.1 = .ok () ∧ (out.2.2 "simulation_params.jsonl").length = 10 ∧
    (out.2.2 "simulation_param_best.jsonl").map (fun d => d.score "neighbour_count") =
      [some 3, some 3, some 7] ∧
    out'.1 = .error .valueError ∧ (out'.2.2 "simulation_params.jsonl").length = 6 ∧
    (out'.2.2 "simulation_param_best.jsonl").length = 0 := by
  decide +kernel

/-- C122: a trial with the coordinates and one without succeed. -/
example : ∀ b, (gwrTrial meanLearner rotRng (fun _ _ _ => .ok seW) 1 seX seY seX 0
    ⟨b, [("neighbour_count", 3)]⟩).1.isOk = true := by
  decide +kernel

/-- C122: a comparison with the names of `simulation_for_data_size.py` that succeeds; the score is
under the other name. -/
example :
    let cs : List (Contest ℚ Nat) := dataSizeNames.map fun q =>
      ⟨q.1, q.2, fun s => (.ok (q.1.map fun _ => some 1), s)⟩
    cs.map (fun c => (c.names, c.timeName)) = dataSizeNames ∧
    ∃ d, (fitModels cs [] [("func", .text "f")] "simulation_data_size.jsonl" 0 fun _ => []).1 =
      .ok d ∧ d.find "Stacking_Extra_" = some (.num 1) ∧ d.find "func" = some (.text "f") :=
  ⟨rfl, _, rfl, rfl, rfl⟩

end Geo
