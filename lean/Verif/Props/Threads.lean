import Verif.Model.Objects
/-
Threads: what batches in threads do when they own different objects, whatever the order of their steps.
Used by C155, C156 and C158.
-/
set_option linter.unusedSectionVars false
namespace Geo
variable {K : Type} [Field K] [LinearOrder K] [IsStrictOrderedRing K] [FloorRing K] {C S O V : Type}

/-- The object a task works on. -/
def taskObj : Except Err (Job K O V) → Option Nat
  | .ok j => some j.est
  | .error _ => none

theorem seqJobs_frame (R : Regressor K O) (tasks : List (Except Err (Job K O V))) (h : Heap O) :
    (seqJobs R tasks h).2.next = h.next ∧
    ∀ a, a ∉ tasks.filterMap taskObj → (seqJobs R tasks h).2.get a = h.get a := by
  induction tasks generalizing h with
  | nil => exact ⟨rfl, fun _ _ => rfl⟩
  | cons t tasks ih =>
    cases t with
    | error e => exact ⟨rfl, fun _ _ => rfl⟩
    | ok j =>
      have hcons : (Except.ok j :: tasks).filterMap taskObj = j.est :: tasks.filterMap taskObj := rfl
      rw [hcons]
      have hrun : (runJob R j h).2.next = h.next ∧ ∀ a, a ≠ j.est → (runJob R j h).2.get a = h.get a := by
        unfold runJob
        simp only
        split
        · exact ⟨rfl, fun a ha => Function.update_of_ne ha _ _⟩
        · split <;> exact ⟨rfl, fun a ha => Function.update_of_ne ha _ _⟩
      rw [seqJobs]
      rcases hq : runJob R j h with ⟨e | v, h1⟩
      · rw [hq] at hrun
        exact ⟨hrun.1, fun a ha => hrun.2 a fun hc => ha (by simp [hc])⟩
      · rw [hq] at hrun
        have := ih h1
        simp only
        rcases hs : seqJobs R tasks h1 with ⟨e | l, h2⟩ <;>
        · rw [hs] at this
          refine ⟨this.1.trans hrun.1, fun a ha => ?_⟩
          rw [List.mem_cons, not_or] at ha
          exact (this.2 a ha.2).trans (hrun.2 a ha.1)

theorem runJob_congr (R : Regressor K O) (j : Job K O V) {h g : Heap O} (hg : h.get j.est = g.get j.est) :
    (runJob R j h).1 = (runJob R j g).1 ∧ ∀ a, h.get a = g.get a →
      (runJob R j h).2.get a = (runJob R j g).2.get a := by
  have up : ∀ (o : O) (a : Nat), h.get a = g.get a →
      Function.update h.get j.est o a = Function.update g.get j.est o a := by
    intro o a ha
    by_cases hc : a = j.est
    · subst hc; simp
    · rw [Function.update_of_ne hc, Function.update_of_ne hc, ha]
  unfold runJob
  simp only [hg, Function.update_self]
  split
  · exact ⟨rfl, up _⟩
  · split <;> exact ⟨rfl, up _⟩

theorem seqJobs_congr (R : Regressor K O) (tasks : List (Except Err (Job K O V))) {h g : Heap O}
    (hg : ∀ a ∈ tasks.filterMap taskObj, h.get a = g.get a) :
    (seqJobs R tasks h).1 = (seqJobs R tasks g).1 ∧ ∀ a, h.get a = g.get a →
      (seqJobs R tasks h).2.get a = (seqJobs R tasks g).2.get a := by
  induction tasks generalizing h g with
  | nil => exact ⟨rfl, fun _ ha => ha⟩
  | cons t tasks ih =>
    cases t with
    | error e => exact ⟨rfl, fun _ ha => ha⟩
    | ok j =>
      have hcons : (Except.ok j :: tasks).filterMap taskObj = j.est :: tasks.filterMap taskObj := rfl
      rw [hcons] at hg
      obtain ⟨r1, r2⟩ := runJob_congr R j (hg j.est (by simp))
      rw [seqJobs, seqJobs]
      rcases hq : runJob R j h with ⟨e | v, h1⟩ <;> rcases hq' : runJob R j g with ⟨e' | v', g1⟩ <;>
        rw [hq, hq'] at r1 r2 <;> simp only [reduceCtorEq] at r1
      · cases r1
        exact ⟨rfl, r2⟩
      · cases r1
        obtain ⟨s1, s2⟩ := @ih h1 g1 fun a ha => r2 a (hg a (by simp [ha]))
        simp only
        rcases hs : seqJobs R tasks h1 with ⟨e | l, h2⟩ <;> rcases hs' : seqJobs R tasks g1 with ⟨e' | l', g2⟩ <;>
          rw [hs, hs'] at s1 s2 <;> simp only [reduceCtorEq] at s1
        · cases s1
          exact ⟨rfl, fun a ha => s2 a (r2 a ha)⟩
        · cases s1
          exact ⟨rfl, fun a ha => s2 a (r2 a ha)⟩

theorem seqJobs_append (R : Regressor K O) (a b : List (Except Err (Job K O V))) (h : Heap O) :
    seqJobs R (a ++ b) h =
      match seqJobs R a h with
      | (.error e, h) => (.error e, h)
      | (.ok l, h) =>
        match seqJobs R b h with
        | (.error e, h) => (.error e, h)
        | (.ok l', h) => (.ok (l ++ l'), h) := by
  induction a generalizing h with
  | nil =>
    have : seqJobs R ([] : List (Except Err (Job K O V))) h = (.ok [], h) := rfl
    simp only [List.nil_append, this]
    rcases seqJobs R b h with ⟨e | l, h1⟩ <;> rfl
  | cons t a ih =>
    cases t with
    | error e => rfl
    | ok j =>
      rw [List.cons_append, seqJobs, seqJobs]
      rcases runJob R j h with ⟨e | v, h1⟩
      · rfl
      · simp only [ih h1]
        rcases seqJobs R a h1 with ⟨e | l, h2⟩
        · rfl
        · simp only
          rcases seqJobs R b h2 with ⟨e | l', h3⟩ <;> rfl

/-! ### One thread -/

/-- The objects a thread still works on. -/
def Thread.owns (t : Thread K O V) : List Nat :=
  (t.cur.toList.map fun c => c.1.est) ++ t.todo.filterMap taskObj

theorem Thread.finish_frame (R : Regressor K O) (t : Thread K O V) (h : Heap O) :
    (t.finish R h).2.next = h.next ∧ ∀ a, a ∉ t.owns → (t.finish R h).2.get a = h.get a := by
  obtain ⟨todo, cur, out, failed⟩ := t
  cases failed with
  | some e => exact ⟨rfl, fun _ _ => rfl⟩
  | none =>
    cases cur with
    | none => exact seqJobs_frame R todo h
    | some c =>
      obtain ⟨j, fs⟩ := c
      simp only [Thread.finish, Thread.owns, Option.toList, List.map_cons, List.map_nil, List.cons_append,
        List.nil_append, List.mem_cons, not_or]
      split
      · exact ⟨rfl, fun a ha => Function.update_of_ne ha.1 _ _⟩
      · split
        · exact ⟨rfl, fun a ha => Function.update_of_ne ha.1 _ _⟩
        · obtain ⟨f1, f2⟩ := seqJobs_frame R todo
            { h with get := Function.update h.get j.est (runSteps fs (h.get j.est)).2 }
          exact ⟨f1, fun a ha => (f2 a ha.2).trans (Function.update_of_ne ha.1 _ _)⟩

theorem Thread.finish_congr (R : Regressor K O) (t : Thread K O V) {h g : Heap O}
    (hg : ∀ a ∈ t.owns, h.get a = g.get a) :
    (t.finish R h).1 = (t.finish R g).1 ∧ ∀ a, h.get a = g.get a →
      (t.finish R h).2.get a = (t.finish R g).2.get a := by
  obtain ⟨todo, cur, out, failed⟩ := t
  cases failed with
  | some e => exact ⟨rfl, fun _ ha => ha⟩
  | none =>
    cases cur with
    | none =>
      obtain ⟨s1, s2⟩ := seqJobs_congr R todo (h := h) (g := g) fun a ha => hg a (by simp [Thread.owns, ha])
      simp only [Thread.finish]
      exact ⟨by rw [s1], s2⟩
    | some c =>
      obtain ⟨j, fs⟩ := c
      have hj := hg j.est (by simp [Thread.owns])
      have up : ∀ (o : O) (a : Nat), h.get a = g.get a →
          Function.update h.get j.est o a = Function.update g.get j.est o a := by
        intro o a ha
        by_cases hc : a = j.est
        · subst hc; simp
        · rw [Function.update_of_ne hc, Function.update_of_ne hc, ha]
      simp only [Thread.finish, hj, Function.update_self]
      split
      · exact ⟨rfl, up _⟩
      · split
        · exact ⟨rfl, up _⟩
        · obtain ⟨s1, s2⟩ := seqJobs_congr R todo
            (h := { h with get := Function.update h.get j.est (runSteps fs (g.get j.est)).2 })
            (g := { g with get := Function.update g.get j.est (runSteps fs (g.get j.est)).2 })
            fun a ha => up _ a (hg a (by simp [Thread.owns, ha]))
          exact ⟨by rw [s1], fun a ha => s2 a (up _ a ha)⟩

/-- A step of a thread changes nothing about how it ends. -/
theorem Thread.finish_step (R : Regressor K O) (t : Thread K O V) (h : Heap O) :
    (t.step R h).1.finish R (t.step R h).2 = t.finish R h := by
  obtain ⟨todo, cur, out, failed⟩ := t
  cases failed with
  | some e => rfl
  | none =>
    cases cur with
    | none =>
      cases todo with
      | nil => rfl
      | cons a todo =>
        cases a with
        | error e => rfl
        | ok j =>
          simp only [Thread.step, Thread.finish, seqJobs, runJob, Regressor.fit, Function.update_self]
          rcases runSteps (R.steps (h.get j.est) j.rows j.ys j.ws) (h.get j.est) with ⟨e | u, o⟩
          · rfl
          · cases u
            simp only
            cases j.read o with
            | error e => rfl
            | ok v =>
              simp only
              rcases seqJobs R todo { h with get := Function.update h.get j.est o } with ⟨e | l, h1⟩ <;> rfl
    | some c =>
      obtain ⟨j, fs⟩ := c
      cases fs with
      | nil =>
        have hself : ({ h with get := Function.update h.get j.est (h.get j.est) } : Heap O) = h := by
          rw [Function.update_eq_self]
        simp only [Thread.step]
        cases hr : j.read (h.get j.est) with
        | error e => simp only [Thread.finish, runSteps, hself, Function.update_self, hr]
        | ok v =>
          simp only [Thread.finish, runSteps, hself, Function.update_self, hr]
          rcases seqJobs R todo h with ⟨e | l, h1⟩
          · rfl
          · simp [Except.map]
      | cons f fs =>
        simp only [Thread.step, Thread.finish, runSteps]
        rcases f (h.get j.est) with ⟨e | u, o⟩
        · rfl
        · cases u
          simp only [Function.update_self, Function.update_idem]

theorem Thread.step_frame (R : Regressor K O) (t : Thread K O V) (h : Heap O) :
    (t.step R h).2.next = h.next ∧ (∀ a, a ∉ t.owns → (t.step R h).2.get a = h.get a) ∧
    ∀ a ∈ (t.step R h).1.owns, a ∈ t.owns := by
  obtain ⟨todo, cur, out, failed⟩ := t
  cases failed with
  | some e => exact ⟨rfl, fun _ _ => rfl, fun _ ha => ha⟩
  | none =>
    cases cur with
    | none =>
      cases todo with
      | nil => exact ⟨rfl, fun _ _ => rfl, fun _ ha => ha⟩
      | cons a todo =>
        cases a with
        | error e => exact ⟨rfl, fun _ _ => rfl, fun _ ha => by simpa [Thread.owns, Thread.step, taskObj] using ha⟩
        | ok j => exact ⟨rfl, fun _ _ => rfl, fun _ ha => by simpa [Thread.owns, Thread.step, taskObj] using ha⟩
    | some c =>
      obtain ⟨j, fs⟩ := c
      cases fs with
      | nil =>
        simp only [Thread.step]
        split
        · exact ⟨rfl, fun _ _ => rfl, fun _ ha => ha⟩
        · exact ⟨rfl, fun _ _ => rfl, fun a ha => by
            simp only [Thread.owns, Option.toList, List.map_nil, List.nil_append] at ha ⊢
            simp [ha]⟩
      | cons f fs =>
        simp only [Thread.step]
        split <;>
        · refine ⟨rfl, fun a ha => Function.update_of_ne ?_ _ _, fun _ ha => ha⟩
          rintro rfl
          exact ha (by simp [Thread.owns])

/-! ### Several threads -/

/-- The threads work on different objects: thread `i` on some of `os i`. -/
structure Apart (os : Nat → List Nat) (ts : List (Thread K O V)) : Prop where
  disj : ∀ i j, i ≠ j → ∀ a ∈ os i, a ∉ os j
  owns : ∀ i t, ts[i]? = some t → ∀ a ∈ t.owns, a ∈ os i

theorem collect_spec (R : Regressor K O) (os : Nat → List Nat) (ts : List (Thread K O V)) (h : Heap O)
    (ha : Apart os ts) :
    (collect R ts h).1 = (mapE (fun t => (Thread.finish R t h).1) ts).map List.flatten ∧
    (collect R ts h).2.next = h.next ∧
    (∀ a, (∀ i t, ts[i]? = some t → a ∉ os i) → (collect R ts h).2.get a = h.get a) ∧
    ((∃ l, (collect R ts h).1 = .ok l) → ∀ i t, ts[i]? = some t → ∀ a ∈ os i,
      (collect R ts h).2.get a = (t.finish R h).2.get a) := by
  induction ts generalizing h os with
  | nil => exact ⟨rfl, rfl, fun _ _ => rfl, fun _ i t hi => by simp at hi⟩
  | cons t ts ih =>
    have h0 : ∀ a ∈ t.owns, a ∈ os 0 := ha.owns 0 t rfl
    have ha' : Apart (fun i => os (i + 1)) ts :=
      ⟨fun i j hij => ha.disj _ _ (by omega), fun i t' hi => ha.owns (i + 1) t' (by simpa using hi)⟩
    obtain ⟨f1, f2⟩ := t.finish_frame R h
    rw [collect, mapE]
    rcases hq : t.finish R h with ⟨e | l, h1⟩
    · rw [hq] at f1 f2
      refine ⟨rfl, f1, fun a hn => f2 a fun hc => hn 0 t rfl (h0 a hc), fun hl => ?_⟩
      obtain ⟨l, hl⟩ := hl
      cases hl
    · rw [hq] at f1 f2
      obtain ⟨c1, c2, c3, c4⟩ := ih (fun i => os (i + 1)) h1 ha'
      have agree : ∀ i t', ts[i]? = some t' → ∀ a ∈ os (i + 1), h1.get a = h.get a := by
        intro i t' hi a hai
        exact f2 a fun hc => ha.disj (i + 1) 0 (by omega) a hai (h0 a hc)
      have hm : mapE (fun t => (Thread.finish R t h1).1) ts = mapE (fun t => (Thread.finish R t h).1) ts := by
        refine mapE_congr fun t' ht' => ?_
        obtain ⟨i, hi, rfl⟩ := List.mem_iff_getElem.1 ht'
        have hi' : ts[i]? = some ts[i] := List.getElem?_eq_getElem hi
        exact (Thread.finish_congr R _ fun a hao => agree i _ hi' a (ha'.owns i _ hi' a hao)).1
      rw [hm] at c1
      simp only
      have rest : (∀ a, (∀ i t', (t :: ts)[i]? = some t' → a ∉ os i) → (collect R ts h1).2.get a = h.get a) := by
        intro a hn
        rw [c3 a fun i t' hi => hn (i + 1) t' (by simpa using hi)]
        exact f2 a fun hc => hn 0 t rfl (h0 a hc)
      rcases hc : collect R ts h1 with ⟨e | l', h2⟩
      · rw [hc] at c1 c2 rest
        refine ⟨?_, c2.trans f1, rest, fun hl => ?_⟩
        · cases hm' : mapE (fun t => (Thread.finish R t h).1) ts with
          | error e' => rw [hm'] at c1; cases c1; rfl
          | ok bs => rw [hm'] at c1; cases c1
        · obtain ⟨l, hl⟩ := hl
          cases hl
      · rw [hc] at c1 c2 c3 c4 rest
        refine ⟨?_, c2.trans f1, rest, fun _ i t' hi a hai => ?_⟩
        · cases hm' : mapE (fun t => (Thread.finish R t h).1) ts with
          | error e' => rw [hm'] at c1; cases c1
          | ok bs => rw [hm'] at c1; cases c1; rfl
        · cases i with
          | zero =>
            simp only [List.getElem?_cons_zero, Option.some.injEq] at hi
            subst hi
            rw [c3 a fun i t' _ hc => ha.disj 0 (i + 1) (by omega) a hai hc, hq]
          | succ i =>
            simp only [List.getElem?_cons_succ] at hi
            rw [c4 ⟨_, rfl⟩ i t' hi a hai]
            exact (Thread.finish_congr R t' fun a hao => agree i _ hi a (ha'.owns i _ hi a hao)).2 a
              (agree i t' hi a hai)

theorem runThreads_spec (R : Regressor K O) (os : Nat → List Nat) (sched : List Nat)
    (ts : List (Thread K O V)) (h : Heap O) (ha : Apart os ts) :
    Apart os (runThreads R sched ts h).1 ∧ (runThreads R sched ts h).1.length = ts.length ∧
    (runThreads R sched ts h).2.next = h.next ∧
    (∀ a, (∀ i t, ts[i]? = some t → a ∉ os i) → (runThreads R sched ts h).2.get a = h.get a) ∧
    ∀ i t t', ts[i]? = some t → (runThreads R sched ts h).1[i]? = some t' →
      (t'.finish R (runThreads R sched ts h).2).1 = (t.finish R h).1 ∧
      ∀ a ∈ os i, (t'.finish R (runThreads R sched ts h).2).2.get a = (t.finish R h).2.get a := by
  induction sched generalizing ts h with
  | nil =>
    refine ⟨ha, rfl, rfl, fun _ _ => rfl, fun i t t' hi hi' => ?_⟩
    simp only [runThreads] at hi'
    rw [hi] at hi'
    cases hi'
    exact ⟨rfl, fun _ _ => rfl⟩
  | cons k sched ih =>
    rw [runThreads]
    cases hk : ts[k]? with
    | none => exact ih ts h ha
    | some u =>
      obtain ⟨s1, s2, s3⟩ := u.step_frame R h
      have hklt : k < ts.length := (List.getElem?_eq_some_iff.1 hk).1
      have ha1 : Apart os (ts.set k (u.step R h).1) := by
        refine ⟨ha.disj, fun i t hi a hao => ?_⟩
        by_cases hik : i = k
        · subst hik
          rw [List.getElem?_set_self hklt] at hi
          cases hi
          exact ha.owns _ u hk a (s3 a hao)
        · rw [List.getElem?_set_ne (Ne.symm hik)] at hi
          exact ha.owns i t hi a hao
      obtain ⟨i1, i2, i3, i4, i5⟩ := ih (ts.set k (u.step R h).1) (u.step R h).2 ha1
      simp only
      refine ⟨i1, by rw [i2, List.length_set], i3.trans s1, fun a hn => ?_, fun i t t' hi hi' => ?_⟩
      · rw [i4 a fun i t hi hc => ?_]
        · exact s2 a fun hc => hn k u hk (ha.owns k u hk a hc)
        · have : i < ts.length := by
            have := (List.getElem?_eq_some_iff.1 hi).1
            simpa using this
          exact hn i ts[i] (List.getElem?_eq_getElem this) hc
      · by_cases hik : i = k
        · subst hik
          rw [hk] at hi
          cases hi
          obtain ⟨j1, j2⟩ := i5 i (u.step R h).1 t' (List.getElem?_set_self hklt) hi'
          rw [Thread.finish_step] at j1 j2
          exact ⟨j1, j2⟩
        · obtain ⟨j1, j2⟩ := i5 i t t' (by rw [List.getElem?_set_ne (Ne.symm hik)]; exact hi) hi'
          have agree : ∀ a ∈ os i, (u.step R h).2.get a = h.get a := fun a hai =>
            s2 a fun hc => ha.disj i k hik a hai (ha.owns k u hk a hc)
          obtain ⟨k1, k2⟩ := Thread.finish_congr R t (h := (u.step R h).2) (g := h)
            fun a hao => agree a (ha.owns i t hi a hao)
          exact ⟨j1.trans k1, fun a hai => (j2 a hai).trans (k2 a (agree a hai))⟩

theorem collect_start (R : Regressor K O) (batches : List (List (Except Err (Job K O V)))) (h : Heap O) :
    collect R (batches.map fun b => ⟨b, none, [], none⟩) h = seqJobs R batches.flatten h := by
  induction batches generalizing h with
  | nil => rfl
  | cons b bs ih =>
    rw [List.map_cons, collect, List.flatten_cons, seqJobs_append]
    simp only [Thread.finish]
    rcases seqJobs R b h with ⟨e | l, h1⟩
    · rfl
    · simp only [Except.map, List.nil_append]
      rw [ih h1]
      rfl

/-- Batches whose tasks work on different objects: in threads, whatever the order of their steps, they
return what they return one after the other, and leave the same objects; if they fail, all objects but
their own are untouched. -/
theorem threads_spec (R : Regressor K O) (sched : List Nat) (batches : List (List (Except Err (Job K O V))))
    (h : Heap O) (hn : (batches.flatten.filterMap taskObj).Nodup) :
    let o := runBatches R (.threads sched) batches h
    o.1 = (seqJobs R batches.flatten h).1 ∧ o.2.next = h.next ∧
    (∀ a, a ∉ batches.flatten.filterMap taskObj → o.2.get a = h.get a) ∧
    ((∃ l, o.1 = .ok l) → o.2 = (seqJobs R batches.flatten h).2) := by
  intro o
  let os : Nat → List Nat := fun i => (batches.getD i []).filterMap taskObj
  let ts : List (Thread K O V) := batches.map fun b => ⟨b, none, [], none⟩
  have hfl : (batches.flatten.filterMap taskObj) = (batches.map (List.filterMap taskObj)).flatten := by
    rw [List.filterMap_flatten]
  have hget : ∀ (i : Nat) (t : Thread K O V), ts[i]? = some t → ∃ b, batches[i]? = some b ∧ t = ⟨b, none, [], none⟩ := by
    intro i t hi
    simp only [ts, List.getElem?_map, Option.map_eq_some_iff] at hi
    obtain ⟨b, hb, rfl⟩ := hi
    exact ⟨b, hb, rfl⟩
  have hdis : (batches.map (List.filterMap taskObj)).Pairwise List.Disjoint := by
    rw [hfl] at hn
    exact (List.nodup_flatten.1 hn).2
  have hos : ∀ i, i < batches.length → (batches.map (List.filterMap taskObj))[i]? = some (os i) := by
    intro i hi
    simp only [os, List.getElem?_map, List.getD_eq_getElem?_getD, List.getElem?_eq_getElem hi, Option.map_some,
      Option.getD_some]
  have hos0 : ∀ i, ¬ i < batches.length → os i = [] := by
    intro i hi
    simp only [os, List.getD_eq_getElem?_getD, List.getElem?_eq_none (Nat.le_of_not_lt hi), Option.getD_none,
      List.filterMap_nil]
  have hap : Apart os ts := by
    constructor
    · have key : ∀ i j, i < j → ∀ a ∈ os i, a ∉ os j := by
        intro i j hij a hai haj
        by_cases hj : j < batches.length
        · have hi : i < batches.length := by omega
          have e1 := hos i hi
          have e2 := hos j hj
          rw [List.getElem?_eq_some_iff] at e1 e2
          obtain ⟨l1, e1⟩ := e1
          obtain ⟨l2, e2⟩ := e2
          have := (List.pairwise_iff_getElem.1 hdis) i j l1 l2 hij
          rw [e1, e2] at this
          exact this hai haj
        · rw [hos0 j hj] at haj
          simp at haj
      intro i j hij a hai haj
      rcases Nat.lt_or_gt_of_ne hij with hlt | hlt
      · exact key i j hlt a hai haj
      · exact key j i hlt a haj hai
    · intro i t hi a hao
      obtain ⟨b, hb, rfl⟩ := hget i t hi
      simpa [os, Thread.owns, List.getD_eq_getElem?_getD, hb] using hao
  have hout : ∀ a, a ∉ batches.flatten.filterMap taskObj → ∀ (i : Nat) (t : Thread K O V), ts[i]? = some t → a ∉ os i := by
    intro a hna i t hi hc
    obtain ⟨b, hb, -⟩ := hget i t hi
    refine hna ?_
    rw [hfl, List.mem_flatten]
    have hlt : i < batches.length := (List.getElem?_eq_some_iff.1 hb).1
    exact ⟨os i, List.mem_of_getElem? (hos i hlt), hc⟩
  have hin : ∀ a, a ∈ batches.flatten.filterMap taskObj → ∃ (i : Nat) (t : Thread K O V), ts[i]? = some t ∧ a ∈ os i := by
    intro a hia
    rw [hfl, List.mem_flatten] at hia
    obtain ⟨l, hl, hal⟩ := hia
    obtain ⟨b, hb, rfl⟩ := List.mem_map.1 hl
    obtain ⟨i, hi, rfl⟩ := List.mem_iff_getElem.1 hb
    refine ⟨i, ⟨batches[i], none, [], none⟩, by simp [ts, List.getElem?_eq_getElem hi], ?_⟩
    simpa [os, List.getD_eq_getElem?_getD, List.getElem?_eq_getElem hi] using hal
  obtain ⟨r1, r2, r3, r4, r5⟩ := runThreads_spec R os sched ts h hap
  obtain ⟨c1, c2, c3, c4⟩ := collect_spec R os _ (runThreads R sched ts h).2 r1
  obtain ⟨d1, d2, d3, d4⟩ := collect_spec R os ts h hap
  rw [collect_start] at d1 d2 d3 d4
  have ho : o = collect R (runThreads R sched ts h).1 (runThreads R sched ts h).2 := rfl
  have hsome : ∀ (i : Nat) (t' : Thread K O V), (runThreads R sched ts h).1[i]? = some t' → ∃ t, ts[i]? = some t := by
    intro i t' hi
    have hi := (List.getElem?_eq_some_iff.1 hi).1
    rw [r2] at hi
    exact ⟨_, List.getElem?_eq_getElem hi⟩
  have hm : mapE (fun t => (Thread.finish R t (runThreads R sched ts h).2).1) (runThreads R sched ts h).1 =
      mapE (fun t => (Thread.finish R t h).1) ts := by
    have hl : (runThreads R sched ts h).1.map (fun t => (Thread.finish R t (runThreads R sched ts h).2).1) =
        ts.map fun t => (Thread.finish R t h).1 := by
      refine List.ext_getElem? fun i => ?_
      rw [List.getElem?_map, List.getElem?_map]
      cases hi : (runThreads R sched ts h).1[i]? with
      | none =>
        have : ts[i]? = none := by
          rw [List.getElem?_eq_none_iff] at hi ⊢
          omega
        rw [this]; rfl
      | some t' =>
        obtain ⟨t, ht⟩ := hsome i t' hi
        rw [ht]
        simp only [Option.map_some, (r5 i t t' ht hi).1]
    have e : ∀ (g : Heap O) (l : List (Thread K O V)), mapE (fun t => (Thread.finish R t g).1) l =
        mapE id (l.map fun t => (Thread.finish R t g).1) := by
      intro g l
      induction l with
      | nil => rfl
      | cons a l ih => simp only [mapE, List.map_cons, ih, id]
    rw [e, e, hl]
  have res : o.1 = (seqJobs R batches.flatten h).1 := by
    rw [ho, c1, hm, ← d1]
  have out : ∀ a, a ∉ batches.flatten.filterMap taskObj → o.2.get a = h.get a := by
    intro a hna
    rw [ho, c3 a fun i t' hi => ?_]
    · exact r4 a (hout a hna)
    · obtain ⟨t, ht⟩ := hsome i t' hi
      exact hout a hna i t ht
  refine ⟨res, by rw [ho, c2, r3], out, fun hl => ?_⟩
  have hnext : o.2.next = (seqJobs R batches.flatten h).2.next := by rw [ho, c2, r3, d2]
  have hfun : o.2.get = (seqJobs R batches.flatten h).2.get := by
    funext a
    by_cases hia : a ∈ batches.flatten.filterMap taskObj
    · obtain ⟨i, t, ht, hai⟩ := hin a hia
      have hi : i < (runThreads R sched ts h).1.length := by
        rw [r2]; exact (List.getElem?_eq_some_iff.1 ht).1
      have ht' := List.getElem?_eq_getElem hi
      rw [ho, c4 (ho ▸ hl) i _ ht' a hai, (r5 i t _ ht ht').2 a hai, d4 (res ▸ hl) i t ht a hai]
    · rw [out a hia, (seqJobs_frame R batches.flatten h).2 a hia]
  generalize o.2 = p at hnext hfun
  generalize (seqJobs R batches.flatten h).2 = q at hnext hfun
  obtain ⟨n1, g1⟩ := p
  obtain ⟨n2, g2⟩ := q
  simp only at hnext hfun
  rw [hnext, hfun]

end Geo
