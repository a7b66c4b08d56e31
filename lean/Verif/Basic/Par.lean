import Mathlib.Logic.Basic
import Mathlib.Data.List.Basic
import Mathlib.Logic.Function.Basic
/-
Parallel loops (`numba.prange`): any interleaving of the atomic steps of the iterations on a
shared memory.
-/
namespace Geo
namespace Par
variable {A V L : Type}

/-- Shared memory. -/
abbrev Mem (A V : Type) := A → V

/-- One atomic step of an iteration: it sees the iteration's private state and the shared
memory and changes both. -/
abbrev Act (A V L : Type) := L → Mem A V → L × Mem A V

/-- State during the execution of the loop: memory, private state and remaining steps of each
iteration. -/
structure State (A V L : Type) where
  mem : Mem A V
  loc : Nat → L
  todo : Nat → List (Act A V L)

/-- Let iteration `i` do one step (nothing if it has finished). -/
def State.step (s : State A V L) (i : Nat) : State A V L :=
  match s.todo i with
  | [] => s
  | a :: rest =>
    { mem := (a (s.loc i) s.mem).2
      loc := Function.update s.loc i (a (s.loc i) s.mem).1
      todo := Function.update s.todo i rest }

/-- Run a schedule: at each time the listed iteration does one step. -/
def State.run (s : State A V L) (sched : List Nat) : State A V L := sched.foldl State.step s

/-- All of the iterations `0 .. n-1` have finished. -/
def State.Done (s : State A V L) (n : Nat) : Prop := ∀ i < n, s.todo i = []

/-- The steps of one iteration executed alone. -/
def runAlone (acts : List (Act A V L)) (l : L) (m : Mem A V) : L × Mem A V :=
  acts.foldl (fun s a => a s.1 s.2) (l, m)

/-- A step stays inside the region `own`: it changes only `own`, and what it does depends only
on `own`. -/
structure Inside (own : A → Prop) (a : Act A V L) : Prop where
  frame : ∀ l m x, ¬ own x → (a l m).2 x = m x
  dep : ∀ l m m', (∀ x, own x → m x = m' x) →
    (a l m).1 = (a l m').1 ∧ ∀ x, own x → (a l m).2 x = (a l m').2 x

theorem Inside.runAlone_dep {own : A → Prop} {acts : List (Act A V L)}
    (h : ∀ a ∈ acts, Inside own a) (l : L) (m m' : Mem A V) (hm : ∀ x, own x → m x = m' x) :
    (runAlone acts l m).1 = (runAlone acts l m').1 ∧
      ∀ x, own x → (runAlone acts l m).2 x = (runAlone acts l m').2 x := by
  induction acts generalizing l m m' with
  | nil => exact ⟨rfl, hm⟩
  | cons a acts ih =>
    obtain ⟨h1, h2⟩ := (h a (by simp)).dep l m m' hm
    have := ih (fun b hb => h b (by simp [hb])) (a l m).1 (a l m).2 (a l m').2 h2
    have e : ∀ m : Mem A V, runAlone (a :: acts) l m = runAlone acts (a l m).1 (a l m).2 :=
      fun _ => rfl
    rw [e, e, ← h1]
    exact this

theorem runAlone_append (as bs : List (Act A V L)) (l : L) (m : Mem A V) :
    runAlone (as ++ bs) l m = runAlone bs (runAlone as l m).1 (runAlone as l m).2 := by
  simp [runAlone, List.foldl_append]

variable (own : Nat → A → Prop) (acts : Nat → List (Act A V L)) (l0 : Nat → L) (m0 : Mem A V)

/-- The invariant: iteration `i` has done a prefix of its steps, and its own region and private
state are as if it had run alone. -/
def Inv (s : State A V L) : Prop :=
  (∀ i, ∃ done, acts i = done ++ s.todo i ∧ s.loc i = (runAlone done (l0 i) m0).1 ∧
      ∀ x, own i x → s.mem x = (runAlone done (l0 i) m0).2 x) ∧
    ∀ x, (∀ i, ¬ own i x) → s.mem x = m0 x

variable {own acts l0 m0}

theorem Inv.step (hdisj : ∀ i j x, own i x → own j x → i = j)
    (hin : ∀ i, ∀ a ∈ acts i, Inside (own i) a) {s : State A V L}
    (h : Inv own acts l0 m0 s) (i : Nat) : Inv own acts l0 m0 (s.step i) := by
  unfold State.step
  cases ht : s.todo i with
  | nil => exact h
  | cons a rest =>
    obtain ⟨done, hd1, hd2, hd3⟩ := h.1 i
    rw [ht] at hd1
    have ha : Inside (own i) a := hin i a (by rw [hd1]; simp)
    refine ⟨fun k => ?_, fun x hx => ?_⟩
    · by_cases hk : k = i
      · subst hk
        refine ⟨done ++ [a], by simp [hd1], ?_, ?_⟩
        · simp only [Function.update_self]
          rw [runAlone_append]
          rw [hd2]
          exact (ha.dep _ _ _ hd3).1
        · intro x hx
          rw [runAlone_append]
          simp only
          rw [hd2]
          exact (ha.dep _ _ _ hd3).2 x hx
      · obtain ⟨done', h1, h2, h3⟩ := h.1 k
        refine ⟨done', by simpa [Function.update_of_ne hk] using h1,
          by simpa [Function.update_of_ne hk] using h2, ?_⟩
        intro x hx
        rw [← h3 x hx]
        exact ha.frame _ _ _ fun hx' => hk (hdisj k i x hx hx')
    · rw [← h.2 x hx]
      exact ha.frame _ _ _ (hx i)

theorem Inv.run (hdisj : ∀ i j x, own i x → own j x → i = j)
    (hin : ∀ i, ∀ a ∈ acts i, Inside (own i) a) {s : State A V L}
    (h : Inv own acts l0 m0 s) (sched : List Nat) : Inv own acts l0 m0 (s.run sched) := by
  induction sched generalizing s with
  | nil => exact h
  | cons i sched ih => exact ih (h.step hdisj hin i)

theorem Inv.init : Inv own acts l0 m0 ⟨m0, l0, acts⟩ :=
  ⟨fun _ => ⟨[], rfl, rfl, fun _ _ => rfl⟩, fun _ _ => rfl⟩

/-- If the iterations work on disjoint regions, every complete execution leaves in the region
of iteration `i` what that iteration computes when run alone, and nothing else changes. -/
theorem schedule_result (n : Nat) (hdisj : ∀ i j x, own i x → own j x → i = j)
    (hin : ∀ i, ∀ a ∈ acts i, Inside (own i) a) (sched : List Nat)
    (hdone : (State.run ⟨m0, l0, acts⟩ sched).Done n) :
    (∀ i < n, ∀ x, own i x →
      (State.run ⟨m0, l0, acts⟩ sched).mem x = (runAlone (acts i) (l0 i) m0).2 x) ∧
    (∀ x, (∀ i, ¬ own i x) → (State.run ⟨m0, l0, acts⟩ sched).mem x = m0 x) := by
  have h : Inv own acts l0 m0 (State.run ⟨m0, l0, acts⟩ sched) :=
    (Inv.init (own := own)).run hdisj hin sched
  refine ⟨fun i hi x hx => ?_, h.2⟩
  obtain ⟨done, h1, -, h3⟩ := h.1 i
  rw [hdone i hi, List.append_nil] at h1
  rw [h1]
  exact h3 x hx

theorem run_replicate (s : State A V L) (i : Nat) :
    ((s.run (List.replicate (s.todo i).length i)).todo i = []) ∧
      ∀ k, k ≠ i → (s.run (List.replicate (s.todo i).length i)).todo k = s.todo k := by
  generalize hn : (s.todo i).length = n
  induction n generalizing s with
  | zero =>
    have : s.todo i = [] := List.eq_nil_of_length_eq_zero hn
    exact ⟨this, fun _ _ => rfl⟩
  | succ n ih =>
    cases ht : s.todo i with
    | nil => simp [ht] at hn
    | cons a rest =>
      have hs : (s.step i).todo i = rest := by simp [State.step, ht]
      have hs' : ∀ k, k ≠ i → (s.step i).todo k = s.todo k := by
        intro k hk; simp [State.step, ht, Function.update_of_ne hk]
      obtain ⟨h1, h2⟩ := ih (s.step i) (by rw [hs]; simpa [ht] using hn)
      exact ⟨h1, fun k hk => (h2 k hk).trans (hs' k hk)⟩

/-- The sequential loop is one of the complete schedules. -/
theorem exists_sequential (s : State A V L) (n : Nat) : ∃ sched, (s.run sched).Done n := by
  induction n with
  | zero => exact ⟨[], fun i hi => absurd hi (Nat.not_lt_zero i)⟩
  | succ n ih =>
    obtain ⟨sched, h⟩ := ih
    refine ⟨sched ++ List.replicate (((s.run sched).todo n).length) n, ?_⟩
    intro i hi
    unfold State.run
    rw [List.foldl_append]
    have := run_replicate (s.run sched) n
    by_cases hin : i = n
    · subst hin; exact this.1
    · exact (this.2 i hin).trans (h i (by omega))

end Par
end Geo
