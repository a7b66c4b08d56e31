import Verif.Basic.Err
import Mathlib.Data.List.Forall2
/-
Left-to-right evaluation of a list comprehension whose body may raise.
-/
namespace Geo
variable {α β : Type}

/-- `[f(a) for a in l]`: the first exception stops the evaluation. -/
def mapE (f : α → Except Err β) : List α → Except Err (List β)
  | [] => .ok []
  | a :: l =>
    match f a with
    | .error e => .error e
    | .ok b =>
      match mapE f l with
      | .error e => .error e
      | .ok bs => .ok (b :: bs)

theorem mapE_ok_iff {f : α → Except Err β} {l : List α} {bs : List β} :
    mapE f l = .ok bs ↔ List.Forall₂ (fun a b => f a = .ok b) l bs := by
  induction l generalizing bs with
  | nil => cases bs <;> simp [mapE]
  | cons a l ih =>
    cases bs with
    | nil =>
      simp only [mapE]
      constructor
      · intro h
        split at h
        · cases h
        · split at h <;> cases h
      · intro h; cases h
    | cons b bs =>
      simp only [mapE, List.forall₂_cons, ← ih]
      constructor
      · intro h
        split at h
        · cases h
        · rename_i b' hb
          split at h
          · cases h
          · rename_i bs' hbs
            injection h with h
            injection h with h1 h2
            subst h1 h2
            exact ⟨hb, hbs⟩
      · rintro ⟨h1, h2⟩
        simp [h1, h2]

theorem mapE_error_of_mem {f : α → Except Err β} {l : List α} {a : α} (ha : a ∈ l)
    (hf : ∃ e, f a = .error e) : ∃ e, mapE f l = .error e := by
  cases h : mapE f l with
  | error e => exact ⟨e, rfl⟩
  | ok bs =>
    have := mapE_ok_iff.1 h
    obtain ⟨i, hi, rfl⟩ := List.getElem_of_mem ha
    have h2 := (List.forall₂_iff_get.1 this).2 i hi (by rw [← this.length_eq]; exact hi)
    obtain ⟨e, he⟩ := hf
    simp only [List.get_eq_getElem] at h2
    rw [he] at h2
    cases h2

theorem mapE_congr {f g : α → Except Err β} {l : List α} (h : ∀ a ∈ l, f a = g a) :
    mapE f l = mapE g l := by
  induction l with
  | nil => rfl
  | cons a l ih =>
    simp only [mapE]
    rw [h a (by simp), ih fun b hb => h b (by simp [hb])]

theorem mapE_length {f : α → Except Err β} {l : List α} {bs : List β} (h : mapE f l = .ok bs) :
    bs.length = l.length := (mapE_ok_iff.1 h).length_eq.symm

theorem mapE_get {f : α → Except Err β} {l : List α} {bs : List β} (h : mapE f l = .ok bs)
    {i : Nat} (hi : i < l.length) : f l[i] = .ok (bs[i]'(by rw [mapE_length h]; exact hi)) :=
  (List.forall₂_iff_get.1 (mapE_ok_iff.1 h)).2 i hi (by rw [mapE_length h]; exact hi)

/-- If every element succeeds, so does the whole comprehension. -/
theorem mapE_of_forall {f : α → Except Err β} {g : α → β} {l : List α}
    (h : ∀ a ∈ l, f a = .ok (g a)) : mapE f l = .ok (l.map g) := by
  induction l with
  | nil => rfl
  | cons a l ih => simp [mapE, h a (by simp), ih fun b hb => h b (by simp [hb])]

/-- The first failing element decides the exception. -/
theorem mapE_append (f : α → Except Err β) (l l' : List α) :
    mapE f (l ++ l') = match mapE f l with
      | .error e => .error e
      | .ok bs => match mapE f l' with
        | .error e => .error e
        | .ok bs' => .ok (bs ++ bs') := by
  induction l with
  | nil => simp only [mapE, List.nil_append]; cases mapE f l' <;> rfl
  | cons a l ih =>
    simp only [List.cons_append, mapE, ih]
    cases f a with
    | error e => rfl
    | ok b =>
      simp only
      cases mapE f l with
      | error e => rfl
      | ok bs =>
        simp only
        cases mapE f l' <;> rfl

end Geo
