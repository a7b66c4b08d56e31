import Verif.Model.WeightModel
set_option linter.unusedSectionVars false
/-
Two runs side by side: results that are related, or the same exception.
-/
namespace Geo
variable {α β γ δ : Type}

/-- Both runs succeed with related results, or both raise the same exception. -/
def ERel (R : α → β → Prop) : Except Err α → Except Err β → Prop
  | .ok a, .ok b => R a b
  | .error e, .error e' => e = e'
  | _, _ => False

theorem ERel.refl (r : Except Err α) : ERel Eq r r := by cases r <;> rfl

theorem ERel.of_eq {R : α → α → Prop} (hR : ∀ a, R a a) {r r' : Except Err α} (h : r = r') :
    ERel R r r' := by
  subst h
  cases r with
  | error e => rfl
  | ok a => exact hR a

theorem ERel.ok {R : α → β → Prop} {a : α} {r : Except Err β} (h : ERel R (.ok a) r) :
    ∃ b, r = .ok b ∧ R a b := by
  cases r with
  | error e => exact h.elim
  | ok b => exact ⟨b, rfl, h⟩

theorem ERel.error {R : α → β → Prop} {e : Err} {r : Except Err β} (h : ERel R (.error e) r) :
    r = .error e := by
  cases r with
  | error e' => rw [show e = e' from h]
  | ok b => exact h.elim

theorem ERel.map {R : α → β → Prop} {R' : γ → δ → Prop} {r : Except Err α} {r' : Except Err β}
    {f : α → γ} {g : β → δ} (h : ERel R r r') (hf : ∀ a b, R a b → R' (f a) (g b)) :
    ERel R' (r.map f) (r'.map g) := by
  cases r with
  | error e => rw [h.error]; rfl
  | ok a =>
    obtain ⟨b, rfl, hb⟩ := h.ok
    exact hf a b hb

theorem ERel.bind {R : α → β → Prop} {R' : γ → δ → Prop} {r : Except Err α} {r' : Except Err β}
    {f : α → Except Err γ} {g : β → Except Err δ} (h : ERel R r r')
    (hf : ∀ a b, R a b → ERel R' (f a) (g b)) : ERel R' (r.bind f) (r'.bind g) := by
  cases r with
  | error e => rw [h.error]; rfl
  | ok a =>
    obtain ⟨b, rfl, hb⟩ := h.ok
    exact hf a b hb

theorem ERel.mono {R R' : α → β → Prop} {r : Except Err α} {r' : Except Err β} (h : ERel R r r')
    (hR : ∀ a b, R a b → R' a b) : ERel R' r r' := by
  cases r with
  | error e => rw [h.error]; rfl
  | ok a =>
    obtain ⟨b, rfl, hb⟩ := h.ok
    exact hR a b hb

theorem ERel.mapE {R : γ → δ → Prop} {f : α → Except Err γ} {g : α → Except Err δ} {l : List α}
    (h : ∀ a ∈ l, ERel R (f a) (g a)) : ERel (List.Forall₂ R) (Geo.mapE f l) (Geo.mapE g l) := by
  induction l with
  | nil => exact List.Forall₂.nil
  | cons a l ih =>
    have h1 := h a (by simp)
    have h2 := ih fun b hb => h b (by simp [hb])
    simp only [Geo.mapE]
    cases hf : f a with
    | error e => rw [hf] at h1; rw [h1.error]; rfl
    | ok c =>
      rw [hf] at h1
      obtain ⟨d, hd, hcd⟩ := h1.ok
      rw [hd]
      cases hm : Geo.mapE f l with
      | error e => rw [hm] at h2; rw [h2.error]; rfl
      | ok cs =>
        rw [hm] at h2
        obtain ⟨ds, hds, hcs⟩ := h2.ok
        rw [hds]
        exact List.Forall₂.cons hcd hcs

theorem forall₂_flatten {R : γ → δ → Prop} {l : List (List γ)} {l' : List (List δ)}
    (h : List.Forall₂ (List.Forall₂ R) l l') : List.Forall₂ R l.flatten l'.flatten := by
  induction h with
  | nil => exact List.Forall₂.nil
  | cons h1 _ ih =>
    rw [List.flatten_cons, List.flatten_cons]
    exact List.rel_append h1 ih

theorem ERel.runPatches {R : γ → δ → Prop} {f : Nat → Except Err γ} {g : Nat → Except Err δ}
    (h : ∀ i, ERel R (f i) (g i)) (idx : List Nat) (n : ℤ) :
    ERel (List.Forall₂ R) (Geo.runPatches f idx n) (Geo.runPatches g idx n) := by
  unfold Geo.runPatches
  split
  · rfl
  · exact ERel.map (ERel.mapE fun l _ => ERel.mapE fun i _ => h i) fun a b => forall₂_flatten

theorem ERel.unzipNonempty {R : γ → δ → Prop} {l : List γ} {l' : List δ}
    (h : List.Forall₂ R l l') : ERel (List.Forall₂ R) (Geo.unzipNonempty l) (Geo.unzipNonempty l') := by
  cases h with
  | nil => rfl
  | cons h1 h2 => exact List.Forall₂.cons h1 h2

section
variable {K : Type} [Field K] [LinearOrder K] [FloorRing K] {F F' : Type}

/-- Fitting all locations in two runs whose local tasks are related. -/
theorem ERel.fitAll {R : K × F → K × F' → Prop} {L : Learner K F} {L' : Learner K F'}
    {X X' : Mat K} {y y' : Nat → K} {W : WMat K} (hX : X.r = X'.r)
    (hd : ∀ D, W = .dense D → ∀ e i, ERel R (denseTask L X y X D e i) (denseTask L' X' y' X' D e i))
    (hs : ∀ A, W = .sparse A → ∀ e i, ERel R (sparseTask L X y X A e i)
      (sparseTask L' X' y' X' A e i))
    (nEst : Nat) (idx : Option (List Nat)) (nJobs nPatches : Option ℤ) (cpu : Nat) :
    ERel (List.Forall₂ R) (Geo.fitAll L X y none W nEst idx nJobs nPatches cpu)
      (Geo.fitAll L' X' y' none W nEst idx nJobs nPatches cpu) := by
  have hl : ∀ i, ERel R (locTask L X y X W nEst i) (locTask L' X' y' X' W nEst i) := by
    intro i
    unfold locTask atIndex
    rw [← hX]
    split
    · cases W with
      | dense D => exact hd D rfl i i
      | sparse A => exact hs A rfl i i
    · rfl
  unfold Geo.fitAll
  simp only [Option.getD_none]
  cases nJobs with
  | none =>
    cases nPatches with
    | none => exact ERel.runPatches hl _ _
    | some n => exact ERel.runPatches hl _ _
  | some j =>
    cases nPatches with
    | some n => rfl
    | none =>
      simp only
      split
      · rfl
      · unfold runJobs
        cases W with
        | dense D =>
          simp only
          rw [← hX]
          exact ERel.bind (ERel.mapE fun k _ => hd D rfl k k) fun a b => ERel.unzipNonempty
        | sparse A => exact ERel.bind (ERel.mapE fun k _ => hl k) fun a b => ERel.unzipNonempty

end
end Geo
