import Verif.Basic.Quantile
/-
Specification of order statistics by counting, independent of sorting.
-/
namespace Geo
variable {K : Type} [LinearOrder K]

/-- `a` is the `k`-th smallest (counting from 1) element of `l`, with multiplicity. -/
def IsKthSmallest (l : List K) (k : Nat) (a : K) : Prop :=
  a ∈ l ∧ l.countP (fun x => decide (x < a)) < k ∧ k ≤ l.countP (fun x => decide (x ≤ a))

theorem IsKthSmallest.unique {l : List K} {k : Nat} {a b : K} (ha : IsKthSmallest l k a)
    (hb : IsKthSmallest l k b) : a = b := by
  have aux : ∀ {a b : K}, IsKthSmallest l k a → IsKthSmallest l k b → ¬ a < b := by
    intro a b ha hb hab
    have : l.countP (fun x => decide (x ≤ a)) ≤ l.countP (fun x => decide (x < b)) :=
      List.countP_mono_left fun x _ hx => by
        simp only [decide_eq_true_eq] at hx ⊢; exact hx.trans_lt hab
    have h1 := ha.2.2
    have h2 := hb.2.1
    omega
  exact le_antisymm (not_lt.1 (aux hb ha)) (not_lt.1 (aux ha hb))

theorem isKthSmallest_sortL {l : List K} {k : Nat} (hk : k < (sortL l).length) :
    IsKthSmallest l (k + 1) (sortL l)[k] := by
  refine ⟨mem_sortL.1 (List.getElem_mem hk), ?_, ?_⟩
  · rw [← (sortL_perm l).countP_eq]
    exact Nat.lt_succ_of_le (countP_lt_sorted (sortL_pairwise l) hk)
  · rw [← (sortL_perm l).countP_eq]
    exact countP_le_sorted (sortL_pairwise l) hk

theorem IsKthSmallest.eq_sortL {l : List K} {k : Nat} {a : K} (h : IsKthSmallest l (k + 1) a)
    (hk : k < (sortL l).length) : a = (sortL l)[k] := h.unique (isKthSmallest_sortL hk)

end Geo
