import Verif.Props.PairwiseSum
set_option linter.unusedSectionVars false
/-
C186: training observations in another order, in floating point.
-/
namespace Geo
section
variable {K : Type} [Field K] [LinearOrder K] [IsStrictOrderedRing K] {a : Arith K}

/-- The rounded prediction by weight for one location (`weight_model.py:425`), from the pairs of a weight and a local
prediction of all training observations. -/
def pairsPrediction (a : Arith K) (qs : List (K × K)) : Num K :=
  predictEntryR a pairwiseTree (qs.map fun q => Num.fin q.1) (qs.map fun q => Num.fin q.2)

/-- C186: with the training observations in another order, a prediction by weight differs by at most twice the error of
`26 + k` roundings, where there are at most `15 + 113 * 2 ^ k` observations. Both predictions are finite if the weighted
predictions do not overflow. -/
theorem C186_bound (ha : a.Ok) {ε η M : K} (hA : a.SignedAccurate ε η M) (k : Nat) (qs qs' : List (K × K))
    (hp : qs.Perm qs') (hk : qs.length ≤ 15 + 113 * 2 ^ k) (hn : qs ≠ [])
    (hM : (1 + ε) ^ (25 + k) * ((1 + ε) * (qs.map fun q => |q.1 * q.2|).sum + qs.length * η) ≤ M) :
    ∃ v v', pairsPrediction a qs = .fin v ∧ pairsPrediction a qs' = .fin v' ∧
      |v - v'| ≤ 2 * (((1 + ε) ^ (26 + k) - 1) * (qs.map fun q => |q.1 * q.2|).sum +
        (1 + ε) ^ (25 + k) * (qs.length * η)) := by
  have one : ∀ qs : List (K × K), qs.length ≤ 15 + 113 * 2 ^ k → qs ≠ [] →
      (1 + ε) ^ (25 + k) * ((1 + ε) * (qs.map fun q => |q.1 * q.2|).sum + qs.length * η) ≤ M →
      ∃ v, pairsPrediction a qs = .fin v ∧ |v - (qs.map fun q => q.1 * q.2).sum| ≤
        ((1 + ε) ^ (26 + k) - 1) * (qs.map fun q => |q.1 * q.2|).sum + (1 + ε) ^ (25 + k) * (qs.length * η) := by
    intro qs hk hn hM
    have e1 : List.zipWith (fun w p => |w * p|) (qs.map Prod.fst) (qs.map Prod.snd) = qs.map fun q => |q.1 * q.2| := by
      rw [List.zipWith_map, List.zipWith_self]
    have e2 : List.zipWith (· * ·) (qs.map Prod.fst) (qs.map Prod.snd) = qs.map fun q => q.1 * q.2 := by
      rw [List.zipWith_map, List.zipWith_self]
    have := C185_error ha hA k (qs.map Prod.fst) (qs.map Prod.snd) (by simpa using hk) (by simp) (by simpa using hn)
      (by rw [e1]; simpa using hM)
    rw [e1, e2, List.length_map, List.map_map, List.map_map] at this
    exact this
  obtain ⟨v, hv, h1⟩ := one qs hk hn hM
  have s1 : (qs'.map fun q => |q.1 * q.2|).sum = (qs.map fun q => |q.1 * q.2|).sum := (hp.map _).sum_eq.symm
  have s2 : (qs'.map fun q => q.1 * q.2).sum = (qs.map fun q => q.1 * q.2).sum := (hp.map _).sum_eq.symm
  obtain ⟨v', hv', h2⟩ := one qs' (hp.length_eq ▸ hk) (fun h => hn (List.perm_nil.1 (h ▸ hp)))
    (by rw [s1, ← hp.length_eq]; exact hM)
  rw [s1, s2, ← hp.length_eq] at h2
  refine ⟨v, v', hv, hv', ?_⟩
  have h3 : |v - v'| ≤ |v - (qs.map fun q => q.1 * q.2).sum| + |v' - (qs.map fun q => q.1 * q.2).sum| := by
    rw [abs_sub_comm v']
    exact abs_sub_le _ _ _
  linarith

/-- C186: with at most two training observations in reach of a location and fewer than eight in all, the order does not
matter at all. -/
theorem C186_two (ha : a.Ok) (qs qs' : List (K × K)) (hp : qs.Perm qs') (h8 : qs.length < 8)
    (h2 : (qs.filter fun q => decide (q.1 ≠ 0)).length ≤ 2) : pairsPrediction a qs = pairsPrediction a qs' := by
  unfold pairsPrediction
  rw [C185_few ha qs h8, C185_few ha qs' (hp.length_eq ▸ h8)]
  have hp' := hp.filter fun q => decide (q.1 ≠ 0)
  have h2' := hp'.length_eq
  generalize (qs.filter fun q => decide (q.1 ≠ 0)) = l at *
  generalize (qs'.filter fun q => decide (q.1 ≠ 0)) = l' at *
  have comm : ∀ x y : Num K, Num.add x y = Num.add y x := by
    intro x y
    cases x <;> cases y <;> simp [Num.add, add_comm]
  match l, l', h2, h2', hp' with
  | [], [], _, _, _ => rfl
  | [x], [y], _, _, h => rw [List.singleton_perm_singleton.1 h]
  | [x, y], [u, v], _, _, h =>
    have hu : x = u ∧ y = v ∨ x = v ∧ y = u := by
      by_cases hxu : x = u
      · subst hxu
        exact .inl ⟨rfl, List.singleton_perm_singleton.1 ((List.perm_cons x).1 h)⟩
      · have hx : x ∈ [u, v] := h.mem_iff.1 (by simp)
        have hxv : x = v := by
          rcases List.mem_cons.1 hx with h | h
          · exact absurd h hxu
          · exact List.mem_singleton.1 h
        subst hxv
        have := h.trans (List.Perm.swap x u [])
        exact .inr ⟨rfl, List.singleton_perm_singleton.1 ((List.perm_cons x).1 this)⟩
    rcases hu with ⟨rfl, rfl⟩ | ⟨rfl, rfl⟩
    · rfl
    · show Num.rnd a.op (Num.add _ _) = Num.rnd a.op (Num.add _ _)
      rw [comm]

end

/-- C186: with three in reach it does: weights 0.1, 0.2 and 0.3 with predictions of 1 give a different number when the
training observations are reversed. -/
theorem C186_three :
    pairsPrediction double.arith [(tenth, 1), (2 * tenth, 1), (double.round (3 / 10), 1)] =
      .fin (double.round (6 / 10) + 1 / 2 ^ 53) ∧
    pairsPrediction double.arith [(double.round (3 / 10), 1), (2 * tenth, 1), (tenth, 1)] =
      .fin (double.round (6 / 10)) := by
  decide +kernel

/-- The hypotheses of `C186_bound` hold for these observations in double precision. -/
example : ∃ v v', pairsPrediction double.arith [(tenth, 1), (2 * tenth, 1), (double.round (3 / 10), 1)] = .fin v ∧
    pairsPrediction double.arith [(double.round (3 / 10), 1), (2 * tenth, 1), (tenth, 1)] = .fin v' ∧ |v - v'| ≤ 1 / 2 ^ 47 := by
  have h := C186_bound (K := ℚ) (C175_ieee double double_ok).1 (Fmt.arith_signed double_ok) 0
    [(tenth, 1), (2 * tenth, 1), (double.round (3 / 10), 1)] [(double.round (3 / 10), 1), (2 * tenth, 1), (tenth, 1)]
    (by decide +kernel) (by decide) (by simp) (by decide +kernel)
  obtain ⟨v, v', h1, h2, h3⟩ := h
  exact ⟨v, v', h1, h2, h3.trans (by decide +kernel)⟩

/-- The hypotheses of `C186_two` hold. -/
example : pairsPrediction double.arith [(tenth, 1), (0, 7), (2 * tenth, -3)] =
    pairsPrediction double.arith [(0, 7), (2 * tenth, -3), (tenth, 1)] :=
  C186_two (C175_ieee double double_ok).1 _ _ (by decide +kernel) (by decide) (by decide +kernel)

end Geo
