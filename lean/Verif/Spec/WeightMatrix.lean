import Verif.Model.WeightMatrix
/-
Hypotheses used by the theorems on weight matrices.
-/
namespace Geo
variable {K : Type} [Field K] [LinearOrder K] [FloorRing K]

/-- Distances, fixed bandwidths and (for the lazy path) the given sorted distances are
non-negative. -/
structure NonnegInput (Ds : List (Mat K)) (p : WParams K) : Prop where
  dist : ∀ D ∈ Ds, ∀ i < D.r, ∀ j < D.c, 0 ≤ D.get i j
  bandwidth : ∀ b, some b ∈ p.bandwidth.expand Ds.length → 0 ≤ b
  sorted : ∀ S, some S ∈ p.sorted.expand Ds.length → ∀ D ∈ Ds, ∀ i < D.r, ∀ j < S.c, 0 ≤ S.get i j

/-- All matrices have the shape `(r, c)`. -/
def AllShape (Ds : List (Mat K)) (r c : Nat) : Prop := ∀ D ∈ Ds, D.r = r ∧ D.c = c

end Geo
