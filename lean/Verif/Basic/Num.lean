import Mathlib.Algebra.Order.Field.Basic
import Mathlib.Algebra.Order.Ring.Abs
import Mathlib.Tactic.Linarith
/-
Exact numbers of an ordered field extended with the IEEE-754 special values.
Signed zeros, rounding and overflow are not modelled.
-/
set_option linter.unusedSectionVars false
namespace Geo

/-- A float whose finite part is exact. -/
inductive Num (K : Type)
  | fin (x : K) | pinf | ninf | nan
  deriving DecidableEq, Repr

namespace Num
variable {K : Type} [Field K] [LinearOrder K]

/-- The infinity with the sign of `x`; `nan` when `x = 0` (used for `0 * inf`). -/
def infSign (x : K) : Num K := if x = 0 then nan else if 0 < x then pinf else ninf

def neg : Num K → Num K
  | fin x => fin (-x)
  | pinf => ninf
  | ninf => pinf
  | nan => nan

def add : Num K → Num K → Num K
  | fin x, fin y => fin (x + y)
  | nan, _ => nan
  | _, nan => nan
  | pinf, ninf => nan
  | ninf, pinf => nan
  | pinf, _ => pinf
  | _, pinf => pinf
  | ninf, _ => ninf
  | _, ninf => ninf

def sub (a b : Num K) : Num K := add a (neg b)

def mul : Num K → Num K → Num K
  | fin x, fin y => fin (x * y)
  | nan, _ => nan
  | _, nan => nan
  | fin x, pinf => infSign x
  | fin x, ninf => infSign (-x)
  | pinf, fin x => infSign x
  | ninf, fin x => infSign (-x)
  | pinf, pinf => pinf
  | ninf, ninf => pinf
  | pinf, ninf => ninf
  | ninf, pinf => ninf

/-- numpy division: `x/0` is `inf`, `-inf` or `nan`, never an exception. -/
def div : Num K → Num K → Num K
  | fin x, fin y => if y = 0 then infSign x else fin (x / y)
  | nan, _ => nan
  | _, nan => nan
  | fin _, pinf => fin 0
  | fin _, ninf => fin 0
  | pinf, fin y => if y < 0 then ninf else pinf
  | ninf, fin y => if y < 0 then pinf else ninf
  | pinf, pinf => nan
  | pinf, ninf => nan
  | ninf, pinf => nan
  | ninf, ninf => nan

def abs : Num K → Num K
  | fin x => fin |x|
  | pinf => pinf
  | ninf => pinf
  | nan => nan

/-- IEEE `a < b`: false as soon as one side is NaN. -/
def lt : Num K → Num K → Bool
  | fin x, fin y => decide (x < y)
  | nan, _ => false
  | _, nan => false
  | ninf, ninf => false
  | ninf, _ => true
  | _, ninf => false
  | pinf, _ => false
  | fin _, pinf => true

def sq (a : Num K) : Num K := mul a a
def cube (a : Num K) : Num K := mul (mul a a) a

/-- `np.exp`, for a given function on finite numbers. -/
def exp (e : K → K) : Num K → Num K
  | fin x => fin (e x)
  | pinf => pinf
  | ninf => fin 0
  | nan => nan

/-- The value of a finite float. -/
def toK : Num K → K
  | fin x => x
  | _ => 0

/-- Sum of a list, from left to right, starting at `0`. -/
def sum (l : List (Num K)) : Num K := l.foldl add (fin 0)

/-- Product of a list, from left to right, starting at `1`. -/
def prod (l : List (Num K)) : Num K := l.foldl mul (fin 1)

theorem foldl_add_fin (l : List K) (a : K) :
    (l.map fin).foldl add (fin a) = fin (a + l.sum) := by
  induction l generalizing a with
  | nil => simp
  | cons x l ih => simp [add, ih, add_assoc]

theorem sum_fin (l : List K) : sum (l.map fin) = fin l.sum := by
  simp [sum, foldl_add_fin]

theorem foldl_mul_fin (l : List K) (a : K) :
    (l.map fin).foldl mul (fin a) = fin (a * l.prod) := by
  induction l generalizing a with
  | nil => simp
  | cons x l ih => simp [mul, ih, mul_assoc]

theorem prod_fin (l : List K) : prod (l.map fin) = fin l.prod := by
  simp [prod, foldl_mul_fin]

end Num

/-- The real-number services the code takes from numpy: `exp` on finite numbers and the
largest finite float (the replacement `nan_to_num` uses for `-inf`). -/
structure Env (K : Type) where
  exp : K → K
  fmax : K

/-- What the theorems use of `exp`: it holds of the real exponential and, up to
rounding being monotone, of its float version (which underflows to 0). -/
structure Env.Ok {K : Type} [Field K] [LinearOrder K] (env : Env K) : Prop where
  exp_zero : env.exp 0 = 1
  exp_nonneg : ∀ x, 0 ≤ env.exp x
  exp_mono : ∀ x y, x ≤ y → env.exp x ≤ env.exp y

/-- Additionally `exp` never underflows (true of the exact exponential only). -/
structure Env.Pos {K : Type} [Field K] [LinearOrder K] (env : Env K) : Prop extends Env.Ok env where
  exp_pos : ∀ x, 0 < env.exp x

/-- A rational stand-in for the exponential, for executable examples. -/
def ratEnv : Env ℚ where
  exp x := if 0 ≤ x then 1 + x else 1 / (1 - x)
  fmax := 10 ^ 308

theorem ratEnv_pos : ratEnv.Pos where
  exp_zero := by simp [ratEnv]
  exp_pos x := by
    simp only [ratEnv]; split
    · linarith
    · apply div_pos one_pos; linarith
  exp_nonneg x := by
    simp only [ratEnv]; split
    · linarith
    · apply le_of_lt; apply div_pos one_pos; linarith
  exp_mono x y h := by
    simp only [ratEnv]
    split <;> split
    · linarith
    · linarith
    · have : 1 / (1 - x) ≤ 1 := by rw [div_le_one (by linarith)]; linarith
      linarith
    · apply one_div_le_one_div_of_le <;> linarith

end Geo
