import Verif.Model.Gqtpar
import Verif.Spec.Subsolver

/-!
# Specification for gqtpar: multipliers, global minimizers, contracts of the library functions
-/

namespace Tranquilo

variable {K : Type} [Field K] [LinearOrder K] {n : Nat}

/-- `x` minimizes the quadratic model on the ball of radius `r`. -/
def IsGlobalMin (g : Vec K n) (h : Mat K n n) (r : K) (x : Vec K n) : Prop :=
  ∀ y, NormLe y r → quadModel g h x ≤ quadModel g h y

/-- The optimality conditions of the trust region subproblem on the unit ball (docstring of
`gqtpar_fast`, gqtpar_fast.py:21-30, with positive semidefinite instead of positive definite). -/
structure IsMultiplier (g : Vec K n) (h : Mat K n n) (x : Vec K n) (lam : K) : Prop where
  nonneg : 0 ≤ lam
  inBall : NormLe x 1
  stationary : ∀ i, ∑ j, h i j * x j + lam * x i = -(g i)
  curvature : ∀ y : Vec K n, 0 ≤ ∑ i, ∑ j, h i j * y i * y j + lam * sumSq y
  complementary : lam * (1 - sumSq x) = 0

/-- `u` is upper triangular with positive diagonal and `u.T @ u = a`. -/
def UpperFactor (u a : Mat K n n) : Prop :=
  (∀ i j, j < i → u i j = 0) ∧ (∀ i, 0 < u i i) ∧ ∀ i j, ∑ l, u l i * u l j = a i j

/-- `u` is the factor that a Cholesky factorization has built when it fails in column `k`: the rows
before `k` are right and the next pivot is not positive. -/
structure LeadingFactor (u a : Mat K n n) (k : Fin n) : Prop where
  upper : ∀ i j, j < i → u i j = 0
  diag : ∀ i, i < k → 0 < u i i
  factor : ∀ i j, i < k → j ≤ k → (∑ l, if l < k then u l i * u l j else 0) = a i j
  pivot : a k k ≤ ∑ l, if l < k then u l k ^ 2 else 0

/-- Contract of the library functions: what the documentation of LAPACK, scipy and numpy says about
their results, in exact arithmetic. -/
structure GqSpec (ext : GqExternal K n) : Prop where
  info_le : ∀ a, (ext.chol a).info ≤ n
  chol_ok : ∀ a, SymmetricMat a → (ext.chol a).info = 0 → UpperFactor (ext.chol a).upper a
  chol_fail : ∀ a, SymmetricMat a → ∀ k : Fin n, (ext.chol a).info = k + 1 →
    LeadingFactor (ext.chol a).upper a k
  choSolve : ∀ u a b, UpperFactor u a → ∀ i, ∑ j, a i j * ext.choSolve u b j = b i
  solveTransposed : ∀ u a b, UpperFactor u a → ∀ i, ∑ j, u j i * ext.solveTransposed u b j = b i
  solveUpper : ∀ u a b, UpperFactor u a → ∀ i, ∑ j, u i j * ext.solveUpper u b j = b i
  solveLeading : ∀ u a (k : Fin n) b, LeadingFactor u a k → ∀ i, i < k →
    (∑ j, if j < k then u i j * ext.solveLeading k u b j else 0) = b i
  roots : ∀ a b c, a ≠ 0 → 0 ≤ b ^ 2 - 4 * a * c →
    ∀ t, a * t ^ 2 + b * t + c = a * (t - (ext.roots a b c).1) * (t - (ext.roots a b c).2)

end Tranquilo
