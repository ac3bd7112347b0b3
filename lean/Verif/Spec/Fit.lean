import Verif.Spec.Models
import Verif.Model.FitModels

/-!
# Specification: least squares
-/

namespace Tranquilo

variable {K : Type} [Field K] [LinearOrder K] {n m N p : Nat}

/-- `f` is a polynomial of the given type: degree one (linear) or degree two (quadratic). -/
def IsPoly (mt : ModelType) (f : Vec K n → K) : Prop :=
  ∃ c g sq, (mt = .linear → sq = none) ∧ ∀ u, f u = polyVal c g sq u

/-- Weighted sum of squared prediction errors of `f`. -/
def predError (w : Vec K N) (xs : Fin N → Vec K n) (y : Vec K N) (f : Vec K n → K) : K :=
  ∑ s, w s * (f (xs s) - y s) ^ 2

/-- Squared residual norm of a linear system. -/
def residSq (a : Mat K N p) (y : Vec K N) (c : Vec K p) : K := ∑ s, ((∑ k, a s k * c k) - y s) ^ 2

/-- Contract of `np.linalg.lstsq` (numpy documentation; the cutoff for small singular values is not
part of it): the result minimizes the residual, and is the shortest vector that does. -/
structure LstsqSpec (lstsq : Lstsq K) : Prop where
  least : ∀ (N p : Nat) (a : Mat K N p) (y : Vec K N) (c : Vec K p),
    residSq a y (lstsq N p a y) ≤ residSq a y c
  shortest : ∀ (N p : Nat) (a : Mat K N p) (y : Vec K N) (c : Vec K p),
    residSq a y c = residSq a y (lstsq N p a y) → ∑ k, lstsq N p a y k ^ 2 ≤ ∑ k, c k ^ 2

/-- Contract of `np.sqrt`. -/
def RootSpec (root : K → K) : Prop := ∀ w, 0 ≤ w → root w * root w = w

/-- Contract of the orthogonal factor `q` of a QR decomposition (scipy documentation) of a matrix whose
first columns are `m` and whose other columns are zero: orthonormal columns, and the columns after those
of `m` are orthogonal to the columns of `m`. -/
structure QrSpec (m : Mat K N p) (q : Mat K N N) : Prop where
  orthonormal : ∀ i j, ∑ s, q s i * q s j = if i = j then 1 else 0
  complement : ∀ (k : Fin p) (j : Fin N), p ≤ j.val → ∑ s, m s k * q s j = 0

/-- The weights that are used if none are given. -/
def weightsOf (w : Option (Vec K N)) : Vec K N := fun s =>
  match w with
  | none => 1
  | some w => w s

end Tranquilo
