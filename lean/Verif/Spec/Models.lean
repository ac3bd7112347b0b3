import Verif.Model.Models

/-!
# Specification: polynomials of degree two and models on regions
-/

namespace Tranquilo

variable {K : Type} [Field K] [LinearOrder K] {n m : Nat}

/-- All entries agree (the scale of a ball, or of a cube with equal sides). -/
def Uniform (v : Vec K n) : Prop := ∀ i j, v i = v j

/-- Symmetric second order terms. -/
def SymmetricMat (h : Mat K n n) : Prop := ∀ i j, h i j = h j i

/-- Value of a polynomial of degree at most two. -/
def polyVal (c : K) (g : Vec K n) (sq : Option (Mat K n n)) (x : Vec K n) : K :=
  c + ∑ i, g i * x i + match sq with
    | none => 0
    | some h => (∑ i, ∑ j, h i j * x i * x j) / 2

/-- The model is expressed in the unit coordinates of the region, as the fitter does
(fit_models.py:138-144). -/
def VectorModel.FittedOn (cr : K → K) (v : VectorModel K n m) (r : Region K n) : Prop :=
  v.shift = r.effectiveCenter cr ∧ v.scale = r.effectiveRadius cr

/-- The same for scalar models (aggregate_models.py:48-54 copies the two fields). -/
def ScalarModel.FittedOn (cr : K → K) (s : ScalarModel K n) (r : Region K n) : Prop :=
  s.shift = r.effectiveCenter cr ∧ s.scale = r.effectiveRadius cr

/-- Two models are "close": `np.allclose` as documented by numpy. -/
def Close (a b : Vec K n) : Prop := ∀ i, |a i - b i| ≤ 1 / 10 ^ 8 + 1 / 10 ^ 5 * |b i|

end Tranquilo
