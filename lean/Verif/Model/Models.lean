import Verif.Model.Region
import Mathlib.Algebra.BigOperators.Fin

/-!
# Model of `models.py`

Matrices are functions of two indices. `scale` may be a float or an array in the code; a float is the
constant vector, which has the same effect under numpy broadcasting (a factor of shape `(n_params,)`
multiplies the last axis).
-/

namespace Tranquilo

variable {K : Type} [Field K] [LinearOrder K] {n m : Nat}

/-- A matrix. -/
abbrev Mat (K : Type) (m n : Nat) := Fin m → Fin n → K

/-- Inner product, `@` of two vectors. -/
def dot (a b : Vec K n) : K := ∑ i, a i * b i

/-- `ScalarModel`, models.py:29-45. -/
structure ScalarModel (K : Type) (n : Nat) where
  intercept : K
  linearTerms : Vec K n
  squareTerms : Option (Mat K n n)
  scale : Vec K n
  shift : Vec K n

/-- `VectorModel`, models.py:8-26. -/
structure VectorModel (K : Type) (n m : Nat) where
  intercepts : Vec K m
  linearTerms : Mat K m n
  squareTerms : Option (Fin m → Mat K n n)
  scale : Vec K n
  shift : Vec K n

/-- `np.sum((x @ square_terms) * x) / 2`, models.py:80 and 254, for one point. -/
def halfQuad (h : Mat K n n) (x : Vec K n) : K := (∑ j, (∑ i, x i * h i j) * x j) / 2

/-- `_predict_scalar` for one point, models.py:223-261. -/
def ScalarModel.predict (s : ScalarModel K n) (x : Vec K n) : K :=
  let y := dot x s.linearTerms + s.intercept
  match s.squareTerms with
  | none => y
  | some h => y + halfQuad h x

/-- `_predict_vector` for one point, models.py:48-87. -/
def VectorModel.predict (v : VectorModel K n m) (x : Vec K n) : Vec K m := fun k =>
  let y := dot (v.linearTerms k) x + v.intercepts k
  match v.squareTerms with
  | none => y
  | some h => y + halfQuad (h k) x

/-- `_predict_vector` for an array of points, models.py:82-85: row `s` belongs to point `s`. -/
def VectorModel.predictMany (v : VectorModel K n m) (xs : List (Vec K n)) : List (Vec K m) :=
  xs.map v.predict

/-- `_scale_model` for scalar models, models.py:153-172. `square_terms * factor**2` multiplies column `j`
by `factor[j]**2`. -/
def ScalarModel.scaleBy (s : ScalarModel K n) (factor : Vec K n) : ScalarModel K n where
  intercept := s.intercept
  linearTerms i := s.linearTerms i * factor i
  squareTerms := s.squareTerms.map fun h i j => h i j * factor j ^ 2
  scale i := s.scale i * factor i
  shift := s.shift

/-- `_scale_model` for vector models, models.py:153-172. -/
def VectorModel.scaleBy (v : VectorModel K n m) (factor : Vec K n) : VectorModel K n m where
  intercepts := v.intercepts
  linearTerms k i := v.linearTerms k i * factor i
  squareTerms := v.squareTerms.map fun h k i j => h k i j * factor j ^ 2
  scale i := v.scale i * factor i
  shift := v.shift

/-- `_shift_scalar_model`, models.py:175-194. `None @ shift` is a `TypeError`. -/
def ScalarModel.shiftBy (s : ScalarModel K n) (shift : Vec K n) : Except Err (ScalarModel K n) :=
  match s.squareTerms with
  | none => .error .typeError
  | some h => .ok
      { s with
        intercept := s.predict shift
        linearTerms := fun i => s.linearTerms i + ∑ j, h i j * shift j
        shift := fun i => s.shift i + shift i }

/-- `_shift_vector_model`, models.py:197-220. The in-place addition of line 213 works on the array that
was created by the preceding `_scale_model`. -/
def VectorModel.shiftBy (v : VectorModel K n m) (shift : Vec K n) : VectorModel K n m :=
  { v with
    intercepts := v.predict shift
    linearTerms := match v.squareTerms with
      | none => v.linearTerms
      | some h => fun k j => v.linearTerms k j + ∑ i, shift i * h k i j
    shift := fun i => v.shift i + shift i }

/-- `move_model` for scalar models, models.py:126-150. -/
def ScalarModel.move (cr : K → K) (s : ScalarModel K n) (new : Region K n) :
    Except Err (ScalarModel K n) := do
  let out := s.scaleBy fun i => 1 / s.scale i
  let out ← out.shiftBy fun i => new.effectiveCenter cr i - s.shift i
  return out.scaleBy (new.effectiveRadius cr)

/-- `move_model` for vector models, models.py:126-150. -/
def VectorModel.move (cr : K → K) (v : VectorModel K n m) (new : Region K n) : VectorModel K n m :=
  let out := v.scaleBy fun i => 1 / v.scale i
  let out := out.shiftBy fun i => new.effectiveCenter cr i - v.shift i
  out.scaleBy (new.effectiveRadius cr)

/-- `np.allclose` with its default tolerances (`rtol=1e-5`, `atol=1e-8`), models.py:104 and 107. -/
def allClose (a b : Vec K n) : Bool :=
  decide (∀ i, |a i - b i| ≤ 1 / 10 ^ 8 + 1 / 10 ^ 5 * |b i|)

/-- A model of either type, as `add_models` and `move_model` accept it. -/
inductive AnyModel (K : Type) (n m : Nat) where
  | scalar (s : ScalarModel K n)
  | vector (v : VectorModel K n m)

/-- Square terms of a sum, models.py:118-120. `None` in the first model keeps `None`. -/
def addSquare {α : Type} (add : α → α → α) : Option α → Option α → Except Err (Option α)
  | none, _ => .ok none
  | some _, none => .error .assertionError
  | some a, some b => .ok (some (add a b))

/-- `add_models` for two scalar models, models.py:104-123. -/
def ScalarModel.add (a b : ScalarModel K n) : Except Err (ScalarModel K n) :=
  if !allClose a.shift b.shift then .error .valueError
  else if !allClose a.scale b.scale then .error .valueError
  else do
    let sq ← addSquare (fun g h i j => g i j + h i j) a.squareTerms b.squareTerms
    return { a with
      intercept := a.intercept + b.intercept
      linearTerms := fun i => a.linearTerms i + b.linearTerms i
      squareTerms := sq }

/-- `add_models` for two vector models with the same number of residuals, models.py:104-123. -/
def VectorModel.add (a b : VectorModel K n m) : Except Err (VectorModel K n m) :=
  if !allClose a.shift b.shift then .error .valueError
  else if !allClose a.scale b.scale then .error .valueError
  else do
    let sq ← addSquare (fun g h k i j => g k i j + h k i j) a.squareTerms b.squareTerms
    return { a with
      intercepts := fun k => a.intercepts k + b.intercepts k
      linearTerms := fun k i => a.linearTerms k i + b.linearTerms k i
      squareTerms := sq }

/-- `add_models`, models.py:90-123. -/
def addModels : AnyModel K n m → AnyModel K n m → Except Err (AnyModel K n m)
  | .scalar a, .scalar b => (a.add b).map .scalar
  | .vector a, .vector b => (a.add b).map .vector
  | _, _ => .error .typeError

/-- `n_second_order_terms`, models.py:275-278. -/
def nSecondOrderTerms (dim : Nat) : Nat := dim * (dim + 1) / 2

/-- `n_interactions`, models.py:281-284. -/
def nInteractions (dim : Nat) : Nat := dim * (dim - 1) / 2

/-- `n_free_params`, models.py:264-272. -/
def nFreeParams (dim : Nat) (modelType : String) : Except Err Nat :=
  let out := dim + 1
  if modelType = "linear" ∨ modelType = "quadratic" then
    if modelType = "quadratic" then .ok (out + nSecondOrderTerms dim) else .ok out
  else .error .valueError

end Tranquilo
