import Verif.Model.Models

/-!
# Model of `fit_models.py`

Samples are indexed by `Fin N`. A coefficient vector belongs to one residual: `np.linalg.lstsq`
solves for every column of its right hand side separately, so the functions below are stated
for one column.

External functions are parameters: `lstsq` (numpy), `root` (`np.sqrt`), and the orthogonal factor of
a QR decomposition (scipy).
-/

namespace Tranquilo

variable {K : Type} [Field K] [LinearOrder K] {n m N p : Nat}

/-- The valid values of `model_type` (process_arguments.py:302-308). -/
inductive ModelType where
  | linear
  | quadratic
  deriving DecidableEq, Repr

/-- The string that names the model type. -/
def ModelType.name : ModelType → String
  | .linear => "linear"
  | .quadratic => "quadratic"

/-- Second order part of `_quadratic_features` for one point, fit_models.py:489-494: the double loop
`for i in range(n): for j in range(i, n)`. -/
def quadraticTerms (x : Vec K n) : List K :=
  (List.finRange n).flatMap fun (i : Fin n) =>
    ((List.finRange n).drop i.val).map fun j => x i * x j

/-- One row of `_build_feature_matrix`, fit_models.py:464-468 and 480-496. -/
def featureRow (mt : ModelType) (x : Vec K n) : List K :=
  1 :: match mt with
    | .linear => List.ofFn x
    | .quadratic => List.ofFn x ++ quadraticTerms x

/-- Number of columns of the feature matrix (`features.shape[1]`); that rows have this length is
theorem `C36_number_of_features`. -/
def nCols (n : Nat) : ModelType → Nat
  | .linear => n + 1
  | .quadratic => n + 1 + nSecondOrderTerms n

/-- `_build_feature_matrix`, fit_models.py:464-468. -/
def featureMatrix (mt : ModelType) (xs : Fin N → Vec K n) : Mat K N (nCols n mt) := fun s k =>
  (featureRow mt (xs s)).getD k 0

/-- `_add_weighting`, features, fit_models.py:499-507. -/
def weightMat (root : K → K) (w : Option (Vec K N)) (a : Mat K N p) : Mat K N p := fun s k =>
  match w with
  | none => a s k
  | some w => a s k * root (w s)

/-- `_add_weighting`, responses, fit_models.py:499-507. -/
def weightVec (root : K → K) (w : Option (Vec K N)) (y : Vec K N) : Vec K N := fun s =>
  match w with
  | none => y s
  | some w => y s * root (w s)

/-- Type of `np.linalg.lstsq` for one right hand side. -/
abbrev Lstsq (K : Type) := (N p : Nat) → Mat K N p → Vec K N → Vec K p

/-- `fit_ols`, fit_models.py:152-190. -/
def fitOls (lstsq : Lstsq K) (root : K → K) (mt : ModelType) (xs : Fin N → Vec K n) (y : Vec K N)
    (w : Option (Vec K N)) : Vec K (nCols n mt) :=
  lstsq N (nCols n mt) (weightMat root w (featureMatrix mt xs)) (weightVec root w y)

/-- Penalty (or factor) of column `k`: intercept, linear terms, second order terms;
fit_models.py:219-223 and 264-271. -/
def byTerm (n : Nat) (intercept linear square : K) (k : Nat) : K :=
  if k < 1 then intercept else if k < n + 1 then linear else square

/-- `fit_tranquilo`, fit_models.py:193-228. -/
def fitTranquilo (lstsq : Lstsq K) (root : K → K) (pInt pLin pSq : K) (mt : ModelType)
    (xs : Fin N → Vec K n) (y : Vec K N) (w : Option (Vec K N)) : Vec K (nCols n mt) :=
  let factor : Vec K (nCols n mt) := fun k => byTerm n (1 / pInt) (1 / pLin) (1 / pSq) k
  let raw := lstsq N (nCols n mt)
    (fun s k => weightMat root w (featureMatrix mt xs) s k * factor k) (weightVec root w y)
  fun k => raw k * factor k

/-- `_fit_ridge`, fit_models.py:274-294. -/
def fitRidgeRaw (lstsq : Lstsq K) (x : Mat K N p) (y : Vec K N) (penalty : Vec K p) : Vec K p :=
  lstsq p p (fun i j => (∑ s, x s i * x s j) + if i = j then penalty i else 0)
    (fun i => ∑ s, x s i * y s)

/-- `fit_ridge`, fit_models.py:231-271. -/
def fitRidge (lstsq : Lstsq K) (root : K → K) (penLin penSq : K) (mt : ModelType)
    (xs : Fin N → Vec K n) (y : Vec K N) (w : Option (Vec K N)) : Vec K (nCols n mt) :=
  fitRidgeRaw lstsq (weightMat root w (featureMatrix mt xs)) (weightVec root w y)
    fun k => byTerm n 0 penLin penSq k

/-- Entry `k` of the quadratic features of sample point `s`; `m_mat` is the part with `k < n + 1`,
`n_mat` the rest, fit_models.py:439-441. -/
def quadFeature (xs : Fin N → Vec K n) (s : Fin N) (k : Nat) : K := (featureRow .quadratic (xs s)).getD k 0

/-- `z_mat`, fit_models.py:443-444, 451-454 and 459: the last columns of the orthogonal factor `q` of
the QR decomposition of `m_mat_pad` (`qr_multiply(a, c)` is `c @ q`). -/
def zMat (n : Nat) (q : Mat K N N) : Mat K N (N - (n + 1)) := fun s j =>
  if h : n + 1 + j < N then q s ⟨n + 1 + j, h⟩ else 0

/-- `n_z_mat`, fit_models.py:446-449 and 460. -/
def nZMat (q : Mat K N N) (xs : Fin N → Vec K n) : Mat K (nSecondOrderTerms n) (N - (n + 1)) :=
  fun k j => ∑ s, quadFeature xs s (n + 1 + k) * zMat n q s j

/-- `coeffs_second_stage`, fit_models.py:414-422. -/
def secondStage (lstsq : Lstsq K) (q : Mat K N N) (xs : Fin N → Vec K n) (y : Vec K N) :
    Vec K (nSecondOrderTerms n) :=
  let first := lstsq (N - (n + 1)) (N - (n + 1)) (fun a b => ∑ k, nZMat q xs k a * nZMat q xs k b)
    (fun j => ∑ s, zMat n q s j * y s)
  fun k => ∑ j, nZMat q xs k j * first j

/-- `alpha`, fit_models.py:424-427 and 457: the first `n + 1` rows determine the linear part. -/
def linearStage (lstsq : Lstsq K) (xs : Fin N → Vec K n) (y : Vec K N)
    (second : Vec K (nSecondOrderTerms n)) : Vec K (n + 1) :=
  lstsq (n + 1) (n + 1)
    (fun s k => if h : s.val < N then quadFeature xs ⟨s, h⟩ k else 0)
    (fun s => if h : s.val < N then 
      y ⟨s, h⟩ - ∑ k : Fin (nSecondOrderTerms n), quadFeature xs ⟨s, h⟩ (n + 1 + k) * second k else 0)

/-- `_fit_minimal_frobenius_norm_of_hessian` with its two helper functions, for one residual,
fit_models.py:342-461. -/
def fitMinFrobenius (lstsq : Lstsq K) (q : (Fin N → Vec K n) → Mat K N N) (xs : Fin N → Vec K n)
    (y : Vec K N) : Except Err (Vec K (nCols n .quadratic)) :=
  if N ≤ n + 1 then .error .valueError
  else if n + n * (n + 1) / 2 + 1 ≤ N then .error .valueError
  else
    let second := secondStage lstsq (q xs) xs y
    let alpha := linearStage lstsq xs y second
    .ok fun k => if h : k.val < n + 1 then alpha ⟨k, h⟩
      else second ⟨k - (n + 1), by have := k.isLt; simp only [nCols] at this; omega⟩

/-- `fit_powell`, fit_models.py:297-339. -/
def fitPowell (lstsq : Lstsq K) (root : K → K) (q : (Fin N → Vec K n) → Mat K N N) (mt : ModelType)
    (xs : Fin N → Vec K n) (y : Vec K N) : Except Err (Vec K (nCols n mt)) :=
  if N ≤ n + 1 then
    let coef := fitOls lstsq root .linear xs y none
    .ok fun k => if h : k.val < nCols n .linear then coef ⟨k, h⟩ else 0
  else if nCols n mt ≤ N then .ok (fitOls lstsq root mt xs y none)
  else
    match fitMinFrobenius lstsq q xs y with
    | .error e => .error e
    | .ok coef => .ok fun k => if h : k.val < nCols n .quadratic then coef ⟨k, h⟩ else 0

/-- `np.triu_indices(n)`: the row-major positions of the upper triangle, fit_models.py:472. -/
def triuIndices (n : Nat) : List (Fin n × Fin n) :=
  ((List.finRange n).flatMap fun i => (List.finRange n).map fun j => (i, j)).filter
    fun p => decide (p.1 ≤ p.2)

/-- `_reshape_square_terms_to_hess` for one residual, fit_models.py:471-477: `hess[idx1, idx2] =
square_terms`, then `hess + np.triu(hess).T`. -/
def reshapeToHess (n : Nat) (squareTerms : List K) : Mat K n n :=
  let hess : Mat K n n := fun i j => (((triuIndices n).zip squareTerms).lookup (i, j)).getD 0
  fun i j => hess i j + if j ≤ i then hess j i else 0

/-- The part of `_fitter_template` that turns coefficients into a model, fit_models.py:129-144.
Row `k` of `coef` belongs to residual `k`. -/
def modelOfCoef (mt : ModelType) (coef : Fin m → Vec K (nCols n mt)) (shift scale : Vec K n) :
    VectorModel K n m where
  intercepts k := (List.ofFn (coef k)).getD 0 0
  linearTerms k i := (List.ofFn (coef k)).getD (1 + i) 0
  squareTerms := match mt with
    | .linear => none
    | .quadratic => some fun k => reshapeToHess n ((List.ofFn (coef k)).drop (n + 1))
  scale := scale
  shift := shift

/-- `_fitter_template`, fit_models.py:85-149. `fitter` fits one residual to unit coordinates (weights,
options and model type are already bound); `clip` is the infinity handler. -/
def fitModel (cr : K → K) (mt : ModelType) (fitter : (Fin N → Vec K n) → Vec K N → Vec K (nCols n mt))
    (clip : (Fin N → Fin m → XVal K) → (Fin N → Fin m → K)) (residualize : Bool)
    (region : Region K n) (old : VectorModel K n m)
    (xs : Fin N → Vec K n) (y : Fin N → Fin m → XVal K) : Except Err (VectorModel K n m) :=
  let yClipped := clip y
  let xUnit : Fin N → Vec K n := fun s => region.mapToUnit cr (xs s)
  let oldMoved := old.move cr region
  let target : Fin N → Fin m → K := fun s k =>
    if residualize then yClipped s k - oldMoved.predict (xUnit s) k else yClipped s k
  let results := modelOfCoef mt (fun k => fitter xUnit fun s => target s k)
    (region.effectiveCenter cr) (region.effectiveRadius cr)
  if residualize then results.add oldMoved else .ok results

end Tranquilo
