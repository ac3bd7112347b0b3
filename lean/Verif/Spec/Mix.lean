import Verif.Model.BuiltinRun
import Verif.Model.TranquiloCall

/-!
# Specification: combinations of the residuals (C128)

A matrix `q` with `m` columns turns the `m` residuals of a least squares criterion into `p` new residuals. If the columns
are orthonormal the sum of squares stays the same. Special cases: another order, other signs, a
rotation, additional residuals that are always zero, a residual that is split into several.
-/

namespace Tranquilo

variable {K : Type} [Field K] {n m p : Nat}

/-- The columns have length one and are orthogonal to each other. -/
def OrthonormalColumns (q : Mat K p m) : Prop := ∀ i j, ∑ k, q k i * q k j = if i = j then 1 else 0

/-- The sum of the new residuals is the sum of the old ones. -/
def KeepsSum (q : Mat K p m) : Prop := ∀ j, ∑ k, q k j = 1

/-- The new residuals `q @ r`. -/
def combine (q : Mat K p m) (r : Vec K m) : Vec K p := fun k => ∑ j, q k j * r j

/-- The number that a finite value is. -/
def XVal.number : XVal K → K
  | .fin a => a
  | _ => 0

/-- The new residuals of an evaluation. The claims are about finite residuals; if one of them is not finite the
result is NaN. -/
def xCombine (q : Mat K p m) (r : Fin m → XVal K) : Fin p → XVal K := fun k =>
  if ∀ j, (r j).isFinite = true then .fin (combine q (fun j => (r j).number) k) else .nan

/-- The model of the new residuals. -/
def VectorModel.mix (q : Mat K p m) (v : VectorModel K n m) : VectorModel K n p where
  intercepts := combine q v.intercepts
  linearTerms k i := combine q (fun j => v.linearTerms j i) k
  squareTerms := v.squareTerms.map fun h k i l => combine q (fun j => h j i l) k
  scale := v.scale
  shift := v.shift

/-- The same state; only the models of the single residuals are others. -/
def LoopState.mix {SM : Type} (q : Mat K p m) (s : LoopState K n (VectorModel K n m) SM) :
    LoopState K n (VectorModel K n p) SM :=
  { s with vectorModel := s.vectorModel.mix q }

/-- The same run; only the models of the single residuals are others. -/
def Run.mix {SM : Type} (q : Mat K p m) (r : Run K n (VectorModel K n m) SM) :
    Run K n (VectorModel K n p) SM :=
  { r with state := r.state.mix q, states := r.states.map (LoopState.mix q) }

variable [LinearOrder K]

/-- The settings for the criterion with the new residuals. The criterion value is the same
(`C128_criterion_value`). The last two fields are used in noisy optimizations only. -/
def BuiltinSettings.mix (q : Mat K p m) (b : BuiltinSettings K n m) : BuiltinSettings K n p :=
  { b with
    data := fun h i => xCombine q (b.data h i)
    start := fun h => combine q (b.start h)
    fvecs := fun h i => (b.fvecs h i).map (xCombine q)
    covOfOne := fun _ _ _ => .nan
    draws := fun _ _ _ _ _ => [] }

/-- The environment of a call with the new residuals. -/
def Externals.mix {O : Type} (q : Mat K p m) (ext : Externals K O n m) : Externals K O n p :=
  { ext with
    data := fun h i => xCombine q (ext.data h i)
    start := fun h => combine q (ext.start h)
    fvecs := fun h i => (ext.fvecs h i).map (xCombine q)
    covOfOne := fun _ _ _ => .nan
    draws := fun _ _ _ _ _ => [] }

end Tranquilo
