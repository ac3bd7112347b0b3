import Verif.Model.BuiltinRun
import Mathlib.Logic.Equiv.Defs

/-!
# Specification: the residuals in another order (C116)
-/

namespace Tranquilo

variable {K : Type} {n m : Nat}

/-- The vector model of the residuals in another order: residual `k` is the former residual `σ k`. -/
def VectorModel.reorder (σ : Equiv.Perm (Fin m)) (v : VectorModel K n m) : VectorModel K n m where
  intercepts k := v.intercepts (σ k)
  linearTerms k := v.linearTerms (σ k)
  squareTerms := v.squareTerms.map fun q k => q (σ k)
  scale := v.scale
  shift := v.shift

/-- The same state; only the models of the single residuals are in another order. -/
def LoopState.reorder {SM : Type} (σ : Equiv.Perm (Fin m)) (s : LoopState K n (VectorModel K n m) SM) :
    LoopState K n (VectorModel K n m) SM :=
  { s with vectorModel := s.vectorModel.reorder σ }

/-- The same run; only the models of the single residuals are in another order. -/
def Run.reorder {SM : Type} (σ : Equiv.Perm (Fin m)) (r : Run K n (VectorModel K n m) SM) :
    Run K n (VectorModel K n m) SM :=
  { r with state := r.state.reorder σ, states := r.states.map (LoopState.reorder σ) }

/-- The settings for the criterion with the residuals in another order. The criterion value is the same
(`C116_criterion_value`). -/
def BuiltinSettings.reorder (σ : Equiv.Perm (Fin m)) (b : BuiltinSettings K n m) : BuiltinSettings K n m :=
  { b with
    data := fun h i k => b.data h i (σ k)
    start := fun h k => b.start h (σ k)
    fvecs := fun h i => (b.fvecs h i).map fun v k => v (σ k) }

end Tranquilo
