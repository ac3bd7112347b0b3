import Verif.Model.MainLoopRaise
import Verif.Model.ProcessArgs

/-!
# What it means that other settings only end a run later (C115)
-/

namespace Tranquilo

variable {K : Type} [LE K] {n : Nat} {VM SM : Type}

/-- The settings `c'` agree with `c` except that a run may only end later: the limits are not lower and the
tolerances are not looser (or convergence is not checked at all). -/
structure EndsLater (c c' : Config K) : Prop where
  /-- All other settings are the same. -/
  same : c' = { c with conv := c'.conv, maxIter := c'.maxIter, maxEval := c'.maxEval }
  maxIter : c.maxIter ≤ c'.maxIter
  maxEval : c.maxEval ≤ c'.maxEval
  tolerances : c'.conv.disable = true ∨ c.conv.disable = false ∧
    c'.conv.ftolAbs ≤ c.conv.ftolAbs ∧ c'.conv.ftolRel ≤ c.conv.ftolRel ∧
    c'.conv.gtolAbs ≤ c.conv.gtolAbs ∧ c'.conv.gtolRel ≤ c.conv.gtolRel ∧
    c'.conv.xtolAbs ≤ c.conv.xtolAbs ∧ c'.conv.xtolRel ≤ c.conv.xtolRel

omit [LE K] in
/-- The later run `r'` begins with the run `r`: the points, their values and the states of `r` are the first
ones of `r'`. -/
structure BeginsWith (r r' : Run K n VM SM) : Prop where
  points : r.log.xs <+: r'.log.xs
  evaluations : r.log.evals <+: r'.log.evals
  states : r.states <+: r'.states

/-! ## Calls of the optimizer -/

section Calls

variable {K O R : Type} [Field K] [LinearOrder K] [FloorRing K]

/-- The rules for stopping of a call as numbers. -/
structure StopNumbers (K : Type) where
  disable : Bool
  ftolAbs : XVal K
  gtolAbs : XVal K
  xtolAbs : XVal K
  ftolRel : XVal K
  gtolRel : XVal K
  xtolRel : XVal K
  maxIter : ℤ
  maxEval : ℤ

/-- The arguments `a` ask for the rules `s`. -/
structure AsksFor (env : PyEnv K O) (a : Arguments K O R) (s : StopNumbers K) : Prop where
  disable : toBool env a.disableConvergence = s.disable
  ftolAbs : toFloat env a.ftolAbs = .ok s.ftolAbs
  gtolAbs : toFloat env a.gtolAbs = .ok s.gtolAbs
  xtolAbs : toFloat env a.xtolAbs = .ok s.xtolAbs
  ftolRel : toFloat env a.ftolRel = .ok s.ftolRel
  gtolRel : toFloat env a.gtolRel = .ok s.gtolRel
  xtolRel : toFloat env a.xtolRel = .ok s.xtolRel
  maxIter : toInt env a.maxIter = .ok s.maxIter
  maxEval : toInt env a.maxEval = .ok s.maxEval

/-- The two calls agree in all arguments but the rules for stopping. -/
def SameUpToStopping (a a' : Arguments K O R) : Prop :=
  a' = { a with
    disableConvergence := a'.disableConvergence, ftolAbs := a'.ftolAbs, gtolAbs := a'.gtolAbs
    xtolAbs := a'.xtolAbs, ftolRel := a'.ftolRel, gtolRel := a'.gtolRel, xtolRel := a'.xtolRel
    maxIter := a'.maxIter, maxEval := a'.maxEval }

/-- The rules `s'` end a run not earlier than the rules `s`. -/
structure StopNumbers.Later (s s' : StopNumbers K) : Prop where
  maxIter : s.maxIter ≤ s'.maxIter
  maxEval : s.maxEval ≤ s'.maxEval
  tolerances : s'.disable = true ∨ s.disable = false ∧
    s'.ftolAbs ≤ s.ftolAbs ∧ s'.ftolRel ≤ s.ftolRel ∧ s'.gtolAbs ≤ s.gtolAbs ∧ s'.gtolRel ≤ s.gtolRel ∧
    s'.xtolAbs ≤ s.xtolAbs ∧ s'.xtolRel ≤ s.xtolRel

end Calls

end Tranquilo
