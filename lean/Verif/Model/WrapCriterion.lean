import Verif.Model.History

/-!
# Model of `src/tranquilo/wrap_criterion.py`

The batch evaluator (external package `estimagic`) is a parameter: a function from the list of
arguments and the number of cores to the list of results. With `error_handling="continue"` an
exception is returned as a string.
-/

namespace Tranquilo

variable {K : Type} [Field K] [LinearOrder K]

/-- One result of the batch evaluator: the traceback of an exception, a number, or a vector. -/
inductive RawEval (K : Type) where
  | exc
  | sc (v : XVal K)
  | vec (vs : List (XVal K))
  deriving DecidableEq, Repr

/-- `np.nan_to_num(v, nan=np.inf, posinf=np.inf, neginf=-np.inf)`, wrap_criterion.py:64. -/
def nanToInf : XVal K → XVal K
  | .nan => .pinf
  | v => v

/-- Replacement of tracebacks and NaNs for one result, wrap_criterion.py:57-66. -/
def clipEval : RawEval K → EvalOut (XVal K)
  | .exc => .sc (nanToInf .pinf)
  | .sc v => .sc (nanToInf v)
  | .vec vs => .vec (vs.map nanToInf)

/-- A batch evaluator. -/
abbrev BatchEvaluator (K : Type) := List (List (XVal K)) → Int → List (RawEval K)

/-- The arguments and the number of cores with which the batch evaluator is called. -/
structure BatchCall (K : Type) where
  arguments : List (List (XVal K))
  nCores : Int

/-- `wrapper_criterion`, wrap_criterion.py:31-71. `evalInfo` is the dict (keys and counts in
insertion order). Beside the new history and the result the model returns the call of the batch
evaluator. A non-dict argument (line 32-33) is not expressible. -/
def wrapperCriterion (h : History (XVal K)) (batch : BatchEvaluator K) (nCores : Int)
    (evalInfo : List (Int × Nat)) :
    History (XVal K) × Except Err Unit × Option (BatchCall K) :=
  if evalInfo.length = 0 then (h, .ok (), none)
  else
    let xIndices := evalInfo.map Prod.fst
    let repetitions := evalInfo.map Prod.snd
    match h.getXs xIndices with
    | .error e => (h, .error e, none)
    | .ok xs =>
      match History.npRepeat xs repetitions with
      | .error e => (h, .error e, none)
      | .ok arguments =>
        let effectiveNCores := min nCores arguments.length
        let rawEvals := batch arguments effectiveNCores
        let clippedEvals := rawEvals.map clipEval
        match History.npRepeat xIndices repetitions with
        | .error e => (h, .error e, some ⟨arguments, effectiveNCores⟩)
        | .ok repeated =>
          let res := h.addEvals repeated clippedEvals
          (res.1, res.2, some ⟨arguments, effectiveNCores⟩)

/-- A worker finishes one task. -/
def finishTask (criterion : List (XVal K) → RawEval K) (arguments : List (List (XVal K)))
    (slots : List (Option (RawEval K))) (task : Nat) : List (Option (RawEval K)) :=
  match arguments[task]? with
  | some x => slots.set task (some (criterion x))
  | none => slots

/-- A parallel batch evaluator: tasks are finished in the order `order` (a list of task numbers);
each result is put in the slot of its task, and the slots are returned in task order. This is the
assumed behaviour of the batch evaluators of `estimagic` (joblib and pathos preserve the order). -/
def parallelBatch (criterion : List (XVal K) → RawEval K) (order : List Nat)
    (arguments : List (List (XVal K))) : List (Option (RawEval K)) :=
  order.foldl (finishTask criterion arguments) (List.replicate arguments.length none)

/-- What the user passes as batch evaluator. -/
inductive BatchArg where
  | none
  | callable
  | str (s : String)
  | other
  deriving DecidableEq, Repr

/-- The batch evaluator in use. -/
inductive BatchKind where
  | user
  | joblib
  | pathos
  deriving DecidableEq, Repr

/-- `process_batch_evaluator`, wrap_criterion.py:76-94. -/
def processBatchEvaluator : BatchArg → Except Err BatchKind
  | .none => .ok .joblib
  | .callable => .ok .user
  | .str s => if s = "joblib" then .ok .joblib else if s = "pathos" then .ok .pathos
      else .error .valueError
  | .other => .error .typeError

end Tranquilo
