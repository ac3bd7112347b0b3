import Verif.Model.History

/-!
# Specification for the history

The abstract view of a history is what the user submitted: the list of vectors and the list of
(point, evaluation) pairs, both in submission order. `Trace` pairs every state that a history can
reach with these two lists. It mentions the public calls only.
-/

namespace Tranquilo

variable {V : Type}

/-- The rows that a batch of evaluations stands for, when evaluations have `w` entries. -/
inductive Submission (ft : Functype) (w : Nat) : List (EvalOut V) → List (List V) → Prop where
  /-- scalar criterion: each evaluation is a number -/
  | scalars (vs : List V) (hft : ft = .scalar) (hw : w = 1) :
      Submission ft w (vs.map EvalOut.sc) (vs.map fun v => [v])
  /-- vector valued criterion -/
  | vectors (rows : List (List V)) (hft : ft ≠ .scalar) (hw : ∀ r ∈ rows, r.length = w) :
      Submission ft w (rows.map EvalOut.vec) rows

/-- `Trace ft d w h xs evs`: the history `h` can be reached from a new history by public calls, in
which the vectors `xs` (of length `d`) and the evaluations `evs` (pairs of point index and vector of
length `w`) were submitted successfully. Calls may also raise. Only calls with negative point
indices are excluded (see C06 for what these do). -/
inductive Trace [FloatLike V] (ft : Functype) (d w : Nat) :
    History V → List (List V) → List (Nat × List V) → Prop where
  | new : Trace ft d w (History.init ft) [] []
  | addXs {h h' : History V} {xs evs} (rows : List (List V)) {out : IdxOut} :
      Trace ft d w h xs evs → (∀ r ∈ rows, r.length = d) →
      h.addXs (.many rows) = (h', .ok out) → Trace ft d w h' (xs ++ rows) evs
  | addX {h h' : History V} {xs evs} (x : List V) {out : IdxOut} :
      Trace ft d w h xs evs → x.length = d →
      h.addXs (.single x) = (h', .ok out) → Trace ft d w h' (xs ++ [x]) evs
  | addXsRaises {h h' : History V} {xs evs} (arg : XsArg V) {e : Err} :
      Trace ft d w h xs evs → h.addXs arg = (h', .error e) → Trace ft d w h' xs evs
  | addEvals {h h' : History V} {xs evs} (is : List Nat) {es : List (EvalOut V)}
      {rows : List (List V)} :
      Trace ft d w h xs evs → Submission ft w es rows →
      h.addEvals (is.map Int.ofNat) es = (h', .ok ()) → Trace ft d w h' xs (evs ++ is.zip rows)
  /-- a single number for a vector valued criterion (this happens when the criterion failed) counts
  for all entries, provided that there was an evaluation before; `v` has to aggregate like the
  constant vector, as `+inf` does -/
  | addFailedEval {h h' : History V} {xs evs} (i : Nat) (v : V) :
      Trace ft d w h xs evs → ft ≠ .scalar → evs ≠ [] →
      ft.aggregateRow [v] = ft.aggregateRow (List.replicate w v) →
      h.addEvals [(i : Int)] [.sc v] = (h', .ok ()) →
      Trace ft d w h' xs (evs ++ [(i, List.replicate w v)])
  | addEvalsRaises {h h' : History V} {xs evs} (is : List Nat) (es : List (EvalOut V)) {e : Err} :
      Trace ft d w h xs evs → h.addEvals (is.map Int.ofNat) es = (h', .error e) →
      Trace ft d w h' xs evs

/-- The evaluations that were submitted for point `i`, in submission order. -/
def submittedFor (evs : List (Nat × List V)) (i : Nat) : List (List V) :=
  (evs.filter fun p => p.1 = i).map Prod.snd

end Tranquilo
