import Verif.Props.TranquiloCall
import Verif.Props.GradientTolerance
import Verif.Props.WrapCriterion

/-!
# C131: the number of cores does not matter once the batch size is given
-/

namespace Tranquilo

variable {K O : Type} [Field K] [LinearOrder K] [FloorRing K] {n m : ℕ}

theorem bind_ok_eq {α β : Type} (a : α) (f : α → Except Err β) : (Except.ok a >>= f) = f a := rfl

/-- The processed arguments apart from the number of cores. -/
theorem processArguments_cores {R : Type} (env : PyEnv K O)
    (beh : String → String → Dict (PyVal K O) → Except Err R) (a : Arguments K O R) {b c c' : ℤ}
    {v v' : PyVal K O} (h : processBatchSize env v c = .ok b) (h' : processBatchSize env v' c' = .ok b) :
    (fun p : ProcessedArguments K O R => { p with nCores := 0 }) <$>
        processArguments env beh { a with nCores := .int c, batchSize := v } =
      (fun p => { p with nCores := 0 }) <$>
        processArguments env beh { a with nCores := .int c', batchSize := v' } := by
  have e1 : toInt env (PyVal.int c : PyVal K O) = .ok c := rfl
  have e2 : toInt env (PyVal.int c' : PyVal K O) = .ok c' := rfl
  have g1 : pyGt (PyVal.int c : PyVal K O) 1 = .ok (decide (1 < c)) := rfl
  have g2 : pyGt (PyVal.int c' : PyVal K O) 1 = .ok (decide (1 < c')) := rfl
  simp only [processArguments, map_bind, e1, e2, g1, g2, h, h', map_pure, bind_ok_eq]

theorem call_cores (env : PyEnv K O) (ext : Externals K O n m)
    (a : Arguments K O (Option (Piece K n))) (x : Vec K n) (bounds : Bounds K n) {b c c' : ℤ}
    {v v' : PyVal K O} (h : processBatchSize env v c = .ok b) (h' : processBatchSize env v' c' = .ok b) :
    tranquiloCall env ext { a with nCores := .int c, batchSize := v } x bounds =
      tranquiloCall env ext { a with nCores := .int c', batchSize := v' } x bounds := by
  have e := processArguments_cores env (pieces ext) { a with x := List.ofFn x } h h'
  have key : ∀ r r' : Except Err (ProcessedArguments K O (Option (Piece K n))),
      (fun p : ProcessedArguments K O (Option (Piece K n)) => { p with nCores := 0 }) <$> r =
        (fun p => { p with nCores := 0 }) <$> r' →
      (r >>= fun p => match callConfig p, callSettings ext p, numOf p.radiusOptions "initial_radius" with
        | some c, some b, some radius => (tranquiloR c (builtinComponents b) x radius bounds).map some
        | _, _, _ => .ok none) =
      (r' >>= fun p => match callConfig p, callSettings ext p, numOf p.radiusOptions "initial_radius" with
        | some c, some b, some radius => (tranquiloR c (builtinComponents b) x radius bounds).map some
        | _, _, _ => .ok none) := by
    intro r r' hr
    have f : ∀ r : Except Err (ProcessedArguments K O (Option (Piece K n))),
        (r >>= fun p => match callConfig p, callSettings ext p, numOf p.radiusOptions "initial_radius" with
          | some c, some b, some radius => (tranquiloR c (builtinComponents b) x radius bounds).map some
          | _, _, _ => .ok none) =
        (((fun p : ProcessedArguments K O (Option (Piece K n)) => { p with nCores := 0 }) <$> r) >>=
          fun p => match callConfig p, callSettings ext p, numOf p.radiusOptions "initial_radius" with
          | some c, some b, some radius => (tranquiloR c (builtinComponents b) x radius bounds).map some
          | _, _, _ => .ok none) := by
      intro r
      cases r <;> rfl
    rw [f r, f r', hr]
  exact key _ _ e

theorem batch_given (env : PyEnv K O) {b c : ℤ} (h : c ≤ b) :
    processBatchSize env (.int b : PyVal K O) c = .ok b := by
  have e : pyLt (PyVal.int b : PyVal K O) c = .ok false := by
    simp [pyLt, not_lt.2 h]
  simp only [processBatchSize, e]
  rfl

/-- **C131, cores** (the batch size must be given, see `C131_violated_cores_alone`). Two calls that give the same batch size and differ in the number of cores (at most the batch
size) have the same outcome: the same exception or the same run, with all states, evaluations and messages. All other
arguments are arbitrary, but the same. -/
theorem C131_cores_do_not_matter_partial (env : PyEnv K O) (ext : Externals K O n m)
    (a : Arguments K O (Option (Piece K n))) (x : Vec K n) (bounds : Bounds K n) (b c c' : ℤ)
    (h : c ≤ b) (h' : c' ≤ b) :
    tranquiloCall env ext { a with nCores := .int c, batchSize := .int b } x bounds =
      tranquiloCall env ext { a with nCores := .int c', batchSize := .int b } x bounds :=
  call_cores env ext a x bounds (batch_given env h) (batch_given env h')

/-- **C131, default.** A call with `c` cores and no batch size has the outcome of the call with one core (or any other
number up to `c`) and batch size `c`: the cores act through the batch size only. -/
theorem C131_default_batch_size (env : PyEnv K O) (ext : Externals K O n m)
    (a : Arguments K O (Option (Piece K n))) (x : Vec K n) (bounds : Bounds K n) (c c' : ℤ) (h' : c' ≤ c) :
    tranquiloCall env ext { a with nCores := .int c, batchSize := .none } x bounds =
      tranquiloCall env ext { a with nCores := .int c', batchSize := .int c } x bounds :=
  call_cores env ext a x bounds rfl (batch_given env h')

/-- The first computation raises, with a ValueError if the second does not raise. -/
def RaisesLate {α : Type} (u v : Except Err α) : Prop :=
  ∃ e, u = .error e ∧ ((∃ r, v = .ok r) → e = .valueError)

theorem RaisesLate.bind {α β : Type} {f g : α → Except Err β} (m : Except Err α)
    (h : ∀ a, RaisesLate (f a) (g a)) : RaisesLate (m >>= f) (m >>= g) := by
  cases m with
  | ok a => exact h a
  | error e => exact ⟨e, rfl, fun ⟨r, hr⟩ => by cases hr⟩

theorem RaisesLate.andThen {α β : Type} {u v : Except Err α} (k : α → Except Err β) (h : RaisesLate u v) :
    RaisesLate (u >>= k) (v >>= k) := by
  obtain ⟨e, rfl, he⟩ := h
  refine ⟨e, rfl, fun ⟨r, hr⟩ => ?_⟩
  cases v with
  | ok a => exact he ⟨a, rfl⟩
  | error e' => cases hr

theorem processArguments_tooMany {R : Type} (env : PyEnv K O)
    (beh : String → String → Dict (PyVal K O) → Except Err R) (a : Arguments K O R) {b c : ℤ} (h : b < c) :
    RaisesLate (processArguments env beh { a with nCores := .int c, batchSize := .int b })
      (processArguments env beh { a with nCores := .int b, batchSize := .int b }) := by
  have e1 : toInt env (PyVal.int c : PyVal K O) = .ok c := rfl
  have e2 : toInt env (PyVal.int b : PyVal K O) = .ok b := rfl
  have g1 : pyGt (PyVal.int c : PyVal K O) 1 = .ok (decide (1 < c)) := rfl
  have g2 : pyGt (PyVal.int b : PyVal K O) 1 = .ok (decide (1 < b)) := rfl
  have k1 : processBatchSize env (.int b : PyVal K O) c = .error .valueError := by
    have e : pyLt (PyVal.int b : PyVal K O) c = .ok true := by simp [pyLt, h]
    simp only [processBatchSize, e]
    rfl
  simp only [processArguments, e1, e2, g1, g2, bind_ok_eq, k1]
  iterate 15 (refine RaisesLate.bind _ fun _ => ?_)
  exact ⟨.valueError, rfl, fun _ => rfl⟩

/-- **C131, too many cores.** More cores than the batch size: no run, and if the call with as many cores as the batch
size does not raise, the exception is a ValueError. -/
theorem C131_too_many_cores (env : PyEnv K O) (ext : Externals K O n m)
    (a : Arguments K O (Option (Piece K n))) (x : Vec K n) (bounds : Bounds K n) (b c : ℤ) (h : b < c) :
    ∃ e, tranquiloCall env ext { a with nCores := .int c, batchSize := .int b } x bounds = .error e ∧
      ((∃ r, tranquiloCall env ext { a with nCores := .int b, batchSize := .int b } x bounds = .ok r) →
        e = .valueError) :=
  (processArguments_tooMany env (pieces ext) { a with x := List.ofFn x } h).andThen _

/-- **C131, evaluations.** With a batch evaluator whose results do not depend on the number of workers, every request
leaves the same history and the same result, and is passed on with the same arguments, for all numbers of cores. -/
theorem C131_requests (h : History (XVal K)) (batch : BatchEvaluator K)
    (hbatch : ∀ args k k', batch args k = batch args k') (c c' : ℤ) (request : List (ℤ × ℕ)) :
    (wrapperCriterion h batch c request).1 = (wrapperCriterion h batch c' request).1 ∧
      (wrapperCriterion h batch c request).2.1 = (wrapperCriterion h batch c' request).2.1 ∧
      (wrapperCriterion h batch c request).2.2.map BatchCall.arguments =
        (wrapperCriterion h batch c' request).2.2.map BatchCall.arguments := by
  unfold wrapperCriterion
  split_ifs
  · exact ⟨rfl, rfl, rfl⟩
  dsimp only
  split
  · exact ⟨rfl, rfl, rfl⟩
  split
  · exact ⟨rfl, rfl, rfl⟩
  rename_i args _
  rw [hbatch args (min c args.length) (min c' args.length)]
  split <;> exact ⟨rfl, rfl, rfl⟩

/-- A least squares problem with the residual `x` of one parameter. -/
def coresExternals : Externals ℚ Unit 1 1 :=
  { slopeExternals with
    lstsq := fun _ _ a y k =>
      let coef : ℕ → ℚ := fun k => if k = 0 then 1 else if k = 1 then 1 / 10 else 0
      if ∀ s, ∑ j, a s j * coef j = y s then coef k else 0
    oracle := fun _ x => .fin (x 0 ^ 2)
    data := fun log i _ => match log.xs[i]? with
      | some x => .fin (x 0)
      | none => .nan
    start := fun _ _ => 1 }

/-- The points and the number of evaluations of a run. -/
def evaluated : Except Err (Option (Run ℚ 1 (VectorModel ℚ 1 1) (ScalarModel ℚ 1))) → Option (List ℚ × ℕ)
  | .ok (some r) => some (r.log.xs.map fun x : Vec ℚ 1 => x 0, r.log.evals.length)
  | _ => none

/-- **C131 is false without a batch size**: for the same least squares problem, a call with one core evaluates four
points in the first iteration, a call with three cores five. -/
theorem C131_violated_cores_alone :
    evaluated (tranquiloCall plainEnv coresExternals
      { functype := "least_squares", x := [], nCores := .int 1, maxIter := .int 1 } (fun _ => 1)
      ⟨fun _ => none, fun _ => none⟩) = some ([1, 11 / 10, 9 / 10, 9 / 10], 4) ∧
    evaluated (tranquiloCall plainEnv coresExternals
      { functype := "least_squares", x := [], nCores := .int 3, maxIter := .int 1 } (fun _ => 1)
      ⟨fun _ => none, fun _ => none⟩) = some ([1, 11 / 10, 9 / 10, 9 / 10, 9 / 10], 5) := by
  decide +kernel

/-- C131, example: with batch size three the call with one core evaluates what the call with three cores does. -/
example : evaluated (tranquiloCall plainEnv coresExternals
      { functype := "least_squares", x := [], nCores := .int 1, batchSize := .int 3, maxIter := .int 1 } (fun _ => 1)
      ⟨fun _ => none, fun _ => none⟩) = some ([1, 11 / 10, 9 / 10, 9 / 10, 9 / 10], 5) := by
  rw [← C131_violated_cores_alone.2]
  exact congrArg evaluated (C131_default_batch_size plainEnv coresExternals
    { functype := "least_squares", x := [], maxIter := .int 1 } _ _ 3 1 (by norm_num)).symm

/-- C131, example: three cores and batch size two raise a ValueError. -/
example : ∃ e, tranquiloCall plainEnv coresExternals
      { functype := "least_squares", x := [], nCores := .int 3, batchSize := .int 2, maxIter := .int 1 } (fun _ => 1)
      ⟨fun _ => none, fun _ => none⟩ = .error e ∧ e = .valueError := by
  obtain ⟨e, h1, h2⟩ := C131_too_many_cores plainEnv coresExternals
    { functype := "least_squares", x := [], maxIter := .int 1 } (fun _ => 1) ⟨fun _ => none, fun _ => none⟩ 2 3
    (by norm_num)
  refine ⟨e, h1, h2 ?_⟩
  have : (tranquiloCall plainEnv coresExternals
      { functype := "least_squares", x := [], nCores := .int 2, batchSize := .int 2, maxIter := .int 1 } (fun _ => 1)
      ⟨fun _ => none, fun _ => none⟩).isOk = true := by decide +kernel
  revert this
  generalize tranquiloCall plainEnv coresExternals _ _ _ = r
  intro h
  cases r with
  | ok r => exact ⟨r, rfl⟩
  | error e => cases h

end Tranquilo
