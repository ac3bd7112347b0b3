import Verif.Model.Num

/-!
# Model of `src/tranquilo/history.py`

The over-allocated numpy buffers, the counters and the index mapper are modelled explicitly.
Every mutating method returns the new state *and* its result, so that mutations that happen before
an exception stay visible.

Simplifications: evaluations that are vectors of length zero are rejected with `valueError`
(numpy's behaviour there depends on the number of rows); `dtype` conversions, slices and boolean
masks as `x_indices` are not modelled (indices are integers or lists of integers).
-/

namespace Tranquilo

/-- Values a numpy float buffer can hold: arithmetic plus the filler `nan` and division by a
number of rows (for `np.mean`). -/
class FloatLike (V : Type) extends Zero V, Add V, Mul V where
  nan : V
  divNat : V → Nat → V

instance {K : Type} [Field K] [LinearOrder K] : FloatLike (XVal K) where
  nan := XVal.nan
  divNat v n := match v with
    | .fin x => if n = 0 then (if x = 0 then .nan else .pinf) else .fin (x / n)
    | w => w

/-- The three function types, history.py:24-33. -/
inductive Functype where
  | scalar
  | likelihood
  | leastSquares
  deriving DecidableEq, Repr

/-- Which strings are accepted, history.py:24-33. -/
def Functype.parse (s : String) : Except Err Functype :=
  if s = "scalar" then .ok .scalar
  else if s = "likelihood" then .ok .likelihood
  else if s = "least_squares" then .ok .leastSquares
  else .error .valueError

/-- `self.aggregate` on one row, history.py:24-29. For `scalar` the rows have one column, and
`flatten` gives this entry. -/
def Functype.aggregateRow {V : Type} [FloatLike V] : Functype → List V → V
  | .scalar, r => r.headD 0
  | .likelihood, r => r.sum
  | .leastSquares, r => (r.map fun v => v * v).sum

/-- A two dimensional numpy array: all rows have length `width`. -/
structure Buf (V : Type) where
  width : Nat
  rows : List (List V)
  deriving Repr

/-- The state of a `History` object, history.py:14-22. `mapper[i]` is `index_mapper[i]`; the keys of
this dict are always `0, ..., n_xs - 1` in this order (history.py:57-62). -/
structure History (V : Type) where
  functype : Functype
  xs : Option (Buf V)
  fvecs : Option (Buf V)
  fvals : Option (List V)
  n_xs : Nat
  n_fun : Nat
  mapper : List (List Nat)
  deriving Repr

/-- `History(functype)`, history.py:14-22. -/
def History.init {V : Type} (ft : Functype) : History V :=
  { functype := ft, xs := none, fvecs := none, fvals := none, n_xs := 0, n_fun := 0, mapper := [] }

/-- Buffer size at the first write, history.py:219. -/
def initialRows : Nat := 1000

/-- Growth of a buffer, history.py:224-230 (for one or two dimensional arrays). -/
def growBuffer {α : Type} (filler : α) (arr : List α) (position nNew : Nat) : List α :=
  if (arr.length : Int) - position - nNew < 0 then
    arr ++ List.replicate (max arr.length nNew) filler
  else arr

/-- The slice assignment `arr[position : position + n] = new`, history.py:232. -/
def writeAt {α : Type} (arr : List α) (position : Nat) (new : List α) : List α :=
  arr.take position ++ new ++ arr.drop (position + new.length)

/-- numpy broadcasting of one row to `width` columns in the assignment history.py:232. -/
def broadcastRow {V : Type} (width : Nat) (row : List V) : Except Err (List V) :=
  if row.length = width then .ok row
  else match row with
    | [v] => .ok (List.replicate width v)
    | _ => .error .valueError

/-- `_add_entries_to_array` for one dimensional arrays, history.py:217-234. -/
def addEntries1 {V : Type} [FloatLike V] (arr : Option (List V)) (new : List V) (position : Nat) :
    List V :=
  let arr := arr.getD (List.replicate initialRows FloatLike.nan)
  writeAt (growBuffer FloatLike.nan arr position new.length) position new

/-- `_add_entries_to_array` for two dimensional arrays with a positive number of columns,
history.py:217-234. -/
def addEntries2 {V : Type} [FloatLike V] (arr : Option (Buf V)) (new : Buf V) (position : Nat) :
    Except Err (Buf V) :=
  let arr := arr.getD
    { width := new.width
      rows := List.replicate initialRows (List.replicate new.width FloatLike.nan) }
  let rows := growBuffer (List.replicate arr.width FloatLike.nan) arr.rows position new.rows.length
  match new.rows.mapM (broadcastRow arr.width) with
  | .error e => .error e
  | .ok newRows => .ok { width := arr.width, rows := writeAt rows position newRows }

/-- The argument of `add_xs`: a single vector or a list of vectors, history.py:46-48. -/
inductive XsArg (V : Type) where
  | single (x : List V)
  | many (rows : List (List V))
  deriving Repr

/-- `np.atleast_2d`, history.py:48: ragged input raises. -/
def XsArg.toMat {V : Type} : XsArg V → Except Err (Buf V)
  | .single x => .ok { width := x.length, rows := [x] }
  | .many [] => .ok { width := 0, rows := [[]] }
  | .many (r :: rs) =>
    if rs.all (fun r' => r'.length = r.length) then .ok { width := r.length, rows := r :: rs }
    else .error .valueError

/-- What `add_xs` returns, history.py:53, 64-67. -/
inductive IdxOut where
  | one (i : Nat)
  | many (is : List Nat)
  deriving DecidableEq, Repr

namespace History

variable {V : Type} [FloatLike V]

/-- `add_xs`, history.py:35-67. -/
def addXs (h : History V) (arg : XsArg V) : History V × Except Err IdxOut :=
  match arg.toMat with
  | .error e => (h, .error e)
  | .ok m =>
    let nNew := if m.width = 0 then 0 else m.rows.length
    if nNew = 0 then (h, .ok (.many []))
    else match addEntries2 h.xs m h.n_xs with
      | .error e => (h, .error e)
      | .ok xs' =>
        let h' := { h with
          xs := some xs'
          mapper := h.mapper ++ List.replicate nNew []
          n_xs := h.n_xs + nNew }
        match arg with
        | .single _ => (h', .ok (.one h.n_xs))
        | .many _ => (h', .ok (.many (List.range' h.n_xs nNew)))

end History

/-- One entry of the `evals` argument of `add_evals`: a scalar or a vector. -/
inductive EvalOut (V : Type) where
  | sc (v : V)
  | vec (vs : List V)
  deriving DecidableEq, Repr

/-- If all entries are scalars, the list of these scalars. -/
def allScalars {V : Type} : List (EvalOut V) → Option (List V)
  | [] => some []
  | .sc v :: es => (allScalars es).map (v :: ·)
  | .vec _ :: _ => none

/-- If all entries are vectors, the list of these vectors. -/
def allVectors {V : Type} : List (EvalOut V) → Option (List (List V))
  | [] => some []
  | .vec v :: es => (allVectors es).map (v :: ·)
  | .sc _ :: _ => none

/-- The rows of `fvecs`, history.py:92-95. Scalar functypes reshape to one column, the others use
`np.atleast_2d`, by which a list of scalars becomes *one row*. Mixtures of scalars and vectors and
vectors of different lengths raise. -/
def evalsToMat {V : Type} (ft : Functype) (evals : List (EvalOut V)) : Except Err (Buf V) :=
  match allScalars evals, allVectors evals with
  | some vs, _ =>
    match ft with
    | .scalar => .ok { width := 1, rows := vs.map fun v => [v] }
    | _ => if vs.isEmpty then .error .valueError else .ok { width := vs.length, rows := [vs] }
  | none, some [] => .error .valueError
  | none, some (r :: rs) =>
    if r.length = 0 then .error .valueError
    else if rs.all (fun r' => r'.length = r.length) then
      match ft with
      | .scalar => .ok { width := 1, rows := (r :: rs).flatten.map fun v => [v] }
      | _ => .ok { width := r.length, rows := r :: rs }
    else .error .valueError
  | none, none => .error .valueError

/-- The loop `for x_index, f_index in zip(...): self.index_mapper[x_index].append(f_index)`,
history.py:107-108. Keys that are not in the dict (negative ones) raise `KeyError`; the appends
made before stay. -/
def appendToMapper : List (List Nat) → List (Int × Nat) → List (List Nat) × Except Err Unit
  | mapper, [] => (mapper, .ok ())
  | mapper, (x, f) :: rest =>
    if 0 ≤ x ∧ x.toNat < mapper.length then
      appendToMapper (mapper.modify x.toNat (· ++ [f])) rest
    else (mapper, .error .keyError)

namespace History

variable {V : Type} [FloatLike V]

/-- `add_evals`, history.py:69-110. -/
def addEvals (h : History V) (xIndices : List Int) (evals : List (EvalOut V)) :
    History V × Except Err Unit :=
  if ¬ (xIndices.all fun i => decide (i < h.n_xs)) then (h, .error .valueError)
  else if xIndices.length = 0 then (h, .ok ())
  else match evalsToMat h.functype evals with
    | .error e => (h, .error e)
    | .ok m =>
      let fvals := m.rows.map h.functype.aggregateRow
      if xIndices.length ≠ m.rows.length then (h, .error .valueError)
      else match addEntries2 h.fvecs m h.n_fun with
        | .error e => (h, .error e)
        | .ok fvecs' =>
          let h₁ := { h with
            fvecs := some fvecs'
            fvals := some (addEntries1 h.fvals fvals h.n_fun) }
          let fIndices := List.range' h.n_fun xIndices.length
          match appendToMapper h.mapper (xIndices.zip fIndices) with
          | (mapper', .error e) => ({ h₁ with mapper := mapper' }, .error e)
          | (mapper', .ok ()) =>
            ({ h₁ with mapper := mapper', n_fun := h.n_fun + xIndices.length }, .ok ())

end History

/-- numpy index normalisation for an axis of length `n`: negative indices count from the end. -/
def normIndex (n : Nat) (i : Int) : Except Err Nat :=
  if 0 ≤ i ∧ i < n then .ok i.toNat
  else if i < 0 ∧ -(n : Int) ≤ i then .ok (n + i).toNat
  else .error .indexError

/-- `arr[i]` for a list used as numpy axis. -/
def npGet {α : Type} (arr : List α) (i : Int) : Except Err α :=
  match normIndex arr.length i with
  | .error e => .error e
  | .ok j => match arr[j]? with
    | some a => .ok a
    | none => .error .indexError

namespace History

variable {V : Type} [FloatLike V]

/-- `get_xs(i)` for an integer, history.py:112-130. -/
def getX (h : History V) (i : Int) : Except Err (List V) :=
  match h.xs with
  | none => .error .typeError
  | some m => npGet (m.rows.take h.n_xs) i

/-- `get_xs(indices)` for a list, history.py:112-130. -/
def getXs (h : History V) (is : List Int) : Except Err (List (List V)) :=
  match h.xs with
  | none => .error .typeError
  | some m => is.mapM (npGet (m.rows.take h.n_xs))

/-- `get_xs()`, history.py:112-130. -/
def getAllXs (h : History V) : Except Err (List (List V)) :=
  match h.xs with
  | none => .error .typeError
  | some m => .ok (m.rows.take h.n_xs)

end History

/-- Building a dict from a sequence of key value pairs: first insertion fixes the position. As the
value is a function of the key in `_extract_from_indices`, keeping the first value is the same as
overwriting it. -/
def dictFromKeys {α : Type} : List (Nat × α) → List (Nat × α)
  | [] => []
  | (k, v) :: rest => (k, v) :: (dictFromKeys rest).filter (fun p => p.1 ≠ k)

/-- `arr[mapper[i]]`, history.py:261. -/
def lookupEvals {α : Type} (arr : List α) (mapper : List (List Nat)) (i : Nat) :
    Except Err (List α) :=
  match mapper[i]? with
  | none => .error .keyError
  | some fs => fs.mapM fun (f : Nat) => npGet arr f

/-- `_extract_from_indices` for a list of indices, history.py:237-266. -/
def extractMany {α : Type} (arr : List α) (mapper : List (List Nat)) (is : List Int) (nXs : Nat) :
    Except Err (List (Nat × List α)) := do
  let indices ← is.mapM (normIndex nXs)
  let entries ← indices.mapM fun i => do
    let v ← lookupEvals arr mapper i
    pure (i, v)
  pure (dictFromKeys entries)

/-- `_extract_from_indices` for one index, history.py:255-266: the dict has the normalised index as
key, but is read with the original one, so negative indices raise `KeyError`. -/
def extractOne {α : Type} (arr : List α) (mapper : List (List Nat)) (i : Int) (nXs : Nat) :
    Except Err (List α) := do
  let d ← extractMany arr mapper [i] nXs
  match d.find? (fun p => (p.1 : Int) = i) with
  | some p => pure p.2
  | none => throw .keyError

namespace History

variable {V : Type} [FloatLike V]

/-- `get_fvecs(i)`, history.py:132-152. -/
def getFvec (h : History V) (i : Int) : Except Err (List (List V)) :=
  match h.fvecs with
  | none => .error .typeError
  | some m => extractOne (m.rows.take h.n_fun) h.mapper i h.n_xs

/-- `get_fvecs(indices)`, history.py:132-152. -/
def getFvecs (h : History V) (is : List Int) : Except Err (List (Nat × List (List V))) :=
  match h.fvecs with
  | none => .error .typeError
  | some m => extractMany (m.rows.take h.n_fun) h.mapper is h.n_xs

/-- `get_fvals(i)`, history.py:154-174. -/
def getFval (h : History V) (i : Int) : Except Err (List V) :=
  match h.fvals with
  | none => .error .typeError
  | some a => extractOne (a.take h.n_fun) h.mapper i h.n_xs

/-- `get_fvals(indices)`, history.py:154-174. -/
def getFvals (h : History V) (is : List Int) : Except Err (List (Nat × List V)) :=
  match h.fvals with
  | none => .error .typeError
  | some a => extractMany (a.take h.n_fun) h.mapper is h.n_xs

/-- `get_n_evals(indices)`, history.py:176-179. -/
def getNEvals (h : History V) (is : List Int) : Except Err (List (Nat × Nat)) := do
  let d ← h.getFvals is
  pure (d.map fun p => (p.1, p.2.length))

/-- `np.mean(fvec, axis=0)` of rows with `width` columns, history.py:189. -/
def columnMean (width : Nat) (rows : List (List V)) : List V :=
  (List.range width).map fun j =>
    if rows.length = 0 then FloatLike.nan
    else FloatLike.divNat ((rows.map fun r => r.getD j 0).sum) rows.length

/-- `get_model_data(indices, average=True)`, history.py:181-196. -/
def getModelDataAveraged (h : History V) (is : List Int) :
    Except Err (List (List V) × List (List V)) := do
  let rawXs ← h.getXs is
  let rawFvecs ← h.getFvecs is
  let width := (h.fvecs.map Buf.width).getD 0
  pure (rawXs, rawFvecs.map fun p => columnMean width p.2)

/-- `np.repeat(rows, counts, axis=0)`: raises if the lengths do not match, except that a single
count is used for all rows. -/
def npRepeat {α : Type} (rows : List α) (counts : List Nat) : Except Err (List α) :=
  if rows.length = counts.length then
    .ok ((rows.zip counts).flatMap fun p => List.replicate p.2 p.1)
  else match counts with
    | [c] => .ok (rows.flatMap fun r => List.replicate c r)
    | _ => .error .valueError

/-- `get_model_data(indices, average=False)`, history.py:181-196. -/
def getModelDataFull (h : History V) (is : List Int) :
    Except Err (List (List V) × List (List V)) := do
  let rawXs ← h.getXs is
  let rawFvecs ← h.getFvecs is
  if rawFvecs.isEmpty then throw .valueError
  let xs ← npRepeat rawXs (rawFvecs.map fun p => p.2.length)
  pure (xs, rawFvecs.flatMap fun p => p.2)

/-- `get_n_fun()`, history.py:198-199. -/
def getNFun (h : History V) : Nat := h.n_fun

/-- `get_n_xs()`, history.py:201-202. -/
def getNXs (h : History V) : Nat := h.n_xs

/-- `get_x_indices_in_region`, history.py:204-211, with the test
`np.linalg.norm(x - region.center) <= region.radius` as parameter. -/
def getXIndicesInRegion (h : History V) (isIn : List V → Bool) : Except Err (List Nat) :=
  if h.getNFun = 0 then .ok []
  else match h.getAllXs with
    | .error e => .error e
    | .ok xs =>
      let mask := xs.map isIn
      .ok (((List.range mask.length).zip mask).filterMap fun p => if p.2 then some p.1 else none)

end History

/-- `np.linalg.norm(x - center) <= radius` without the square root: history.py:209. -/
def inBall {K : Type} [Field K] [LinearOrder K] (center : List K) (radius : K)
    (x : List (XVal K)) : Bool :=
  decide (0 ≤ radius) &&
  decide (((x.zip center).map fun p => (p.1 - .fin p.2) * (p.1 - .fin p.2)).sum
    ≤ XVal.fin (radius * radius))

/-- The mutating operations. -/
inductive HistOp (V : Type) where
  | addXs (arg : XsArg V)
  | addEvals (xIndices : List Int) (evals : List (EvalOut V))
  deriving Repr

/-- One operation; exceptions are swallowed by the caller, its effects stay. -/
def History.step {V : Type} [FloatLike V] (h : History V) :
    HistOp V → History V
  | .addXs arg => (h.addXs arg).1
  | .addEvals is es => (h.addEvals is es).1

/-- Did the operation return normally? -/
def History.stepOk {V : Type} [FloatLike V] (h : History V) : HistOp V → Bool
  | .addXs arg => (h.addXs arg).2.toBool
  | .addEvals is es => (h.addEvals is es).2.toBool

/-- A sequence of operations. -/
def History.run {V : Type} [FloatLike V] (h : History V) (ops : List (HistOp V)) :
    History V :=
  ops.foldl History.step h

end Tranquilo
