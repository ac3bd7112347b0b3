import Verif.Model.Components

/-!
# Specification of option bundles and component calls

Used by the statements of C56, C57, C58 and C85.
-/

namespace Tranquilo

variable {K O R : Type} [Field K] [LinearOrder K] [FloorRing K]

/-- `StoredAs env default v w`: when the option has the default `default`, the user's value `v` is
stored as `w`. Values of the type of the default, and values for options without default, are kept.
Other values are converted: to the truth value, to the same number as a float, to the number
rounded towards zero, to the number read from a string, or to the string representation. -/
inductive StoredAs (env : PyEnv K O) : PyVal K O → PyVal K O → PyVal K O → Prop
  | noDefault (v) : StoredAs env .none v v
  | bool (b c) : StoredAs env (.bool b) (.bool c) (.bool c)
  | int (i j) : StoredAs env (.int i) (.int j) (.int j)
  | boolIsInt (i b) : StoredAs env (.int i) (.bool b) (.bool b)
  | flt (x y) : StoredAs env (.flt x) (.flt y) (.flt y)
  | str (s t) : StoredAs env (.str s) (.str t) (.str t)
  | instanceOfClass (o v) : env.isInstanceOfClass o v = true → StoredAs env (.obj o) v v
  | noneToBool (b) : StoredAs env (.bool b) .none (.bool false)
  | intToBool (b) (i : ℤ) : StoredAs env (.bool b) (.int i) (.bool (decide (i ≠ 0)))
  | fltToBool (b) (x : K) : StoredAs env (.bool b) (.flt (.fin x)) (.bool (decide (x ≠ 0)))
  | nonfiniteToBool (b) (x : XVal K) : x.isFinite = false →
      StoredAs env (.bool b) (.flt x) (.bool true)
  | strToBool (b) (s : String) : StoredAs env (.bool b) (.str s) (.bool (decide (s ≠ "")))
  | objToBool (b) (o : O) : StoredAs env (.bool b) (.obj o) (.bool (env.truthy o))
  | intToFlt (x) (i : ℤ) : StoredAs env (.flt x) (.int i) (.flt (.fin (i : K)))
  | boolToFlt (x) (b : Bool) : StoredAs env (.flt x) (.bool b) (.flt (.fin (if b then 1 else 0)))
  | strToFlt (x) (s) (y) : env.parseFloat s = some y → StoredAs env (.flt x) (.str s) (.flt y)
  | fltToInt (i) (x : K) (j : ℤ) : |(j : K)| ≤ |x| → |x| < |(j : K)| + 1 → 0 ≤ x * j →
      StoredAs env (.int i) (.flt (.fin x)) (.int j)
  | strToInt (i) (s) (j) : env.parseInt s = some j → StoredAs env (.int i) (.str s) (.int j)
  | toStr (s) (v) : (∀ t, v ≠ .str t) → StoredAs env (.str s) v (.str (env.toStr v))
  | toClass (o) (v w) : env.isInstanceOfClass o v = false → env.construct o v = .ok w →
      StoredAs env (.obj o) v w

omit [Field K] [LinearOrder K] [FloorRing K] in
/-- The value that parameter number `i` of a component receives when the component is called with
positional arguments `args` and keyword arguments `kw`: the keyword argument, or the positional
argument in this place, or the option of this name, or the default in the signature. -/
def receivedValue (opts : Dict (PyVal K O)) (args : List (PyVal K O)) (kw : Dict (PyVal K O))
    (i : ℕ) (p : Param (PyVal K O)) : Option (PyVal K O) :=
  kw.lookup p.name <|> (args[i]? <|> (opts.lookup p.name <|> p.default))

omit [Field K] [LinearOrder K] [FloorRing K] in
/-- `b` lists for each parameter of `f`, in order, its name and the value it receives. -/
def Receives (f : PyFun (PyVal K O) R) (opts : Dict (PyVal K O)) (args : List (PyVal K O))
    (kw : Dict (PyVal K O)) (b : Dict (PyVal K O)) : Prop :=
  b.length = f.params.length ∧
  ∀ i p, f.params[i]? = some p → ∃ v, receivedValue opts args kw i p = some v ∧
    b[i]? = some (p.name, v)

end Tranquilo
