import Verif.Model.Num
import Mathlib.Algebra.Order.Floor.Ring
import Mathlib.Algebra.Order.Ring.Rat
import Mathlib.Data.Rat.Floor

/-!
# Option bundles and interchangeable components

Models `options.py` (`update_option_bundle`, default bundles) and `get_component.py`.

Simplifications, for the whole file:
* Python values are `None`, booleans, integers, floats (without rounding), strings and opaque
  objects. Containers, arrays, functions etc. are opaque objects.
* A `dict` with string keys is an association list, in insertion order. Keyword arguments and
  dicts have unique keys: theorems assume this where it matters.
* A Python function is its signature together with a behaviour on the values bound to its
  parameters. Functions with `*args` or `**kwargs` are not covered (no built-in component has them).
* The texts of messages are not modelled, only the kind of the exception.
-/

namespace Tranquilo

/-- The Python values that can occur as options or arguments. -/
inductive PyVal (K O : Type) where
  | none
  | bool (b : Bool)
  | int (i : ℤ)
  | flt (x : XVal K)
  | str (s : String)
  | obj (o : O)
  deriving DecidableEq, Repr

/-- What the model does not define about Python itself: reading numbers from strings, `str(v)`,
truth values of objects, and conversions to the class of an object. -/
structure PyEnv (K O : Type) where
  parseInt : String → Option ℤ
  parseFloat : String → Option (XVal K)
  toStr : PyVal K O → String
  truthy : O → Bool
  isInstanceOfClass : O → PyVal K O → Bool
  construct : O → PyVal K O → Except Err (PyVal K O)

section Conversions

variable {K O : Type} [Field K] [LinearOrder K] [FloorRing K]

/-- Python's `int` of a finite float: rounds towards zero. -/
def truncate (x : K) : ℤ := if 0 ≤ x then ⌊x⌋ else ⌈x⌉

/-- `bool(v)`. -/
def toBool (env : PyEnv K O) : PyVal K O → Bool
  | .none => false
  | .bool b => b
  | .int i => i ≠ 0
  | .flt (.fin x) => x ≠ 0
  | .flt _ => true
  | .str s => s ≠ ""
  | .obj o => env.truthy o

/-- `int(v)`. `OverflowError` of infinities is reported as `valueError`. -/
def toInt (env : PyEnv K O) : PyVal K O → Except Err ℤ
  | .bool b => .ok (if b then 1 else 0)
  | .int i => .ok i
  | .flt (.fin x) => .ok (truncate x)
  | .flt _ => .error .valueError
  | .str s => match env.parseInt s with
    | some i => .ok i
    | none => .error .valueError
  | .none => .error .typeError
  | .obj _ => .error .typeError

/-- `float(v)`. -/
def toFloat (env : PyEnv K O) : PyVal K O → Except Err (XVal K)
  | .bool b => .ok (.fin (if b then 1 else 0))
  | .int i => .ok (.fin (i : K))
  | .flt x => .ok x
  | .str s => match env.parseFloat s with
    | some x => .ok x
    | none => .error .valueError
  | .none => .error .typeError
  | .obj _ => .error .typeError

/-- `isinstance(v, target_type) or default_option is None`, options.py:250, where `target_type` is
the type of the default. In Python booleans are instances of `int`. -/
def keepsValue (env : PyEnv K O) : PyVal K O → PyVal K O → Bool
  | .none, _ => true
  | .bool _, .bool _ => true
  | .int _, .int _ => true
  | .int _, .bool _ => true
  | .flt _, .flt _ => true
  | .str _, .str _ => true
  | .obj o, v => env.isInstanceOfClass o v
  | _, _ => false

/-- `target_type(v)`, options.py:253, where `target_type` is the type of the default. The default
`None` does not reach this line. -/
def convertTo (env : PyEnv K O) : PyVal K O → PyVal K O → Except Err (PyVal K O)
  | .none, _ => .error .typeError
  | .bool _, v => .ok (.bool (toBool env v))
  | .int _, v => (toInt env v).map .int
  | .flt _, v => (toFloat env v).map .flt
  | .str _, v => .ok (.str (env.toStr v))
  | .obj o, v => env.construct o v

/-- The value that is stored for one user option, options.py:248-253. -/
def typedValue (env : PyEnv K O) (default v : PyVal K O) : Except Err (PyVal K O) :=
  if keepsValue env default v then .ok v else convertTo env default v

end Conversions

/-- A dict with string keys. -/
abbrev Dict (V : Type) := List (String × V)

/-- The keys of a dict in insertion order. -/
def Dict.keys {V : Type} (d : Dict V) : List String := d.map Prod.fst

/-- `{**a, **b}`. -/
def dictMerge {V : Type} (a b : Dict V) : Dict V :=
  (a.map fun kv => (kv.1, (b.lookup kv.1).getD kv.2)) ++ b.filter fun kv => kv.1 ∉ a.keys

/-- What a user can pass as options: a dict, a `NamedTuple` (an object with `_asdict`), or something
else. options.py:230-235. -/
inductive UserOptions (K O : Type) where
  | dict (d : Dict (PyVal K O))
  | namedTuple (fields : Dict (PyVal K O))
  | other

section Bundles

variable {K O : Type} [Field K] [LinearOrder K] [FloorRing K]

/-- `user_options` as a dict, options.py:234-235. Objects without `_asdict` fail. -/
def UserOptions.asDict : UserOptions K O → Except Err (Dict (PyVal K O))
  | .dict d => .ok d
  | .namedTuple d => .ok d
  | .other => .error .attributeError

/-- The loop options.py:246-253: the converted user options. The first conversion that fails ends
the loop. -/
def typedOptions (env : PyEnv K O) (defaults : Dict (PyVal K O)) :
    Dict (PyVal K O) → Except Err (Dict (PyVal K O))
  | [] => .ok []
  | (k, v) :: rest =>
    match typedValue env ((defaults.lookup k).getD .none) v with
    | .error e => .error e
    | .ok w => match typedOptions env defaults rest with
      | .error e => .error e
      | .ok ws => .ok ((k, w) :: ws)

/-- `default_options._replace(**typed)`, options.py:256. -/
def replaceFields (defaults typed : Dict (PyVal K O)) : Dict (PyVal K O) :=
  defaults.map fun kv => (kv.1, (typed.lookup kv.1).getD kv.2)

/-- `update_option_bundle`, options.py:218-258. A bundle is the list of its fields in order. -/
def updateOptionBundle (env : PyEnv K O) (defaults : Dict (PyVal K O))
    (user : Option (UserOptions K O)) : Except Err (Dict (PyVal K O)) :=
  match user with
  | none => .ok defaults
  | some u => match u.asDict with
    | .error e => .error e
    | .ok d =>
      if d.keys.any (fun k => k ∉ defaults.keys) then .error .valueError
      else match typedOptions env defaults d with
        | .error e => .error e
        | .ok typed => .ok (replaceFields defaults typed)

end Bundles

/-! ## Functions and their calls -/

/-- One parameter of a signature. -/
structure Param (V : Type) where
  name : String
  default : Option V := none
  kwOnly : Bool := false

/-- A Python function: `__name__` (objects made by `functools.partial` have none), the signature,
and the behaviour on the values bound to the parameters (in the order of the signature). -/
structure PyFun (V R : Type) where
  name : Option String
  params : List (Param V)
  body : Dict V → Except Err R

section Calls

variable {V R : Type}

/-- `list(inspect.signature(f).parameters)`, get_component.py:55. -/
def PyFun.signature (f : PyFun V R) : List String := f.params.map (·.name)

/-- Names of the parameters that accept positional arguments. -/
def PyFun.positional (f : PyFun V R) : List String :=
  (f.params.filter fun p => !p.kwOnly).map (·.name)

/-- The value bound to one parameter by the call `f(*args, **kw)`. -/
def PyFun.bound (f : PyFun V R) (args : List V) (kw : Dict V) (p : Param V) : Option V :=
  ((f.positional.zip args).lookup p.name <|> kw.lookup p.name) <|> p.default

/-- The values bound to all parameters, if there is one for each. -/
def PyFun.bindings (f : PyFun V R) (args : List V) (kw : Dict V) : Option (Dict V) :=
  f.params.mapM fun p => (f.bound args kw p).map fun v => (p.name, v)

/-- Python's call `f(*args, **kw)`: surplus positional arguments, unknown keywords, arguments given
twice and missing arguments raise a `TypeError`. -/
def PyFun.call (f : PyFun V R) (args : List V) (kw : Dict V) : Except Err R :=
  if f.positional.length < args.length then .error .typeError
  else if kw.keys.any (fun k => k ∉ f.signature) then .error .typeError
  else if kw.keys.any (fun k => k ∈ f.positional.take args.length) then .error .typeError
  else match f.bindings args kw with
    | none => .error .typeError
    | some b => f.body b

/-- A call of `partial(f, **opts)`: keywords of the call take precedence. -/
def PyFun.partialCall (f : PyFun V R) (opts : Dict V) (args : List V) (kw : Dict V) :
    Except Err R :=
  f.call args (dictMerge opts kw)

/-- The wrapper of `_add_redundant_argument_handling`, get_component.py:201-231, around
`partial(f, **opts)`. Line 216 zips the signature with the positional arguments, thus surplus ones
are dropped. The text of the warning (line 224) reads `func.__name__`, but the wrapped function is
always a `functools.partial` object (line 73), which has no such attribute. -/
def wrapperCall (f : PyFun V R) (opts : Dict V) (warn : Bool) (args : List V) (kw : Dict V) :
    Except Err R :=
  let all := dictMerge (f.signature.zip args) kw
  if warn && all.any (fun kv => kv.1 ∉ f.signature) then .error .attributeError
  else f.partialCall opts [] (all.filter fun kv => kv.1 ∈ f.signature)

/-- What a user passes to select a component. -/
inductive NameOrFunc (V R : Type) where
  | str (s : String)
  | callable (f : PyFun V R)
  | other

/-- `_get_function_and_name`, get_component.py:87-118. The proposals for unknown names, utilities.py:6-33, only go
into the message of the `ValueError`; for an empty dictionary difflib raises a `ValueError` of its own. -/
def getFunctionAndName (nf : NameOrFunc V R) (funcs : Dict (PyFun V R)) :
    Except Err (PyFun V R × String) :=
  match nf with
  | .str s => match funcs.lookup s with
    | some f => .ok (f, s)
    | none => .error .valueError
  | .callable f => match f.name with
    | some n => .ok (f, n)
    | none => .error .attributeError
  | .other => .error .typeError

end Calls

/-- A processed component: the option names a warning was issued for when it was built, and its
behaviour when called. -/
structure Component (V R : Type) where
  warned : List String
  call : List V → Dict V → Except Err R

section Component

variable {K O R : Type} [Field K] [LinearOrder K] [FloorRing K]

/-- `_get_valid_options`, get_component.py:121-166: the options that are in the signature, and the
names of the redundant options that are warned about. -/
def getValidOptions (env : PyEnv K O) (defaults : Dict (PyVal K O))
    (user : Option (UserOptions K O)) (signature : List String) (optionHandling : String) :
    Except Err (Dict (PyVal K O) × List String) :=
  match updateOptionBundle env defaults user with
  | .error e => .error e
  | .ok opts =>
    let valid := opts.filter fun kv => kv.1 ∈ signature
    let redundant := opts.filter fun kv => kv.1 ∉ signature
    if optionHandling = "warn" then .ok (valid, Dict.keys redundant)
    else if optionHandling = "raise" ∧ redundant ≠ [] then .error .valueError
    else .ok (valid, [])

/-- `get_component`, get_component.py:10-84, with the check of the mandatory arguments, lines 169-200. -/
def getComponent (env : PyEnv K O) (nf : NameOrFunc (PyVal K O) R)
    (funcs : Dict (PyFun (PyVal K O) R)) (defaults : Dict (PyVal K O))
    (user : Option (UserOptions K O)) (mandatory : List String)
    (optionHandling : String := "ignore") (argumentHandling : String := "ignore") :
    Except Err (Component (PyVal K O) R) :=
  match getFunctionAndName nf funcs with
  | .error e => .error e
  | .ok (f, _) =>
    match getValidOptions env defaults user f.signature optionHandling with
    | .error e => .error e
    | .ok (valid, warned) =>
      if mandatory.any (fun a => a ∉ f.signature) then .error .valueError
      else if argumentHandling = "raise" then
        .ok { warned := warned, call := fun args kw => f.partialCall valid args kw }
      else
        .ok { warned := warned,
              call := fun args kw => wrapperCall f valid (argumentHandling = "warn") args kw }

end Component

end Tranquilo
