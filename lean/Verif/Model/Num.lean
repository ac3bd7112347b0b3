import Mathlib.Algebra.Order.Field.Basic
import Mathlib.Algebra.Order.Field.Rat
import Mathlib.Tactic.Linarith
import Mathlib.Tactic.Ring

/-!
# Numbers and exceptions

Floats of the Python code are modelled either by an arbitrary linearly ordered field `K` (no
rounding) or, where infinities and NaN matter, by `XVal K`.
-/

namespace Tranquilo

/-- The Python exception classes that occur in the modelled code (exceptions are values). -/
inductive Err where
  | valueError
  | typeError
  | keyError
  | indexError
  | attributeError
  | notImplementedError
  | unboundLocalError
  | stopIteration
  | zeroDivisionError
  | assertionError
  | linAlgError
  | userError        -- any exception raised by user supplied code
  deriving DecidableEq, Repr

/-- The call returned normally and its result satisfies `p` (used in concrete examples). -/
def okAnd {α : Type} (p : α → Bool) : Except Err α → Bool
  | .ok a => p a
  | .error _ => false

/-- IEEE like values without rounding: finite numbers, both infinities and NaN.
Models the floats that the code can meet as criterion values. -/
inductive XVal (K : Type) where
  | fin (x : K)
  | pinf
  | ninf
  | nan
  deriving DecidableEq, Repr

namespace XVal

variable {K : Type}

/-- `np.isfinite` -/
def isFinite : XVal K → Bool
  | fin _ => true
  | _ => false

/-- `np.isnan` -/
def isNan : XVal K → Bool
  | nan => true
  | _ => false

instance [Zero K] : Zero (XVal K) := ⟨fin 0⟩
instance [One K] : One (XVal K) := ⟨fin 1⟩
instance [Zero K] : Inhabited (XVal K) := ⟨fin 0⟩

/-- IEEE addition (no rounding). -/
def add [Add K] : XVal K → XVal K → XVal K
  | nan, _ => nan
  | _, nan => nan
  | pinf, ninf => nan
  | ninf, pinf => nan
  | pinf, _ => pinf
  | _, pinf => pinf
  | ninf, _ => ninf
  | _, ninf => ninf
  | fin a, fin b => fin (a + b)

instance [Add K] : Add (XVal K) := ⟨add⟩

/-- IEEE negation. -/
def neg [Neg K] : XVal K → XVal K
  | nan => nan
  | pinf => ninf
  | ninf => pinf
  | fin a => fin (-a)

instance [Neg K] : Neg (XVal K) := ⟨neg⟩

/-- IEEE subtraction. -/
def sub [Add K] [Neg K] (a b : XVal K) : XVal K := a + (-b)

instance [Add K] [Neg K] : Sub (XVal K) := ⟨sub⟩

/-- An infinity times the sign of `a` (`0 * inf` is NaN). -/
def infTimes [Zero K] [LT K] [DecidableLT K] (positive : Bool) (a : K) : XVal K :=
  if 0 < a then (if positive then pinf else ninf)
  else if a < 0 then (if positive then ninf else pinf)
  else nan

/-- IEEE multiplication (no rounding). -/
def mul [Zero K] [Mul K] [LT K] [DecidableLT K] : XVal K → XVal K → XVal K
  | nan, _ => nan
  | _, nan => nan
  | pinf, pinf => pinf
  | pinf, ninf => ninf
  | ninf, pinf => ninf
  | ninf, ninf => pinf
  | pinf, fin a => infTimes true a
  | fin a, pinf => infTimes true a
  | ninf, fin a => infTimes false a
  | fin a, ninf => infTimes false a
  | fin a, fin b => fin (a * b)

instance [Zero K] [Mul K] [LT K] [DecidableLT K] : Mul (XVal K) := ⟨mul⟩

/-- IEEE `<=`: false as soon as NaN is involved. -/
def le [LE K] : XVal K → XVal K → Prop
  | nan, _ => False
  | _, nan => False
  | ninf, _ => True
  | _, pinf => True
  | pinf, _ => False
  | _, ninf => False
  | fin a, fin b => a ≤ b

/-- IEEE `<`: false as soon as NaN is involved. -/
def lt [LT K] : XVal K → XVal K → Prop
  | nan, _ => False
  | _, nan => False
  | ninf, ninf => False
  | ninf, _ => True
  | pinf, _ => False
  | _, pinf => True
  | _, ninf => False
  | fin a, fin b => a < b

instance [LE K] : LE (XVal K) := ⟨le⟩
instance [LT K] : LT (XVal K) := ⟨lt⟩

instance [LE K] [DecidableLE K] : DecidableLE (XVal K) := fun a b => by
  show Decidable (le a b)
  cases a <;> cases b <;> simp only [le] <;> infer_instance

instance [LT K] [DecidableLT K] : DecidableLT (XVal K) := fun a b => by
  show Decidable (lt a b)
  cases a <;> cases b <;> simp only [lt] <;> infer_instance

section simp
variable (a b : K)

@[simp] theorem fin_add_fin [Add K] : (fin a + fin b : XVal K) = fin (a + b) := rfl
@[simp] theorem fin_mul_fin [Zero K] [Mul K] [LT K] [DecidableLT K] :
    (fin a * fin b : XVal K) = fin (a * b) := rfl
@[simp] theorem neg_fin [Neg K] : (-(fin a) : XVal K) = fin (-a) := rfl
@[simp] theorem neg_pinf [Neg K] : (-(pinf) : XVal K) = ninf := rfl
@[simp] theorem neg_ninf [Neg K] : (-(ninf) : XVal K) = pinf := rfl
@[simp] theorem neg_nan [Neg K] : (-(nan) : XVal K) = nan := rfl
theorem sub_eq [Add K] [Neg K] (x y : XVal K) : x - y = x + -y := rfl
@[simp] theorem fin_sub_fin [AddGroup K] : (fin a - fin b : XVal K) = fin (a - b) := by
  rw [sub_eq_add_neg]; rfl
@[simp] theorem fin_le_fin [LE K] : ((fin a : XVal K) ≤ fin b) ↔ a ≤ b := Iff.rfl
@[simp] theorem fin_lt_fin [LT K] : ((fin a : XVal K) < fin b) ↔ a < b := Iff.rfl
@[simp] theorem fin_le_pinf [LE K] : ((fin a : XVal K) ≤ pinf) ↔ True := Iff.rfl
@[simp] theorem fin_lt_pinf [LT K] : ((fin a : XVal K) < pinf) ↔ True := Iff.rfl
@[simp] theorem ninf_le_fin [LE K] : ((ninf : XVal K) ≤ fin b) ↔ True := Iff.rfl
@[simp] theorem ninf_lt_fin [LT K] : ((ninf : XVal K) < fin b) ↔ True := Iff.rfl
@[simp] theorem pinf_le_fin [LE K] : ((pinf : XVal K) ≤ fin b) ↔ False := Iff.rfl
@[simp] theorem pinf_lt [LT K] (y : XVal K) : ((pinf : XVal K) < y) ↔ False := by
  cases y <;> exact Iff.rfl
@[simp] theorem fin_le_ninf [LE K] : ((fin a : XVal K) ≤ ninf) ↔ False := Iff.rfl
@[simp] theorem lt_ninf [LT K] (x : XVal K) : (x < (ninf : XVal K)) ↔ False := by
  cases x <;> exact Iff.rfl
@[simp] theorem nan_le [LE K] (y : XVal K) : ((nan : XVal K) ≤ y) ↔ False := by
  cases y <;> exact Iff.rfl
@[simp] theorem le_nan [LE K] (x : XVal K) : (x ≤ (nan : XVal K)) ↔ False := by
  cases x <;> exact Iff.rfl
@[simp] theorem nan_lt [LT K] (y : XVal K) : ((nan : XVal K) < y) ↔ False := by
  cases y <;> exact Iff.rfl
@[simp] theorem lt_nan [LT K] (x : XVal K) : (x < (nan : XVal K)) ↔ False := by
  cases x <;> exact Iff.rfl
@[simp] theorem pinf_le_pinf [LE K] : ((pinf : XVal K) ≤ pinf) ↔ True := Iff.rfl
@[simp] theorem ninf_le_ninf [LE K] : ((ninf : XVal K) ≤ ninf) ↔ True := Iff.rfl
@[simp] theorem ninf_le_pinf [LE K] : ((ninf : XVal K) ≤ pinf) ↔ True := Iff.rfl
@[simp] theorem ninf_lt_pinf [LT K] : ((ninf : XVal K) < pinf) ↔ True := Iff.rfl
@[simp] theorem pinf_le_ninf [LE K] : ((pinf : XVal K) ≤ ninf) ↔ False := Iff.rfl
@[simp] theorem pinf_add_fin [Add K] : (pinf + fin b : XVal K) = pinf := rfl
@[simp] theorem ninf_add_fin [Add K] : (ninf + fin b : XVal K) = ninf := rfl
@[simp] theorem fin_add_pinf [Add K] : (fin a + pinf : XVal K) = pinf := rfl
@[simp] theorem fin_add_ninf [Add K] : (fin a + ninf : XVal K) = ninf := rfl
@[simp] theorem pinf_add_pinf [Add K] : (pinf + pinf : XVal K) = pinf := rfl
@[simp] theorem ninf_add_ninf [Add K] : (ninf + ninf : XVal K) = ninf := rfl
@[simp] theorem pinf_add_ninf [Add K] : (pinf + ninf : XVal K) = nan := rfl
@[simp] theorem ninf_add_pinf [Add K] : (ninf + pinf : XVal K) = nan := rfl
@[simp] theorem nan_add [Add K] (y : XVal K) : (nan + y : XVal K) = nan := by
  cases y <;> rfl
@[simp] theorem add_nan [Add K] (x : XVal K) : (x + nan : XVal K) = nan := by
  cases x <;> rfl
@[simp] theorem isFinite_fin : (fin a : XVal K).isFinite = true := rfl
@[simp] theorem isFinite_pinf : (pinf : XVal K).isFinite = false := rfl
@[simp] theorem isFinite_ninf : (ninf : XVal K).isFinite = false := rfl
@[simp] theorem isFinite_nan : (nan : XVal K).isFinite = false := rfl
theorem isFinite_iff (x : XVal K) : x.isFinite = true ↔ ∃ a, x = fin a := by
  cases x <;> simp [isFinite]
end simp

end XVal

end Tranquilo
