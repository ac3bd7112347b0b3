import Verif.Spec.Rescale
import Mathlib.Tactic.FieldSimp

/-!
# A change of units goes through every part of a run
-/

namespace Tranquilo

variable {K : Type} [Field K] [LinearOrder K] [IsStrictOrderedRing K] {n : Nat} {VM VM' SM : Type}

namespace SameOutcome

variable {α β γ δ : Type} {R : α → β → Prop} {S : γ → δ → Prop}

theorem bind {a : Except Err α} {b : Except Err β} {f : α → Except Err γ} {g : β → Except Err δ}
    (h : SameOutcome R a b) (hfg : ∀ x y, a = .ok x → R x y → SameOutcome S (f x) (g y)) :
    SameOutcome S (a >>= f) (b >>= g) := by
  cases a <;> cases b
  · exact h
  · exact h.elim
  · exact h.elim
  · exact hfg _ _ rfl h

theorem refl_eq {a b : Except Err α} (h : b = a) : SameOutcome (fun x y : α => y = x) a b := by
  subst h
  cases b <;> exact rfl

theorem mono {R' : α → β → Prop} {a : Except Err α} {b : Except Err β} (h : SameOutcome R a b)
    (hR : ∀ x y, R x y → R' x y) : SameOutcome R' a b := by
  cases a <;> cases b <;> first | exact h | exact h.elim | exact hR _ _ h

theorem of_eq {a b : Except Err α} (h : b = a) {R : α → α → Prop} (hR : ∀ x, R x x) :
    SameOutcome R a b := by
  subst h
  cases b
  · exact rfl
  · exact hR _

theorem ok_iff {a : Except Err α} {b : Except Err β} (h : SameOutcome R a b) :
    (∃ x, a = .ok x) ↔ ∃ y, b = .ok y := by
  cases a <;> cases b <;> simp_all [SameOutcome]

end SameOutcome

section Values

variable {c d : K}

theorem rescale_isFinite (v : XVal K) : (v.rescale c d).isFinite = v.isFinite := by cases v <;> rfl

theorem rescale_isNan (v : XVal K) : (v.rescale c d).isNan = v.isNan := by cases v <;> rfl

theorem rescale_lt (hc : 0 < c) (v w : XVal K) : v.rescale c d < w.rescale c d ↔ v < w := by
  cases v <;> cases w <;> try exact Iff.rfl
  simp only [XVal.rescale, XVal.fin_lt_fin, add_lt_add_iff_right]
  exact mul_lt_mul_iff_right₀ hc

/-- Differences of values only feel the factor. -/
theorem rescale_sub (v w : XVal K) : v.rescale c d - w.rescale c d = (v - w).rescale c 0 := by
  cases v <;> cases w <;> try rfl
  simp only [XVal.rescale, XVal.fin_sub_fin]
  congr 1
  ring

theorem rescale_neg (v : XVal K) : -(v.rescale c 0) = (-v).rescale c 0 := by
  cases v <;> try rfl
  simp only [XVal.rescale, XVal.neg_fin]
  congr 1
  ring

theorem rescale_abs (hc : 0 < c) (v : XVal K) : (v.rescale c 0).abs = v.abs.rescale c 0 := by
  cases v <;> try rfl
  simp only [XVal.rescale, XVal.abs, add_zero, abs_mul, abs_of_pos hc]

theorem rescale_fin_le (hc : 0 < c) (a : K) (v : XVal K) :
    XVal.fin (c * a) ≤ v.rescale c 0 ↔ XVal.fin a ≤ v := by
  cases v <;> try exact Iff.rfl
  simp only [XVal.rescale, XVal.fin_le_fin, add_zero]
  exact mul_le_mul_iff_right₀ hc

theorem rescale_le_fin (hc : 0 < c) (a : K) (v : XVal K) :
    v.rescale c 0 ≤ XVal.fin (c * a) ↔ v ≤ XVal.fin a := by
  cases v <;> try exact Iff.rfl
  simp only [XVal.rescale, XVal.fin_le_fin, add_zero]
  exact mul_le_mul_iff_right₀ hc

theorem rescale_zero_lt (hc : 0 < c) (v : XVal K) : XVal.fin 0 < v.rescale c 0 ↔ XVal.fin 0 < v := by
  cases v <;> try exact Iff.rfl
  simp only [XVal.rescale, XVal.fin_lt_fin, add_zero]
  exact mul_pos_iff_of_pos_left hc

theorem rescale_divBy (hc : 0 < c) (v : XVal K) (e : K) :
    (v.rescale c 0).divBy (c * e) = v.divBy e := by
  cases v
  · simp only [XVal.rescale, XVal.divBy, add_zero]
    rw [mul_div_mul_left _ _ hc.ne']
  · simp only [XVal.rescale, XVal.divBy, mul_pos_iff_of_pos_left hc]
  · simp only [XVal.rescale, XVal.divBy, mul_pos_iff_of_pos_left hc]
  · rfl

theorem rescale_rho (hc : 0 < c) (v : XVal K) (e : K) :
    calculateRho (v.rescale c 0) (c * e) = calculateRho v e := by
  have h0 : c * e = 0 ↔ e = 0 := by simp [hc.ne']
  simp only [calculateRho, h0, rescale_zero_lt hc, rescale_divBy hc]

/-- The sum of `k` values: the constant is added `k` times. -/
theorem rescale_sum (l : List (XVal K)) :
    (l.map (XVal.rescale c d)).sum = l.sum.rescale c (l.length * d) := by
  induction l with
  | nil => simp [XVal.rescale, show (0 : XVal K) = .fin 0 from rfl]
  | cons v l ih =>
    simp only [List.map_cons, List.sum_cons, ih, List.length_cons]
    generalize l.sum = w
    cases v <;> cases w <;> try rfl
    simp only [XVal.rescale, XVal.fin_add_fin]
    congr 1
    push_cast
    ring

theorem rescale_mean (l : List (XVal K)) :
    XVal.mean (l.map (XVal.rescale c d)) = (XVal.mean l).rescale c d := by
  rcases Decidable.eq_or_ne l [] with rfl | h
  · rfl
  · have hl : (l.length : K) ≠ 0 := by
      have : l.length ≠ 0 := fun h' => h (List.length_eq_zero_iff.mp h')
      exact_mod_cast this
    rw [XVal.mean, if_neg (by simpa using h), XVal.mean, if_neg h, rescale_sum, List.length_map]
    have hl' : l.length ≠ 0 := by exact_mod_cast hl
    generalize l.sum = w
    cases w <;> try rfl
    simp only [XVal.rescale, FloatLike.divNat, if_neg hl']
    congr 1
    field_simp

end Values

section History

variable {c d : K}

@[simp] theorem Log.rescale_xs (h : Log K n) : (h.rescale c d).xs = h.xs := rfl

@[simp] theorem Log.rescale_nFun (h : Log K n) : (h.rescale c d).nFun = h.nFun := by
  simp [Log.nFun, Log.rescale]

theorem Log.rescale_fvals (h : Log K n) (i : Nat) :
    (h.rescale c d).fvals i = (h.fvals i).map (XVal.rescale c d) := by
  simp only [Log.fvals, Log.rescale, List.filter_map, List.map_map]
  rfl

theorem Log.rescale_mean (h : Log K n) (i : Nat) :
    XVal.mean ((h.rescale c d).fvals i) = (XVal.mean (h.fvals i)).rescale c d := by
  rw [Log.rescale_fvals, Tranquilo.rescale_mean]

theorem Log.rescale_addXs (h : Log K n) (rows : List (Vec K n)) :
    (h.rescale c d).addXs rows = ((h.addXs rows).1.rescale c d, (h.addXs rows).2) := rfl

theorem Log.rescale_addX (h : Log K n) (x : Vec K n) :
    (h.rescale c d).addX x = ((h.addX x).1.rescale c d, (h.addX x).2) := rfl

theorem Log.rescale_evalOne {o o' : Oracle K n} (ho : ∀ k x, o' k x = (o k x).rescale c d)
    (h : Log K n) (i : Nat) : (h.rescale c d).evalOne o' i = (h.evalOne o i).rescale c d := by
  simp only [Log.evalOne, Log.rescale_xs]
  cases h.xs[i]? with
  | none => rfl
  | some x => simp [Log.rescale, ho]

theorem Log.rescale_evaluate {o o' : Oracle K n} (ho : ∀ k x, o' k x = (o k x).rescale c d)
    (h : Log K n) (request : List (Nat × Nat)) :
    (h.rescale c d).evaluate o' request = (h.evaluate o request).rescale c d := by
  simp only [Log.evaluate]
  generalize (request.flatMap fun p => List.replicate p.2 p.1) = l
  induction l generalizing h with
  | nil => rfl
  | cons i l ih => simp only [List.foldl_cons, Log.rescale_evalOne ho, ih]

theorem Log.rescale_getXs (h : Log K n) (is : List Nat) : (h.rescale c d).getXs is = h.getXs is := rfl

theorem Log.rescale_indicesInRegion (nrm : Vec K n → K) (h : Log K n) (x : Vec K n) (r : K) :
    (h.rescale c d).indicesInRegion nrm x r = h.indicesInRegion nrm x r := by
  simp only [Log.indicesInRegion, Log.rescale_xs]
  simp [Log.rescale]

theorem rescale_additional (h : Log K n) (is : List Nat) (k : Int) :
    additionalEvalInfo (h.rescale c d) is k = additionalEvalInfo h is k := by
  simp only [additionalEvalInfo, Log.rescale_fvals, List.length_map]

end History

end Tranquilo
