import Verif.Spec.Region
import Verif.Lemmas.Clip
import Mathlib.Algebra.Order.BigOperators.Ring.Finset
import Mathlib.Tactic.FieldSimp
import Mathlib.Tactic.FinCases
import Mathlib.Algebra.BigOperators.Field

/-!
# Properties C27 - C29 and C75: trust regions and bounds
-/

namespace Tranquilo

variable {K : Type} [Field K] [LinearOrder K] [IsStrictOrderedRing K] {n : Nat}

theorem abs_le_of_sumSq_le {v : Vec K n} {r : K} (hr : 0 ≤ r) (h : sumSq v ≤ r ^ 2) (i : Fin n) :
    |v i| ≤ r := by
  have h1 : v i ^ 2 ≤ sumSq v :=
    Finset.single_le_sum (f := fun i => v i ^ 2) (fun j _ => sq_nonneg (v j)) (Finset.mem_univ i)
  exact abs_le_of_sq_le_sq (h1.trans h) hr

/-- The shape in words. -/
theorem shape_eq_cube_iff (r : Region K n) :
    r.shape = .cube ↔ (∃ i l, r.bounds.lower i = some l ∧ r.center i - l ≤ r.radius) ∨
      (∃ i u, r.bounds.upper i = some u ∧ u - r.center i ≤ r.radius) := by
  unfold Region.shape lowerBinding upperBinding
  simp only [Option.mem_def, Bool.or_eq_true, decide_eq_true_eq, ite_eq_left_iff, not_or,
    reduceCtorEq, imp_false, not_and, not_not]
  exact or_iff_not_imp_left.symm

/-- C27. If the shape is `sphere`, every point of the closed ball, and even every point of the cube
around it, satisfies the bounds strictly. -/
theorem C27_sphere_strictly_in_bounds (r : Region K n) (hr : 0 ≤ r.radius)
    (hs : r.shape = .sphere) (x : Vec K n) (hx : InBallSq r.center r.radius x) :
    StrictlyInBounds r.bounds x := by
  have hno : ¬ (r.shape = .cube) := by rw [hs]; decide
  rw [shape_eq_cube_iff, not_or] at hno
  obtain ⟨h1, h2⟩ := hno
  push Not at h1 h2
  intro i
  have habs := abs_le.1 (abs_le_of_sumSq_le hr hx i)
  constructor
  · intro l hl
    have := h1 i l hl
    linarith [habs.1]
  · intro u hu
    have := h2 i u hu
    linarith [habs.2]

/-- C27, other half: the shape is `cube` iff some bound is within the radius of the center (or violated
by the center). -/
theorem C27_cube_iff_bound_within_radius (r : Region K n) :
    r.shape = .cube ↔ ∃ i, (∃ l, r.bounds.lower i = some l ∧ r.center i - r.radius ≤ l) ∨
      (∃ u, r.bounds.upper i = some u ∧ u ≤ r.center i + r.radius) := by
  rw [shape_eq_cube_iff]
  constructor
  · rintro (⟨i, l, h1, h2⟩ | ⟨i, u, h1, h2⟩)
    · exact ⟨i, Or.inl ⟨l, h1, by linarith⟩⟩
    · exact ⟨i, Or.inr ⟨u, h1, by linarith⟩⟩
  · rintro ⟨i, ⟨l, h1, h2⟩ | ⟨u, h1, h2⟩⟩
    · exact Or.inl ⟨i, l, h1, by linarith⟩
    · exact Or.inr ⟨i, u, h1, by linarith⟩

/-! ## C28 -/

theorem cubeLower_spec (cr : K → K) (r : Region K n) (i : Fin n) :
    r.center i - r.cubeRadius cr ≤ r.cubeLower cr i ∧
      ∀ l, r.bounds.lower i = some l → l ≤ r.cubeLower cr i := by
  unfold Region.cubeLower Region.clipLower
  cases h : r.bounds.lower i with
  | none => simp
  | some l => simp

theorem cubeUpper_spec (cr : K → K) (r : Region K n) (i : Fin n) :
    r.cubeUpper cr i ≤ r.center i + r.cubeRadius cr ∧
      ∀ u, r.bounds.upper i = some u → r.cubeUpper cr i ≤ u := by
  unfold Region.cubeUpper Region.clipUpper
  cases h : r.bounds.upper i with
  | none => simp
  | some l => simp

theorem center_in_cube (cr : K → K) (r : Region K n) (hc : InBounds r.bounds r.center)
    (h0 : 0 ≤ r.cubeRadius cr) : InBox (r.cubeLower cr) (r.cubeUpper cr) r.center := by
  intro i
  unfold Region.cubeLower Region.cubeUpper Region.clipLower Region.clipUpper
  constructor
  · cases h : r.bounds.lower i with
    | none => simp [h0]
    | some l => simpa [h0] using (hc i).1 l h
  · cases h : r.bounds.upper i with
    | none => simp [h0]
    | some u => simpa [h0] using (hc i).2 u h

/-- C28. For a cube shaped region whose center satisfies the bounds, every point that `map_from_unit`
returns, for unit points inside or outside of the unit cube, satisfies the bounds and lies in the
cube, i.e. has a distance of at most the cube radius from the center in each coordinate. -/
theorem C28_cube_points_in_bounds_partial (cr : K → K) (r : Region K n) (hs : r.shape = .cube)
    (hc : InBounds r.bounds r.center) (h0 : 0 ≤ cr r.radius) (u : Vec K n) :
    InBounds r.bounds (r.mapFromUnit cr u) ∧
      ∀ i, |r.mapFromUnit cr u i - r.center i| ≤ cr r.radius := by
  have hR : r.cubeRadius cr = cr r.radius := by rw [Region.cubeRadius, hs]
  have hcen := center_in_cube cr r hc (by rw [hR]; exact h0)
  have hbox : InBox (r.cubeLower cr) (r.cubeUpper cr) (r.mapFromUnit cr u) := by
    intro i
    simp only [Region.mapFromUnit, hs]
    exact npClip_mem ((hcen i).1.trans (hcen i).2)
  constructor
  · intro i
    exact ⟨fun l hl => ((cubeLower_spec cr r i).2 l hl).trans (hbox i).1,
      fun v hv => (hbox i).2.trans ((cubeUpper_spec cr r i).2 v hv)⟩
  · intro i
    rw [abs_le, ← hR]
    have h1 := (cubeLower_spec cr r i).1
    have h2 := (cubeUpper_spec cr r i).1
    constructor <;> linarith [(hbox i).1, (hbox i).2]

/-- C28, the center is a point of the cube. -/
theorem C28_center_in_cube (cr : K → K) (r : Region K n) (hs : r.shape = .cube)
    (hc : InBounds r.bounds r.center) (h0 : 0 ≤ cr r.radius) :
    InBox (r.cubeLower cr) (r.cubeUpper cr) r.center :=
  center_in_cube cr r hc (by rw [Region.cubeRadius, hs]; exact h0)

/-- The cube is exactly the intersection of the bounds with the cube around the center. -/
theorem C28_cube_is_intersection (cr : K → K) (r : Region K n) (hs : r.shape = .cube)
    (x : Vec K n) : InBox (r.cubeLower cr) (r.cubeUpper cr) x ↔
      InBounds r.bounds x ∧ ∀ i, |x i - r.center i| ≤ cr r.radius := by
  have hR : r.cubeRadius cr = cr r.radius := by rw [Region.cubeRadius, hs]
  constructor
  · intro h
    refine ⟨fun i => ⟨fun l hl => ((cubeLower_spec cr r i).2 l hl).trans (h i).1,
      fun v hv => (h i).2.trans ((cubeUpper_spec cr r i).2 v hv)⟩, fun i => ?_⟩
    rw [abs_le, ← hR]
    have h1 := (cubeLower_spec cr r i).1
    have h2 := (cubeUpper_spec cr r i).1
    constructor <;> linarith [(h i).1, (h i).2]
  · rintro ⟨h1, h2⟩ i
    have := abs_le.1 (h2 i)
    rw [← hR] at this
    unfold Region.cubeLower Region.cubeUpper Region.clipLower Region.clipUpper
    constructor
    · cases h : r.bounds.lower i with
      | none => simp only; linarith [this.1]
      | some l => exact max_le (by linarith [this.1]) ((h1 i).1 l h)
    · cases h : r.bounds.upper i with
      | none => simp only; linarith [this.2]
      | some l => exact le_min (by linarith [this.2]) ((h1 i).2 l h)

/-- C28 needs a feasible center: with a center outside of the bounds `map_from_unit` returns an
infeasible point. -/
theorem C28_violated_for_infeasible_center :
    let r : Region ℚ 1 := ⟨fun _ => 0, 1, ⟨fun _ => some 5, fun _ => none⟩⟩
    r.shape = .cube ∧ ¬ InBounds r.bounds (r.mapFromUnit id fun _ => 0) := by
  refine ⟨by decide +kernel, ?_⟩
  intro h
  have := (h 0).1 5 rfl
  revert this
  decide +kernel

/-! ## C29 -/

/-- C29 for spheres. -/
theorem C29_sphere_bijection (cr : K → K) (r : Region K n) (hs : r.shape = .sphere)
    (hr : 0 < r.radius) :
    (∀ x, r.mapFromUnit cr (r.mapToUnit cr x) = x) ∧
    (∀ u, r.mapToUnit cr (r.mapFromUnit cr u) = u) ∧
    (∀ x, InBallSq r.center r.radius x ↔ sumSq (r.mapToUnit cr x) ≤ 1) := by
  refine ⟨fun x => ?_, fun u => ?_, fun x => ?_⟩
  · funext i
    simp only [Region.mapFromUnit, Region.mapToUnit, hs]
    rw [div_mul_cancel₀ _ hr.ne', sub_add_cancel]
  · funext i
    simp only [Region.mapFromUnit, Region.mapToUnit, hs]
    rw [add_sub_cancel_right, mul_div_assoc, div_self hr.ne', mul_one]
  · have : sumSq (r.mapToUnit cr x) = sumSq (fun i => x i - r.center i) / r.radius ^ 2 := by
      simp only [sumSq, Region.mapToUnit, hs, div_pow, Finset.sum_div]
    rw [this, div_le_one (by positivity), InBallSq]

/-- C29 for cubes. -/
theorem C29_cube_bijection (cr : K → K) (r : Region K n) (hs : r.shape = .cube)
    (hnd : ∀ i, r.cubeLower cr i < r.cubeUpper cr i) :
    (∀ x, InBox (r.cubeLower cr) (r.cubeUpper cr) x → r.mapFromUnit cr (r.mapToUnit cr x) = x) ∧
    (∀ u, (∀ i, -1 ≤ u i ∧ u i ≤ 1) → r.mapToUnit cr (r.mapFromUnit cr u) = u) ∧
    (∀ x, InBox (r.cubeLower cr) (r.cubeUpper cr) x ↔
      ∀ i, -1 ≤ r.mapToUnit cr x i ∧ r.mapToUnit cr x i ≤ 1) := by
  have hd : ∀ i, 0 < r.cubeUpper cr i - r.cubeLower cr i := fun i => sub_pos.2 (hnd i)
  refine ⟨fun x hx => ?_, fun u hu => ?_, fun x => ?_⟩
  · funext i
    simp only [Region.mapFromUnit, Region.mapToUnit, hs]
    have := (hd i).ne'
    have e : (r.cubeUpper cr i - r.cubeLower cr i) *
        (2 * (x i - r.cubeLower cr i) / (r.cubeUpper cr i - r.cubeLower cr i) - 1 + 1) / 2
          + r.cubeLower cr i = x i := by
      rw [sub_add_cancel, mul_div_cancel₀ _ this]; ring
    rw [e, npClip, max_eq_left (hx i).1, min_eq_left (hx i).2]
  · funext i
    simp only [Region.mapFromUnit, Region.mapToUnit, hs]
    have h1 := hd i
    have h2 := hu i
    set lo := r.cubeLower cr i
    set hi := r.cubeUpper cr i
    have e1 : lo ≤ (hi - lo) * (u i + 1) / 2 + lo := by
      have : 0 ≤ (hi - lo) * (u i + 1) := mul_nonneg h1.le (by linarith)
      linarith
    have e2 : (hi - lo) * (u i + 1) / 2 + lo ≤ hi := by
      have : (hi - lo) * (u i + 1) ≤ (hi - lo) * 2 := mul_le_mul_of_nonneg_left (by linarith) h1.le
      linarith
    rw [npClip, max_eq_left e1, min_eq_left e2, add_sub_cancel_right, mul_div_cancel₀ _ (by norm_num),
      mul_div_assoc, mul_comm, div_mul_cancel₀ _ h1.ne']; ring
  · apply forall_congr'
    intro i
    simp only [Region.mapToUnit, hs]
    have h1 := hd i
    set lo := r.cubeLower cr i
    set hi := r.cubeUpper cr i
    have a : -1 ≤ 2 * (x i - lo) / (hi - lo) - 1 ↔ lo ≤ x i := by
      rw [le_sub_iff_add_le, le_div_iff₀ h1]
      constructor <;> intro h <;> linarith
    have b : 2 * (x i - lo) / (hi - lo) - 1 ≤ 1 ↔ x i ≤ hi := by
      rw [sub_le_iff_le_add, div_le_iff₀ h1]
      constructor <;> intro h <;> linarith
    rw [a, b]

/-- The cube is non-degenerate whenever no parameter is fixed by its bounds, the center is feasible
and the radius is positive. -/
theorem C29_cube_nondegenerate (cr : K → K) (r : Region K n) (hs : r.shape = .cube)
    (hc : InBounds r.bounds r.center) (h0 : 0 < cr r.radius)
    (hb : ∀ i l u, r.bounds.lower i = some l → r.bounds.upper i = some u → l < u) :
    ∀ i, r.cubeLower cr i < r.cubeUpper cr i := by
  intro i
  have hR : r.cubeRadius cr = cr r.radius := by rw [Region.cubeRadius, hs]
  unfold Region.cubeLower Region.cubeUpper Region.clipLower Region.clipUpper
  rw [hR]
  cases h1 : r.bounds.lower i with
  | none =>
    cases h2 : r.bounds.upper i with
    | none => simp only; linarith
    | some u => have := (hc i).2 u h2; exact lt_min (by linarith) (by linarith)
  | some l =>
    have hl := (hc i).1 l h1
    cases h2 : r.bounds.upper i with
    | none => exact max_lt (by linarith) (by linarith)
    | some u =>
      have hu := (hc i).2 u h2
      exact lt_min (max_lt (by linarith) (by linarith)) (max_lt (by linarith) (hb i l u h1 h2))

/-- C29 fails for fixed parameters (`lower = upper`), which the bounds allow: the cube is degenerate and
`map_to_unit` divides by zero. -/
theorem C29_violated_for_fixed_parameter (cr : K → K) (r : Region K n) (i : Fin n) (v : K)
    (hl : r.bounds.lower i = some v) (hu : r.bounds.upper i = some v) (hc : r.center i = v)
    (hr : 0 ≤ r.radius) (h0 : 0 ≤ cr r.radius) :
    r.shape = .cube ∧ r.cubeUpper cr i - r.cubeLower cr i = 0 := by
  have hs : r.shape = .cube := by
    rw [shape_eq_cube_iff]; left; exact ⟨i, v, hl, by rw [hc, sub_self]; exact hr⟩
  refine ⟨hs, ?_⟩
  simp only [Region.cubeUpper, Region.cubeLower, Region.clipLower, Region.clipUpper,
    Region.cubeRadius, hs, hl, hu, hc]
  rw [min_eq_right (by linarith), max_eq_right (by linarith), sub_self]

/-! ## C75: bounds on one side only -/

/-- C75, positive part: if both arrays of bounds are given, or none is finite, no exception occurs and
the shape is the one of `Region.shape`. -/
theorem C75_two_sided_bounds_partial (b : RawBounds K n) (center : Vec K n) (radius : K)
    (h : (b.lower.isSome ∧ b.upper.isSome) ∨ b.hasAny = false) :
    anyBoundsBinding b center radius
      = .ok (decide ((Region.mk center radius b.toBounds).shape = .cube)) := by
  obtain ⟨lo, up⟩ := b
  unfold anyBoundsBinding
  by_cases ha : RawBounds.hasAny (⟨lo, up⟩ : RawBounds K n) = true
  · rw [if_pos ha]
    rcases h with ⟨h1, h2⟩ | h
    · obtain ⟨l, rfl⟩ := Option.isSome_iff_exists.1 h1
      obtain ⟨u, rfl⟩ := Option.isSome_iff_exists.1 h2
      simp only [Region.shape, RawBounds.toBounds, Option.bind_some]
      by_cases hb : lowerBinding center radius l = true
      · simp [hb]
      · simp only [Bool.not_eq_true] at hb
        simp only [hb, Bool.false_eq_true, if_false, Bool.false_or, Except.ok.injEq]
        by_cases hc : upperBinding center radius u = true <;> simp [hc]
    · rw [h] at ha; simp at ha
  · rw [if_neg ha]
    simp only [RawBounds.hasAny, Bool.or_eq_true, not_or, Bool.not_eq_true] at ha
    obtain ⟨ha1, ha2⟩ := ha
    congr 1
    symm
    rw [decide_eq_false_iff_not, shape_eq_cube_iff, not_or]
    constructor
    · rintro ⟨i, l, h1, -⟩
      cases lo with
      | none => simp [RawBounds.toBounds] at h1
      | some f =>
        simp only [RawBounds.toBounds, Option.bind_some] at h1
        simp only [decide_eq_false_iff_not, not_exists] at ha1
        exact ha1 i (by simp [h1])
    · rintro ⟨i, l, h1, -⟩
      cases up with
      | none => simp [RawBounds.toBounds] at h1
      | some f =>
        simp only [RawBounds.toBounds, Option.bind_some] at h1
        simp only [decide_eq_false_iff_not, not_exists] at ha2
        exact ha2 i (by simp [h1])

/-- C75 is false of the code: with a finite upper bound and `lower_bounds=None`, constructing the
region raises `UnboundLocalError`, for every center and radius. -/
theorem C75_violated_only_upper (u : Fin n → Option K) (i : Fin n) (v : K) (hu : u i = some v)
    (center : Vec K n) (radius : K) :
    anyBoundsBinding ⟨none, some u⟩ center radius = .error .unboundLocalError := by
  have : RawBounds.hasAny (⟨none, some u⟩ : RawBounds K n) = true := by
    simp only [RawBounds.hasAny, Bool.false_or, decide_eq_true_eq]
    exact ⟨i, by simp [hu]⟩
  simp [anyBoundsBinding, this]

/-- C75 is false of the code: with finite lower bounds that are further away than the radius and
`upper_bounds=None`, the same exception is raised. -/
theorem C75_violated_only_lower (l : Fin n → Option K) (i : Fin n) (v : K) (hl : l i = some v)
    (center : Vec K n) (radius : K)
    (hfar : ∀ j w, l j = some w → radius < center j - w) :
    anyBoundsBinding ⟨some l, none⟩ center radius = .error .unboundLocalError := by
  have h1 : RawBounds.hasAny (⟨some l, none⟩ : RawBounds K n) = true := by
    simp only [RawBounds.hasAny, Bool.or_false, decide_eq_true_eq]
    exact ⟨i, by simp [hl]⟩
  have h2 : lowerBinding center radius l = false := by
    simp only [lowerBinding, Option.mem_def, decide_eq_false_iff_not, not_exists, not_and, not_le]
    exact fun j w hw => hfar j w hw
  simp [anyBoundsBinding, h1, h2]

section examples

/-- A two dimensional cube region: lower bound 0 in the first coordinate binds. -/
def exampleRegion : Region ℚ 2 :=
  ⟨![1 / 2, 3], 1, ⟨![some 0, none], ![none, some 10]⟩⟩

example : exampleRegion.shape = .cube ∧ InBounds exampleRegion.bounds exampleRegion.center ∧
    exampleRegion.cubeLower (fun r => 9 / 10 * r) 0 = 0 ∧
    exampleRegion.cubeUpper (fun r => 9 / 10 * r) 0 = 7 / 5 ∧
    exampleRegion.mapFromUnit (fun r => 9 / 10 * r) ![-2, 0] 0 = 0 := by
  refine ⟨by decide +kernel, ?_, by decide +kernel, by decide +kernel, by decide +kernel⟩
  intro i
  fin_cases i <;> simp [exampleRegion] <;> norm_num

/-- The same center with a smaller radius: a sphere that leaves room to the bounds. -/
example : ({ exampleRegion with radius := 1 / 4 } : Region ℚ 2).shape = .sphere := by decide +kernel

/-- One sided bounds, concretely. -/
example : anyBoundsBinding (⟨none, some fun _ => some 5⟩ : RawBounds ℚ 1) (fun _ => 0) 1
    = .error .unboundLocalError := by decide +kernel

end examples

end Tranquilo
