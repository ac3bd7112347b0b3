import Verif.Lemmas.RescaleRun
import Verif.Model.BuiltinRun
import Verif.Spec.Fit
import Mathlib.Tactic.FieldSimp
import Mathlib.Algebra.BigOperators.Field

/-!
# The built in fitters, aggregators and the subproblem template respect a change of units
-/

namespace Tranquilo

variable {K : Type} [Field K] [LinearOrder K] [IsStrictOrderedRing K] {n m N p : Nat}

/-- A vector model in other units: values of residual `k` are multiplied by `r`, then `e k` is added. -/
def VectorModel.rescale (r : K) (e : Vec K m) (v : VectorModel K n m) : VectorModel K n m where
  intercepts k := r * v.intercepts k + e k
  linearTerms k i := r * v.linearTerms k i
  squareTerms := v.squareTerms.map fun h k i j => r * h k i j
  scale := v.scale
  shift := v.shift

/-- A scalar model in other units. -/
def ScalarModel.rescale (c d : K) (s : ScalarModel K n) : ScalarModel K n where
  intercept := c * s.intercept + d
  linearTerms i := c * s.linearTerms i
  squareTerms := s.squareTerms.map fun h i j => c * h i j
  scale := s.scale
  shift := s.shift

theorem halfQuad_mul (r : K) (h : Mat K n n) (x : Vec K n) :
    halfQuad (fun i j => r * h i j) x = r * halfQuad h x := by
  simp only [halfQuad]
  rw [mul_div_assoc', Finset.mul_sum]
  congr 1
  refine Finset.sum_congr rfl fun j _ => ?_
  rw [← mul_assoc, Finset.mul_sum]
  congr 1
  exact Finset.sum_congr rfl fun i _ => by ring

theorem dot_mul_right (r : K) (x g : Vec K n) : dot x (fun i => r * g i) = r * dot x g := by
  simp only [dot, Finset.mul_sum]
  exact Finset.sum_congr rfl fun i _ => by ring

theorem dot_mul_left (r : K) (x g : Vec K n) : dot (fun i => r * g i) x = r * dot g x := by
  simp only [dot, Finset.mul_sum]
  exact Finset.sum_congr rfl fun i _ => by ring

/-- Predictions of the model in the new units are predictions in the new units. -/
theorem ScalarModel.rescale_predict (c d : K) (s : ScalarModel K n) (x : Vec K n) :
    (s.rescale c d).predict x = c * s.predict x + d := by
  simp only [ScalarModel.predict, ScalarModel.rescale, dot_mul_right]
  cases s.squareTerms with
  | none => simp only [Option.map_none]; ring
  | some h => simp only [Option.map_some, halfQuad_mul]; ring

theorem VectorModel.rescale_predict (r : K) (e : Vec K m) (v : VectorModel K n m) (x : Vec K n)
    (k : Fin m) : (v.rescale r e).predict x k = r * v.predict x k + e k := by
  simp only [VectorModel.predict, VectorModel.rescale, dot_mul_left]
  cases v.squareTerms with
  | none => simp only [Option.map_none]; ring
  | some h => simp only [Option.map_some, halfQuad_mul]; ring

theorem VectorModel.rescale_scaleBy (r : K) (e : Vec K m) (v : VectorModel K n m) (f : Vec K n) :
    (v.rescale r e).scaleBy f = (v.scaleBy f).rescale r e := by
  simp only [VectorModel.scaleBy, VectorModel.rescale, Option.map_map]
  congr 1
  · funext k i; ring
  · cases v.squareTerms with
    | none => rfl
    | some h =>
      simp only [Option.map_some, Function.comp, Option.some.injEq]
      funext k i j
      ring

theorem VectorModel.rescale_shiftBy (r : K) (e : Vec K m) (v : VectorModel K n m) (f : Vec K n) :
    (v.rescale r e).shiftBy f = (v.shiftBy f).rescale r e := by
  have hp : (v.rescale r e).predict f = fun k => r * v.predict f k + e k :=
    funext fun k => VectorModel.rescale_predict r e v f k
  simp only [VectorModel.shiftBy, hp]
  simp only [VectorModel.rescale]
  congr 1
  cases v.squareTerms with
  | none => rfl
  | some h =>
    simp only [Option.map_some]
    funext k j
    rw [mul_add, Finset.mul_sum]
    congr 1
    exact Finset.sum_congr rfl fun i _ => by ring

theorem VectorModel.rescale_move (r : K) (e : Vec K m) (cr : K → K) (v : VectorModel K n m)
    (new : Region K n) : (v.rescale r e).move cr new = (v.move cr new).rescale r e := by
  simp only [VectorModel.move, VectorModel.rescale_scaleBy,
    VectorModel.rescale_shiftBy, show (v.rescale r e).scale = v.scale from rfl,
    show (v.rescale r e).shift = v.shift from rfl]

/-- Adding models: the constants add up. -/
theorem VectorModel.rescale_add (r : K) (e e' : Vec K m) (v w : VectorModel K n m) :
    SameOutcome (fun a b => b = a.rescale r (fun k => e k + e' k)) (v.add w)
      ((v.rescale r e).add (w.rescale r e')) := by
  simp only [VectorModel.add, show (v.rescale r e).scale = v.scale from rfl,
    show (v.rescale r e).shift = v.shift from rfl, show (w.rescale r e').scale = w.scale from rfl,
    show (w.rescale r e').shift = w.shift from rfl]
  split_ifs
  · exact rfl
  · exact rfl
  · simp only [VectorModel.rescale]
    cases v.squareTerms <;> cases w.squareTerms
    · simp only [SameOutcome, addSquare, Option.map_none, Bind.bind, Except.bind, pure, Except.pure]
      congr 1
      · funext k; ring
      · funext k i; ring
    · simp only [SameOutcome, addSquare, Option.map_none, Bind.bind, Except.bind, pure, Except.pure]
      congr 1
      · funext k; ring
      · funext k i; ring
    · exact rfl
    · simp only [SameOutcome, addSquare, Option.map_some, Bind.bind, Except.bind, pure, Except.pure]
      congr 1
      · funext k; ring
      · funext k i; ring
      · congr 1
        funext k i j
        ring

/-! ### Aggregation -/

/-- The units of a model that the aggregator gives for residuals in the units `r`, `e`. -/
inductive UnitsAgree (r : K) (e : Vec K m) : String → K → K → Prop
  | identity (k : Fin m) : UnitsAgree r e "identity" r (e k)
  | sum : UnitsAgree r e "sum" r (∑ k, e k)
  | leastSquares (he : e = fun _ => 0) : UnitsAgree r e "least_squares_linear" (r ^ 2) 0

theorem aggregate_rescale {r c d : K} {e : Vec K m} {name : String} (h : UnitsAgree r e name c d)
    (v : VectorModel K n m) :
    SameOutcome (fun a b => b = a.rescale c d) (aggregate name v) (aggregate name (v.rescale r e)) := by
  cases h with
  | identity k =>
    simp only [aggregate, if_true, aggregatorIdentity]
    split_ifs with hm
    · subst hm
      have hk : k = 0 := Subsingleton.elim _ _
      subst hk
      simp only [SameOutcome, aggregateWith, ScalarModel.rescale, VectorModel.rescale]
      congr 2
      cases v.squareTerms with
      | none => simp
      | some q => rfl
    · exact rfl
  | sum =>
    simp only [aggregate, show ¬ "sum" = "identity" by decide, if_false, if_true, aggregatorSum]
    cases hq : v.squareTerms with
    | none => simp only [VectorModel.rescale, hq, Option.map_none]; exact rfl
    | some q =>
      simp only [VectorModel.rescale, hq, Option.map_some]
      simp only [SameOutcome, aggregateWith, ScalarModel.rescale, Option.map_some]
      congr 1
      · rw [Finset.sum_add_distrib, Finset.mul_sum]
      · funext i; rw [Finset.mul_sum]
      · congr 1; funext i j; rw [Finset.mul_sum]
  | leastSquares he =>
    subst he
    simp only [aggregate, show ¬ "least_squares_linear" = "identity" by decide,
      show ¬ "least_squares_linear" = "sum" by decide,
      show ¬ "least_squares_linear" = "information_equality_linear" by decide, if_false, if_true]
    simp only [SameOutcome, aggregatorLeastSquares, aggregateWith, ScalarModel.rescale,
      VectorModel.rescale, Option.map_some, add_zero]
    congr 1
    · rw [Finset.mul_sum]
      exact Finset.sum_congr rfl fun k _ => by ring
    · funext i
      simp only [Finset.mul_sum]
      exact Finset.sum_congr rfl fun k _ => by ring
    · congr 1
      funext i j
      rw [Finset.mul_sum]
      exact Finset.sum_congr rfl fun k _ => by ring

/-! ### The subproblem template -/

/-- A subsolver whose result does not depend on the units of the model. -/
def SolverUnitFree (c d : K) (solver : SubSolver K n) : Prop :=
  ∀ model x, solver (model.rescale c d) x = solver model x

theorem builtinSolve_rescale {c d : K} (hc : 0 < c) (b : BuiltinSettings K n m)
    (h1 : SolverUnitFree c d b.sphere) (h2 : SolverUnitFree c d b.cube)
    (h3 : SolverUnitFree c d b.fallbackSphere) (h4 : SolverUnitFree c d b.fallbackCube)
    (s : ScalarModel K n) (r : Region K n) :
    SameOutcome (SameSub c) (builtinSolve b s r) (builtinSolve b (s.rescale c d) r) := by
  have himp : ∀ x y : Vec K n, -((s.rescale c d).predict x - (s.rescale c d).predict y) =
      c * -(s.predict x - s.predict y) := by
    intro x y
    rw [ScalarModel.rescale_predict, ScalarModel.rescale_predict]
    ring
  simp only [builtinSolve, solveSubproblem, callSolver, h1 _ _, h2 _ _, h3 _ _, h4 _ _, himp,
    mul_nonneg_iff_of_pos_left hc]
  split
  · exact rfl
  · split_ifs
    · exact ⟨rfl, rfl⟩
    · exact ⟨rfl, (mul_zero c).symm⟩

/-! ### Fitting -/

/-- The shortest least squares solution is unique. -/
theorem lstsq_unique (a : Mat K N p) (y : Vec K N) (r r' : Vec K p)
    (hr : ∀ z, residSq a y r ≤ residSq a y z)
    (hrs : ∀ z, residSq a y z = residSq a y r → ∑ k, r k ^ 2 ≤ ∑ k, z k ^ 2)
    (hr' : ∀ z, residSq a y r' ≤ residSq a y z)
    (hrs' : ∀ z, residSq a y z = residSq a y r' → ∑ k, r' k ^ 2 ≤ ∑ k, z k ^ 2) : r = r' := by
  have heq : residSq a y r' = residSq a y r := le_antisymm (hr' r) (hr r')
  have h1 := hrs r' heq
  have h2 := hrs' r heq.symm
  have hmid : residSq a y (fun k => (r k + r' k) / 2) ≤ residSq a y r := by
    have : ∀ s, ((∑ k, a s k * ((r k + r' k) / 2)) - y s) ^ 2 ≤
        (((∑ k, a s k * r k) - y s) ^ 2 + ((∑ k, a s k * r' k) - y s) ^ 2) / 2 := by
      intro s
      have e : ∑ k, a s k * ((r k + r' k) / 2) = ((∑ k, a s k * r k) + ∑ k, a s k * r' k) / 2 := by
        rw [← Finset.sum_add_distrib, Finset.sum_div]
        exact Finset.sum_congr rfl fun k _ => by ring
      rw [e]
      nlinarith [sq_nonneg ((∑ k, a s k * r k) - ∑ k, a s k * r' k)]
    have hs := Finset.sum_le_sum fun s (_ : s ∈ Finset.univ) => this s
    rw [← Finset.sum_div, Finset.sum_add_distrib] at hs
    change residSq a y _ ≤ (residSq a y r + residSq a y r') / 2 at hs
    rw [heq] at hs
    linarith
  have h3 : ∑ k, r k ^ 2 ≤ ∑ k, ((r k + r' k) / 2) ^ 2 := hrs _ (le_antisymm hmid (hr _))
  have h4 : ∑ k, (r k - r' k) ^ 2 = 2 * (∑ k, r k ^ 2) + 2 * (∑ k, r' k ^ 2) -
      4 * ∑ k, ((r k + r' k) / 2) ^ 2 := by
    rw [Finset.mul_sum, Finset.mul_sum, Finset.mul_sum, ← Finset.sum_add_distrib, ← Finset.sum_sub_distrib]
    exact Finset.sum_congr rfl fun k _ => by ring
  have h5 : ∑ k, (r k - r' k) ^ 2 ≤ 0 := by rw [h4]; linarith
  have h6 := (Finset.sum_eq_zero_iff_of_nonneg fun k _ => sq_nonneg (r k - r' k)).1
    (le_antisymm h5 (Finset.sum_nonneg fun k _ => sq_nonneg _))
  funext k
  exact sub_eq_zero.1 (pow_eq_zero_iff two_ne_zero |>.1 (h6 k (Finset.mem_univ k)))

theorem residSq_mul (t : K) (a : Mat K N p) (y : Vec K N) (z : Vec K p) :
    residSq a (fun s => t * y s) (fun k => t * z k) = t ^ 2 * residSq a y z := by
  simp only [residSq, Finset.mul_sum]
  refine Finset.sum_congr rfl fun s _ => ?_
  rw [← mul_pow]
  congr 1
  rw [mul_sub, Finset.mul_sum]
  congr 1
  exact Finset.sum_congr rfl fun k _ => by ring

/-- `np.linalg.lstsq` is homogeneous in the right hand side. -/
theorem lstsq_mul {lstsq : Lstsq K} (hl : LstsqSpec lstsq) {t : K} (ht : 0 < t) (a : Mat K N p)
    (y : Vec K N) : lstsq N p a (fun s => t * y s) = fun k => t * lstsq N p a y k := by
  have hback : ∀ z : Vec K p, (fun k => t * (t⁻¹ * z k)) = z := by
    intro z
    funext k
    rw [mul_inv_cancel_left₀ ht.ne']
  have hsq : ∀ z : Vec K p, ∑ k, (t * z k) ^ 2 = t ^ 2 * ∑ k, z k ^ 2 := by
    intro z
    rw [Finset.mul_sum]
    exact Finset.sum_congr rfl fun k _ => by ring
  have ht2 : 0 < t ^ 2 := pow_pos ht 2
  refine lstsq_unique a (fun s => t * y s) _ _ (hl.least _ _ _ _) (hl.shortest _ _ _ _)
    (fun z => ?_) fun z hz => ?_
  · rw [residSq_mul, ← hback z, residSq_mul]
    exact mul_le_mul_of_nonneg_left (hl.least _ _ _ _ _) ht2.le
  · rw [residSq_mul, ← hback z, residSq_mul] at hz
    rw [hsq, ← hback z, hsq]
    exact mul_le_mul_of_nonneg_left (hl.shortest _ _ _ _ _ (mul_left_cancel₀ ht2.ne' hz)) ht2.le

/-- All built in fitters are homogeneous in the values. -/
theorem builtinFitter_mul (b : BuiltinSettings K n m) (hl : LstsqSpec b.lstsq) {t : K} (ht : 0 < t)
    (xs : Fin N → Vec K n) (y : Vec K N) :
    SameOutcome (fun u u' => u' = fun k => t * u k) (builtinFitter b xs y)
      (builtinFitter b xs fun s => t * y s) := by
  have hw : ∀ {q : Nat} (a : Vec K q), weightVec b.root none (fun s => t * a s) =
      fun s => t * weightVec b.root none a s := fun a => rfl
  have hols : ∀ mt, fitOls b.lstsq b.root mt xs (fun s => t * y s) none =
      fun k => t * fitOls b.lstsq b.root mt xs y none k := by
    intro mt
    simp only [fitOls, hw, lstsq_mul hl ht]
  simp only [builtinFitter]
  cases b.fitter with
  | ols => exact hols _
  | ridge pl ps =>
    simp only [SameOutcome, fitRidge, fitRidgeRaw, hw]
    rw [← lstsq_mul hl ht]
    congr 1
    funext i
    rw [Finset.mul_sum]
    exact Finset.sum_congr rfl fun s _ => by ring
  | tranquilo pi pl ps =>
    simp only [SameOutcome, fitTranquilo, hw, lstsq_mul hl ht]
    funext k
    ring
  | powell =>
    simp only [fitPowell]
    split_ifs with h1 h2
    · simp only [SameOutcome, hols]
      funext k
      split_ifs
      · rfl
      · ring
    · exact hols _
    · simp only [fitMinFrobenius]
      split_ifs with h3
      · exact rfl
      · have hsec : secondStage b.lstsq (b.qr N xs) xs (fun s => t * y s) =
            fun k => t * secondStage b.lstsq (b.qr N xs) xs y k := by
          have e : (fun j => ∑ s, zMat n (b.qr N xs) s j * (t * y s)) =
              fun j => t * ∑ s, zMat n (b.qr N xs) s j * y s := by
            funext j
            rw [Finset.mul_sum]
            exact Finset.sum_congr rfl fun s _ => by ring
          simp only [secondStage, e, lstsq_mul hl ht]
          funext k
          rw [Finset.mul_sum]
          exact Finset.sum_congr rfl fun j _ => by ring
        have hlin : ∀ z : Vec K (nSecondOrderTerms n),
            linearStage b.lstsq xs (fun s => t * y s) (fun k => t * z k) =
              fun k => t * linearStage b.lstsq xs y z k := by
          intro z
          simp only [linearStage]
          rw [← lstsq_mul hl ht]
          congr 1
          funext s
          split_ifs
          · rw [mul_sub, Finset.mul_sum]
            congr 1
            exact Finset.sum_congr rfl fun j _ => by ring
          · ring
        simp only [SameOutcome, hsec, hlin]
        funext k
        split_ifs <;> ring

theorem collectColumns_mul {t : K} {f f' : Fin m → Except Err (Vec K p)}
    (h : ∀ k, SameOutcome (fun u u' => u' = fun i => t * u i) (f k) (f' k)) :
    SameOutcome (fun u u' => u' = fun k i => t * u k i) (collectColumns f) (collectColumns f') := by
  have hl : ∀ l : List (Fin m), SameOutcome (fun u u' : List (Vec K p) =>
      u' = u.map fun v i => t * v i) (l.mapM f) (l.mapM f') := by
    intro l
    induction l with
    | nil => exact rfl
    | cons k l ih =>
      simp only [List.mapM_cons]
      refine SameOutcome.bind (h k) fun u u' _ hu => ?_
      refine SameOutcome.bind ih fun v v' _ hv => ?_
      subst hu hv
      exact rfl
  simp only [collectColumns]
  refine SameOutcome.bind (hl _) fun u u' _ hu => ?_
  subst hu
  simp only [SameOutcome, pure, Except.pure]
  funext k i
  simp only [List.getD_eq_getElem?_getD, List.getElem?_map]
  cases u[k.val]? <;> simp

theorem reshape_mul (t : K) (l : List K) (i j : Fin n) :
    reshapeToHess n (l.map fun v => t * v) i j = t * reshapeToHess n l i j := by
  have hlook : ∀ (q : List (Fin n × Fin n)) (l : List K) (a : Fin n × Fin n),
      ((q.zip (l.map fun v => t * v)).lookup a).getD 0 = t * ((q.zip l).lookup a).getD 0 := by
    intro q
    induction q with
    | nil => intro l a; simp
    | cons b q ih =>
      intro l a
      cases l with
      | nil => simp
      | cons v l =>
        simp only [List.map_cons, List.zip_cons_cons, List.lookup_cons]
        cases a == b
        · exact ih l a
        · rfl
  simp only [reshapeToHess, hlook]
  split_ifs <;> ring

theorem modelOfCoef_mul (t : K) (mt : ModelType) (coef : Fin m → Vec K (nCols n mt)) (shift scale : Vec K n) :
    modelOfCoef mt (fun k i => t * coef k i) shift scale =
      (modelOfCoef mt coef shift scale).rescale t fun _ => 0 := by
  have hof : ∀ k, List.ofFn (fun i => t * coef k i) = (List.ofFn (coef k)).map fun v => t * v := by
    intro k
    rw [List.map_ofFn]
    rfl
  have hget : ∀ (l : List K) (i : Nat), (l.map fun v => t * v).getD i 0 = t * l.getD i 0 := by
    intro l i
    simp only [List.getD_eq_getElem?_getD, List.getElem?_map]
    cases l[i]? <;> simp
  simp only [modelOfCoef, VectorModel.rescale, hof, hget, add_zero]
  congr 1
  cases mt with
  | linear => rfl
  | quadratic =>
    simp only [Option.map_some, Option.some.injEq]
    funext k i j
    rw [hof, ← List.map_drop, reshape_mul]

theorem clipColumns_finite (y : Fin N → Fin m → XVal K) (z : Fin N → Fin m → K)
    (h : ∀ s k, y s k = .fin (z s k)) : clipColumns y = z := by
  funext s k
  simp only [clipColumns, clipRelative, List.map_ofFn]
  simp [List.getD_eq_getElem?_getD, List.getElem?_ofFn, h, replaceInfinite]

/-- The fitter template on finite data: with `residualize` the constants of the old model carry over,
without it there must be none. -/
theorem fitTemplate_rescale (b : BuiltinSettings K n m) (hl : LstsqSpec b.lstsq) {r : K} (hr : 0 < r)
    (e : Vec K m) (he : b.residualize = true ∨ e = fun _ => 0) (region : Region K n)
    (old : VectorModel K n m) (xs : Fin N → Vec K n) (y : Fin N → Fin m → XVal K)
    (hy : ∀ s k, (y s k).isFinite = true) :
    SameOutcome (fun v v' => v' = v.rescale r e) (builtinFitTemplate b region old xs y)
      (builtinFitTemplate b region (old.rescale r e) xs fun s k => (y s k).rescale r (e k)) := by
  choose z hz using fun s k => (XVal.isFinite_iff (y s k)).1 (hy s k)
  have h1 : clipColumns y = z := clipColumns_finite y z hz
  have h2 : clipColumns (fun s k => (y s k).rescale r (e k)) = fun s k => r * z s k + e k :=
    clipColumns_finite _ _ fun s k => by rw [hz]; rfl
  simp only [builtinFitTemplate, h1, h2, VectorModel.rescale_move, VectorModel.rescale_predict]
  split_ifs with hreg hres
  · exact rfl
  · have hcol : ∀ k, (fun s => r * z s k + e k - (r * (old.move b.cubeRadius region).predict
        (region.mapToUnit b.cubeRadius (xs s)) k + e k)) = fun s => r * (z s k -
          (old.move b.cubeRadius region).predict (region.mapToUnit b.cubeRadius (xs s)) k) := by
      intro k
      funext s
      ring
    simp only [hcol]
    refine SameOutcome.bind (collectColumns_mul fun k => builtinFitter_mul b hl hr _ _)
      fun u u' _ hu => ?_
    subst hu
    rw [modelOfCoef_mul]
    have := VectorModel.rescale_add r (fun _ => 0) e (modelOfCoef b.modelType u
      (region.effectiveCenter b.cubeRadius) (region.effectiveRadius b.cubeRadius))
      (old.move b.cubeRadius region)
    simpa only [zero_add] using this
  · have he : e = fun _ => 0 := he.resolve_left hres
    subst he
    simp only [add_zero]
    refine SameOutcome.bind (collectColumns_mul fun k => builtinFitter_mul b hl hr _ _)
      fun u u' _ hu => ?_
    subst hu
    rw [modelOfCoef_mul]
    exact rfl

end Tranquilo
