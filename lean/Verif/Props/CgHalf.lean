import Verif.Props.CgTermination

/-!
# C111: the conjugate gradient step makes at least half of the possible progress

On a convex model the step of `minimize_trust_cg` reduces the model by at least half of the largest reduction that is
possible in the trust region. The proof compares the step with a dual point: a nonnegative combination of the iterates
at which the gradient of the model is a negative multiple of the step.
-/

namespace Tranquilo

variable {K : Type} [Field K] [LinearOrder K] [IsStrictOrderedRing K] {n : Nat}

theorem quadForm_nonneg {h : Mat K n n} (hconv : PosSemidef h) (v : Vec K n) : 0 ≤ quadForm h v := by
  have := hconv v
  have e : quadForm h v = ∑ i, ∑ j, h i j * v i * v j := by
    rw [quadForm_eq_dot]
    simp only [dot, matVec, Finset.mul_sum]
    exact Finset.sum_congr rfl fun i _ => Finset.sum_congr rfl fun j _ => by ring
  rwa [e]

/-- The dual side of a state of the loop: `a`, `c`, `e` are the sums of `1`, `b`, `b²` over the squared residuals of all
states so far, where `b` is twice the reduction at the state; `w` and `u` are the corresponding sums of the iterates. -/
structure CgDual (g : Vec K n) (h : Mat K n n) (s : CgState K n) (b a c e : K) (w u : Vec K n) : Prop where
  gradient : ∀ i, a * g i + matVec h w i = -(s.direction i) / dot s.residual s.residual
  moment : ∀ i, c * g i + matVec h u i = s.x i - b / dot s.residual s.residual * s.direction i
  norm : dot s.direction s.direction = dot s.residual s.residual ^ 2 * a
  cross : dot s.x s.direction = dot s.residual s.residual * (b * a - c)
  length : dot s.x s.x = e + b ^ 2 * a - 2 * b * c
  form : ∀ t, b ≤ t → quadForm h (fun i => t * w i + -1 * u i) ≤ (t * a - c) * (t * c - e)
  pos : 0 < a
  ordered : c ≤ b * a
  strict : c < b * a ∨ s.x = fun _ => 0
  reduction : quadModel g h s.x = -(b / 2)
  curvature : quadForm h s.x = b

theorem cgDual_start (g : Vec K n) (h : Mat K n n) (hg : dot g g ≠ 0) :
    CgDual g h (cgStart g) 0 (1 / dot g g) 0 0 (fun _ => 0) (fun _ => 0) := by
  have hz : matVec h (fun _ => (0 : K)) = fun _ => 0 := by funext i; simp [matVec]
  have hgg : 0 < dot g g := lt_of_le_of_ne (dot_self_nonneg g) hg.symm
  have hq0 : quadForm h (fun _ => (0 : K)) = 0 := by rw [quadForm_eq_dot, dot_zero_left]
  refine ⟨fun i => ?_, fun i => ?_, ?_, ?_, ?_, fun t _ => ?_, by positivity, by simp, .inr rfl, ?_, ?_⟩
  · simp only [cgStart, hz]; field_simp; ring
  · simp [cgStart, hz]
  · simp only [cgStart]; rw [dot_neg_left, dot_neg_right, neg_neg]; field_simp
  · simp only [cgStart]; rw [dot_zero_left]; ring
  · simp only [cgStart]; rw [dot_zero_left]; ring
  · have : (fun i : Fin n => t * (fun _ => (0 : K)) i + -1 * (fun _ => (0 : K)) i) = fun _ => 0 := by
      funext i; ring
    rw [this, hq0]; simp
  · simp only [cgStart]
    rw [quadModel_eq, dot_zero_right, hq0]; ring
  · simpa [cgStart] using hq0

theorem cgDual_update (g : Vec K n) (h : Mat K n n) (hs : SymmetricMat h) (hconv : PosSemidef h)
    (s : CgState K n) (radius : K) (inv : CgInv g h radius s) {b a c e : K} {w u : Vec K n}
    (dual : CgDual g h s b a c e w u)
    (hr : 0 < dot s.residual s.residual) (hq : 0 < quadForm h s.direction)
    (s' : CgState K n) (hs' : s' = cgUpdate h s (dot s.residual s.residual / quadForm h s.direction))
    (inv' : CgInv g h radius s')
    (hr' : 0 < dot s'.residual s'.residual) (hrx : dot s'.residual s.x = 0) (hrd : dot s'.residual s.direction = 0) :
    CgDual g h s' (b + dot s.residual s.residual / quadForm h s.direction * dot s.residual s.residual)
      (a + 1 / dot s'.residual s'.residual)
      (c + (b + dot s.residual s.residual / quadForm h s.direction * dot s.residual s.residual)
        / dot s'.residual s'.residual)
      (e + (b + dot s.residual s.residual / quadForm h s.direction * dot s.residual s.residual) ^ 2
        / dot s'.residual s'.residual)
      (fun i => w i + 1 / dot s'.residual s'.residual * s'.x i)
      (fun i => u i + (b + dot s.residual s.residual / quadForm h s.direction * dot s.residual s.residual)
        / dot s'.residual s'.residual * s'.x i) := by
  set ρ := dot s.residual s.residual with hρ
  set α := ρ / quadForm h s.direction with hα
  have hα0 : 0 < α := div_pos hr hq
  have hαq : α * quadForm h s.direction = ρ := by rw [hα]; field_simp
  have hx' : s'.x = fun i => s.x i + α * s.direction i := by rw [hs']; rfl
  set ρ' := dot s'.residual s'.residual with hρ'
  have hd' : s'.direction = fun i => -(s'.residual i) + ρ' / ρ * s.direction i := by rw [hρ', hs']; rfl
  set b' := b + α * ρ with hb'
  have hbb : b < b' := by rw [hb']; nlinarith [mul_pos hα0 hr]
  have hdd : ∀ v, dot v s'.direction = -dot v s'.residual + ρ' / ρ * dot v s.direction := fun v => by
    have e : s'.direction = fun i => (fun i => -(s'.residual i)) i + ρ' / ρ * s.direction i := hd'
    rw [e, dot_axpy_right, dot_neg_right]
  have hxx : ∀ v, dot v s'.x = dot v s.x + α * dot v s.direction := fun v => by rw [hx', dot_axpy_right]
  have hrx' : dot s'.residual s'.x = 0 := by rw [hxx, hrx, hrd]; ring
  have hred : quadModel g h s'.x = -(b' / 2) := by
    rw [hx', quadModel_axpy g h hs, ← inv.residual, inv.descent, dual.reduction, ← hρ, hb']
    linear_combination α / 2 * hαq
  have hcurv : quadForm h s'.x = b' := by
    have h1 : dot s'.residual s'.x = dot g s'.x + quadForm h s'.x := by
      rw [inv'.residual]
      have := dot_axpy g (matVec h s'.x) s'.x 1
      rw [quadForm_eq_dot, dot_comm s'.x (matVec h s'.x)]
      simpa using this
    rw [quadModel_eq] at hred
    rw [hrx'] at h1
    linarith
  have hρ0 : ρ ≠ 0 := hr.ne'
  have hρ'0 : ρ' ≠ 0 := hr'.ne'
  refine ⟨fun i => ?_, fun i => ?_, ?_, ?_, ?_, fun t ht => ?_, ?_, ?_, ?_, hred, hcurv⟩
  · rw [matVec_axpy]
    have h1 := dual.gradient i
    have h2 : s'.residual i = g i + matVec h s'.x i := congrFun inv'.residual i
    rw [← hρ] at h1
    rw [← hρ', hd']
    simp only
    field_simp at h1 ⊢
    linear_combination ρ' * h1 - ρ * h2
  · rw [matVec_axpy]
    have h1 := dual.moment i
    have h2 : s'.residual i = g i + matVec h s'.x i := congrFun inv'.residual i
    rw [← hρ] at h1
    rw [← hρ', hd']
    have h3 : s'.x i = s.x i + α * s.direction i := congrFun hx' i
    simp only
    rw [eq_comm, h3, ← sub_eq_zero]
    have h4 : s.x i = c * g i + matVec h u i + b / ρ * s.direction i := by linear_combination -h1
    rw [h4, h2]
    rw [hb']
    field_simp
    ring
  · have e1 : dot s'.direction s'.residual = -ρ' := by rw [dot_comm, hdd, hrd, ← hρ']; ring
    have e2 : dot s'.direction s.direction = ρ' / ρ * (ρ ^ 2 * a) := by
      rw [dot_comm, hdd, dot_comm _ s'.residual, hrd, dual.norm, ← hρ]; ring
    rw [hdd, e1, e2, ← hρ']
    field_simp; ring
  · rw [hdd, dot_comm _ s'.residual, hrx', dot_comm _ s.direction, hxx, dot_comm _ s.x, dual.cross, dual.norm, ← hρ,
      ← hρ', hb']
    field_simp; ring
  · rw [hx', norm_axpy, dual.cross, dual.norm, dual.length, ← hρ, hb']
    field_simp; ring
  · have hb't : b < t := lt_of_lt_of_le hbb ht
    have hS : 0 < t * a - c := by nlinarith [mul_pos (sub_pos.2 hb't) dual.pos, dual.ordered]
    have hf := dual.form t hb't.le
    set X : Vec K n := fun i => t * w i + -1 * u i with hX
    have hv : (fun i => t * (w i + 1 / ρ' * s'.x i) + -1 * (u i + b' / ρ' * s'.x i))
        = fun i => X i + (t - b') / ρ' * s'.x i := by
      funext i; rw [hX]; field_simp; ring
    rw [hv, quadForm_axpy h hs, hcurv]
    set k := (t - b') / ρ' with hk
    have hk0 : 0 ≤ k := div_nonneg (by linarith) hr'.le
    have hpsd := quadForm_nonneg hconv fun i => X i + (-(t * a - c)) * s'.x i
    rw [quadForm_axpy h hs, hcurv] at hpsd
    have key : 2 * dot (matVec h X) s'.x ≤ (t * c - e) + (t * a - c) * b' := by
      have : (t * a - c) * (2 * dot (matVec h X) s'.x) ≤ (t * a - c) * ((t * c - e) + (t * a - c) * b') := by
        nlinarith
      exact le_of_mul_le_mul_left this hS
    have e1 : t * (a + 1 / ρ') - (c + b' / ρ') = (t * a - c) + k := by rw [hk]; field_simp; ring
    have e2 : t * (c + b' / ρ') - (e + b' ^ 2 / ρ') = (t * c - e) + k * b' := by rw [hk]; field_simp; ring
    rw [e1, e2]
    nlinarith [mul_nonneg hk0 (sub_nonneg.2 key)]
  · have := dual.pos; positivity
  · have h1 := dual.ordered
    have h2 := mul_pos (sub_pos.2 hbb) dual.pos
    have : b' * (a + 1 / ρ') - (c + b' / ρ') = (b' - b) * a + (b * a - c) := by field_simp; ring
    linarith
  · left
    have h1 := dual.ordered
    have h2 := mul_pos (sub_pos.2 hbb) dual.pos
    have : b' * (a + 1 / ρ') - (c + b' / ρ') = (b' - b) * a + (b * a - c) := by field_simp; ring
    linarith

/-- The step to the boundary makes at least half of the possible progress. -/
theorem cgDual_boundary (g : Vec K n) (h : Mat K n n) (hs : SymmetricMat h) (hconv : PosSemidef h)
    (s : CgState K n) (radius : K) (inv : CgInv g h radius s) {b a c e : K} {w u : Vec K n}
    (dual : CgDual g h s b a c e w u) (hr : 0 < dot s.residual s.residual) (τ : K) (hτ : 0 ≤ τ)
    (hstep : τ * quadForm h s.direction ≤ dot s.residual s.residual)
    (hnorm : dot (fun i => s.x i + τ * s.direction i) (fun i => s.x i + τ * s.direction i) = radius ^ 2)
    (y : Vec K n) (hy : dot y y ≤ radius ^ 2) :
    quadModel g h (fun i => s.x i + τ * s.direction i) ≤ quadModel g h y / 2 := by
  set ρ := dot s.residual s.residual with hρ
  set x' : Vec K n := fun i => s.x i + τ * s.direction i with hx'
  set t := b + τ * ρ with ht
  have hbt : b ≤ t := by rw [ht]; nlinarith [mul_nonneg hτ hr.le]
  have hred : quadModel g h x' ≤ -(t / 2) := by
    rw [hx', quadModel_axpy g h hs, ← inv.residual, inv.descent, dual.reduction, ← hρ, ht]
    nlinarith [mul_nonneg hτ (sub_nonneg.2 hstep)]
  have hlen : radius ^ 2 = t ^ 2 * a - 2 * t * c + e := by
    rw [← hnorm, norm_axpy, dual.length, dual.cross, dual.norm, ← hρ, ht]; ring
  have hxy : dot x' y ≤ radius ^ 2 := by
    have h1 := cauchy_schwarz x' y
    have h2 : (dot x' y) ^ 2 ≤ (radius ^ 2) ^ 2 := h1.trans (by
      rw [hnorm, sq (radius ^ 2)]; exact mul_le_mul_of_nonneg_left hy (sq_nonneg _))
    exact (abs_le.1 (abs_le_of_sq_le_sq h2 (sq_nonneg _))).2
  have hyform := quadForm_nonneg hconv y
  by_cases hS : 0 < t * a - c
  · have hf := dual.form t hbt
    set X : Vec K n := fun i => t * w i + -1 * u i with hX
    have hXf := quadForm_nonneg hconv X
    set S := t * a - c with hSdef
    have hgrad : ∀ i, S * g i + matVec h X i = -(x' i) := by
      intro i
      have h1 := dual.gradient i
      have h2 := dual.moment i
      have h3 : matVec h X i = t * matVec h w i + -1 * matVec h u i := by
        have e1 : X = fun i => (fun i => t * w i) i + -1 * u i := rfl
        have e2 : matVec h (fun i => t * w i) i = t * matVec h w i := by
          simp only [matVec, Finset.mul_sum]
          exact Finset.sum_congr rfl fun j _ => by ring
        rw [e1, matVec_axpy]
        beta_reduce
        rw [e2]
      rw [h3, hSdef, hx', ht]
      rw [← hρ] at h1 h2
      have hρ0 : ρ ≠ 0 := hr.ne'
      field_simp at h1 h2
      have : ρ * ((b + τ * ρ) * a - c) * g i + ρ * ((b + τ * ρ) * matVec h w i + -1 * matVec h u i)
          = -(ρ * (s.x i + τ * s.direction i)) := by
        linear_combination (b + τ * ρ) * h1 - h2
      apply mul_left_cancel₀ hρ0
      linear_combination this
    -- the dual bound
    have hpsd := quadForm_nonneg hconv fun i => X i + (-S) * y i
    rw [quadForm_axpy h hs] at hpsd
    have hdot : S * dot g y + dot (matVec h X) y = -dot x' y := by
      simp only [dot, Finset.mul_sum, ← Finset.sum_neg_distrib, ← Finset.sum_add_distrib]
      exact Finset.sum_congr rfl fun i _ => by linear_combination y i * hgrad i
    rw [quadModel_eq g h y]
    have hZ : 0 ≤ t * c - e := by
      by_contra hc
      push Not at hc
      nlinarith [mul_pos hS (sub_pos.2 hc)]
    have hfin : S * (-(dot g y + quadForm h y / 2)) ≤ S * t := by
      have hSS : S * (S * (-(dot g y + quadForm h y / 2))) ≤ S * (S * t) := by
        have h1 : S * (S * dot g y) = S * (-dot x' y) - S * dot (matVec h X) y := by
          rw [← hdot]; ring
        have h2 : S * radius ^ 2 + (S * (t * c - e)) / 2 ≤ S * (S * t) := by
          rw [hlen, hSdef]
          nlinarith [mul_nonneg hS.le hZ]
        nlinarith [mul_le_mul_of_nonneg_left hxy hS.le]
      exact le_of_mul_le_mul_left hSS hS
    have := le_of_mul_le_mul_left hfin hS
    linarith
  · -- only at the start, with radius zero
    push Not at hS
    have hta : b * a ≤ t * a := mul_le_mul_of_nonneg_right hbt dual.pos.le
    have hx0 : s.x = fun _ => 0 := dual.strict.resolve_left (by linarith)
    have hba : b * a = t * a := by linarith [dual.ordered]
    have hb : b = t := mul_right_cancel₀ dual.pos.ne' hba
    have hτ0 : τ = 0 := by
      have : τ * ρ = 0 := by linarith
      exact (mul_eq_zero.1 this).resolve_right hr.ne'
    have hx0' : x' = fun _ => 0 := by rw [hx', hx0, hτ0]; funext i; simp
    have hR : radius ^ 2 = 0 := by rw [← hnorm, hx0', dot_zero_left]
    have hyz : y = fun _ => 0 := by
      by_contra hne
      have := dot_self_pos hne
      linarith
    rw [hx0', hyz, quadModel_eq, quadForm_eq_dot, dot_zero_right, dot_zero_left]; simp

/-- The loop makes at least half of the possible progress, up to the tolerance. -/
theorem cgLoop_half (root : K → K) (hroot : SqrtSpec root) (g : Vec K n) (h : Mat K n n) (hs : SymmetricMat h)
    (hconv : PosSemidef h) (radius tol : K) (hradius : 0 ≤ radius) (htol : 0 ≤ tol) (y : Vec K n)
    (hy : dot y y ≤ radius ^ 2) (k : Nat) :
    ∀ (s : CgState K n) (ps : List (Vec K n × Vec K n)), CgInv g h radius s →
      CgPast h ps s.residual s.direction → (∀ v, (∀ q ∈ ps, dot v q.2 = 0) → dot v s.x = 0) →
      quadModel g h s.x ≤ 0 →
      (dot s.residual s.residual ≠ 0 → ∃ b a c e w u, CgDual g h s b a c e w u) → n < k + ps.length →
      quadModel g h (cgLoop root (cgDistance root) cgUpdate h radius tol k s)
        ≤ (quadModel g h y + radius * tol) / 2 := by
  induction k with
  | zero =>
    intro s ps _ past _ _ _ hk
    have := length_le_of_orthogonal ps past.orthogonal past.nonzero
    omega
  | succ k ih =>
    intro s ps inv past hspan hneg hdual hk
    simp only [cgLoop]
    have hrx : dot s.residual s.x = 0 := hspan _ past.directions
    split
    · rename_i h1
      -- the gradient is below the tolerance
      set r := s.residual with hr
      have hrr : dot r r ≤ tol ^ 2 := by
        obtain ⟨i1, i2⟩ := hroot _ (dot_self_nonneg r)
        have : root (dot r r) * root (dot r r) ≤ tol * tol := mul_self_le_mul_self i1 h1
        rw [i2] at this
        linarith [sq tol]
      have hry : (dot r y) ^ 2 ≤ (radius * tol) ^ 2 := by
        calc (dot r y) ^ 2 ≤ dot r r * dot y y := cauchy_schwarz r y
          _ ≤ tol ^ 2 * radius ^ 2 := mul_le_mul hrr hy (dot_self_nonneg y) (sq_nonneg _)
          _ = _ := by ring
      have habs := (abs_le.1 (abs_le_of_sq_le_sq hry (by positivity))).1
      have hline := quadModel_axpy g h hs s.x (fun i => y i + -1 * s.x i) 1
      have hyx : (fun i => s.x i + 1 * (fun i => y i + -1 * s.x i) i) = y := by funext i; ring
      rw [hyx, ← inv.residual, dot_axpy_right, ← hr, hrx] at hline
      have := quadForm_nonneg hconv fun i => y i + -1 * s.x i
      linarith
    · rename_i htol'
      have hrr := norm2_pos hroot htol htol'
      have hdd := direction_pos hrr inv.descent
      obtain ⟨b, a, c, e, w, u, dual⟩ := hdual hrr.ne'
      obtain ⟨d0, d1, d2⟩ := cgDistance_spec root hroot s.x s.direction radius hdd inv.inside
      split
      · rename_i hb
        have hstep : cgDistance root s.x s.direction radius * quadForm h s.direction ≤ dot s.residual s.residual := by
          have hqn := quadForm_nonneg hconv s.direction
          rcases hb with hb | hb
          · have : quadForm h s.direction = 0 := le_antisymm hb hqn
            rw [this, mul_zero]; exact hrr.le
          · rcases eq_or_lt_of_le hqn with h0 | h0
            · rw [← h0, mul_zero]; exact hrr.le
            · rw [lt_div_iff₀ h0] at hb
              exact hb.le
        have := cgDual_boundary g h hs hconv s radius inv dual hrr _ d0 hstep (by rw [norm_axpy]; exact d1) y hy
        have h0 : 0 ≤ radius * tol := mul_nonneg hradius htol
        linarith
      · rename_i hb
        push Not at hb
        obtain ⟨hq, hb⟩ := hb
        have hα0 : 0 ≤ dot s.residual s.residual / quadForm h s.direction := div_nonneg hrr.le hq.le
        have hin : dot (cgUpdate h s (dot s.residual s.residual / quadForm h s.direction)).x
            (cgUpdate h s (dot s.residual s.residual / quadForm h s.direction)).x ≤ radius ^ 2 := by
          simp only [cgUpdate]
          rw [norm_axpy]
          exact d2 _ hα0 hb
        have inv' := cgInv_update g h radius s inv hq hin
        have past' := cgPast_update h hs ps s past hrr.ne' hq.ne'
        have hpast : ∀ q ∈ ps, dot (cgUpdate h s (dot s.residual s.residual / quadForm h s.direction)).residual q.2 = 0 :=
          fun q hq => past'.directions q (by simp [hq])
        have hd : dot (cgUpdate h s (dot s.residual s.residual / quadForm h s.direction)).residual s.direction = 0 :=
          past'.directions (s.residual, s.direction) (by simp)
        refine ih _ ((s.residual, s.direction) :: ps) inv' past' ?_ ?_ ?_ ?_
        · intro v hv
          simp only [cgUpdate]
          rw [dot_axpy_right, hspan v fun q hq => hv q (by simp [hq]), hv (s.residual, s.direction) (by simp)]
          ring
        · simp only [cgUpdate]
          rw [quadModel_axpy g h hs, ← inv.residual, inv.descent]
          set α := dot s.residual s.residual / quadForm h s.direction with hα
          have : α * quadForm h s.direction = dot s.residual s.residual := by
            rw [hα]; field_simp
          nlinarith [mul_nonneg hα0 hrr.le]
        · intro hne
          exact ⟨_, _, _, _, _, _, cgDual_update g h hs hconv s radius inv dual hrr hq _ rfl inv'
            (lt_of_le_of_ne (dot_self_nonneg _) hne.symm) (hspan _ hpast) hd⟩
        · simp only [List.length_cons]
          omega

/-- C111: on a convex model the step of `minimize_trust_cg` reduces the model by at least half of the reduction that any
point `y` of the trust region achieves, up to half of the radius times the tolerance on the gradient. The model value
of no step is zero. -/
theorem C111_half_of_possible_progress (root : K → K) (hroot : SqrtSpec root) (g : Vec K n) (h : Mat K n n)
    (hs : SymmetricMat h) (hconv : PosSemidef h) (radius gtolAbs gtolRel : K) (hradius : 0 ≤ radius)
    (htol : 0 ≤ gtolAbs) (y : Vec K n) (hy : NormLe y radius) :
    quadModel g h (minimizeCg root g h radius gtolAbs gtolRel)
      ≤ (quadModel g h y + radius * max gtolAbs (gtolRel * norm2 root g)) / 2 := by
  have ht : 0 ≤ max gtolAbs (gtolRel * norm2 root g) := le_max_of_le_left htol
  rw [NormLe, sumSq_eq_dot] at hy
  have h0 : quadModel g h (fun _ => 0) = 0 := by
    rw [quadModel_eq, quadForm_eq_dot, dot_zero_right, dot_zero_left]; simp
  rcases Nat.eq_zero_or_pos n with hn | hn
  · subst hn
    have e : ∀ v : Vec K 0, quadModel g h v = 0 := fun v => by
      rw [show v = fun _ => 0 from Subsingleton.elim _ _]; exact h0
    rw [e, e, zero_add]
    exact div_nonneg (mul_nonneg hradius ht) two_pos.le
  · refine cgLoop_half root hroot g h hs hconv radius _ hradius ht y hy (n * 2) (cgStart g) [] (cgInv_start g h radius)
      ?_ ?_ ?_ (fun hne => ⟨_, _, _, _, _, _, cgDual_start g h hne⟩) (by simp; omega)
    · refine ⟨by simp, by simp, by simp, by simp, fun v _ hv => ?_, by simp, (cgInv_start g h radius).descent, .nil,
        by simp⟩
      simp only [cgStart] at hv ⊢
      rw [dot_neg_right, neg_eq_zero] at hv
      exact hv
    · intro v _
      simp only [cgStart]
      exact dot_zero_right v
    · simp only [cgStart]
      exact h0.le

/-- C111 without tolerance: at least half of the possible reduction. -/
theorem C111_without_tolerance (root : K → K) (hroot : SqrtSpec root) (g : Vec K n) (h : Mat K n n)
    (hs : SymmetricMat h) (hconv : PosSemidef h) (radius : K) (hradius : 0 ≤ radius) (y : Vec K n)
    (hy : NormLe y radius) :
    quadModel g h (minimizeCg root g h radius 0 0) ≤ quadModel g h y / 2 := by
  have := C111_half_of_possible_progress root hroot g h hs hconv radius 0 0 hradius le_rfl y hy
  simpa using this

/-- C111 for the numba version. -/
theorem C111_numba_version (root : K → K) (hroot : SqrtSpec root) (g : Vec K n) (h : Mat K n n)
    (hs : SymmetricMat h) (hconv : PosSemidef h) (radius gtolAbs gtolRel : K) (hradius : 0 ≤ radius)
    (htol : 0 ≤ gtolAbs) (y : Vec K n) (hy : NormLe y radius) :
    quadModel g h (minimizeCgFast root g h radius gtolAbs gtolRel)
      ≤ (quadModel g h y + radius * max gtolAbs (gtolRel * norm2 root g)) / 2 := by
  rw [C73_conjugate_gradient]
  exact C111_half_of_possible_progress root hroot g h hs hconv radius gtolAbs gtolRel hradius htol y hy

theorem root_eq {root : K → K} (hroot : SqrtSpec root) {a b : K} (hb : 0 ≤ b) (h : b * b = a) : root a = b := by
  obtain ⟨h1, h2⟩ := hroot a (h ▸ mul_self_nonneg b)
  exact (mul_self_inj h1 hb).1 (h2.trans h.symm)

/-- The step for the models of the next theorem. -/
theorem cg_sharp_step (root : K → K) (hroot : SqrtSpec root) (k : K) (hk : 0 < k) :
    minimizeCg root ![1, 0] ![![1, -k], ![-k, k ^ 2]] 1 0 0 = ![-1, 0] := by
  have r1 : root 1 = 1 := root_eq hroot zero_le_one (one_mul 1)
  have r2 : root (k * k) = k := root_eq hroot hk.le rfl
  have r3 : root (k * k * (k * k)) = k * k := root_eq hroot (by positivity) rfl
  have e0 : norm2 root (![1, 0] : Vec K 2) = 1 := by simp [norm2, dot, Fin.sum_univ_two, r1]
  have hstart : (cgStart (![1, 0] : Vec K 2)).residual = ![1, 0] := rfl
  have hd : (cgStart (![1, 0] : Vec K 2)).direction = ![-1, 0] := by
    funext i; fin_cases i <;> simp [cgStart]
  have hx : (cgStart (![1, 0] : Vec K 2)).x = ![0, 0] := by
    funext i; fin_cases i <;> simp [cgStart]
  have q0 : quadForm ![![1, -k], ![-k, k ^ 2]] (![-1, 0] : Vec K 2) = 1 := by
    simp [quadForm, Fin.sum_univ_two]
  have s0 : cgDistance root (![0, 0] : Vec K 2) ![-1, 0] 1 = 1 := by
    simp [cgDistance, dot, Fin.sum_univ_two, r1]
  have u0 : cgUpdate ![![1, -k], ![-k, k ^ 2]] (cgStart (![1, 0] : Vec K 2)) 1
      = { x := ![-1, 0], residual := ![0, k], direction := ![-(k * k), -k] } := by
    simp only [cgUpdate, hstart, hd, hx]
    congr 1
    · funext i; fin_cases i <;> simp
    · funext i; fin_cases i <;> simp [matVec, Fin.sum_univ_two]
    · funext i; fin_cases i <;> simp [matVec, dot, Fin.sum_univ_two]
  have q1 : quadForm ![![1, -k], ![-k, k ^ 2]] (![-(k * k), -k] : Vec K 2) = 0 := by
    simp only [quadForm, Fin.sum_univ_two, Matrix.cons_val_zero, Matrix.cons_val_one]; ring
  have s1 : cgDistance root (![-1, 0] : Vec K 2) ![-(k * k), -k] 1 = 0 := by
    simp [cgDistance, dot, Fin.sum_univ_two, r3]
  have n1 : norm2 root (![0, k] : Vec K 2) = k := by simp [norm2, dot, Fin.sum_univ_two, r2]
  have d0 : dot (![1, 0] : Vec K 2) ![1, 0] = 1 := by simp [dot, Fin.sum_univ_two]
  simp only [minimizeCg, zero_mul, max_self]
  rw [cgLoop]
  simp only [hstart, hd, hx, e0, q0, s0, d0, div_one]
  rw [if_neg (by simp), if_neg (by simp), u0, cgLoop]
  simp only [n1, q1, s1]
  rw [if_neg (by simpa using hk), if_pos (.inl le_rfl)]
  funext i; fin_cases i <;> simp

/-- C111: no larger share than one half can be promised. For every larger share there is a convex model with two
parameters where the step misses it. -/
theorem C111_half_is_sharp (root : K → K) (hroot : SqrtSpec root) (kappa : K) (hkappa : 1 / 2 < kappa) :
    ∃ (g : Vec K 2) (h : Mat K 2 2) (y : Vec K 2), SymmetricMat h ∧ PosSemidef h ∧ NormLe y 1 ∧
      kappa * quadModel g h y < quadModel g h (minimizeCg root g h 1 0 0) := by
  set t := (2 * kappa - 1) / (2 * kappa + 1) with ht
  have hk1 : 0 < 2 * kappa + 1 := by linarith
  have ht0 : 0 < t := div_pos (by linarith) hk1
  have ht1 : t < 1 := by rw [ht, div_lt_one hk1]; linarith
  have htt : t * (2 * kappa + 1) = 2 * kappa - 1 := by rw [ht]; field_simp
  have hkpos : 0 < (1 - t ^ 2) / (2 * t) := div_pos (by nlinarith) (by linarith)
  set k := (1 - t ^ 2) / (2 * t) with hk
  have hden : 0 < 1 + t ^ 2 := by positivity
  refine ⟨![1, 0], ![![1, -k], ![-k, k ^ 2]], ![-((1 - t ^ 2) / (1 + t ^ 2)), -(2 * t / (1 + t ^ 2))],
    fun i j => by fin_cases i <;> fin_cases j <;> rfl, fun x => ?_, ?_, ?_⟩
  · have : ∑ i, ∑ j, (![![1, -k], ![-k, k ^ 2]] : Mat K 2 2) i j * x i * x j = (x 0 - k * x 1) ^ 2 := by
      simp [Fin.sum_univ_two]; ring
    rw [this]; exact sq_nonneg _
  · have : sumSq (![-((1 - t ^ 2) / (1 + t ^ 2)), -(2 * t / (1 + t ^ 2))] : Vec K 2) = 1 := by
      simp [sumSq, Fin.sum_univ_two]; field_simp; ring
    rw [NormLe, this]; simp
  · rw [cg_sharp_step root hroot k hkpos]
    have e1 : quadModel (![1, 0] : Vec K 2) ![![1, -k], ![-k, k ^ 2]] ![-1, 0] = -(1 / 2) := by
      simp [quadModel, Fin.sum_univ_two]; norm_num
    have e2 : quadModel (![1, 0] : Vec K 2) ![![1, -k], ![-k, k ^ 2]]
        ![-((1 - t ^ 2) / (1 + t ^ 2)), -(2 * t / (1 + t ^ 2))] = -((1 - t ^ 2) / (1 + t ^ 2)) := by
      simp [quadModel, Fin.sum_univ_two, hk]; field_simp; ring
    rw [e1, e2]
    have : 1 / 2 < kappa * ((1 - t ^ 2) / (1 + t ^ 2)) := by
      rw [mul_div_assoc', div_lt_div_iff₀ two_pos hden]
      nlinarith [mul_pos ht0 (sub_pos.2 ht1), mul_pos (mul_pos ht0 (sub_pos.2 ht1)) hk1]
    linarith

/-- C111: the hypotheses are met by a singular convex model and the real square root; the step ends at the boundary. -/
example : quadModel ![1, 1] ![![1, 0], ![0, 0]] (minimizeCg Real.sqrt ![1, 1] ![![1, 0], ![0, 0]] 1 0 0)
    ≤ quadModel (![1, 1] : Vec ℝ 2) ![![1, 0], ![0, 0]] ![0, -1] / 2 :=
  C111_without_tolerance Real.sqrt (fun a ha => ⟨Real.sqrt_nonneg a, Real.mul_self_sqrt ha⟩) _ _
    (fun i j => by fin_cases i <;> fin_cases j <;> rfl)
    (fun x => by
      have : ∑ i, ∑ j, (![![1, 0], ![0, 0]] : Mat ℝ 2 2) i j * x i * x j = x 0 * x 0 := by simp [Fin.sum_univ_two]
      rw [this]; exact mul_self_nonneg _)
    1 zero_le_one ![0, -1] (by simp [NormLe, sumSq, Fin.sum_univ_two])

end Tranquilo
