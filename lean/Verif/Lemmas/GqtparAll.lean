import Verif.Lemmas.SingularSmall
import Verif.Props.GqtparTotal

/-!
# gqtpar on models that are not positive definite
-/

namespace Tranquilo

variable {n : Nat}

/-! ## Factors for which the shifted Hessian is positive definite -/

/-- `h + lam I` is positive definite. -/
def ShiftPD (h : Mat ℝ n n) (lam : ℝ) : Prop := ∀ v : Vec ℝ n, 0 < dot v v → 0 < quadForm (addDiag h lam) v

/-- The stationary point for `lam` lies strictly inside of the unit ball. -/
def PointInside (g : Vec ℝ n) (h : Mat ℝ n n) (lam : ℝ) : Prop :=
  ∃ q, matVec (addDiag h lam) q = (fun i => -(g i)) ∧ dot q q < 1

theorem shiftPD_mono {h : Mat ℝ n n} {lam nu : ℝ} (hl : ShiftPD h lam) (hle : lam ≤ nu) : ShiftPD h nu := by
  intro v hv
  have := hl v hv
  rw [quadForm_addDiag] at this ⊢
  nlinarith

theorem shiftPD_of_factor {h u : Mat ℝ n n} {lam : ℝ} (hu : UpperFactor u (addDiag h lam)) : ShiftPD h lam := by
  intro v hv
  refine upperFactor_pos hu ?_
  rintro rfl
  rw [dot_zero_left] at hv
  exact lt_irrefl _ hv

theorem shiftPD_chol {ext : GqExternal ℝ n} (hext : GqSpec ext) {h : Mat ℝ n n} (hs : SymmetricMat h) {lam : ℝ}
    (hl : ShiftPD h lam) : (ext.chol (addDiag h lam)).info = 0 ∧
      UpperFactor (ext.chol (addDiag h lam)).upper (addDiag h lam) := by
  have h0 := chol_of_posDef hext (addDiag_symm hs lam) hl
  exact ⟨h0, hext.chol_ok _ (addDiag_symm hs lam) h0⟩

/-- A positive definite matrix has curvature bounded away from zero. -/
theorem shiftPD_coercive {ext : GqExternal ℝ n} (hext : GqSpec ext) {h : Mat ℝ n n} (hs : SymmetricMat h) {lam : ℝ}
    (hl : ShiftPD h lam) : ∃ a, 0 < a ∧ ∀ v : Vec ℝ n, a * dot v v ≤ quadForm (addDiag h lam) v := by
  obtain ⟨_, hu⟩ := shiftPD_chol hext hs hl
  set u := (ext.chol (addDiag h lam)).upper
  set B : Mat ℝ n n := fun i j => ext.choSolve u (fun l => if l = j then 1 else 0) i with hB
  have hAB : ∀ v, matVec (addDiag h lam) (matVec B v) = v := by
    intro v
    funext i
    have h1 : ∀ j, ∑ l, addDiag h lam i l * B l j = if i = j then 1 else 0 := fun j =>
      hext.choSolve u (addDiag h lam) (fun l => if l = j then 1 else 0) hu i
    simp only [matVec, Finset.mul_sum]
    rw [Finset.sum_comm]
    have h2 : ∀ j, ∑ l, addDiag h lam i l * (B l j * v j) = (if i = j then 1 else 0) * v j := by
      intro j
      rw [← h1 j, Finset.sum_mul]
      exact Finset.sum_congr rfl fun l _ => by ring
    rw [Finset.sum_congr rfl fun j _ => h2 j]
    simp
  have hpsd := upperFactor_psd hu
  have hF0 : 0 ≤ froNorm Real.sqrt B := Real.sqrt_nonneg _
  refine ⟨1 / (froNorm Real.sqrt B + 1), by positivity, fun v => ?_⟩
  rcases (dot_self_nonneg v).eq_or_lt with h0 | hpos
  · rw [← h0, mul_zero]; exact hpsd v
  · have h1 := psd_cauchy (addDiag_symm hs lam) hpsd (matVec B v) v
    rw [hAB, quadForm_eq_dot _ (matVec B v), hAB] at h1
    have h2 := (le_abs_self _).trans (froNorm_form sqrtSpec_real B v)
    rw [quadForm_eq_dot, dot_comm] at h2
    have h3 : dot v v * dot v v ≤ (froNorm Real.sqrt B + 1) * quadForm (addDiag h lam) v * dot v v := by
      have h4 := mul_le_mul_of_nonneg_right h2 (hpsd v)
      have h5 := mul_nonneg (hpsd v) hpos.le
      nlinarith
    have h4 := le_of_mul_le_mul_right h3 hpos
    rw [div_mul_eq_mul_div, div_le_iff₀ (by linarith), one_mul]
    linarith

/-- Stationary points of larger factors are shorter. -/
theorem stationary_mono {ext : GqExternal ℝ n} (hext : GqSpec ext) {g : Vec ℝ n} {h : Mat ℝ n n} (hs : SymmetricMat h)
    {lam nu : ℝ} (hl : ShiftPD h lam) (hle : lam ≤ nu) {q r : Vec ℝ n}
    (hq : matVec (addDiag h lam) q = fun i => -(g i)) (hr : matVec (addDiag h nu) r = fun i => -(g i)) :
    ∃ w, matVec (addDiag h lam) w = r ∧ q = (fun i => r i + (nu - lam) * w i) ∧ 0 ≤ dot w r ∧ dot r r ≤ dot q q := by
  obtain ⟨_, hu⟩ := shiftPD_chol hext hs hl
  set w := ext.choSolve (ext.chol (addDiag h lam)).upper r with hwdef
  have hw : matVec (addDiag h lam) w = r := funext fun i => hext.choSolve _ _ r hu i
  have hqr : q = fun i => r i + (nu - lam) * w i := by
    apply upperFactor_cancel hu
    rw [matVec_axpy, hw, hq, ← hr]
    funext i
    simp only [matVec_addDiag]
    ring
  have h2 := upperFactor_psd hu w
  rw [quadForm_eq_dot, hw] at h2
  refine ⟨w, hw, hqr, h2, ?_⟩
  rw [hqr, norm_axpy, dot_comm r w]
  have h3 := mul_nonneg (sub_nonneg.2 hle) h2
  have h4 := mul_nonneg (sq_nonneg (nu - lam)) (dot_self_nonneg w)
  linarith

/-! ## The limit of the factors -/

/-- The factors whose stationary point is inside. -/
def insideSet (g : Vec ℝ n) (h : Mat ℝ n n) : Set ℝ := {lam | ShiftPD h lam ∧ PointInside g h lam}

/-- The infimum of these factors. -/
noncomputable def insideInf (g : Vec ℝ n) (h : Mat ℝ n n) : ℝ := sInf (insideSet g h)

/-- The model is not positive definite. -/
def NotPD (h : Mat ℝ n n) : Prop := ∃ v : Vec ℝ n, 0 < dot v v ∧ quadForm h v ≤ 0

theorem shiftPD_pos {h : Mat ℝ n n} (hnot : NotPD h) {lam : ℝ} (hl : ShiftPD h lam) : 0 < lam := by
  obtain ⟨v, hv, hq⟩ := hnot
  have := hl v hv
  rw [quadForm_addDiag] at this
  by_contra hc
  push Not at hc
  nlinarith

theorem insideSet_bdd {g : Vec ℝ n} {h : Mat ℝ n n} (hnot : NotPD h) : BddBelow (insideSet g h) :=
  ⟨0, fun _ hl => (shiftPD_pos hnot hl.1).le⟩

/-- Large factors are inside. -/
theorem insideSet_large {ext : GqExternal ℝ n} (hext : GqSpec ext) (g : Vec ℝ n) {h : Mat ℝ n n} (hs : SymmetricMat h) :
    norm2 Real.sqrt g + froNorm Real.sqrt h + 1 ∈ insideSet g h := by
  set lam := norm2 Real.sqrt g + froNorm Real.sqrt h + 1 with hlam
  obtain ⟨hG0, hG⟩ := norm2_sq sqrtSpec_real g
  have hform : ∀ v : Vec ℝ n, (norm2 Real.sqrt g + 1) * dot v v ≤ quadForm (addDiag h lam) v := by
    intro v
    have h1 := (abs_le.1 (froNorm_form sqrtSpec_real h v)).1
    rw [quadForm_addDiag, hlam]
    nlinarith
  have hpd : ShiftPD h lam := fun v hv => lt_of_lt_of_le (mul_pos (by linarith) hv) (hform v)
  obtain ⟨_, hu⟩ := shiftPD_chol hext hs hpd
  refine ⟨hpd, _, choSolve_matVec hext hu, ?_⟩
  set p := ext.choSolve (ext.chol (addDiag h lam)).upper (fun i => -(g i)) with hp
  have hpm : matVec (addDiag h lam) p = fun i => -(g i) := choSolve_matVec hext hu
  by_contra hc
  push Not at hc
  have h1 := hform p
  rw [quadForm_eq_dot, hpm, dot_neg_right] at h1
  have h2 := cauchy_schwarz p g
  rw [← hG] at h2
  have h3 : ((norm2 Real.sqrt g + 1) * dot p p) ^ 2 ≤ (dot p g) ^ 2 := by
    rw [← neg_sq (dot p g)]
    exact pow_le_pow_left₀ (by positivity) h1 2
  have h4 : (norm2 Real.sqrt g + 1) ^ 2 * dot p p ≤ norm2 Real.sqrt g ^ 2 := by
    have : ((norm2 Real.sqrt g + 1) ^ 2 * dot p p) * dot p p ≤ norm2 Real.sqrt g ^ 2 * dot p p := by nlinarith
    exact le_of_mul_le_mul_right this (by linarith)
  nlinarith [mul_nonneg (sq_nonneg (norm2 Real.sqrt g + 1)) (sub_nonneg.2 hc)]

theorem insideSet_up {ext : GqExternal ℝ n} (hext : GqSpec ext) {g : Vec ℝ n} {h : Mat ℝ n n} (hs : SymmetricMat h)
    {lam nu : ℝ} (hl : lam ∈ insideSet g h) (hle : lam ≤ nu) : nu ∈ insideSet g h := by
  obtain ⟨hpd, q, hq, hqq⟩ := hl
  have hpd' := shiftPD_mono hpd hle
  obtain ⟨_, hu⟩ := shiftPD_chol hext hs hpd'
  have hr := choSolve_matVec (g := g) hext hu
  obtain ⟨_, _, _, _, h4⟩ := stationary_mono hext hs hpd hle hq hr
  exact ⟨hpd', _, hr, h4.trans_lt hqq⟩

theorem insideInf_le {g : Vec ℝ n} {h : Mat ℝ n n} (hnot : NotPD h) {lam : ℝ} (hl : lam ∈ insideSet g h) :
    insideInf g h ≤ lam := csInf_le (insideSet_bdd hnot) hl

theorem le_insideInf {ext : GqExternal ℝ n} (hext : GqSpec ext) {g : Vec ℝ n} {h : Mat ℝ n n} (hs : SymmetricMat h)
    {c : ℝ} (hc : ∀ lam ∈ insideSet g h, c ≤ lam) : c ≤ insideInf g h :=
  le_csInf ⟨_, insideSet_large hext g hs⟩ hc

theorem insideInf_nonneg {ext : GqExternal ℝ n} (hext : GqSpec ext) {g : Vec ℝ n} {h : Mat ℝ n n} (hs : SymmetricMat h)
    (hnot : NotPD h) : 0 ≤ insideInf g h := le_insideInf hext hs fun _ hl => (shiftPD_pos hnot hl.1).le

theorem notInside_of_lt {g : Vec ℝ n} {h : Mat ℝ n n} (hnot : NotPD h) {lam : ℝ} (hlt : lam < insideInf g h)
    (hpd : ShiftPD h lam) {q : Vec ℝ n} (hq : matVec (addDiag h lam) q = fun i => -(g i)) : 1 ≤ dot q q := by
  by_contra hc
  push Not at hc
  exact absurd (insideInf_le hnot ⟨hpd, q, hq, hc⟩) (not_le.2 hlt)

/-! ## The stopping rule near the limit -/

/-- The denominator of the stopping rule. -/
theorem stop_denominator {g : Vec ℝ n} {h : Mat ℝ n n} (hs : SymmetricMat h) {lam C : ℝ}
    (hC : ∀ v : Vec ℝ n, quadForm h v ≤ C * dot v v) (hpd : ShiftPD h lam) {p : Vec ℝ n}
    (hp : matVec (addDiag h lam) p = fun i => -(g i)) (hg : 0 < dot g g) :
    dot g g ≤ quadForm (addDiag h lam) p * (C + lam) := by
  have hpsd : ∀ y : Vec ℝ n, 0 ≤ quadForm (addDiag h lam) y := fun y => by
    rcases (dot_self_nonneg y).eq_or_lt with h0 | h0
    · have := dot_self_eq_zero h0.symm
      rw [this, quadForm_eq_dot]; simp [dot]
    · exact (hpd y h0).le
  have h1 := psd_cauchy (addDiag_symm hs lam) hpsd p g
  rw [hp, dot_neg_left, neg_sq] at h1
  have h2 : quadForm (addDiag h lam) g ≤ (C + lam) * dot g g := by
    rw [quadForm_addDiag]; linarith [hC g]
  have h3 : dot g g * dot g g ≤ (quadForm (addDiag h lam) p * (C + lam)) * dot g g := by
    nlinarith [mul_le_mul_of_nonneg_left h2 (hpsd p)]
  exact le_of_mul_le_mul_right h3 hg

/-- Close to the limit the points approach the sphere if the shifted Hessian is positive definite at the limit. -/
theorem product_small_regular {root : ℝ → ℝ} (hroot : SqrtSpec root) {ext : GqExternal ℝ n} (hext : GqSpec ext) (hn : 0 < n)
    {g : Vec ℝ n} {h : Mat ℝ n n} (hs : SymmetricMat h) (hnot : NotPD h) {tau : ℝ} (htau : 0 < tau)
    {lam0 : ℝ} (hlt0 : lam0 < insideInf g h) (hpd0 : ShiftPD h lam0) :
    ∃ eps, 0 < eps ∧ eps ≤ 1 ∧ ∀ (lam : ℝ) (u : Mat ℝ n n) (p : Vec ℝ n), lam ≤ insideInf g h + eps →
      UpperFactor u (addDiag h lam) → matVec (addDiag h lam) p = (fun i => -(g i)) → dot p p < 1 →
      stepLen ext p (smallestSingular root ext u).2 ^ 2 * (smallestSingular root ext u).1 ^ 2 ≤ tau := by
  set m := insideInf g h with hm
  have hm0 : 0 ≤ m := insideInf_nonneg hext hs hnot
  set C := froNorm Real.sqrt h with hCdef
  have hC0 : 0 ≤ C := Real.sqrt_nonneg _
  have hC : ∀ v : Vec ℝ n, quadForm h v ≤ C * dot v v := fun v =>
    (le_abs_self _).trans (froNorm_form sqrtSpec_real h v)
  obtain ⟨a, ha0, ha⟩ := shiftPD_coercive hext hs hpd0
  set eps := min 1 (min a (tau * a / (8 * (C + m + 1)))) with heps
  have he0 : 0 < eps := by
    refine lt_min one_pos (lt_min ha0 ?_)
    positivity
  have he1 : eps ≤ 1 := min_le_left _ _
  have hea : eps ≤ a := (min_le_right _ _).trans (min_le_left _ _)
  have het : 8 * eps * (C + m + 1) ≤ tau * a := by
    have h1 : eps ≤ tau * a / (8 * (C + m + 1)) := (min_le_right _ _).trans (min_le_right _ _)
    rw [le_div_iff₀ (by positivity)] at h1
    linarith
  refine ⟨eps, he0, he1, fun lam u p hle hu hp hpp => ?_⟩
  have hin : m ≤ lam := insideInf_le hnot ⟨shiftPD_of_factor hu, p, hp, hpp⟩
  -- a factor a little below the limit
  set nu := max lam0 (m - eps) with hnu
  have hnu1 : nu < m := max_lt hlt0 (by linarith)
  have hnu2 : lam - nu ≤ 2 * eps := by
    have := le_max_right lam0 (m - eps)
    linarith
  have hpdn : ShiftPD h nu := shiftPD_mono hpd0 (le_max_left _ _)
  obtain ⟨_, hun⟩ := shiftPD_chol hext hs hpdn
  have hq := choSolve_matVec (g := g) hext hun
  set q := ext.choSolve (ext.chol (addDiag h nu)).upper (fun i => -(g i)) with hqdef
  have hqq : 1 ≤ dot q q := notInside_of_lt hnot hnu1 hpdn hq
  obtain ⟨w, hw, hqw, hwp, _⟩ := stationary_mono hext hs hpdn (hnu1.le.trans hin) hq hp
  have haw : a * dot w w ≤ dot w p := by
    have h1 := ha w
    have h2 : quadForm (addDiag h nu) w = dot w p := by rw [quadForm_eq_dot, hw]
    rw [quadForm_addDiag] at h1 h2
    have h3 : lam0 * dot w w ≤ nu * dot w w :=
      mul_le_mul_of_nonneg_right (le_max_left _ _) (dot_self_nonneg w)
    linarith
  have hcs := cauchy_schwarz w p
  have hww := dot_self_nonneg w
  have hpp0 := dot_self_nonneg p
  -- a (w · p) ≤ 1 and a² |w|² ≤ 1
  have h1 : a * dot w p ≤ 1 := by
    rcases hwp.eq_or_lt with h0 | h0
    · rw [← h0, mul_zero]; exact zero_le_one
    · have h2 : dot w p * (a * dot w p) ≤ dot w p * dot p p := by nlinarith
      have := le_of_mul_le_mul_left h2 h0
      linarith
  have h2 : a ^ 2 * dot w w ≤ 1 := by nlinarith
  have h3 : dot q q = dot p p + 2 * (lam - nu) * dot w p + (lam - nu) ^ 2 * dot w w := by
    rw [hqw, norm_axpy, dot_comm p w]
  set t := lam - nu with ht
  have ht0 : 0 ≤ t := by linarith
  have h4 : a * (1 - dot p p) ≤ 8 * eps := by
    have h5 : a * (2 * t * dot w p) ≤ 4 * eps := by nlinarith
    have h6 : a * (t ^ 2 * dot w w) ≤ 4 * eps := by
      have h7 : t ^ 2 ≤ 4 * eps * a := by nlinarith
      have h8 : t ^ 2 * (a * dot w w) ≤ 4 * eps * a * (a * dot w w) :=
        mul_le_mul_of_nonneg_right h7 (by positivity)
      have h9 : 4 * eps * (a ^ 2 * dot w w) ≤ 4 * eps * 1 := mul_le_mul_of_nonneg_left h2 (by positivity)
      nlinarith
    nlinarith
  obtain ⟨hz, hsz⟩ := smallestSingular_spec hroot hext hn hu
  have hstep := stepLen_sq_le hext hz hpp.le
  have hsC : (smallestSingular root ext u).1 ^ 2 ≤ C + m + 1 := by
    rw [hsz, quadForm_addDiag, hz]
    have := hC (smallestSingular root ext u).2
    rw [hz] at this
    linarith
  have h5 : stepLen ext p (smallestSingular root ext u).2 ^ 2 * (smallestSingular root ext u).1 ^ 2
      ≤ (1 - dot p p) * (C + m + 1) := mul_le_mul hstep hsC (sq_nonneg _) (by linarith)
  have h6 : a * ((1 - dot p p) * (C + m + 1)) ≤ a * tau := by
    have := mul_le_mul_of_nonneg_right h4 (by positivity : 0 ≤ C + m + 1)
    linarith
  exact h5.trans (le_of_mul_le_mul_left h6 ha0)
/-- Otherwise the factors become singular. -/
theorem product_small_singular {root : ℝ → ℝ} (hroot : SqrtSpec root) {ext : GqExternal ℝ n} (hext : GqSpec ext) (hn : 0 < n)
    {g : Vec ℝ n} {h : Mat ℝ n n} (hs : SymmetricMat h) (hnot : NotPD h) {tau : ℝ} (htau : 0 < tau)
    (hex : ∀ lam0, lam0 < insideInf g h → ¬ ShiftPD h lam0) :
    ∃ eps, 0 < eps ∧ eps ≤ 1 ∧ ∀ (lam : ℝ) (u : Mat ℝ n n) (p : Vec ℝ n), lam ≤ insideInf g h + eps →
      UpperFactor u (addDiag h lam) → matVec (addDiag h lam) p = (fun i => -(g i)) → dot p p < 1 →
      stepLen ext p (smallestSingular root ext u).2 ^ 2 * (smallestSingular root ext u).1 ^ 2 ≤ tau := by
  set m := insideInf g h with hm
  have hm0 : 0 ≤ m := insideInf_nonneg hext hs hnot
  set C := froNorm Real.sqrt h with hCdef
  have hC0 : 0 ≤ C := Real.sqrt_nonneg _
  have hC : ∀ v : Vec ℝ n, quadForm h v ≤ C * dot v v := fun v =>
    (le_abs_self _).trans (froNorm_form sqrtSpec_real h v)
  set M := C + m + 2 with hMdef
  have hM0 : 0 ≤ M := by positivity
  set c : ℝ := n * (1 + n * M) with hc
  have hc0 : 0 < c := by
    have : (0 : ℝ) < n := by exact_mod_cast hn
    positivity
  set eta := min 1 (tau / c ^ 2) with heta
  have heta0 : 0 < eta := lt_min one_pos (by positivity)
  have heta1 : eta ≤ 1 := min_le_left _ _
  have hetat : c ^ 2 * eta ≤ tau := by
    have : eta ≤ tau / c ^ 2 := min_le_right _ _
    rw [le_div_iff₀ (by positivity)] at this
    linarith
  set R : ℝ := n * ((1 + n * M) / eta) ^ (2 * n) with hR
  have hR0 : 0 ≤ R := by positivity
  set eps := 1 / (2 * R + 2) with heps
  have he0 : 0 < eps := by positivity
  have he1 : eps ≤ 1 := by
    rw [heps, div_le_one (by positivity)]; linarith
  refine ⟨eps, he0, he1, fun lam u p hle hu hp hpp => ?_⟩
  have hbound : ∀ i j, |u i j| ≤ M := by
    intro i j
    have h1 : u i j ^ 2 ≤ addDiag h lam j j := by
      rw [← hu.2.2 j j, sq]
      exact Finset.single_le_sum (f := fun l => u l j * u l j) (fun l _ => mul_self_nonneg _) (Finset.mem_univ i)
    have h2 : addDiag h lam j j ≤ M := by
      have := (quadForm_unit (addDiag h lam) j).1
      rw [← this, quadForm_addDiag, (quadForm_unit h j).2]
      have := hC (fun i => if i = j then 1 else 0)
      rw [(quadForm_unit h j).2] at this
      linarith
    refine abs_le_of_sq_le_sq ?_ hM0
    have h3 : 1 ≤ M := by linarith
    nlinarith
  obtain ⟨v, hv, hq⟩ : ∃ v : Vec ℝ n, 0 < dot v v ∧ quadForm (addDiag h (m - eps)) v ≤ 0 := by
    have := hex (m - eps) (by linarith)
    simp only [ShiftPD] at this
    push Not at this
    exact this
  have hsmall : dot (matVec u v) (matVec u v) ≤ (2 * eps) * dot v v := by
    rw [← quadForm_upperFactor hu]
    rw [quadForm_addDiag] at hq ⊢
    nlinarith
  obtain ⟨k, hk⟩ := small_pivot hu.1 heta0 heta1 hM0 hbound hroot (eps := 2 * eps) (by
    have e : (n : ℝ) * (2 * eps) * ((1 + n * M) / eta) ^ (2 * n) = 2 * R * eps := by rw [hR]; ring
    rw [e, heps, mul_one_div, div_lt_one (by positivity)]
    linarith) hv hsmall
  have h1 := estimate_le_pivot hroot hext hn hu hM0 hbound k
  obtain ⟨hz, hsz⟩ := smallestSingular_spec hroot hext hn hu
  have hstep := stepLen_sq_le hext hz hpp.le
  have hpp0 := dot_self_nonneg p
  have hpos := hu.2.1 k
  have h2 : (n * (1 + n * M) * u k k) ^ 2 ≤ tau := by
    rw [← hc, mul_pow]
    have h3 : u k k ^ 2 ≤ eta := by
      rw [sq]
      calc u k k * u k k ≤ eta * 1 := mul_le_mul hk.le (hk.le.trans heta1) hpos.le heta0.le
        _ = eta := mul_one _
    exact (mul_le_mul_of_nonneg_left h3 (sq_nonneg c)).trans hetat
  have h3 : stepLen ext p (smallestSingular root ext u).2 ^ 2 ≤ 1 := by linarith
  calc _ ≤ 1 * (smallestSingular root ext u).1 ^ 2 := mul_le_mul_of_nonneg_right h3 (sq_nonneg _)
    _ ≤ tau := by rw [one_mul]; exact h1.trans h2

/-- Close to the limit the product of the step length and the estimated singular value is small. -/
theorem product_small {root : ℝ → ℝ} (hroot : SqrtSpec root) {ext : GqExternal ℝ n} (hext : GqSpec ext) (hn : 0 < n)
    {g : Vec ℝ n} {h : Mat ℝ n n} (hs : SymmetricMat h) (hnot : NotPD h) {tau : ℝ} (htau : 0 < tau) :
    ∃ eps, 0 < eps ∧ eps ≤ 1 ∧ ∀ (lam : ℝ) (u : Mat ℝ n n) (p : Vec ℝ n), lam ≤ insideInf g h + eps →
      UpperFactor u (addDiag h lam) → matVec (addDiag h lam) p = (fun i => -(g i)) → dot p p < 1 →
      stepLen ext p (smallestSingular root ext u).2 ^ 2 * (smallestSingular root ext u).1 ^ 2 ≤ tau := by
  by_cases hex : ∃ lam0, lam0 < insideInf g h ∧ ShiftPD h lam0
  · obtain ⟨lam0, hlt0, hpd0⟩ := hex
    exact product_small_regular hroot hext hn hs hnot htau hlt0 hpd0
  · push Not at hex
    exact product_small_singular hroot hext hn hs hnot htau hex

/-- Close to the limit the stopping rule holds. -/
theorem stop_near_limit {root : ℝ → ℝ} (hroot : SqrtSpec root) {ext : GqExternal ℝ n} (hext : GqSpec ext) (hn : 0 < n)
    {g : Vec ℝ n} {h : Mat ℝ n n} (hs : SymmetricMat h) (hnot : NotPD h) (hg : 0 < dot g g) {kHard : ℝ} (hk : 0 < kHard) :
    ∃ eps, 0 < eps ∧ ∀ (lam : ℝ) (u : Mat ℝ n n) (p : Vec ℝ n), lam ≤ insideInf g h + eps →
      UpperFactor u (addDiag h lam) → matVec (addDiag h lam) p = (fun i => -(g i)) → dot p p < 1 →
      stepLen ext p (smallestSingular root ext u).2 ^ 2 * (smallestSingular root ext u).1 ^ 2 /
        (quadForm (addDiag h lam) p + lam) ≤ kHard := by
  have hm0 : 0 ≤ insideInf g h := insideInf_nonneg hext hs hnot
  set C := froNorm Real.sqrt h with hCdef
  have hC0 : 0 ≤ C := Real.sqrt_nonneg _
  have hC : ∀ v : Vec ℝ n, quadForm h v ≤ C * dot v v := fun v =>
    (le_abs_self _).trans (froNorm_form sqrtSpec_real h v)
  set D := C + insideInf g h + 1 with hD
  have hD0 : 0 < D := by positivity
  obtain ⟨eps, he0, he1, hall⟩ := product_small hroot hext hn hs (g := g) hnot (tau := kHard * dot g g / D) (by positivity)
  refine ⟨eps, he0, fun lam u p hle hu hp hpp => ?_⟩
  have hpd := shiftPD_of_factor hu
  have hlam := shiftPD_pos hnot hpd
  have h1 := stop_denominator hs hC hpd hp hg
  have hq0 := upperFactor_psd hu p
  have h2 := hall lam u p hle hu hp hpp
  rw [div_le_iff₀ (by linarith)]
  refine h2.trans ?_
  rw [div_le_iff₀ hD0]
  have h3 : quadForm (addDiag h lam) p * (C + lam) ≤ quadForm (addDiag h lam) p * D :=
    mul_le_mul_of_nonneg_left (by linarith) hq0
  have h4 : kHard * dot g g ≤ kHard * (quadForm (addDiag h lam) p * D) :=
    mul_le_mul_of_nonneg_left (h1.trans h3) hk.le
  have h5 : 0 ≤ kHard * (lam * D) := by positivity
  linarith

end Tranquilo
