import Verif.Model.Trsbox
import Verif.Lemmas.Dot
import Verif.Lemmas.ConjugateGradient
import Verif.Lemmas.Bntr
import Verif.Spec.Region
import Verif.Spec.Subsolver
import Mathlib.Tactic.Linarith
import Mathlib.Tactic.Ring
import Mathlib.Tactic.FieldSimp
import Mathlib.Algebra.Order.BigOperators.Ring.Finset

/-! # Lemmas on trsbox: the conjugate gradient loop -/

namespace Tranquilo

variable {K : Type} [Field K] [LinearOrder K] [IsStrictOrderedRing K] {n : Nat}

/-! ## Products over the free parameters -/

section
omit [LinearOrder K] [IsStrictOrderedRing K]

/-- The vector with zeros at the fixed parameters. -/
def freePart (side : Fin n → Side) (a : Vec K n) : Vec K n := fun i => if side i = .free then a i else 0

theorem freeDot_eq (side : Fin n → Side) (a b : Vec K n) :
    freeDot side a b = dot (freePart side a) (freePart side b) := by
  unfold freeDot dot freePart
  refine Finset.sum_congr rfl fun i _ => ?_
  split <;> simp

theorem freeDot_left (side : Fin n → Side) (a b : Vec K n) :
    freeDot side a b = dot (freePart side a) b := by
  unfold freeDot dot freePart
  refine Finset.sum_congr rfl fun i _ => ?_
  split <;> simp

theorem freeDot_right (side : Fin n → Side) (a b : Vec K n) :
    freeDot side a b = dot a (freePart side b) := by
  unfold freeDot dot freePart
  refine Finset.sum_congr rfl fun i _ => ?_
  split <;> simp

theorem freePart_of_zero {side : Fin n → Side} {p : Vec K n} (hp : ∀ i, side i ≠ .free → p i = 0) :
    freePart side p = p := by
  funext i
  unfold freePart
  split
  · rfl
  · rename_i h; exact (hp i h).symm

theorem freeDot_comm (side : Fin n → Side) (a b : Vec K n) : freeDot side a b = freeDot side b a := by
  rw [freeDot_eq, freeDot_eq, dot_comm]

end

/-! ## Step lengths -/

/-- The step to the boundary of the trust region. -/
theorem trsboxDistance_spec {root : K → K} (hroot : SqrtSpec root) {raw gs ps gx php : K}
    (hraw : 0 < raw) (hps : 0 < ps) (hgs : 0 < gs) :
    ∃ step dist, trsboxDistance root raw gs ps gx php = .ok (step, dist) ∧ 0 < step ∧ step ≤ dist ∧
      ps * dist ^ 2 + 2 * gx * dist = raw ∧ (0 < php → step ≤ gs / php) ∧
      (step < dist → 0 < php ∧ step = gs / php) := by
  have harg : 0 < ps * raw + gx ^ 2 := by nlinarith [mul_pos hps hraw, sq_nonneg gx]
  obtain ⟨ht0, ht1⟩ := hroot _ harg.le
  set temp := root (ps * raw + gx ^ 2) with htemp
  have htpos : 0 < temp := by
    rcases ht0.lt_or_eq with h | h
    · exact h
    · rw [← h] at ht1; linarith
  have hdist : ∃ dist, boundaryDistance root raw ps gx = Except.ok dist ∧ 0 < dist ∧ ps * dist ^ 2 + 2 * gx * dist = raw := by
    by_cases hgx : 0 ≤ gx
    · have hpos : 0 < temp + gx := by linarith
      refine ⟨raw / (temp + gx), ?_, div_pos hraw hpos, ?_⟩
      · unfold boundaryDistance
        rw [if_pos hgx, ← htemp]
        exact if_neg hpos.ne'
      · field_simp
        nlinarith
    · have hpos : 0 < temp - gx := by linarith
      refine ⟨(temp - gx) / ps, ?_, div_pos hpos hps, ?_⟩
      · unfold boundaryDistance
        rw [if_neg hgx, ← htemp]
        exact if_neg hps.ne'
      · field_simp
        nlinarith
  obtain ⟨dist, h1, h2, h3⟩ := hdist
  by_cases hphp : php ≤ 0
  · refine ⟨dist, dist, ?_, h2, le_rfl, h3, fun h => absurd h (not_lt.2 hphp),
      fun h => absurd h (lt_irrefl _)⟩
    unfold trsboxDistance
    rw [h1]
    exact if_pos hphp
  · have hphp' := not_le.1 hphp
    by_cases hd : dist ≤ gs / php
    · refine ⟨dist, dist, ?_, h2, le_rfl, h3, fun _ => hd, fun h => absurd h (lt_irrefl _)⟩
      unfold trsboxDistance
      rw [h1]
      exact (if_neg hphp).trans (if_pos hd)
    · refine ⟨gs / php, dist, ?_, div_pos hgs hphp', (not_le.1 hd).le, h3, fun _ => le_rfl,
        fun _ => ⟨hphp', rfl⟩⟩
      unfold trsboxDistance
      rw [h1]
      exact (if_neg hphp).trans (if_neg hd)

/-- The step is shortened so that all parameters stay within their bounds. -/
theorem trsboxConstrained_spec {x p l u : Vec K n} (hx : InBox l u x) {step : K} (hstep : 0 ≤ step) :
    0 ≤ (trsboxConstrained x p l u step).1 ∧ (trsboxConstrained x p l u step).1 ≤ step ∧
    (∀ i, l i ≤ x i + (trsboxConstrained x p l u step).1 * p i ∧
      x i + (trsboxConstrained x p l u step).1 * p i ≤ u i) ∧
    ((trsboxConstrained x p l u step).2 = none → (trsboxConstrained x p l u step).1 = step) ∧
    (∀ i, (trsboxConstrained x p l u step).2 = some i → p i ≠ 0 ∧
      (0 < p i → x i + (trsboxConstrained x p l u step).1 * p i = u i) ∧
      (p i < 0 → x i + (trsboxConstrained x p l u step).1 * p i = l i)) := by
  -- the bound of one parameter
  have hone : ∀ (i : Fin n), p i ≠ 0 →
      0 ≤ (if 0 < p i then (u i - x i) / p i else (l i - x i) / p i) ∧
      (∀ c, 0 ≤ c → c ≤ (if 0 < p i then (u i - x i) / p i else (l i - x i) / p i) →
        l i ≤ x i + c * p i ∧ x i + c * p i ≤ u i) ∧
      (0 < p i → x i + (if 0 < p i then (u i - x i) / p i else (l i - x i) / p i) * p i = u i) ∧
      (p i < 0 → x i + (if 0 < p i then (u i - x i) / p i else (l i - x i) / p i) * p i = l i) := by
    intro i hi
    obtain ⟨h1, h2⟩ := hx i
    by_cases hp : 0 < p i
    · simp only [hp, if_true]
      refine ⟨div_nonneg (by linarith) hp.le, fun c hc0 hc => ?_, fun _ => ?_,
        fun h => absurd h (not_lt.2 hp.le)⟩
      · rw [le_div_iff₀ hp] at hc
        have := mul_nonneg hc0 hp.le
        exact ⟨by linarith, by linarith⟩
      · field_simp; ring
    · have hneg : p i < 0 := lt_of_le_of_ne (not_lt.1 hp) hi
      simp only [hp, if_false]
      refine ⟨div_nonneg_of_nonpos (by linarith) hneg.le, fun c hc0 hc => ?_, fun h => absurd h id,
        fun _ => ?_⟩
      · rw [le_div_iff_of_neg hneg] at hc
        have := mul_nonpos_of_nonneg_of_nonpos hc0 hneg.le
        exact ⟨by linarith, by linarith⟩
      · field_simp; ring
  -- the loop
  have key : ∀ (is : List (Fin n)) (s : K × Option (Fin n)), 0 ≤ s.1 → s.1 ≤ step →
      (s.2 = none → s.1 = step) →
      (∀ i, s.2 = some i → p i ≠ 0 ∧ (0 < p i → x i + s.1 * p i = u i) ∧
        (p i < 0 → x i + s.1 * p i = l i)) →
      let r := is.foldl (limitStep x p l u) s
      0 ≤ r.1 ∧ r.1 ≤ s.1 ∧ (∀ i ∈ is, l i ≤ x i + r.1 * p i ∧ x i + r.1 * p i ≤ u i) ∧
      (r.2 = none → r.1 = step) ∧
      (∀ i, r.2 = some i → p i ≠ 0 ∧ (0 < p i → x i + r.1 * p i = u i) ∧
        (p i < 0 → x i + r.1 * p i = l i)) := by
    intro is
    induction is with
    | nil =>
      intro s h0 h1 h2 h3
      exact ⟨h0, le_rfl, by simp, h2, h3⟩
    | cons i is ih =>
      intro s h0 h1 h2 h3
      have hs : ∃ s', limitStep x p l u s i = s' ∧ 0 ≤ s'.1 ∧ s'.1 ≤ s.1 ∧
          (s'.2 = none → s'.1 = step) ∧
          (∀ i, s'.2 = some i → p i ≠ 0 ∧ (0 < p i → x i + s'.1 * p i = u i) ∧
            (p i < 0 → x i + s'.1 * p i = l i)) ∧
          (∀ c, 0 ≤ c → c ≤ s'.1 → l i ≤ x i + c * p i ∧ x i + c * p i ≤ u i) := by
        unfold limitStep
        by_cases hp : p i = 0
        · refine ⟨s, if_pos hp, h0, le_rfl, h2, h3, fun c _ _ => ?_⟩
          rw [hp, mul_zero, add_zero]
          exact hx i
        · obtain ⟨a1, a2, a3, a4⟩ := hone i hp
          rw [if_neg hp]
          dsimp only
          generalize (if 0 < p i then (u i - x i) / p i else (l i - x i) / p i) = c0 at a1 a2 a3 a4 ⊢
          split
          · rename_i hlt
            refine ⟨(c0, some i), rfl, a1, hlt.le, (fun hn => by cases hn), fun j hj => ?_, a2⟩
            have hij : i = j := Option.some.inj hj
            rw [← hij]
            exact ⟨hp, a3, a4⟩
          · rename_i hlt
            exact ⟨s, rfl, h0, le_rfl, h2, h3, fun c hc0 hc => a2 c hc0 (hc.trans (not_lt.1 hlt))⟩
      obtain ⟨s', he, b0, b1, b2, b3, b4⟩ := hs
      have := ih s' b0 (b1.trans h1) b2 b3
      simp only [List.foldl_cons, he]
      obtain ⟨c0, c1, c2, c3, c4⟩ := this
      refine ⟨c0, c1.trans b1, fun j hj => ?_, c3, c4⟩
      rcases List.mem_cons.1 hj with rfl | hj
      · exact b4 _ c0 c1
      · exact c2 j hj
  obtain ⟨c0, c1, c2, c3, c4⟩ := key (List.finRange n) (step, none) hstep le_rfl (fun _ => rfl)
    (fun i h => by cases h)
  exact ⟨c0, c1, fun i => c2 i (List.mem_finRange i), c3, c4⟩

/-! ## The loop -/

/-- What holds for the point, the sides and the gradient throughout the solver. -/
structure TrsInv (g0 : Vec K n) (h : Mat K n n) (l u : Vec K n) (radius top : K) (x : Vec K n)
    (side : Fin n → Side) (gradient : Vec K n) : Prop where
  box : InBox l u x
  grad : ∀ i, gradient i = g0 i + matVec h x i
  low : ∀ i, side i = .lower → x i = l i
  up : ∀ i, side i = .upper → x i = u i
  ball : dot x x ≤ radius ^ 2
  value : quadModel g0 h x ≤ top

/-- What holds in addition at the start of each pass of the conjugate gradient loop. -/
structure TrsExtra (radius : K) (s : TrsState K n) : Prop where
  delta : s.deltaSq = radius ^ 2 - (dot s.x s.x - freeDot s.side s.x s.x)
  conj : s.beta ≠ 0 → freeDot s.side s.gradient s.projected = 0 ∧
    s.gs = freeDot s.side s.gradient s.gradient ∧ s.gs ≠ 0

theorem freeDot_self_nonneg (side : Fin n → Side) (a : Vec K n) : 0 ≤ freeDot side a a := by
  rw [freeDot_eq]
  exact dot_self_nonneg _

/-- The model along the search direction. -/
theorem trs_value {g0 : Vec K n} {h : Mat K n n} (hs : SymmetricMat h) {x p gradient : Vec K n}
    (hgrad : ∀ i, gradient i = g0 i + matVec h x i) {gs c : K} (hgp : dot gradient p = -gs)
    (hgs : 0 < gs) (hc : 0 ≤ c) (hcp : 0 < dot p (matVec h p) → c ≤ gs / dot p (matVec h p)) :
    quadModel g0 h (fun i => x i + c * p i) ≤ quadModel g0 h x := by
  have hg : (fun i => g0 i + matVec h x i) = gradient := funext fun i => (hgrad i).symm
  rw [quadModel_axpy g0 h hs, hg, hgp, quadForm_eq_dot]
  by_cases hp : 0 < dot p (matVec h p)
  · have h1 := hcp hp
    rw [le_div_iff₀ hp] at h1
    have h2 : c * (c * dot p (matVec h p)) ≤ c * gs := mul_le_mul_of_nonneg_left h1 hc
    have h3 := mul_nonneg hc hgs.le
    nlinarith
  · have h1 := mul_nonneg hc hgs.le
    have h2 := mul_nonneg (sq_nonneg c) (neg_nonneg.2 (not_lt.1 hp))
    nlinarith

/-- The squared norm along the search direction. -/
theorem trs_ball {x p : Vec K n} {radius raw dist c : K} (hp : 0 ≤ dot p p)
    (hraw : raw = radius ^ 2 - dot x x) (hraw0 : 0 ≤ raw) (hdist : 0 < dist)
    (heq : dot p p * dist ^ 2 + 2 * dot x p * dist = raw) (hc0 : 0 ≤ c) (hc : c ≤ dist) :
    dot (fun i => x i + c * p i) (fun i => x i + c * p i) ≤ radius ^ 2 := by
  rw [norm_axpy]
  have h1 : dist * (2 * c * dot x p + c ^ 2 * dot p p) ≤ dist * raw := by
    have e : dist * (2 * c * dot x p + c ^ 2 * dot p p)
        = c * raw - c * (dist - c) * (dist * dot p p) := by
      rw [← heq]; ring
    rw [e]
    have h2 : 0 ≤ c * (dist - c) * (dist * dot p p) :=
      mul_nonneg (mul_nonneg hc0 (by linarith)) (mul_nonneg hdist.le hp)
    have h3 : c * raw ≤ dist * raw := mul_le_mul_of_nonneg_right hc hraw0
    linarith
  have := le_of_mul_le_mul_left h1 hdist
  linarith

/-- The computation returns a value with the given property. -/
def OkWith {α : Type} (P : α → Prop) : Except Err α → Prop
  | .ok a => P a
  | .error _ => False

theorem OkWith.bind {α β : Type} {P : α → Prop} {Q : β → Prop} {a : Except Err α}
    {f : α → Except Err β} (ha : OkWith P a) (hf : ∀ v, P v → OkWith Q (f v)) : OkWith Q (a >>= f) := by
  cases a with
  | error e => exact ha.elim
  | ok v => exact hf v ha

/-- The prepared state: direction and gradient. -/
theorem trsPrepare_spec {g0 : Vec K n} {h : Mat K n n} {l u : Vec K n} {radius : K} {s : TrsState K n}
    (hex : TrsExtra radius s) (hp : dot (trsDirection s) (trsDirection s) ≠ 0) :
    (∀ i, s.side i ≠ .free → trsDirection s i = 0) ∧
    (trsPrepare s).gs = freeDot s.side s.gradient s.gradient ∧ 0 < (trsPrepare s).gs ∧
    dot s.gradient (trsDirection s) = -(trsPrepare s).gs := by
  have hpz : ∀ i, s.side i ≠ .free → trsDirection s i = 0 := fun i hi => if_neg hi
  have hpf : ∀ i, s.side i = .free → trsDirection s i
      = if s.beta = 0 then -(s.gradient i) else s.beta * s.projected i - s.gradient i :=
    fun i hi => if_pos hi
  have hgs : (trsPrepare s).gs = if s.beta = 0 then dot (trsDirection s) (trsDirection s) else s.gs := rfl
  have hgs' : (trsPrepare s).gs = freeDot s.side s.gradient s.gradient := by
    rw [hgs]
    split
    · rename_i hb
      unfold dot freeDot
      refine Finset.sum_congr rfl fun i _ => ?_
      by_cases hi : s.side i = .free
      · rw [hpf i hi, if_pos hb, if_pos hi]; ring
      · rw [hpz i hi, if_neg hi]; ring
    · rename_i hb
      exact (hex.conj hb).2.1
  refine ⟨hpz, hgs', ?_, ?_⟩
  · have h0 : 0 ≤ (trsPrepare s).gs := by rw [hgs']; exact freeDot_self_nonneg _ _
    refine lt_of_le_of_ne h0 (Ne.symm ?_)
    rw [hgs]
    split
    · exact hp
    · rename_i hb
      exact (hex.conj hb).2.2
  · have e : dot s.gradient (trsDirection s) = freeDot s.side s.gradient (trsDirection s) := by
      rw [freeDot_right, freePart_of_zero hpz]
    rw [e, hgs']
    by_cases hb : s.beta = 0
    · unfold freeDot
      rw [← Finset.sum_neg_distrib]
      refine Finset.sum_congr rfl fun i _ => ?_
      by_cases hi : s.side i = .free
      · rw [if_pos hi, if_pos hi, hpf i hi, if_pos hb]; ring
      · rw [if_neg hi, if_neg hi, neg_zero]
    · have h0 := (hex.conj hb).1
      have e2 : freeDot s.side s.gradient (trsDirection s)
          = s.beta * freeDot s.side s.gradient s.projected - freeDot s.side s.gradient s.gradient := by
        unfold freeDot
        rw [Finset.mul_sum, ← Finset.sum_sub_distrib]
        refine Finset.sum_congr rfl fun i _ => ?_
        by_cases hi : s.side i = .free
        · rw [if_pos hi, if_pos hi, if_pos hi, hpf i hi, if_neg hb]; ring
        · rw [if_neg hi, if_neg hi, if_neg hi]; ring
      rw [e2, h0]; ring

/-- The squared norm of the fixed parameters does not change when a free parameter is moved. -/
theorem fixed_norm {side : Fin n → Side} {x p : Vec K n} (hpz : ∀ i, side i ≠ .free → p i = 0) (c : K) :
    dot (fun i => x i + c * p i) (fun i => x i + c * p i)
        - freeDot side (fun i => x i + c * p i) (fun i => x i + c * p i)
      = dot x x - freeDot side x x := by
  unfold dot freeDot
  rw [← Finset.sum_sub_distrib, ← Finset.sum_sub_distrib]
  refine Finset.sum_congr rfl fun i _ => ?_
  by_cases hi : side i = .free
  · rw [if_pos hi, if_pos hi]; ring
  · rw [if_neg hi, if_neg hi]
    dsimp only
    rw [hpz i hi]; ring

/-- The squared norm of the free parameters when one of them is fixed. -/
theorem freeDot_fix {side : Fin n → Side} {x : Vec K n} {i : Fin n} (hi : side i = .free) {v : Side}
    (hv : v ≠ .free) :
    freeDot (fun j => if j = i then v else side j) x x = freeDot side x x - x i ^ 2 := by
  unfold freeDot
  have h1 : (∑ j, if (if j = i then v else side j) = Side.free then x j * x j else 0)
      = ∑ j, ((if side j = Side.free then x j * x j else 0) - if j = i then x i ^ 2 else 0) := by
    refine Finset.sum_congr rfl fun j _ => ?_
    by_cases hj : j = i
    · subst hj
      simp only [if_true, hi]
      rw [if_neg hv]; ring
    · simp only [hj, if_false]; ring
  rw [h1, Finset.sum_sub_distrib, Finset.sum_ite_eq' Finset.univ i]
  simp

/-- One pass of the conjugate gradient loop. -/
theorem trsPass_spec {root : K → K} (hroot : SqrtSpec root) {g0 : Vec K n} {h : Mat K n n}
    (hs : SymmetricMat h) {l u : Vec K n} {radius top : K} {s : TrsState K n}
    (hinv : TrsInv g0 h l u radius top s.x s.side s.gradient) (hex : TrsExtra radius s) :
    OkWith (fun r => TrsInv g0 h l u radius top r.1.x r.1.side r.1.gradient ∧
      (r.2 = none → TrsExtra radius r.1)) (trsPass root h l u s) := by
  unfold trsPass
  split
  · exact ⟨hinv, fun h => by cases h⟩
  · rename_i hps0
    have hps : 0 < dot (trsDirection s) (trsDirection s) :=
      lt_of_le_of_ne (dot_self_nonneg _) (Ne.symm hps0)
    obtain ⟨hpz, hgs, hgs0, hgp⟩ := trsPrepare_spec (g0 := g0) (h := h) (l := l) (u := u) hex hps0
    split
    · exact ⟨hinv, fun h => by cases h⟩
    · -- forget how the state was prepared
      have e1 : (trsPrepare s).projected = trsDirection s := rfl
      have e2 : (trsPrepare s).x = s.x := rfl
      have e3 : (trsPrepare s).side = s.side := rfl
      have e4 : (trsPrepare s).gradient = s.gradient := rfl
      have e5 : (trsPrepare s).deltaSq = s.deltaSq := rfl
      have hdelta := hex.delta
      rw [← e1] at hps hpz hgp
      rw [← e2, ← e3, ← e4] at hinv
      rw [← e3] at hpz
      rw [← e3, ← e4] at hgs
      rw [← e4] at hgp
      rw [← e2, ← e3, ← e5] at hdelta
      generalize trsPrepare s = t at hps hpz hgs hgs0 hgp hinv hdelta ⊢
      clear e1 e2 e3 e4 e5 hex hps0
      unfold trsStep
      dsimp only
      have hgx : freeDot t.side t.projected t.x = dot t.x t.projected := by
        rw [freeDot_left, freePart_of_zero hpz, dot_comm]
      have hphp : freeDot t.side t.projected (matVec h t.projected)
          = dot t.projected (matVec h t.projected) := by
        rw [freeDot_left, freePart_of_zero hpz]
      have hrawe : t.deltaSq - freeDot t.side t.x t.x = radius ^ 2 - dot t.x t.x := by
        rw [hdelta]; ring
      rw [hgx, hphp, hrawe]
      split
      · exact ⟨hinv, fun h => by cases h⟩
      · rename_i hraw
        have hraw' := not_le.1 hraw
        obtain ⟨step, dist, hd, hstep0, hstepd, hdist, hstepphp, hstepeq⟩ :=
          trsboxDistance_spec hroot (gx := dot t.x t.projected)
            (php := dot t.projected (matVec h t.projected)) hraw' hps hgs0
        rw [hd]
        dsimp only
        split
        · exact ⟨hinv, fun h => by cases h⟩
        · obtain ⟨hc0, hc1, hc2, hc3, hc4⟩ :=
            trsboxConstrained_spec (p := t.projected) hinv.box hstep0.le
          generalize trsboxConstrained t.x t.projected l u step = c at hc0 hc1 hc2 hc3 hc4 ⊢
          generalize trsReduction t (dot t.projected (matVec h t.projected)) c.1 = red
          -- the state after the step
          have hnew : TrsInv g0 h l u radius top (fun i => t.x i + c.1 * t.projected i) t.side
              (fun i => t.gradient i + c.1 * matVec h t.projected i) := by
            refine ⟨hc2, fun i => ?_, fun i hi => ?_, fun i hi => ?_, ?_, ?_⟩
            · rw [hinv.grad i, matVec_axpy]; ring
            · rw [hpz i (by rw [hi]; decide), mul_zero, add_zero]; exact hinv.low i hi
            · rw [hpz i (by rw [hi]; decide), mul_zero, add_zero]; exact hinv.up i hi
            · exact trs_ball hps.le rfl hraw'.le (lt_of_lt_of_le hstep0 hstepd) hdist hc0
                (hc1.trans hstepd)
            · exact (trs_value hs hinv.grad hgp hgs0 hc0 fun h0 => hc1.trans (hstepphp h0)).trans
                hinv.value
          -- the moved state, whether or not the step is positive
          obtain ⟨w, hw, hwx, hwg, hws, hwd, hwp, hwgs⟩ : ∃ w,
              trsMove h (dot t.projected (matVec h t.projected)) c.1 t = w ∧
              w.x = (fun i => t.x i + c.1 * t.projected i) ∧
              w.gradient = (fun i => t.gradient i + c.1 * matVec h t.projected i) ∧
              w.side = t.side ∧ w.deltaSq = t.deltaSq ∧ w.projected = t.projected ∧
              (0 < c.1 → w.gs = freeDot w.side w.gradient w.gradient) := by
            by_cases hcpos : 0 < c.1
            · refine ⟨_, rfl, ?_⟩
              unfold trsMove
              rw [if_pos hcpos]
              exact ⟨rfl, rfl, rfl, rfl, rfl, fun _ => rfl⟩
            · have hcz : c.1 = 0 := le_antisymm (not_lt.1 hcpos) hc0
              refine ⟨t, ?_, ?_, ?_, rfl, rfl, rfl, fun h0 => absurd h0 hcpos⟩
              · unfold trsMove
                rw [if_neg hcpos]
              · funext i; rw [hcz]; ring
              · funext i; rw [hcz]; ring
          rw [hw]
          rw [← hwx, ← hwg, ← hws] at hnew
          have hwdelta : w.deltaSq = radius ^ 2 - (dot w.x w.x - freeDot w.side w.x w.x) := by
            rw [hwd, hdelta, hws, hwx, fixed_norm hpz]
          unfold trsContinue
          split
          · -- a bound was hit
            rename_i i hidx
            obtain ⟨hpi, hpu, hpl⟩ := hc4 i hidx
            have hfree : t.side i = .free := by
              by_contra hn
              exact hpi (hpz i hn)
            have hfix : TrsInv g0 h l u radius top (trsFix i w).x (trsFix i w).side
                (trsFix i w).gradient := by
              refine ⟨hnew.box, hnew.grad, fun j hj => ?_, fun j hj => ?_, hnew.ball, hnew.value⟩
              · by_cases hji : j = i
                · subst hji
                  have hside : (if 0 ≤ w.projected j then Side.upper else Side.lower) = Side.lower := by
                    have : (trsFix j w).side j
                        = if 0 ≤ w.projected j then Side.upper else Side.lower := if_pos rfl
                    rw [← this]; exact hj
                  have hneg : t.projected j < 0 := by
                    by_contra hn
                    rw [hwp, if_pos (not_lt.1 hn)] at hside
                    cases hside
                  change w.x j = l j
                  rw [hwx]
                  exact hpl hneg
                · refine hnew.low j ?_
                  have : (trsFix i w).side j = w.side j := if_neg hji
                  rw [← this]; exact hj
              · by_cases hji : j = i
                · subst hji
                  have hside : (if 0 ≤ w.projected j then Side.upper else Side.lower) = Side.upper := by
                    have : (trsFix j w).side j
                        = if 0 ≤ w.projected j then Side.upper else Side.lower := if_pos rfl
                    rw [← this]; exact hj
                  have hpos : 0 < t.projected j := by
                    refine lt_of_le_of_ne ?_ (Ne.symm hpi)
                    by_contra hn
                    rw [hwp, if_neg hn] at hside
                    cases hside
                  change w.x j = u j
                  rw [hwx]
                  exact hpu hpos
                · refine hnew.up j ?_
                  have : (trsFix i w).side j = w.side j := if_neg hji
                  rw [← this]; exact hj
            split
            · exact ⟨hfix, fun h => by cases h⟩
            · refine ⟨hfix, fun _ => ⟨?_, fun hb => absurd rfl hb⟩⟩
              change w.deltaSq - w.x i ^ 2 = radius ^ 2 - (dot w.x w.x - freeDot
                (fun j => if j = i then (if 0 ≤ w.projected i then .upper else .lower) else w.side j)
                w.x w.x)
              rw [freeDot_fix (by rw [hws]; exact hfree) (by split <;> decide), hwdelta]
              ring
          · rename_i hidx
            have hcs := hc3 hidx
            split
            · exact ⟨hnew, fun h => by cases h⟩
            · rename_i hdc
              split
              · exact ⟨hnew, fun h => by cases h⟩
              · have hlt : step < dist := by rw [← hcs]; exact not_le.1 hdc
                obtain ⟨hphp0, hse⟩ := hstepeq hlt
                have hcp : 0 < c.1 := by rw [hcs]; exact hstep0
                have hbeta : checkedDiv w.gs t.gs = .ok (w.gs / t.gs) := if_neg hgs0.ne'
                rw [hbeta]
                refine ⟨hnew, fun _ => ⟨hwdelta, fun hb => ⟨?_, hwgs hcp, ?_⟩⟩⟩
                · change freeDot w.side w.gradient w.projected = 0
                  rw [hws, hwp, freeDot_right, freePart_of_zero hpz, hwg, dot_axpy, hgp, hcs, hse,
                    dot_comm (matVec h t.projected)]
                  field_simp
                  ring
                · intro h0
                  apply hb
                  change w.gs / t.gs = 0
                  have : w.gs = 0 := h0
                  rw [this, zero_div]

/-- The conjugate gradient loop. -/
theorem trsLoop_spec {root : K → K} (hroot : SqrtSpec root) {g0 : Vec K n} {h : Mat K n n}
    (hs : SymmetricMat h) {l u : Vec K n} {radius top : K} : ∀ (k : Nat) {s : TrsState K n},
    TrsInv g0 h l u radius top s.x s.side s.gradient → TrsExtra radius s →
    OkWith (fun r => TrsInv g0 h l u radius top r.1.x r.1.side r.1.gradient) (trsLoop root h l u k s)
  | 0, _, hinv, _ => hinv
  | k + 1, s, hinv, hex => by
    unfold trsLoop
    refine OkWith.bind (trsPass_spec hroot hs hinv hex) ?_
    rintro ⟨t, o⟩ ⟨h1, h2⟩
    cases o with
    | some alt => exact h1
    | none => exact trsLoop_spec hroot hs k h1 (h2 rfl)

/-! ## The reduction that the stopping rules use -/

/-- A pass keeps track of the reduction of the model. -/
theorem trsPass_total {root : K → K} (hroot : SqrtSpec root) {g0 : Vec K n} {h : Mat K n n}
    (hs : SymmetricMat h) {l u : Vec K n} {radius top : K} {s : TrsState K n}
    (hinv : TrsInv g0 h l u radius top s.x s.side s.gradient) (hex : TrsExtra radius s)
    (htot : s.total = -(quadModel g0 h s.x)) {r : TrsState K n × Option Bool}
    (hr : trsPass root h l u s = .ok r) : r.1.total = -(quadModel g0 h r.1.x) := by
  unfold trsPass at hr
  by_cases hps0 : dot (trsDirection s) (trsDirection s) = 0
  · rw [if_pos hps0] at hr
    cases hr
    exact htot
  · rw [if_neg hps0] at hr
    have hps : 0 < dot (trsDirection s) (trsDirection s) :=
      lt_of_le_of_ne (dot_self_nonneg _) (Ne.symm hps0)
    obtain ⟨hpz, hgs, hgs0, hgp⟩ := trsPrepare_spec (g0 := g0) (h := h) (l := l) (u := u) hex hps0
    by_cases hsm : trsSmall (trsPrepare s)
    · rw [if_pos hsm] at hr
      cases hr
      exact htot
    · rw [if_neg hsm] at hr
      have hT : (trsPrepare s).total = -(quadModel g0 h (trsPrepare s).x) := htot
      have hI : TrsInv g0 h l u radius top (trsPrepare s).x (trsPrepare s).side
        (trsPrepare s).gradient := hinv
      have hgp' : dot (trsPrepare s).gradient (trsPrepare s).projected = -(trsPrepare s).gs := hgp
      have hpz' : ∀ i, (trsPrepare s).side i ≠ .free → (trsPrepare s).projected i = 0 := hpz
      have hps' : 0 < dot (trsPrepare s).projected (trsPrepare s).projected := hps
      generalize trsPrepare s = t at hr hT hI hgp' hpz' hgs0 hps'
      unfold trsStep at hr
      dsimp only at hr
      have hphp : freeDot t.side t.projected (matVec h t.projected)
          = dot t.projected (matVec h t.projected) := by
        rw [freeDot_left, freePart_of_zero hpz']
      rw [hphp] at hr
      by_cases hraw : t.deltaSq - freeDot t.side t.x t.x ≤ 0
      · rw [if_pos hraw] at hr
        cases hr
        exact hT
      · rw [if_neg hraw] at hr
        obtain ⟨step, dist, hd, hstep0, hstepd, hdist, hstepphp, hstepeq⟩ :=
          trsboxDistance_spec hroot (gx := freeDot t.side t.projected t.x)
            (php := dot t.projected (matVec h t.projected)) (not_le.1 hraw) hps' hgs0
        rw [hd] at hr
        dsimp only at hr
        by_cases hsmall : step ≤ 1 / 10 ^ 30
        · rw [if_pos hsmall] at hr
          cases hr
          exact hT
        · rw [if_neg hsmall] at hr
          obtain ⟨hc0, hc1, -, -, -⟩ :=
            trsboxConstrained_spec (p := t.projected) hI.box hstep0.le
          generalize trsboxConstrained t.x t.projected l u step = c at hc0 hc1 hr
          -- the moved state
          have hw : (trsMove h (dot t.projected (matVec h t.projected)) c.1 t).total =
              -(quadModel g0 h (trsMove h (dot t.projected (matVec h t.projected)) c.1 t).x) := by
            unfold trsMove
            by_cases hcp : 0 < c.1
            · rw [if_pos hcp]
              dsimp only
              have hg : (fun i => g0 i + matVec h t.x i) = t.gradient :=
                funext fun i => (hI.grad i).symm
              have hpos : 0 ≤ c.1 * (t.gs - 1 / 2 * c.1 * dot t.projected (matVec h t.projected)) := by
                refine mul_nonneg hc0 ?_
                by_cases hp : 0 < dot t.projected (matVec h t.projected)
                · have h1 := hc1.trans (hstepphp hp)
                  rw [le_div_iff₀ hp] at h1
                  linarith
                · have := mul_nonneg hc0 (neg_nonneg.2 (not_lt.1 hp))
                  linarith
              rw [quadModel_axpy g0 h hs, hg, hgp', quadForm_eq_dot, hT]
              unfold trsReduction
              rw [if_pos hcp, max_eq_left hpos]
              ring
            · rw [if_neg hcp]
              exact hT
          generalize trsMove h (dot t.projected (matVec h t.projected)) c.1 t = w at hw hr
          generalize trsReduction t (dot t.projected (matVec h t.projected)) c.1 = red at hr
          cases hc2 : c.2 with
          | some i =>
            rw [hc2] at hr
            unfold trsContinue at hr
            dsimp only at hr
            split at hr <;> cases hr <;> exact hw
          | none =>
            rw [hc2] at hr
            unfold trsContinue at hr
            dsimp only at hr
            split at hr
            · cases hr
              exact hw
            · split at hr
              · cases hr
                exact hw
              · revert hr
                cases checkedDiv w.gs t.gs with
                | error e => intro hr; cases hr
                | ok b => intro hr; cases hr; exact hw

theorem trsLoop_total {root : K → K} (hroot : SqrtSpec root) {g0 : Vec K n} {h : Mat K n n}
    (hs : SymmetricMat h) {l u : Vec K n} {radius top : K} : ∀ (k : Nat) {s : TrsState K n},
    TrsInv g0 h l u radius top s.x s.side s.gradient → TrsExtra radius s →
    s.total = -(quadModel g0 h s.x) → ∀ {r : TrsState K n × Bool}, trsLoop root h l u k s = .ok r →
    r.1.total = -(quadModel g0 h r.1.x)
  | 0, _, _, _, htot, _, hr => by
    cases hr
    exact htot
  | k + 1, s, hinv, hex, htot, r, hr => by
    have h1 := trsPass_spec hroot hs hinv hex
    have h2 : ∀ q, trsPass root h l u s = .ok q → q.1.total = -(quadModel g0 h q.1.x) :=
      fun q hq => trsPass_total hroot hs hinv hex htot hq
    unfold trsLoop at hr
    revert h1 h2 hr
    cases trsPass root h l u s with
    | error e => exact fun h => h.elim
    | ok q =>
      intro h1 h2 hr
      obtain ⟨t, o⟩ := q
      cases o with
      | some alt =>
        cases hr
        exact h2 _ rfl
      | none => exact trsLoop_total hroot hs k h1.1 (h1.2 rfl) (h2 _ rfl) hr

end Tranquilo
