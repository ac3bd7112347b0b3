import Verif.Lemmas.Trsbox
import Mathlib.Tactic.Positivity
import Mathlib.Tactic.LinearCombination
import Mathlib.Algebra.BigOperators.Field

/-! # Lemmas on trsbox: the alternative step -/

namespace Tranquilo

variable {K : Type} [Field K] [LinearOrder K] [IsStrictOrderedRing K] {n : Nat}

/-! ## Turning by an angle -/

theorem one_add_sq_pos (t : K) : 0 < 1 + t ^ 2 := by positivity

/-- Cosine and sine of an angle. -/
theorem cosine_sine (t : K) : tangentCosine t ^ 2 + tangentSine t ^ 2 = 1 := by
  have h := (one_add_sq_pos t).ne'
  unfold tangentCosine tangentSine
  field_simp
  ring

theorem cosine_sub_one (t : K) : tangentCosine t - 1 = -(t * tangentSine t) := by
  have h := (one_add_sq_pos t).ne'
  unfold tangentCosine tangentSine
  field_simp
  ring

/-- The component of a turned vector. -/
def turned (x s t : K) : K := tangentCosine t * x + tangentSine t * s

theorem turned_neg (x s t : K) : turned (-x) (-s) t = -(turned x s t) := by
  unfold turned; ring

/-- The distance of a turned component to its lower bound. -/
theorem turned_sub {x s l t : K} :
    (x - l) * ((turned x s t - l) * (1 + t ^ 2))
      = (x - l + t * s) ^ 2 - t ^ 2 * (x ^ 2 + s ^ 2 - l ^ 2) := by
  have h := (one_add_sq_pos t).ne'
  unfold turned tangentCosine tangentSine
  field_simp
  ring

/-- The restriction of the tangent by a bound. -/
def TangentFits (root : K → K) (margin disc towards t : K) : Prop :=
  0 < disc → t * (root disc + towards) ≤ margin

/-- The turned component stays above its lower bound. -/
theorem turned_lower {root : K → K} (hroot : SqrtSpec root) {x s l t : K} (hx : l < x) (ht : 0 ≤ t)
    (hfit : TangentFits root (x - l) (x ^ 2 + s ^ 2 - l ^ 2) (-s) t) : l ≤ turned x s t := by
  have h1 : 0 < x - l := sub_pos.2 hx
  have h2 := one_add_sq_pos t
  have key := turned_sub (x := x) (s := s) (l := l) (t := t)
  have hq : 0 ≤ (x - l + t * s) ^ 2 - t ^ 2 * (x ^ 2 + s ^ 2 - l ^ 2) := by
    rcases le_or_gt (x ^ 2 + s ^ 2 - l ^ 2) 0 with hd | hd
    · nlinarith [sq_nonneg (x - l + t * s), sq_nonneg t, mul_nonneg (sq_nonneg t) (neg_nonneg.2 hd)]
    · obtain ⟨hr0, hr1⟩ := hroot _ hd.le
      have h3 := hfit hd
      generalize root (x ^ 2 + s ^ 2 - l ^ 2) = r at hr0 hr1 h3
      have h4 : 0 ≤ t * r := mul_nonneg ht hr0
      have h5 : t * r ≤ x - l + t * s := by linarith
      have h6 : (t * r) ^ 2 ≤ (x - l + t * s) ^ 2 := pow_le_pow_left₀ h4 h5 2
      have h7 : (t * r) ^ 2 = t ^ 2 * (x ^ 2 + s ^ 2 - l ^ 2) := by rw [mul_pow, ← hr1]; ring
      linarith
  rw [← key] at hq
  by_contra hn
  have h3 : turned x s t - l < 0 := sub_neg.2 (not_le.1 hn)
  have : (x - l) * ((turned x s t - l) * (1 + t ^ 2)) < 0 :=
    mul_neg_of_pos_of_neg h1 (mul_neg_of_neg_of_pos h3 h2)
  exact absurd hq (not_le.2 this)

/-- The turned component reaches its lower bound. -/
theorem turned_at_lower {root : K → K} (hroot : SqrtSpec root) {x s l t : K} (hx : l < x)
    (hd : 0 < x ^ 2 + s ^ 2 - l ^ 2) (heq : t * (root (x ^ 2 + s ^ 2 - l ^ 2) + -s) = x - l) :
    turned x s t = l := by
  have h1 : 0 < x - l := sub_pos.2 hx
  have h2 := one_add_sq_pos t
  have key := turned_sub (x := x) (s := s) (l := l) (t := t)
  obtain ⟨_, hr1⟩ := hroot _ hd.le
  have h5 : x - l + t * s = t * root (x ^ 2 + s ^ 2 - l ^ 2) := by linarith
  have h6 : (x - l + t * s) ^ 2 - t ^ 2 * (x ^ 2 + s ^ 2 - l ^ 2) = 0 := by
    rw [h5, mul_pow]
    have : root (x ^ 2 + s ^ 2 - l ^ 2) ^ 2 = x ^ 2 + s ^ 2 - l ^ 2 := by rw [pow_two]; exact hr1
    rw [this]; ring
  rw [h6] at key
  have := (mul_eq_zero.1 key).resolve_left h1.ne'
  exact sub_eq_zero.1 ((mul_eq_zero.1 this).resolve_right h2.ne')

theorem turned_upper {root : K → K} (hroot : SqrtSpec root) {x s u t : K} (hx : x < u) (ht : 0 ≤ t)
    (hfit : TangentFits root (u - x) (x ^ 2 + s ^ 2 - u ^ 2) s t) : turned x s t ≤ u := by
  have h := turned_lower hroot (x := -x) (s := -s) (l := -u) (t := t) (neg_lt_neg hx) ht (by
    rw [neg_sq, neg_sq, neg_sq, neg_neg, show -x - -u = u - x by ring]; exact hfit)
  rw [turned_neg] at h
  exact neg_le_neg_iff.1 h

theorem turned_at_upper {root : K → K} (hroot : SqrtSpec root) {x s u t : K} (hx : x < u)
    (hd : 0 < x ^ 2 + s ^ 2 - u ^ 2) (heq : t * (root (x ^ 2 + s ^ 2 - u ^ 2) + s) = u - x) :
    turned x s t = u := by
  have h := turned_at_lower hroot (x := -x) (s := -s) (l := -u) (t := t) (neg_lt_neg hx)
    (by rw [neg_sq, neg_sq, neg_sq]; exact hd)
    (by rw [neg_sq, neg_sq, neg_sq, neg_neg, show -x - -u = u - x by ring]; exact heq)
  rw [turned_neg] at h
  exact neg_injective h

/-- Restricting the tangent by one bound. -/
theorem restrictTangent_spec {root : K → K} {margin disc towards : K} {who : Fin n × Side}
    {b : K × Option (Fin n × Side)} (hm : 0 < margin) (hb : 0 < b.1) :
    0 < (restrictTangent root margin disc towards who b).1 ∧
    (restrictTangent root margin disc towards who b).1 ≤ b.1 ∧
    (∀ t, 0 ≤ t → t ≤ (restrictTangent root margin disc towards who b).1 →
      TangentFits root margin disc towards t) ∧
    (restrictTangent root margin disc towards who b = b ∨
      (restrictTangent root margin disc towards who b).2 = some who ∧ 0 < disc ∧
        (restrictTangent root margin disc towards who b).1 * (root disc + towards) = margin) := by
  unfold restrictTangent
  split
  · rename_i hd
    dsimp only
    split
    · rename_i hlt
      have hs : 0 < root disc + towards := by
        by_contra hn
        have := mul_nonpos_of_nonneg_of_nonpos hb.le (not_lt.1 hn)
        linarith
      refine ⟨div_pos hm hs, ?_, fun t _ ht1 _ => ?_, Or.inr ⟨rfl, hd, div_mul_cancel₀ _ hs.ne'⟩⟩
      · rw [div_le_iff₀ hs]; exact hlt.le
      · exact (le_div_iff₀ hs).1 ht1
    · rename_i hlt
      refine ⟨hb, le_refl _, fun t ht0 ht1 _ => ?_, Or.inl rfl⟩
      rcases le_or_gt (root disc + towards) 0 with hs | hs
      · exact (mul_nonpos_of_nonneg_of_nonpos ht0 hs).trans hm.le
      · exact (mul_le_mul_of_nonneg_right ht1 hs.le).trans (not_lt.1 hlt)
  · rename_i hd
    exact ⟨hb, le_refl _, fun t _ _ hd' => absurd hd' hd, Or.inl rfl⟩

/-- What the parameter that restricts the tangent satisfies. -/
def ActiveSpec (x s l u : Vec K n) (side : Fin n → Side) (b : K × Option (Fin n × Side)) : Prop :=
  ∀ i v, b.2 = some (i, v) → side i = .free ∧
    ((v = .lower ∧ turned (x i) (s i) b.1 = l i) ∨ (v = .upper ∧ turned (x i) (s i) b.1 = u i))

/-- The turned component stays within its bounds up to a tangent. -/
def TurnFits (x s l u : Vec K n) (b : K) (i : Fin n) : Prop :=
  ∀ t, 0 ≤ t → t ≤ b → l i ≤ turned (x i) (s i) t ∧ turned (x i) (s i) t ≤ u i

/-- The bound on the tangent. -/
theorem tangentLoop_spec {root : K → K} (hroot : SqrtSpec root) {x s l u : Vec K n}
    {side : Fin n → Side} (hbox : InBox l u x) : ∀ (todo : List (Fin n)) (b : K × Option (Fin n × Side)),
    0 < b.1 → b.1 ≤ 1 → ActiveSpec x s l u side b →
    match tangentLoop root x s l u side todo b with
    | .reached i v => side i = .free ∧ ((v = .lower ∧ x i = l i) ∨ (v = .upper ∧ x i = u i))
    | .bound c active => 0 < c ∧ c ≤ b.1 ∧ c ≤ 1 ∧ (∀ i ∈ todo, side i = .free → TurnFits x s l u c i) ∧
        ActiveSpec x s l u side (c, active)
  | [], b, h0, h1, ha => ⟨h0, le_refl _, h1, fun i hi => absurd hi List.not_mem_nil, ha⟩
  | i :: rest, b, h0, h1, ha => by
    unfold tangentLoop
    by_cases hf : side i = .free
    · rw [if_pos hf]
      by_cases hl : x i - l i ≤ 0
      · rw [if_pos hl]
        exact ⟨hf, Or.inl ⟨rfl, le_antisymm (sub_nonpos.1 hl) (hbox i).1⟩⟩
      · rw [if_neg hl]
        by_cases hu : u i - x i ≤ 0
        · rw [if_pos hu]
          exact ⟨hf, Or.inr ⟨rfl, le_antisymm (hbox i).2 (sub_nonpos.1 hu)⟩⟩
        · rw [if_neg hu]
          dsimp only
          obtain ⟨p1, p2, p3, p4⟩ := restrictTangent_spec (root := root) (margin := x i - l i)
            (disc := x i ^ 2 + s i ^ 2 - l i ^ 2) (towards := -(s i)) (who := (i, Side.lower)) (b := b)
            (not_le.1 hl) h0
          generalize restrictTangent root (x i - l i) (x i ^ 2 + s i ^ 2 - l i ^ 2) (-(s i))
            (i, Side.lower) b = b1 at p1 p2 p3 p4 ⊢
          obtain ⟨q1, q2, q3, q4⟩ := restrictTangent_spec (root := root) (margin := u i - x i)
            (disc := x i ^ 2 + s i ^ 2 - u i ^ 2) (towards := s i) (who := (i, Side.upper)) (b := b1)
            (not_le.1 hu) p1
          generalize restrictTangent root (u i - x i) (x i ^ 2 + s i ^ 2 - u i ^ 2) (s i)
            (i, Side.upper) b1 = b2 at q1 q2 q3 q4 ⊢
          have hlx : l i < x i := sub_pos.1 (not_le.1 hl)
          have hxu : x i < u i := sub_pos.1 (not_le.1 hu)
          have hfit : TurnFits x s l u b2.1 i := fun t ht0 ht1 =>
            ⟨turned_lower hroot hlx ht0 (p3 t ht0 (ht1.trans q2)),
              turned_upper hroot hxu ht0 (q3 t ht0 ht1)⟩
          have ha1 : ActiveSpec x s l u side b1 := by
            rcases p4 with p4 | ⟨e1, e2, e3⟩
            · rw [p4]; exact ha
            · intro j v hj
              rw [e1] at hj
              cases hj
              exact ⟨hf, Or.inl ⟨rfl, turned_at_lower hroot hlx e2 e3⟩⟩
          have ha2 : ActiveSpec x s l u side b2 := by
            rcases q4 with q4 | ⟨e1, e2, e3⟩
            · rw [q4]; exact ha1
            · intro j v hj
              rw [e1] at hj
              cases hj
              exact ⟨hf, Or.inr ⟨rfl, turned_at_upper hroot hxu e2 e3⟩⟩
          have ih := tangentLoop_spec hroot hbox rest b2 q1 ((q2.trans p2).trans h1) ha2
          revert ih
          cases tangentLoop root x s l u side rest b2 with
          | reached j v => exact id
          | bound c active =>
            rintro ⟨c1, c2, c3, c4, c5⟩
            refine ⟨c1, (c2.trans q2).trans p2, c3, fun j hj hjf => ?_, c5⟩
            rcases List.mem_cons.1 hj with rfl | hj
            · exact fun t ht0 ht1 => hfit t ht0 (ht1.trans c2)
            · exact c4 j hj hjf
    · rw [if_neg hf]
      have ih := tangentLoop_spec hroot hbox rest b h0 h1 ha
      revert ih
      cases tangentLoop root x s l u side rest b with
      | reached j v => exact id
      | bound c active =>
        rintro ⟨c1, c2, c3, c4, c5⟩
        refine ⟨c1, c2, c3, fun j hj hjf => ?_, c5⟩
        rcases List.mem_cons.1 hj with rfl | hj
        · exact absurd hjf hf
        · exact c4 j hj hjf

/-! ## The best angle -/

/-- What is known after `k` angles. -/
structure AngleInv (k : Nat) (a : AngleState K) : Prop where
  nonneg : 0 ≤ a.maxReduction
  old : a.old ≤ a.maxReduction
  best : ∀ j, a.index = some j → j < k ∧ (∃ p, a.previous = some p ∧ p < a.maxReduction) ∧
    (j + 1 < k → ∃ q, a.next = some q ∧ q ≤ a.maxReduction)

theorem anglePass_inv {reduction : K → K} {bound : K} {nAngles k : Nat} {a : AngleState K}
    (ha : AngleInv k a) : AngleInv (k + 1) (anglePass reduction bound nAngles a k) := by
  unfold anglePass
  dsimp only
  generalize reduction (bound * ((k : K) + 1) / nAngles) = new
  split
  · rename_i hlt
    refine ⟨ha.nonneg.trans hlt.le, le_refl _, fun j hj => ?_⟩
    cases hj
    exact ⟨Nat.lt_succ_self _, ⟨_, rfl, lt_of_le_of_lt ha.old hlt⟩,
      fun h => absurd h (Nat.lt_irrefl _)⟩
  · rename_i hlt
    by_cases hk : (k : Int) = angleIndex a.index + 1
    · rw [if_pos hk]
      refine ⟨ha.nonneg, not_lt.1 hlt, fun j hj => ?_⟩
      obtain ⟨h1, h2, _⟩ := ha.best j hj
      exact ⟨Nat.lt_succ_of_lt h1, h2, fun _ => ⟨_, rfl, not_lt.1 hlt⟩⟩
    · rw [if_neg hk]
      refine ⟨ha.nonneg, not_lt.1 hlt, fun j hj => ?_⟩
      obtain ⟨h1, h2, h3⟩ := ha.best j hj
      refine ⟨Nat.lt_succ_of_lt h1, h2, fun hj1 => h3 ?_⟩
      have hj' : a.index = some j := hj
      rw [hj'] at hk
      simp only [angleIndex] at hk
      omega

theorem angleSearch_inv (reduction : K → K) (bound : K) (nAngles : Nat) :
    AngleInv nAngles (angleSearch reduction bound nAngles) := by
  unfold angleSearch
  have : ∀ k, AngleInv k ((List.range k).foldl (anglePass reduction bound nAngles)
      { maxReduction := 0, index := none, previous := none, next := none, old := 0 }) := by
    intro k
    induction k with
    | zero => exact ⟨le_refl _, le_refl _, fun j hj => by cases hj⟩
    | succ k ih =>
      rw [List.range_succ, List.foldl_append]
      exact anglePass_inv ih
  exact this nAngles

/-- The tangent that is used. -/
theorem chosenTangent_spec {bound : K} (hb : 0 < bound) {nAngles k : Nat} {a : AngleState K}
    (ha : AngleInv nAngles a) (hk : a.index = some k) :
    ∃ t, chosenTangent bound nAngles k a = .ok t ∧ 0 ≤ t ∧ t ≤ bound ∧
      ((k : Int) = (nAngles : Int) - 1 → t = bound) := by
  obtain ⟨h1, ⟨p, hp, hpm⟩, h3⟩ := ha.best k hk
  have hn : 0 < nAngles := Nat.lt_of_le_of_lt (Nat.zero_le _) h1
  have hnK : (0 : K) < nAngles := Nat.cast_pos.2 hn
  unfold chosenTangent
  split
  · rename_i hlt
    obtain ⟨q, hq, hqm⟩ := h3 (by omega)
    have hden : 0 < 2 * a.maxReduction - p - q := by linarith
    unfold updateTangent
    rw [hp, hq]
    dsimp only
    have hc : checkedDiv (q - p) (2 * a.maxReduction - p - q)
        = .ok ((q - p) / (2 * a.maxReduction - p - q)) := if_neg hden.ne'
    rw [hc]
    have hr1 : (q - p) / (2 * a.maxReduction - p - q) ≤ 1 := by
      rw [div_le_iff₀ hden]; linarith
    have hr2 : -1 ≤ (q - p) / (2 * a.maxReduction - p - q) := by
      rw [le_div_iff₀ hden]; linarith
    generalize (q - p) / (2 * a.maxReduction - p - q) = r at hr1 hr2
    have hk2 : (k : K) + 2 ≤ nAngles := by
      have : k + 2 ≤ nAngles := by omega
      exact_mod_cast this
    have hk0 : (0 : K) ≤ k := Nat.cast_nonneg k
    refine ⟨_, rfl, ?_, ?_, fun h => by omega⟩
    · exact div_nonneg (mul_nonneg hb.le (by linarith)) hnK.le
    · rw [div_le_iff₀ hnK]
      exact mul_le_mul_of_nonneg_left (by linarith) hb.le
  · have e : bound * (((nAngles - 1 : Nat) : K) + 1) / nAngles = bound := by
      rw [Nat.cast_sub hn, Nat.cast_one, sub_add_cancel]
      exact mul_div_cancel_right₀ _ hnK.ne'
    exact ⟨_, rfl, by rw [e]; exact hb.le, by rw [e], fun _ => e⟩

/-! ## One turn -/

/-- The search direction is orthogonal to the free part of the point and has its length. -/
theorem altDirection_spec {root : K → K} (hroot : SqrtSpec root) {side : Fin n → Side} {x g : Vec K n}
    {raw : K} (hraw : raw = freeDot side g g * freeDot side x x - freeDot side x g ^ 2) (hpos : 0 < raw) :
    (∀ i, side i ≠ .free →
      altDirection side x g (freeDot side x x) (freeDot side x g) (root raw) i = 0) ∧
    freeDot side x (altDirection side x g (freeDot side x x) (freeDot side x g) (root raw)) = 0 ∧
    freeDot side (altDirection side x g (freeDot side x x) (freeDot side x g) (root raw))
      (altDirection side x g (freeDot side x x) (freeDot side x g) (root raw)) = freeDot side x x ∧
    freeDot side g (altDirection side x g (freeDot side x x) (freeDot side x g) (root raw))
      = -(root raw) := by
  obtain ⟨hr0, hr1⟩ := hroot _ hpos.le
  have hr : root raw ≠ 0 := by
    intro h0
    rw [h0, mul_zero] at hr1
    exact hpos.ne hr1
  have hlin : ∀ y : Vec K n,
      freeDot side y (altDirection side x g (freeDot side x x) (freeDot side x g) (root raw))
        = (freeDot side x g * freeDot side y x - freeDot side x x * freeDot side y g) / root raw := by
    intro y
    generalize freeDot side x g = a
    generalize freeDot side x x = b
    unfold freeDot altDirection
    rw [Finset.mul_sum, Finset.mul_sum, ← Finset.sum_sub_distrib, Finset.sum_div]
    refine Finset.sum_congr rfl fun i _ => ?_
    by_cases hi : side i = .free
    · simp only [if_pos hi]; ring
    · simp only [if_neg hi]; ring
  have h1 := hlin x
  have h2 := hlin g
  have h3 := hlin (altDirection side x g (freeDot side x x) (freeDot side x g) (root raw))
  rw [freeDot_comm side (altDirection _ _ _ _ _ _) x,
    freeDot_comm side (altDirection _ _ _ _ _ _) g, h1, h2, freeDot_comm side g x] at h3
  rw [freeDot_comm side g x] at h2
  generalize freeDot side x g = a at *
  generalize freeDot side x x = b at *
  generalize freeDot side g g = c at *
  generalize root raw = r at *
  have hrr : c * b - a ^ 2 = r * r := by rw [hr1, hraw]
  refine ⟨fun i hi => if_neg hi, ?_, ?_, ?_⟩
  · rw [h1]; field_simp; ring
  · rw [h3]
    field_simp
    linear_combination b * hrr
  · rw [h2]
    field_simp
    linear_combination -hrr

/-- The step of a turn. -/
def altDelta (tangent : K) (side : Fin n → Side) (x dir : Vec K n) : Vec K n := fun i =>
  (tangentCosine tangent - 1) * freePart side x i + tangentSine tangent * dir i

/-- A turned point in terms of a step. -/
theorem altTurn_x (tangent current : K) {dir hs hRed : Vec K n} {s : AltState K n}
    (hdir : ∀ i, s.side i ≠ .free → dir i = 0) :
    (altTurn tangent current dir hs hRed s).x
      = fun i => s.x i + 1 * altDelta tangent s.side s.x dir i := by
  funext i
  unfold altTurn altDelta freePart
  dsimp only
  by_cases hi : s.side i = .free
  · rw [if_pos hi, if_pos hi]; ring
  · rw [if_neg hi, if_neg hi, hdir i hi]; ring

theorem matVec_comb (h : Mat K n n) (a b : K) (v w : Vec K n) :
    matVec h (fun i => a * v i + b * w i) = fun i => a * matVec h v i + b * matVec h w i := by
  funext i
  simp only [matVec, Finset.mul_sum, ← Finset.sum_add_distrib]
  exact Finset.sum_congr rfl fun j _ => by ring

theorem dot_comb (a b : K) (v w y : Vec K n) :
    dot y (fun i => a * v i + b * w i) = a * dot y v + b * dot y w := by
  simp only [dot, Finset.mul_sum, ← Finset.sum_add_distrib]
  exact Finset.sum_congr rfl fun j _ => by ring

/-- The value of the model at a turned point. -/
theorem altTurn_value {g0 : Vec K n} {h : Mat K n n} (hs : SymmetricMat h) {x gradient dir : Vec K n}
    {side : Fin n → Side} (hgrad : ∀ i, gradient i = g0 i + matVec h x i)
    (hdir : ∀ i, side i ≠ .free → dir i = 0) {sNorm : K} (hsn : freeDot side gradient dir = sNorm)
    (t : K) :
    quadModel g0 h (fun i => x i + 1 * altDelta t side x dir i)
      = quadModel g0 h x - tangentReduction (freeDot side dir (matVec h dir))
          (freeDot side x (matVec h (freePart side x))) (freeDot side x (matVec h dir))
          (freeDot side x gradient) sNorm t := by
  have hg : (fun i => g0 i + matVec h x i) = gradient := funext fun i => (hgrad i).symm
  rw [quadModel_axpy g0 h hs, hg, quadForm_eq_dot]
  have e1 : dot gradient (altDelta t side x dir)
      = (tangentCosine t - 1) * freeDot side x gradient + tangentSine t * sNorm := by
    unfold altDelta
    rw [dot_comb, ← freeDot_right, freeDot_comm, ← hsn, freeDot_right side gradient dir,
      freePart_of_zero hdir]
  have e2 : dot (altDelta t side x dir) (matVec h (altDelta t side x dir))
      = (tangentCosine t - 1) ^ 2 * freeDot side x (matVec h (freePart side x))
        + 2 * ((tangentCosine t - 1) * tangentSine t) * freeDot side x (matVec h dir)
        + tangentSine t ^ 2 * freeDot side dir (matVec h dir) := by
    have hm : matVec h (altDelta t side x dir) = fun i =>
        (tangentCosine t - 1) * matVec h (freePart side x) i + tangentSine t * matVec h dir i := by
      unfold altDelta; exact matVec_comb h _ _ _ _
    rw [hm, dot_comb, dot_comm (altDelta t side x dir), dot_comm (altDelta t side x dir)]
    unfold altDelta
    rw [dot_comb, dot_comb, freeDot_left, freeDot_left, freeDot_left, freePart_of_zero hdir,
      dot_comm (matVec h (freePart side x)) (freePart side x), dot_comm (matVec h dir) (freePart side x),
      dot_comm (matVec h dir) dir, dot_comm (matVec h (freePart side x)) dir,
      matVec_symm h hs dir (freePart side x)]
    ring
  rw [e1, e2, cosine_sub_one]
  unfold tangentReduction
  have hsd : 2 * t / (1 + t ^ 2) = tangentSine t := rfl
  rw [hsd]
  ring

/-- A turn does not change the norm of the free parameters. -/
theorem altTurn_norm {x dir : Vec K n} {side : Fin n → Side}
    (hdir : ∀ i, side i ≠ .free → dir i = 0) (horth : freeDot side x dir = 0)
    (hlen : freeDot side dir dir = freeDot side x x) (t : K) :
    dot (fun i => x i + 1 * altDelta t side x dir i) (fun i => x i + 1 * altDelta t side x dir i)
      = dot x x ∧
    freeDot side (fun i => x i + 1 * altDelta t side x dir i)
      (fun i => x i + 1 * altDelta t side x dir i) = freeDot side x x := by
  have hz : ∀ i, side i ≠ .free → altDelta t side x dir i = 0 := by
    intro i hi
    unfold altDelta freePart
    rw [if_neg hi, hdir i hi]; ring
  have hfix := fixed_norm (x := x) hz 1
  have h2 : freeDot side (fun i => x i + 1 * altDelta t side x dir i)
      (fun i => x i + 1 * altDelta t side x dir i) = freeDot side x x := by
    have e : freeDot side (fun i => x i + 1 * altDelta t side x dir i)
        (fun i => x i + 1 * altDelta t side x dir i)
        = tangentCosine t ^ 2 * freeDot side x x
          + 2 * (tangentCosine t * tangentSine t) * freeDot side x dir
          + tangentSine t ^ 2 * freeDot side dir dir := by
      unfold freeDot altDelta freePart
      rw [Finset.mul_sum, Finset.mul_sum, Finset.mul_sum, ← Finset.sum_add_distrib,
        ← Finset.sum_add_distrib]
      refine Finset.sum_congr rfl fun i _ => ?_
      by_cases hi : side i = .free
      · simp only [if_pos hi]; ring
      · simp only [if_neg hi]; ring
    rw [e, horth, hlen]
    linear_combination freeDot side x x * cosine_sine t
  refine ⟨?_, h2⟩
  rw [h2] at hfix
  linarith

/-- Fixing a parameter that is at its bound. -/
theorem altFix_inv {g0 : Vec K n} {h : Mat K n n} {l u : Vec K n} {radius top : K} {s : AltState K n}
    (hinv : TrsInv g0 h l u radius top s.x s.side s.gradient) {i : Fin n} {v : Side}
    (hv : (v = .lower ∧ s.x i = l i) ∨ (v = .upper ∧ s.x i = u i)) :
    TrsInv g0 h l u radius top (altFix i v s).x (altFix i v s).side (altFix i v s).gradient := by
  refine ⟨hinv.box, hinv.grad, fun j hj => ?_, fun j hj => ?_, hinv.ball, hinv.value⟩
  · by_cases hji : j = i
    · subst hji
      have hside : (altFix j v s).side j = v := if_pos rfl
      rw [hside] at hj
      rcases hv with ⟨_, hx⟩ | ⟨hv, _⟩
      · exact hx
      · rw [hv] at hj; cases hj
    · have hside : (altFix i v s).side j = s.side j := if_neg hji
      rw [hside] at hj
      exact hinv.low j hj
  · by_cases hji : j = i
    · subst hji
      have hside : (altFix j v s).side j = v := if_pos rfl
      rw [hside] at hj
      rcases hv with ⟨hv, _⟩ | ⟨_, hx⟩
      · rw [hv] at hj; cases hj
      · exact hx
    · have hside : (altFix i v s).side j = s.side j := if_neg hji
      rw [hside] at hj
      exact hinv.up j hj

/-- What holds in addition in the inner loop. -/
structure AltExtra (h : Mat K n n) (xReduced : K) (s : AltState K n) (hRed : Vec K n) : Prop where
  reduced : xReduced = freeDot s.side s.x s.x
  hess : hRed = matVec h (freePart s.side s.x)

/-- One pass of the inner loop. -/
theorem altPass_spec [FloorSemiring K] {root : K → K} (hroot : SqrtSpec root) {g0 : Vec K n}
    {h : Mat K n n} (hs : SymmetricMat h) {l u : Vec K n} {radius top xReduced : K} {s : AltState K n}
    {hRed : Vec K n} (hinv : TrsInv g0 h l u radius top s.x s.side s.gradient)
    (hex : AltExtra h xReduced s hRed) :
    OkWith (fun r => TrsInv g0 h l u radius top r.1.x r.1.side r.1.gradient ∧
      (r.2.2 = none → AltExtra h xReduced r.1 r.2.1) ∧
      (s.total = -(quadModel g0 h s.x) → r.1.total = -(quadModel g0 h r.1.x))) (altPass root h l u xReduced s hRed) := by
  obtain ⟨hxr, hhr⟩ := hex
  subst hxr
  subst hhr
  unfold altPass
  dsimp only
  split
  · exact ⟨hinv, (fun h => by cases h), fun h => h⟩
  · rename_i hraw
    have hpos : 0 < freeDot s.side s.gradient s.gradient * freeDot s.side s.x s.x
        - freeDot s.side s.x s.gradient ^ 2 := by
      refine lt_of_le_of_lt ?_ (not_le.1 hraw)
      positivity
    obtain ⟨hd0, hd1, hd2, hd3⟩ := altDirection_spec hroot rfl hpos
    generalize freeDot s.side s.gradient s.gradient * freeDot s.side s.x s.x
        - freeDot s.side s.x s.gradient ^ 2 = raw at hd0 hd1 hd2 hd3 hpos ⊢
    generalize altDirection s.side s.x s.gradient (freeDot s.side s.x s.x)
        (freeDot s.side s.x s.gradient) (root raw) = dir at hd0 hd1 hd2 hd3 ⊢
    have hloop := tangentLoop_spec hroot (s := dir) (side := s.side) hinv.box (List.finRange n)
      (1, none) one_pos (le_refl _) (fun i v hiv => by cases hiv)
    revert hloop
    cases tangentLoop root s.x dir l u s.side (List.finRange n) (1, none) with
    | reached i v =>
      rintro ⟨_, hv⟩
      exact ⟨altFix_inv hinv hv, (fun h => by cases h), fun h => h⟩
    | bound b active =>
      rintro ⟨hb0, _, _, hfit, hact⟩
      dsimp only
      unfold altStep
      dsimp only
      have hval := altTurn_value (g0 := g0) hs hinv.grad hd0 hd3
      generalize tangentReduction (freeDot s.side dir (matVec h dir))
        (freeDot s.side s.x (matVec h (freePart s.side s.x))) (freeDot s.side s.x (matVec h dir))
        (freeDot s.side s.x s.gradient) (-(root raw)) = reduction at hval ⊢
      have hang := angleSearch_inv reduction b ⌊17 * b + 31 / 10⌋₊
      generalize angleSearch reduction b ⌊17 * b + 31 / 10⌋₊ = a at hang ⊢
      cases hidx : a.index with
      | none => exact ⟨hinv, (fun h => by cases h), fun h => h⟩
      | some k =>
        obtain ⟨t, ht, ht0, htb, htl⟩ := chosenTangent_spec hb0 hang hidx
        dsimp only
        rw [ht]
        dsimp only
        split
        · exact ⟨hinv, (fun h => by cases h), fun h => h⟩
        · rename_i hcur
          have hx := altTurn_x t (reduction t) (hs := matVec h dir)
            (hRed := matVec h (freePart s.side s.x)) hd0
          have hxi : ∀ i, s.side i = .free → (altTurn t (reduction t) dir (matVec h dir)
              (matVec h (freePart s.side s.x)) s).x i = turned (s.x i) (dir i) t :=
            fun i hi => if_pos hi
          have hxo : ∀ i, s.side i ≠ .free → (altTurn t (reduction t) dir (matVec h dir)
              (matVec h (freePart s.side s.x)) s).x i = s.x i :=
            fun i hi => if_neg hi
          have hside : (altTurn t (reduction t) dir (matVec h dir)
              (matVec h (freePart s.side s.x)) s).side = s.side := rfl
          have hgr : (altTurn t (reduction t) dir (matVec h dir)
              (matVec h (freePart s.side s.x)) s).gradient = fun i => s.gradient i
                + ((tangentCosine t - 1) * matVec h (freePart s.side s.x) i
                  + tangentSine t * matVec h dir i) := rfl
          have hh : altHessian t (matVec h dir) (matVec h (freePart s.side s.x)) = fun i =>
              tangentCosine t * matVec h (freePart s.side s.x) i + tangentSine t * matVec h dir i := rfl
          have htot : (altTurn t (reduction t) dir (matVec h dir)
              (matVec h (freePart s.side s.x)) s).total = s.total + reduction t := rfl
          generalize altTurn t (reduction t) dir (matVec h dir)
            (matVec h (freePart s.side s.x)) s = w at hx hxi hxo hside hgr htot ⊢
          generalize altHessian t (matVec h dir) (matVec h (freePart s.side s.x)) = hr at hh ⊢
          obtain ⟨hn1, hn2⟩ := altTurn_norm hd0 hd1 hd2 t
          have hw : TrsInv g0 h l u radius top w.x w.side w.gradient := by
            refine ⟨fun i => ?_, fun i => ?_, fun i hi => ?_, fun i hi => ?_, ?_, ?_⟩
            · by_cases hi : s.side i = .free
              · rw [hxi i hi]
                exact hfit i (List.mem_finRange i) hi t ht0 htb
              · rw [hxo i hi]
                exact hinv.box i
            · rw [hgr, hx, matVec_axpy]
              dsimp only
              rw [hinv.grad i]
              have hm : matVec h (altDelta t s.side s.x dir) = fun i =>
                  (tangentCosine t - 1) * matVec h (freePart s.side s.x) i
                    + tangentSine t * matVec h dir i := by
                unfold altDelta; exact matVec_comb h _ _ _ _
              rw [hm]
              ring
            · rw [hside] at hi
              rw [hxo i (by rw [hi]; decide)]; exact hinv.low i hi
            · rw [hside] at hi
              rw [hxo i (by rw [hi]; decide)]; exact hinv.up i hi
            · rw [hx, hn1]; exact hinv.ball
            · rw [hx, hval]
              have := hinv.value
              have := not_le.1 hcur
              linarith
          have hwt : s.total = -(quadModel g0 h s.x) → w.total = -(quadModel g0 h w.x) := by
            intro h0
            rw [htot, hx, hval, h0]
            ring
          have hwex : AltExtra h (freeDot s.side s.x s.x) w hr := by
            refine ⟨?_, ?_⟩
            · rw [hside, hx, hn2]
            · rw [hh, ← matVec_comb]
              congr 1
              funext i
              unfold freePart
              rw [hside]
              by_cases hi : s.side i = .free
              · rw [if_pos hi, if_pos hi, hxi i hi]; rfl
              · rw [if_neg hi, if_neg hi, hd0 i hi]; ring
          have hcont : ∀ c : K, TrsInv g0 h l u radius top
                (if c ≤ 1 / 100 * w.total then (w, hr, some false) else (w, hr, none)).1.x
                (if c ≤ 1 / 100 * w.total then (w, hr, some false) else (w, hr, none)).1.side
                (if c ≤ 1 / 100 * w.total then (w, hr, some false) else (w, hr, none)).1.gradient ∧
              ((if c ≤ 1 / 100 * w.total then (w, hr, some false) else (w, hr, none)).2.2 = none →
                AltExtra h (freeDot s.side s.x s.x)
                  (if c ≤ 1 / 100 * w.total then (w, hr, some false) else (w, hr, none)).1
                  (if c ≤ 1 / 100 * w.total then (w, hr, some false) else (w, hr, none)).2.1) ∧
              (s.total = -(quadModel g0 h s.x) →
                (if c ≤ 1 / 100 * w.total then (w, hr, some false) else (w, hr, none)).1.total =
                -(quadModel g0 h
                  (if c ≤ 1 / 100 * w.total then (w, hr, some false) else (w, hr, none)).1.x)) := by
            intro c
            split
            · exact ⟨hw, (fun h => by cases h), hwt⟩
            · exact ⟨hw, fun _ => hwex, hwt⟩
          change _ ∧ _
          cases active with
          | none => exact hcont _
          | some av =>
            cases hl : decide ((k : Int) = ((⌊17 * b + 31 / 10⌋₊ : Nat) : Int) - 1) with
            | false => exact hcont _
            | true =>
              have htb' := htl (of_decide_eq_true hl)
              obtain ⟨hf, hv⟩ := hact av.1 av.2 rfl
              dsimp only at hv
              rw [← htb', ← hxi _ hf] at hv
              exact ⟨altFix_inv hw hv, (fun h => by cases h), hwt⟩

theorem altInner_spec [FloorSemiring K] {root : K → K} (hroot : SqrtSpec root) {g0 : Vec K n}
    {h : Mat K n n} (hs : SymmetricMat h) {l u : Vec K n} {radius top xReduced : K} :
    ∀ (k : Nat) {s : AltState K n} {hRed : Vec K n}, TrsInv g0 h l u radius top s.x s.side s.gradient →
    AltExtra h xReduced s hRed →
    OkWith (fun r => TrsInv g0 h l u radius top r.1.x r.1.side r.1.gradient ∧
        (s.total = -(quadModel g0 h s.x) → r.1.total = -(quadModel g0 h r.1.x)))
      (altInner root h l u xReduced k s hRed)
  | 0, _, _, hinv, _ => ⟨hinv, fun h => h⟩
  | k + 1, s, hRed, hinv, hex => by
    unfold altInner
    refine OkWith.bind (altPass_spec hroot hs hinv hex) ?_
    rintro ⟨t, hr, o⟩ ⟨h1, h2, h3⟩
    cases o with
    | some restart => exact ⟨h1, h3⟩
    | none =>
      have := altInner_spec hroot hs k h1 (h2 rfl)
      dsimp only at this ⊢
      revert this
      cases altInner root h l u xReduced k t hr with
      | error e => exact fun h => h
      | ok v => exact fun h => ⟨h.1, fun h0 => h.2 (h3 h0)⟩

/-- Applying the bounds changes nothing. -/
theorem trsboxBounds_id {g0 : Vec K n} {h : Mat K n n} {l u : Vec K n} {radius top : K} {x gradient : Vec K n}
    {side : Fin n → Side} (hinv : TrsInv g0 h l u radius top x side gradient) :
    trsboxBounds side l u x = x := by
  funext i
  unfold trsboxBounds
  cases hi : side i with
  | lower => exact (hinv.low i hi).symm
  | upper => exact (hinv.up i hi).symm
  | free =>
    dsimp only
    split
    · rename_i hle
      exact le_antisymm (hinv.box i).1 hle
    · split
      · rename_i hle
        exact le_antisymm hle (hinv.box i).2
      · rfl

theorem altOuter_spec [FloorSemiring K] {root : K → K} (hroot : SqrtSpec root) {g0 : Vec K n}
    {h : Mat K n n} (hs : SymmetricMat h) {l u : Vec K n} {radius top : K} {maxIter : Nat} :
    ∀ (k : Nat) {s : AltState K n}, TrsInv g0 h l u radius top s.x s.side s.gradient →
    OkWith (fun r => TrsInv g0 h l u radius top r.x r.side r.gradient ∧
        (s.total = -(quadModel g0 h s.x) → r.total = -(quadModel g0 h r.x)))
      (altOuter root h l u maxIter k s)
  | 0, _, hinv => ⟨hinv, fun h => h⟩
  | k + 1, s, hinv => by
    unfold altOuter
    split
    · change TrsInv g0 h l u radius top (trsboxBounds s.side l u s.x) s.side s.gradient ∧
        (_ → s.total = -(quadModel g0 h (trsboxBounds s.side l u s.x)))
      rw [trsboxBounds_id hinv]
      exact ⟨hinv, fun h => h⟩
    · refine OkWith.bind (altInner_spec hroot hs maxIter hinv ⟨rfl, rfl⟩) ?_
      rintro ⟨t, o⟩ ⟨h1, h3⟩
      cases o with
      | true =>
        have := altOuter_spec (maxIter := maxIter) hroot hs k h1
        dsimp only
        revert this
        cases altOuter root h l u maxIter k t with
        | error e => exact fun h => h
        | ok v => exact fun h => ⟨h.1, fun h0 => h.2 (h3 h0)⟩
      | false => exact ⟨h1, h3⟩

/-- The initial state of `minimizeTrsbox` satisfies the invariants. -/
theorem trsStart_inv {g : Vec K n} {h : Mat K n n} {l u : Vec K n} {radius : K} (hl : ∀ i, l i ≤ 0)
    (hu : ∀ i, 0 ≤ u i) :
    TrsInv g h l u radius 0 (trsStart g l u radius).x (trsStart g l u radius).side
      (trsStart g l u radius).gradient ∧ TrsExtra radius (trsStart g l u radius) := by
  refine ⟨⟨fun i => ⟨hl i, hu i⟩, fun i => ?_, fun i hi => ?_, fun i hi => ?_, ?_, ?_⟩,
    ⟨?_, fun hb => absurd rfl hb⟩⟩
  · simp [matVec, trsStart]
  · change trsboxSides g l u i = _ at hi
    unfold trsboxSides at hi
    split at hi
    · cases hi
    · split at hi
      · rename_i h0
        exact le_antisymm h0.1 (hl i)
      · cases hi
  · change trsboxSides g l u i = _ at hi
    unfold trsboxSides at hi
    split at hi
    · rename_i h0
      exact le_antisymm (hu i) h0.1
    · split at hi <;> cases hi
  · simp [dot, trsStart]; positivity
  · simp [quadModel, trsStart]
  · simp [dot, freeDot, trsStart]

/-- The part of the solver after the conjugate gradient loop. -/
theorem trsFinish_spec [FloorSemiring K] {root : K → K} (hroot : SqrtSpec root) {g : Vec K n}
    {h : Mat K n n} (hs : SymmetricMat h) {l u : Vec K n} {radius top : K} {r : TrsState K n × Bool}
    (hinv : TrsInv g h l u radius top r.1.x r.1.side r.1.gradient) :
    OkWith (fun x => InBox l u x ∧ dot x x ≤ radius ^ 2 ∧ quadModel g h x ≤ top)
      (trsFinish root h l u r) := by
  unfold trsFinish
  split
  · refine OkWith.bind (altOuter_spec hroot hs (g0 := g) (radius := radius) (top := top) _ hinv) ?_
    rintro w ⟨hw, -⟩
    change InBox l u (trsboxBounds w.side l u w.x) ∧ _
    rw [trsboxBounds_id hw]
    exact ⟨hw.box, hw.ball, hw.value⟩
  · change InBox l u (trsboxBounds r.1.side l u r.1.x) ∧ _
    rw [trsboxBounds_id hinv]
    exact ⟨hinv.box, hinv.ball, hinv.value⟩

/-- The whole solver. -/
theorem minimizeTrsbox_spec [FloorSemiring K] {root : K → K} (hroot : SqrtSpec root) {g : Vec K n}
    {h : Mat K n n} (hs : SymmetricMat h) {l u : Vec K n} {radius : K} (hl : ∀ i, l i ≤ 0)
    (hu : ∀ i, 0 ≤ u i) :
    OkWith (fun x => InBox l u x ∧ dot x x ≤ radius ^ 2 ∧ quadModel g h x ≤ 0)
      (minimizeTrsbox root g h radius l u) := by
  obtain ⟨h1, h2⟩ := trsStart_inv (g := g) (h := h) (radius := radius) hl hu
  exact OkWith.bind (trsLoop_spec hroot hs _ h1 h2) fun r hr => trsFinish_spec hroot hs hr

/-! ## The first step -/

/-- The point after a pass is the point after the step. -/
theorem trsContinue_x {gsOld reduction step dist : K} {active : Option (Fin n)} {t : TrsState K n}
    {r : TrsState K n × Option Bool} (hr : trsContinue gsOld reduction step dist active t = .ok r) :
    r.1.x = t.x := by
  unfold trsContinue at hr
  split at hr
  · split at hr <;> (cases hr; rfl)
  · split at hr
    · cases hr; rfl
    · split at hr
      · cases hr; rfl
      · unfold checkedDiv at hr
        split at hr
        · cases hr
        · cases hr; rfl

/-- The step of a pass is the best one along its direction. -/
theorem best_step {b c gs php step dist : K} (hc0 : 0 ≤ c) (hb0 : 0 ≤ b) (hgs : 0 < gs) (hc1 : c ≤ step)
    (hstepd : step ≤ dist) (hbd : b ≤ dist) (hbc : c < step → b ≤ c)
    (hstepphp : 0 < php → step ≤ gs / php) (hstepeq : step < dist → 0 < php ∧ step = gs / php) :
    -(c * gs) + c ^ 2 / 2 * php ≤ -(b * gs) + b ^ 2 / 2 * php := by
  have hdiff : (-(b * gs) + b ^ 2 / 2 * php) - (-(c * gs) + c ^ 2 / 2 * php)
      = (c - b) * (gs - (c + b) / 2 * php) := by ring
  have hpos : b ≤ c → 0 ≤ gs - (c + b) / 2 * php := by
    intro hle
    rcases le_or_gt php 0 with h0 | h0
    · have : 0 ≤ (c + b) / 2 * -php := mul_nonneg (by linarith) (by linarith)
      linarith
    · have h1 := hc1.trans (hstepphp h0)
      rw [le_div_iff₀ h0] at h1
      have : (c + b) / 2 * php ≤ c * php := mul_le_mul_of_nonneg_right (by linarith) h0.le
      linarith
  have hgoal : 0 ≤ (c - b) * (gs - (c + b) / 2 * php) := by
    rcases hc1.lt_or_eq with hlt | heq
    · exact mul_nonneg (sub_nonneg.2 (hbc hlt)) (hpos (hbc hlt))
    · rcases hstepd.lt_or_eq with h | h
      · obtain ⟨h0, h1⟩ := hstepeq h
        rw [← heq] at h1
        have h2 : gs = c * php := by rw [h1, div_mul_cancel₀ _ h0.ne']
        have e : (c - b) * (gs - (c + b) / 2 * php) = (c - b) ^ 2 / 2 * php := by
          rw [h2]; ring
        rw [e]
        positivity
      · have hle : b ≤ c := by rw [heq, h]; exact hbd
        exact mul_nonneg (sub_nonneg.2 hle) (hpos hle)
  linarith

/-- The first pass takes the best step along the projected gradient, unless the step is negligible. -/
theorem trsFirst_spec {root : K → K} (hroot : SqrtSpec root) {g : Vec K n} {h : Mat K n n}
    (hs : SymmetricMat h) {l u p : Vec K n} {radius : K} (hl : ∀ i, l i ≤ 0) (hu : ∀ i, 0 ≤ u i)
    (hp : ∀ i, p i = if trsboxSides g l u i = .free then -(g i) else 0)
    (hpp : 0 < dot p p) (hrad : 0 < radius) (hr : (1 / 10 ^ 30) ^ 2 * dot p p < radius ^ 2)
    (hc : 1 / 10 ^ 30 * dot p (matVec h p) < dot p p) :
    ∃ c, 0 < c ∧ OkWith (fun r => r.1.x = fun i => c * p i)
        (trsPass root h l u (trsStart g l u radius)) ∧
      c * dot p (matVec h p) ≤ dot p p ∧
      ∀ b, 0 ≤ b → InBox l u (fun i => b * p i) → dot (fun i => b * p i) (fun i => b * p i) ≤ radius ^ 2 →
        -(c * dot p p) + c ^ 2 / 2 * dot p (matVec h p)
          ≤ -(b * dot p p) + b ^ 2 / 2 * dot p (matVec h p) := by
  obtain ⟨hinv, hex⟩ := trsStart_inv (g := g) (h := h) (radius := radius) hl hu
  have hdir : trsDirection (trsStart g l u radius) = p := by
    funext i
    rw [hp i]
    unfold trsDirection trsStart
    simp only [if_true]
  have hpz : ∀ i, trsboxSides g l u i ≠ .free → p i = 0 := fun i hi => by rw [hp i, if_neg hi]
  unfold trsPass
  rw [hdir, if_neg hpp.ne']
  have hgs : (trsPrepare (trsStart g l u radius)).gs = dot p p := by
    unfold trsPrepare
    rw [hdir]
    exact if_pos rfl
  have hgi : (trsPrepare (trsStart g l u radius)).gsInitial = dot p p := by
    rw [← hgs]
    rfl
  have hsmall : ¬trsSmall (trsPrepare (trsStart g l u radius)) := by
    unfold trsSmall
    rw [hgs, hgi]
    have e1 : (trsPrepare (trsStart g l u radius)).total = 0 := rfl
    have e2 : (trsPrepare (trsStart g l u radius)).deltaSq = radius ^ 2 := rfl
    rw [e1, e2]
    have h1 : 0 < dot p p * radius ^ 2 := by positivity
    rintro (⟨h2, -⟩ | ⟨h2, -⟩)
    · have : (1 : K) / 10 ^ 6 * dot p p < 1 * dot p p := by
        refine mul_lt_mul_of_pos_right ?_ hpp
        norm_num
      linarith
    · have e : (1 : K) / 10 ^ 6 * 0 ^ 2 = 0 := by ring
      rw [e] at h2
      linarith
  rw [if_neg hsmall]
  unfold trsStep
  have e1 : (trsPrepare (trsStart g l u radius)).projected = p := hdir
  have e2 : (trsPrepare (trsStart g l u radius)).x = fun _ => 0 := rfl
  have e3 : (trsPrepare (trsStart g l u radius)).side = trsboxSides g l u := rfl
  have e4 : (trsPrepare (trsStart g l u radius)).deltaSq = radius ^ 2 := rfl
  have hpass := trsPass_spec hroot hs hinv hex
  unfold trsPass at hpass
  rw [hdir, if_neg hpp.ne', if_neg hsmall] at hpass
  unfold trsStep at hpass
  dsimp only at hpass ⊢
  generalize trsPrepare (trsStart g l u radius) = t at e1 e2 e3 e4 hgs hgi hpass ⊢
  rw [e1, e2, e3, e4, hgs] at hpass ⊢
  have hgx : freeDot (trsboxSides g l u) p (fun _ => 0) = 0 := by simp [freeDot]
  have hxx : freeDot (trsboxSides g l u) (fun _ => (0 : K)) (fun _ => 0) = 0 := by simp [freeDot]
  have hphp : freeDot (trsboxSides g l u) p (matVec h p) = dot p (matVec h p) := by
    rw [freeDot_left, freePart_of_zero hpz]
  have hr2 : 0 < radius ^ 2 := by positivity
  rw [hgx, hxx, hphp, sub_zero] at hpass ⊢
  rw [if_neg (not_le.2 hr2)] at hpass ⊢
  obtain ⟨step, dist, hd, hstep0, hstepd, hdist, hstepphp, hstepeq⟩ :=
    trsboxDistance_spec hroot (gx := 0) (php := dot p (matVec h p)) hr2 hpp hpp
  rw [hd] at hpass ⊢
  dsimp only at hpass ⊢
  have hdpos : 0 < dist := lt_of_lt_of_le hstep0 hstepd
  have hdist' : dot p p * dist ^ 2 = radius ^ 2 := by rw [← hdist]; ring
  have hbig : ¬step ≤ 1 / 10 ^ 30 := by
    intro hle
    rcases hstepd.lt_or_eq with hlt | heq
    · obtain ⟨h0, h1⟩ := hstepeq hlt
      rw [h1, div_le_iff₀ h0] at hle
      exact absurd hc (not_lt.2 hle)
    · rw [heq] at hle
      have : dist ^ 2 ≤ (1 / 10 ^ 30) ^ 2 := pow_le_pow_left₀ hdpos.le hle 2
      have := mul_le_mul_of_nonneg_left this hpp.le
      rw [hdist'] at this
      linarith
  rw [if_neg hbig] at hpass ⊢
  obtain ⟨hc0, hc1, hc2, hc3, hc4⟩ :=
    trsboxConstrained_spec (x := fun _ => (0 : K)) (p := p) (l := l) (u := u) (fun i => ⟨hl i, hu i⟩)
      hstep0.le
  generalize trsboxConstrained (fun _ => (0 : K)) p l u step = c at hc0 hc1 hc2 hc3 hc4 hpass ⊢
  have hcpos : 0 < c.1 := by
    cases hidx : c.2 with
    | none => rw [hc3 hidx]; exact hstep0
    | some i =>
      obtain ⟨h1, h2, h3⟩ := hc4 i hidx
      refine lt_of_le_of_ne hc0 fun h0 => ?_
      have hside : trsboxSides g l u i = .free := by
        by_contra hn
        exact h1 (hpz i hn)
      have hpi : p i = -(g i) := by rw [hp i, if_pos hside]
      unfold trsboxSides at hside
      split at hside
      · cases hside
      · rename_i n1
        split at hside
        · cases hside
        · rename_i n2
          rcases lt_or_gt_of_ne h1 with hneg | hpos
          · have := h3 hneg
            rw [← h0] at this
            exact n2 ⟨by linarith, by linarith⟩
          · have := h2 hpos
            rw [← h0] at this
            exact n1 ⟨by linarith, by linarith⟩
  refine ⟨c.1, hcpos, ?_, ?_, fun b hb0 hbox hball => ?_⟩
  · revert hpass
    cases hcont : trsContinue (dot p p) (trsReduction t (dot p (matVec h p)) c.1) c.1 dist c.2
      (trsMove h (dot p (matVec h p)) c.1 t) with
    | error e => exact fun h => h.elim
    | ok r =>
      intro _
      change r.1.x = _
      rw [trsContinue_x hcont]
      unfold trsMove
      rw [if_pos hcpos]
      funext i
      change t.x i + c.1 * t.projected i = _
      rw [e1, e2, zero_add]
  · rcases le_or_gt (dot p (matVec h p)) 0 with h0 | h0
    · exact (mul_nonpos_of_nonneg_of_nonpos hc0 h0).trans hpp.le
    · exact (le_div_iff₀ h0).1 (hc1.trans (hstepphp h0))
  · -- a feasible step is not longer than the restrictions
    have hbd : b ≤ dist := by
      have h1 : dot (fun i => b * p i) (fun i => b * p i) = dot p p * b ^ 2 := by
        rw [dot_smul_left, dot_smul_right]; ring
      rw [h1, ← hdist'] at hball
      have := le_of_mul_le_mul_left hball hpp
      exact le_of_sq_le_sq this hdpos.le
    have hbc : c.1 < step → b ≤ c.1 := by
      intro hlt
      cases hidx : c.2 with
      | none => exact absurd (hc3 hidx) hlt.ne
      | some i =>
        obtain ⟨h1, h2, h3⟩ := hc4 i hidx
        rcases lt_or_gt_of_ne h1 with hneg | hpos
        · have h4 := h3 hneg
          rw [zero_add] at h4
          have h5 : l i ≤ b * p i := (hbox i).1
          rw [← h4] at h5
          exact (mul_le_mul_right_of_neg hneg).1 h5
        · have h4 := h2 hpos
          rw [zero_add] at h4
          have h5 : b * p i ≤ u i := (hbox i).2
          rw [← h4] at h5
          exact le_of_mul_le_mul_right h5 hpos
    exact best_step hc0 hb0 hpp hc1 hstepd hbd hbc hstepphp hstepeq

end Tranquilo
