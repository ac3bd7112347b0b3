import Verif.Lemmas.LinearTrsbox
import Verif.Props.Bntr
import Mathlib.Data.Fin.VecNotation
import Mathlib.Tactic.FinCases
import Mathlib.Tactic.NormNum

/-! # C51, C96: the linear trsbox solver -/

namespace Tranquilo

variable {K : Type} [Field K] [LinearOrder K] [IsStrictOrderedRing K] {n : Nat}
variable {root : K → K} {zero radius : K}

theorem minimizeTrsboxLinear_end (hroot : SqrtSpec root) (hzero : 0 < zero) (g l u : Vec K n)
    {x : Vec K n} (h : minimizeTrsboxLinear root zero g l u radius = .ok x) :
    LinEnd radius (fun i => min (l i) (-zero)) (fun i => max (u i) zero) (linearDirection zero g) x :=
  linearTrsboxLoop_end hroot hzero (fun _ => lt_of_le_of_lt (min_le_right _ _) (neg_neg_of_pos hzero))
    (fun _ => lt_of_lt_of_le hzero (le_max_right _ _)) n _ _ _ 0 0 x
    (LinInv.start radius hzero g _ _) (card_leftDirections_le _) h

/-- C51, region and descent: a returned point is in the trust region, and the linear model is not larger
there than at zero. -/
theorem C51_in_region_and_descent_partial (hroot : SqrtSpec root) (hzero : 0 < zero) (g l u x : Vec K n)
    (h : minimizeTrsboxLinear root zero g l u radius = .ok x) :
    NormLe x radius ∧ ∑ i, g i * x i ≤ 0 := by
  obtain ⟨τ, hτ, hball, hx, -⟩ := minimizeTrsboxLinear_end hroot hzero g l u h
  refine ⟨?_, Finset.sum_nonpos fun i _ => ?_⟩
  · unfold NormLe sumSq
    refine le_trans (le_of_eq (Finset.sum_congr rfl fun i _ => ?_)) hball
    ring
  · have hd : ∀ s : K, linearDirection zero g i ≠ 0 → linearDirection zero g i = -(g i) := by
      intro _ h0
      unfold linearDirection at h0 ⊢
      split
      · rename_i h1; rw [if_pos h1] at h0; exact absurd rfl h0
      · rfl
    rcases hx i with (⟨h1, -⟩ | ⟨h1, h2, -⟩ | ⟨h1, h2, -⟩) | h1
    · rw [h1, mul_zero]
    · rw [hd 0 h2.ne'] at h2
      have : 0 < x i := by rw [h1]; exact lt_of_lt_of_le hzero (le_max_right _ _)
      nlinarith
    · rw [hd 0 h2.ne] at h2
      have : x i < 0 := by
        rw [h1]; exact lt_of_le_of_lt (min_le_right _ _) (neg_neg_of_pos hzero)
      nlinarith
    · by_cases h0 : linearDirection zero g i = 0
      · rw [h1, h0]; simp
      · rw [h1, hd 0 h0]
        nlinarith [mul_nonneg hτ (mul_self_nonneg (g i))]

/-- The bounds the solver works with: bounds closer to zero than the threshold are moved away from it. -/
def InWidenedBox (zero : K) (l u x : Vec K n) : Prop :=
  ∀ i, (l i ≤ x i ∨ -zero ≤ x i) ∧ (x i ≤ u i ∨ x i ≤ zero)

omit [Field K] [IsStrictOrderedRing K] in
theorem inWidenedBox_iff [Field K] (zero : K) (l u x : Vec K n) :
    InWidenedBox zero l u x ↔ ∀ i, min (l i) (-zero) ≤ x i ∧ x i ≤ max (u i) zero := by
  unfold InWidenedBox
  simp only [min_le_iff, le_max_iff]

/-- A point that is the projection of a point of the path is optimal. -/
theorem linEnd_optimal {l u d0 x y : Vec K n} (hl : ∀ i, l i < 0) (hu : ∀ i, 0 < u i)
    (h : LinEnd radius l u d0 x) (hx : InBox l u x) (hy : InBox l u y) (hny : dot y y ≤ radius ^ 2) :
    dot d0 y ≤ dot d0 x := by
  obtain ⟨τ, hτ, hball, hset, hend⟩ := h
  rcases hend with hend | hend
  · rcases hτ.lt_or_eq with hτ | hτ
    · have h1 : ∀ i, (τ * d0 i - x i) * (y i - x i) ≤ 0 := by
        intro i
        rcases hset i with (⟨h1, h2⟩ | ⟨h1, h2, h3⟩ | ⟨h1, h2, h3⟩) | h1
        · rw [h1, h2]; simp
        · rw [h1]
          exact mul_nonpos_of_nonneg_of_nonpos (by linarith) (by linarith [(hy i).2])
        · rw [h1]
          exact mul_nonpos_of_nonpos_of_nonneg (by linarith) (by linarith [(hy i).1])
        · rw [h1]; simp
      have h2 : τ * (dot d0 y - dot d0 x) ≤ dot x y - dot x x := by
        unfold dot
        rw [← Finset.sum_sub_distrib, ← Finset.sum_sub_distrib, Finset.mul_sum]
        refine Finset.sum_le_sum fun i _ => ?_
        linarith [h1 i]
      have h3 : dot x y ≤ (dot x x + dot y y) / 2 := by
        unfold dot
        rw [← Finset.sum_add_distrib, Finset.sum_div]
        refine Finset.sum_le_sum fun i _ => ?_
        rw [le_div_iff₀ two_pos]
        nlinarith [sq_nonneg (x i - y i)]
      have h4 : τ * (dot d0 y - dot d0 x) ≤ 0 := by linarith
      by_contra hn
      have : 0 < τ * (dot d0 y - dot d0 x) := mul_pos hτ (by linarith)
      linarith
    · have hx0 : x = fun _ => 0 := by
        funext i
        rcases hset i with (⟨h1, -⟩ | ⟨h1, h2, h3⟩ | ⟨h1, h2, h3⟩) | h1
        · exact h1
        · rw [← hτ, zero_mul] at h3; linarith [hu i]
        · rw [← hτ, zero_mul] at h3; linarith [hl i]
        · rw [h1, ← hτ, zero_mul]
      rw [← hend, hx0, dot_zero_left] at hny
      have hy0 := dot_self_eq_zero (le_antisymm hny (dot_self_nonneg y))
      rw [hx0, hy0]
  · unfold dot
    refine Finset.sum_le_sum fun i _ => ?_
    rcases hend i with ⟨-, h2⟩ | ⟨h1, h2, h3⟩ | ⟨h1, h2, h3⟩
    · rw [h2]; simp
    · rw [h1]; exact mul_le_mul_of_nonneg_left (hy i).2 h2.le
    · rw [h1]; exact mul_le_mul_of_nonpos_left (hy i).1 h2.le

/-- The thresholded direction differs from the negative gradient by less than the threshold. -/
theorem linearDirection_error (hzero : 0 < zero) (g y : Vec K n) :
    -(dot (linearDirection zero g) y) ≤ ∑ i, g i * y i + zero * ∑ i, |y i| := by
  unfold dot
  rw [← Finset.sum_neg_distrib, Finset.mul_sum, ← Finset.sum_add_distrib]
  refine Finset.sum_le_sum fun i _ => ?_
  unfold linearDirection
  split
  · rename_i h
    rw [abs_neg] at h
    have h1 : |g i * y i| ≤ zero * |y i| := by
      rw [abs_mul]
      exact mul_le_mul_of_nonneg_right h.le (abs_nonneg _)
    have := neg_abs_le (g i * y i)
    linarith
  · have := mul_nonneg hzero.le (abs_nonneg (y i))
    linarith

theorem dot_linearDirection (g l u x : Vec K n) (h : LinEnd radius l u (linearDirection zero g) x) :
    dot (linearDirection zero g) x = -∑ i, g i * x i := by
  obtain ⟨τ, -, -, hset, -⟩ := h
  unfold dot
  rw [← Finset.sum_neg_distrib]
  refine Finset.sum_congr rfl fun i _ => ?_
  by_cases h0 : linearDirection zero g i = 0
  · have : x i = 0 := by
      rcases hset i with (⟨h1, -⟩ | ⟨-, h2, -⟩ | ⟨-, h2, -⟩) | h1
      · exact h1
      · rw [h0] at h2; exact absurd h2 (lt_irrefl _)
      · rw [h0] at h2; exact absurd h2 (lt_irrefl _)
      · rw [h1, h0, mul_zero]
    rw [this]; simp
  · have : linearDirection zero g i = -(g i) := by
      unfold linearDirection at h0 ⊢
      split
      · rename_i h1; rw [if_pos h1] at h0; exact absurd rfl h0
      · rfl
    rw [this]; ring

/-- C51, optimality: a returned point that satisfies the bounds (up to the threshold) minimizes the linear
model over all points within the bounds and the trust region, up to the threshold. -/
theorem C51_optimal_within_bounds_partial (hroot : SqrtSpec root) (hzero : 0 < zero)
    (g l u x : Vec K n) (h : minimizeTrsboxLinear root zero g l u radius = .ok x)
    (hx : InWidenedBox zero l u x) (y : Vec K n) (hy : InBox l u y) (hny : NormLe y radius) :
    ∑ i, g i * x i ≤ ∑ i, g i * y i + zero * ∑ i, |y i| := by
  have hend := minimizeTrsboxLinear_end hroot hzero g l u h
  have hny' : dot y y ≤ radius ^ 2 := by
    refine le_trans (le_of_eq (Finset.sum_congr rfl fun i _ => ?_)) hny
    ring
  have := linEnd_optimal (fun i => lt_of_le_of_lt (min_le_right _ _) (neg_neg_of_pos hzero))
    (fun i => lt_of_lt_of_le hzero (le_max_right _ _)) hend ((inWidenedBox_iff _ _ _ _).1 hx)
    (fun i => ⟨(min_le_left _ _).trans (hy i).1, (hy i).2.trans (le_max_left _ _)⟩) hny'
  rw [dot_linearDirection g _ _ x hend] at this
  have h2 := linearDirection_error hzero g y
  linarith

/-! ## Bounds -/

theorem LinInv.settled_in_box {l u d0 x d : Vec K n} {it : List (Fin n)} {t τ : K}
    (h : LinInv zero radius l u d0 x d it t τ) (hl : ∀ i, l i < 0) (hu : ∀ i, 0 < u i) (i : Fin n)
    (hi : d i = 0) : l i ≤ x i ∧ x i ≤ u i := by
  rcases h.fixed i hi with ⟨h1, -⟩ | ⟨h1, -, -⟩ | ⟨h1, -, -⟩
  · rw [h1]; exact ⟨(hl i).le, (hu i).le⟩
  · rw [h1]; exact ⟨((hl i).trans (hu i)).le, le_rfl⟩
  · rw [h1]; exact ⟨le_rfl, ((hl i).trans (hu i)).le⟩

/-- With at most two directions left, none of which was passed over, a returned point is in the box. -/
theorem linearTrsboxLoop_two (hroot : SqrtSpec root) (hzero : 0 < zero) {l u d0 : Vec K n}
    (hl : ∀ i, l i < 0) (hu : ∀ i, 0 < u i) :
    ∀ (k : Nat) (x d : Vec K n) (it : List (Fin n)) (t τ : K) (y : Vec K n),
      LinInv zero radius l u d0 x d it t τ → (leftDirections d).card ≤ k →
      (∀ i, d i ≠ 0 → i ∈ it) → it.length ≤ 2 →
      linearTrsboxLoop root zero radius l u k x d it = .ok y → InBox l u y
  | 0, x, d, it, t, τ, y, h, hk, hall, hlen, hy => by
    have hd : ∀ i, d i = 0 := by
      intro i
      by_contra hi
      have : leftDirections d = ∅ := Finset.card_eq_zero.1 (Nat.le_zero.1 hk)
      have hm : i ∈ leftDirections d := by simp [leftDirections, hi]
      rw [this] at hm
      exact absurd hm (Finset.notMem_empty i)
    cases hy
    exact fun i => h.settled_in_box hl hu i (hd i)
  | k + 1, x, d, it, t, τ, y, h, hk, hall, hlen, hy => by
    unfold linearTrsboxLoop at hy
    split at hy
    · rename_i hd
      cases hy
      exact fun i => h.settled_in_box hl hu i (h.all_zero hroot hd i)
    · rename_i hd
      obtain ⟨τ', hτ, hpath, hball⟩ := unconstrainedStep_spec hroot h hzero hd
      have hτ0 : 0 ≤ τ' := h.t_nonneg.trans (h.t_le.trans hτ)
      simp only [hpath] at hy
      unfold nextActiveBound at hy
      split at hy
      · cases hy
      · rename_i it' heq
        cases hy
        split at heq
        · cases heq
        · intro i
          by_cases hi : d i = 0
          · have : pathEnd x d τ' i = x i := if_pos hi
            rw [this]
            exact h.settled_in_box hl hu i hi
          · obtain ⟨h1, h2⟩ := scanBounds_none (Except.ok.inj heq) i (hall i hi)
            exact ⟨h1.le, h2.le⟩
      · rename_i b i it' heq
        split at heq
        · cases heq
        · obtain ⟨pre, hit, -, hb⟩ := scanBounds_some (Except.ok.inj heq)
          obtain ⟨hnext, -⟩ := h.next hl hu hτ hball.le hit hb
          have hi : d i ≠ 0 := h.mem i (by rw [hit]; simp)
          have hcard := card_dropDirection hi
          cases pre with
          | nil =>
            refine linearTrsboxLoop_two hroot hzero hl hu k _ _ _ _ _ y hnext (by omega) ?_ ?_ hy
            · intro j hj
              have hji : j ≠ i := by rintro rfl; exact hj (if_pos rfl)
              have hdj : dropDirection d i j = d j := if_neg hji
              rw [hdj] at hj
              have := hall j hj
              rw [hit] at this
              simpa [hji] using this
            · rw [hit] at hlen
              simp at hlen
              omega
          | cons p pre =>
            -- a direction was passed over: the next pass finds the iterator empty
            exfalso
            have hit' : it' = [] := by
              rw [hit] at hlen
              simp at hlen
              exact List.length_eq_zero_iff.1 (by omega)
            have hpi : p ≠ i := by
              rintro rfl
              have := h.nodup
              rw [hit] at this
              simp at this
            have hp : dropDirection d i p ≠ 0 := by
              have hdj : dropDirection d i p = d p := if_neg hpi
              rw [hdj]
              exact h.mem p (by rw [hit]; simp)
            cases k with
            | zero =>
              have : leftDirections (dropDirection d i) = ∅ := Finset.card_eq_zero.1 (by omega)
              have hm : p ∈ leftDirections (dropDirection d i) := by simp [leftDirections, hp]
              rw [this] at hm
              exact absurd hm (Finset.notMem_empty p)
            | succ k =>
              unfold linearTrsboxLoop at hy
              split at hy
              · rename_i hd'
                exact hp (hnext.all_zero hroot hd' p)
              · simp [nextActiveBound, hit'] at hy

/-- C51, bounds: with one or two parameters a returned point satisfies the bounds up to the threshold. -/
theorem C51_bounds_two_parameters_partial (hroot : SqrtSpec root) (hzero : 0 < zero) (hn : n ≤ 2)
    (g l u x : Vec K n) (h : minimizeTrsboxLinear root zero g l u radius = .ok x) :
    InWidenedBox zero l u x := by
  rw [inWidenedBox_iff]
  refine linearTrsboxLoop_two hroot hzero
    (fun i => lt_of_le_of_lt (min_le_right _ _) (neg_neg_of_pos hzero))
    (fun i => lt_of_lt_of_le hzero (le_max_right _ _)) n _ _ _ 0 0 x
    (LinInv.start radius hzero g _ _) (card_leftDirections_le _) ?_ ?_ h
  · intro i hi
    refine List.mem_filter.2 ⟨List.mem_finRange i, ?_⟩
    by_contra h0
    apply hi
    unfold linearDirection
    exact if_pos (by simpa using h0)
  · refine (List.length_filter_le _ _).trans ?_
    simpa using hn

/-! ## Parameters in the order in which the path reaches their bounds -/

/-- The path `s * d` is within the bounds of coordinate `j` whenever it is within those of coordinate
`i < j`: the bounds are met in the order of the parameters. -/
def BoundsMetInOrder (l u d : Vec K n) : Prop :=
  ∀ i j, i < j → d i ≠ 0 → d j ≠ 0 → ∀ s, 0 ≤ s → (l i < s * d i ∧ s * d i < u i) →
    (l j < s * d j ∧ s * d j < u j)

theorem linearTrsboxLoop_sorted (hroot : SqrtSpec root) (hzero : 0 < zero) {l u d0 : Vec K n}
    (hl : ∀ i, l i < 0) (hu : ∀ i, 0 < u i) (hord : BoundsMetInOrder l u d0) :
    ∀ (k : Nat) (x d : Vec K n) (it : List (Fin n)) (t τ : K),
      LinInv zero radius l u d0 x d it t τ → (leftDirections d).card ≤ k →
      (∀ i, d i ≠ 0 → i ∈ it) → it.Pairwise (· < ·) →
      ∃ y, linearTrsboxLoop root zero radius l u k x d it = .ok y ∧ InBox l u y
  | 0, x, d, it, t, τ, h, hk, hall, hsort => by
    refine ⟨x, rfl, fun i => h.settled_in_box hl hu i ?_⟩
    by_contra hi
    have : leftDirections d = ∅ := Finset.card_eq_zero.1 (Nat.le_zero.1 hk)
    have hm : i ∈ leftDirections d := by simp [leftDirections, hi]
    rw [this] at hm
    exact absurd hm (Finset.notMem_empty i)
  | k + 1, x, d, it, t, τ, h, hk, hall, hsort => by
    unfold linearTrsboxLoop
    split
    · rename_i hd
      exact ⟨x, rfl, fun i => h.settled_in_box hl hu i (h.all_zero hroot hd i)⟩
    · rename_i hd
      obtain ⟨τ', hτ, hpath, hball⟩ := unconstrainedStep_spec hroot h hzero hd
      have hτ0 : 0 ≤ τ' := h.t_nonneg.trans (h.t_le.trans hτ)
      simp only [hpath]
      cases it with
      | nil =>
        exfalso
        apply hd
        have hz : ∀ i, d i = 0 := fun i => by
          by_contra hi
          cases hall i hi
        rw [norm2_zero_vec hroot hz]
        exact hzero
      | cons i rest =>
        have hi : d i ≠ 0 := h.mem i (by simp)
        have hpi : pathEnd x d τ' i = τ' * d i := if_neg hi
        have hd0 : d0 i = d i := ((h.dir i).resolve_left hi).symm
        have hrest := List.pairwise_cons.1 hsort
        have hcard := card_dropDirection hi
        have hallNext : ∀ j, dropDirection d i j ≠ 0 → j ∈ rest := by
          intro j hj
          have hji : j ≠ i := by rintro rfl; exact hj (if_pos rfl)
          have hdj : dropDirection d i j = d j := if_neg hji
          rw [hdj] at hj
          exact (List.mem_cons.1 (hall j hj)).resolve_left hji
        by_cases h1 : u i ≤ pathEnd x d τ' i
        · have hscan : nextActiveBound (pathEnd x d τ') l u (i :: rest) = .ok (some (u i, i), rest) := by
            simp [nextActiveBound, scanBounds, h1]
          rw [hscan]
          obtain ⟨hnext, -⟩ := h.next hl hu hτ hball.le (b := u i) (pre := []) rfl (Or.inl ⟨rfl, h1⟩)
          exact linearTrsboxLoop_sorted hroot hzero hl hu hord k _ _ _ _ _ hnext (by omega) hallNext
            hrest.2
        · by_cases h2 : pathEnd x d τ' i ≤ l i
          · have hscan : nextActiveBound (pathEnd x d τ') l u (i :: rest)
                = .ok (some (l i, i), rest) := by
              simp [nextActiveBound, scanBounds, h1, h2]
            rw [hscan]
            obtain ⟨hnext, -⟩ := h.next hl hu hτ hball.le (b := l i) (pre := []) rfl (Or.inr ⟨rfl, h2⟩)
            exact linearTrsboxLoop_sorted hroot hzero hl hu hord k _ _ _ _ _ hnext (by omega) hallNext
              hrest.2
          · have hin : l i < τ' * d0 i ∧ τ' * d0 i < u i := by
              rw [hd0, ← hpi]
              exact ⟨not_le.1 h2, not_le.1 h1⟩
            have hothers : ∀ j ∈ i :: rest, l j < pathEnd x d τ' j ∧ pathEnd x d τ' j < u j := by
              intro j hj
              have hj0 : d j ≠ 0 := h.mem j hj
              have hpj : pathEnd x d τ' j = τ' * d0 j := by
                rw [(h.dir j).resolve_left hj0 |>.symm]; exact if_neg hj0
              rw [hpj]
              rcases List.mem_cons.1 hj with rfl | hj
              · exact hin
              · refine hord i j (hrest.1 j hj) (by rw [hd0]; exact hi) ?_ τ' hτ0 hin
                rw [← (h.dir j).resolve_left hj0]; exact hj0
            have hscanAll : ∀ xs : List (Fin n), (∀ j ∈ xs, l j < pathEnd x d τ' j ∧
                pathEnd x d τ' j < u j) → scanBounds (pathEnd x d τ') l u xs = (none, []) := by
              intro xs
              induction xs with
              | nil => intro _; rfl
              | cons j js ih =>
                intro hjs
                have := hjs j (by simp)
                unfold scanBounds
                rw [if_neg (not_le.2 this.2), if_neg (not_le.2 this.1)]
                exact ih fun j' hj' => hjs j' (by simp [hj'])
            have hscan : nextActiveBound (pathEnd x d τ') l u (i :: rest) = .ok (none, []) := by
              unfold nextActiveBound
              rw [if_neg (by simp), hscanAll _ hothers]
            rw [hscan]
            refine ⟨_, rfl, fun j => ?_⟩
            by_cases hj : d j = 0
            · have : pathEnd x d τ' j = x j := if_pos hj
              rw [this]
              exact h.settled_in_box hl hu j hj
            · have := hothers j (hall j hj)
              exact ⟨this.1.le, this.2.le⟩

/-- C51 when the bounds are met in the order of the parameters: the solver returns a point, and the point
satisfies the bounds up to the threshold. -/
theorem C51_returns_in_order_partial (hroot : SqrtSpec root) (hzero : 0 < zero) (g l u : Vec K n)
    (hord : BoundsMetInOrder (fun i => min (l i) (-zero)) (fun i => max (u i) zero) (fun i => -(g i))) :
    ∃ x, minimizeTrsboxLinear root zero g l u radius = .ok x ∧ InWidenedBox zero l u x := by
  have hne : ∀ i, linearDirection zero g i ≠ 0 → linearDirection zero g i = -(g i) := by
    intro i h0
    unfold linearDirection at h0 ⊢
    split
    · rename_i h1; rw [if_pos h1] at h0; exact absurd rfl h0
    · rfl
  have hord' : BoundsMetInOrder (fun i => min (l i) (-zero)) (fun i => max (u i) zero)
      (linearDirection zero g) := by
    intro i j hij hi hj s hs
    rw [hne i hi, hne j hj]
    exact hord i j hij (show -(g i) ≠ 0 from hne i hi ▸ hi) (show -(g j) ≠ 0 from hne j hj ▸ hj) s hs
  obtain ⟨x, hx, hbox⟩ := linearTrsboxLoop_sorted (radius := radius) hroot hzero
    (fun i => lt_of_le_of_lt (min_le_right (l i) _) (neg_neg_of_pos hzero))
    (fun i => lt_of_lt_of_le hzero (le_max_right (u i) _)) hord' n _ _ _ 0 0
    (LinInv.start radius hzero g _ _) (card_leftDirections_le _) (by
      intro i hi
      refine List.mem_filter.2 ⟨List.mem_finRange i, ?_⟩
      by_contra h0
      apply hi
      unfold linearDirection
      exact if_pos (by simpa using h0))
    ((List.pairwise_lt_finRange n).filter _)
  exact ⟨x, hx, (inWidenedBox_iff _ _ _ _).2 hbox⟩

/-- The order of the bounds for equal bounds: the gradient decreases in absolute value. -/
example : BoundsMetInOrder (fun _ : Fin 3 => (-1 : ℚ)) (fun _ => 1) ![3, -2, 1] := by
  intro i j hij _ _ s hs
  fin_cases i <;> fin_cases j <;> simp at hij ⊢ <;> intro h1 h2 <;> constructor <;> linarith

/-! ## Violations -/

omit [LinearOrder K] [IsStrictOrderedRing K] in
theorem vec3_two (a b c : K) : (![a, b, c] : Vec K 3) 2 = c := rfl

theorem root_value (hroot : SqrtSpec root) (a b : K) (hb : 0 ≤ b) (h : b * b = a) : root a = b :=
  root_unique hroot hb h

/-- C51 is violated: the solver raises `StopIteration` when the last active direction hits its bound after
another one did not. -/
theorem C51_violated_stop_iteration (hroot : SqrtSpec root) :
    minimizeTrsboxLinear root (1 / 10 : K) ![-3, -4] ![-10, -1] ![10, 1] 5 = .error .stopIteration := by
  have hd : linearDirection (1 / 10 : K) ![-3, -4] = ![3, 4] := by
    funext i
    fin_cases i <;> norm_num [linearDirection]
  have hit : ((List.finRange 2).filter fun i : Fin 2 => !decide (|-((![-3, -4] : Vec K 2) i)| < 1 / 10))
      = [0, 1] := by
    rw [List.finRange_succ]
    norm_num [List.finRange_succ]
  have h5 : root 25 = 5 := root_value hroot 25 5 (by norm_num) (by norm_num)
  have h25 : root 625 = 25 := root_value hroot 625 25 (by norm_num) (by norm_num)
  have h3 : root 9 = 3 := root_value hroot 9 3 (by norm_num) (by norm_num)
  have hl : (fun i => min ((![-10, -1] : Vec K 2) i) (-(1 / 10))) = ![-10, -1] := by
    funext i
    fin_cases i <;> norm_num
  have hu : (fun i => max ((![10, 1] : Vec K 2) i) (1 / 10)) = ![10, 1] := by
    funext i
    fin_cases i <;> norm_num
  unfold minimizeTrsboxLinear
  rw [hd, hit, hl, hu]
  have hn : ¬ norm2 root (![3, 4] : Vec K 2) < 1 / 10 := by
    unfold norm2 dot
    norm_num [Fin.sum_univ_two, h5]
  have hfree : unconstrainedStep root (1 / 10) (fun _ => 0) (![3, 4] : Vec K 2) 5 = ![3, 4] := by
    funext i
    unfold unconstrainedStep linearDistance dot
    fin_cases i <;> norm_num [Fin.sum_univ_two, h5, h25]
  have hnext : nextActiveBound (![3, 4] : Vec K 2) ![-10, -1] ![10, 1] [0, 1] = .ok (some (1, 1), []) := by
    unfold nextActiveBound
    rw [if_neg (List.cons_ne_nil _ _)]
    unfold scanBounds scanBounds
    norm_num
  have hdrop : dropDirection (![3, 4] : Vec K 2) 1 = ![3, 0] := by
    funext i
    fin_cases i <;> norm_num [dropDirection]
  have hn' : ¬ norm2 root (![3, 0] : Vec K 2) < 1 / 10 := by
    unfold norm2 dot
    norm_num [Fin.sum_univ_two, h3]
  rw [linearTrsboxLoop, if_neg hn]
  simp only [hfree, hnext, hdrop]
  rw [linearTrsboxLoop, if_neg hn']
  rfl

/-- C51 is violated: a bound that was not active at the first pass is not looked at again, and the returned
point violates it. -/
theorem C51_violated_bounds (hroot : SqrtSpec root) :
    ∃ x : Vec K 3, minimizeTrsboxLinear root (1 / 10 : K) ![-1, -2, -2] ![-6 / 5, -1 / 3, -100]
        ![6 / 5, 1 / 3, 100] 3 = .ok x ∧ 6 / 5 < x 0 := by
  have hd : linearDirection (1 / 10 : K) ![-1, -2, -2] = ![1, 2, 2] := by
    funext i
    fin_cases i <;> norm_num [linearDirection]
  have hit : ((List.finRange 3).filter fun i : Fin 3 =>
      !decide (|-((![-1, -2, -2] : Vec K 3) i)| < 1 / 10)) = [0, 1, 2] := by
    norm_num [List.finRange_succ, vec3_two]
  have h9 : root 9 = 3 := root_value hroot 9 3 (by norm_num) (by norm_num)
  have h81 : root 81 = 9 := root_value hroot 81 9 (by norm_num) (by norm_num)
  have h400 : root (400 / 9) = 20 / 3 := root_value hroot _ _ (by norm_num) (by norm_num)
  have h5 : ¬ root 5 < 1 / 10 := by
    obtain ⟨h1, h2⟩ := hroot (5 : K) (by norm_num)
    intro h3
    nlinarith
  have hl : (fun i => min ((![-6 / 5, -1 / 3, -100] : Vec K 3) i) (-(1 / 10)))
      = ![-6 / 5, -1 / 3, -100] := by
    funext i
    fin_cases i <;> norm_num [vec3_two]
  have hu : (fun i => max ((![6 / 5, 1 / 3, 100] : Vec K 3) i) (1 / 10)) = ![6 / 5, 1 / 3, 100] := by
    funext i
    fin_cases i <;> norm_num [vec3_two]
  unfold minimizeTrsboxLinear
  rw [hd, hit, hl, hu]
  have hn : ¬ norm2 root (![1, 2, 2] : Vec K 3) < 1 / 10 := by
    unfold norm2 dot
    norm_num [Fin.sum_univ_three, vec3_two, h9]
  have hfree : unconstrainedStep root (1 / 10) (fun _ => 0) (![1, 2, 2] : Vec K 3) 3 = ![1, 2, 2] := by
    funext i
    unfold unconstrainedStep linearDistance dot
    fin_cases i <;> norm_num [Fin.sum_univ_three, vec3_two, h9, h81]
  have hnext : nextActiveBound (![1, 2, 2] : Vec K 3) ![-6 / 5, -1 / 3, -100] ![6 / 5, 1 / 3, 100]
      [0, 1, 2] = .ok (some (1 / 3, 1), [2]) := by
    unfold nextActiveBound
    rw [if_neg (List.cons_ne_nil _ _)]
    unfold scanBounds scanBounds
    norm_num [vec3_two]
  have hdrop : dropDirection (![1, 2, 2] : Vec K 3) 1 = ![1, 0, 2] := by
    funext i
    fin_cases i <;> norm_num [dropDirection]
  have hstep : constrainedStep (fun _ => 0) (![1, 2, 2] : Vec K 3) (1 / 3) 1 = ![1 / 6, 1 / 3, 1 / 3] := by
    funext i
    fin_cases i <;> norm_num [constrainedStep]
  have hn' : ¬ norm2 root (![1, 0, 2] : Vec K 3) < 1 / 10 := by
    have : dot (![1, 0, 2] : Vec K 3) ![1, 0, 2] = 5 := by
      unfold dot
      norm_num [Fin.sum_univ_three, vec3_two]
    unfold norm2
    rw [this]
    exact h5
  have hfree' : unconstrainedStep root (1 / 10) (![1 / 6, 1 / 3, 1 / 3] : Vec K 3) ![1, 0, 2] 3
      = ![4 / 3, 1 / 3, 8 / 3] := by
    have e1 : dot (![1, 0, 2] : Vec K 3) ![1, 0, 2] = 5 := by
      unfold dot
      norm_num [Fin.sum_univ_three, vec3_two]
    have e2 : dot (![1, 0, 2] : Vec K 3) ![1 / 6, 1 / 3, 1 / 3] = 5 / 6 := by
      unfold dot
      norm_num [Fin.sum_univ_three, vec3_two]
    have e3 : dot (![1 / 6, 1 / 3, 1 / 3] : Vec K 3) ![1 / 6, 1 / 3, 1 / 3] = 1 / 4 := by
      unfold dot
      norm_num [Fin.sum_univ_three, vec3_two]
    have e4 : max 0 ((5 / 6 : K) ^ 2 + 5 * (3 ^ 2 - 1 / 4)) = 400 / 9 := by norm_num
    have e5 : linearDistance root (1 / 10) (![1 / 6, 1 / 3, 1 / 3] : Vec K 3) ![1, 0, 2] 3 = 7 / 6 := by
      unfold linearDistance
      rw [e1, if_neg h5, e2, e3, e4, h400]
      norm_num
    funext i
    unfold unconstrainedStep
    rw [e5]
    fin_cases i <;> norm_num [vec3_two]
  have hnext' : nextActiveBound (![4 / 3, 1 / 3, 8 / 3] : Vec K 3) ![-6 / 5, -1 / 3, -100]
      ![6 / 5, 1 / 3, 100] [2] = .ok (none, []) := by
    unfold nextActiveBound
    rw [if_neg (List.cons_ne_nil _ _)]
    unfold scanBounds scanBounds
    norm_num [vec3_two]
  refine ⟨![4 / 3, 1 / 3, 8 / 3], ?_, by norm_num⟩
  rw [linearTrsboxLoop, if_neg hn]
  simp only [hfree, hnext, hdrop, hstep]
  rw [linearTrsboxLoop, if_neg hn']
  simp only [hfree', hnext']

/-- C51 is violated: a bound at zero is exceeded by the threshold. -/
theorem C51_violated_threshold (hroot : SqrtSpec root) :
    ∃ x : Vec K 1, minimizeTrsboxLinear root (1 / 10 : K) ![1] ![0] ![1] 1 = .ok x ∧ x 0 < 0 := by
  have hd : linearDirection (1 / 10 : K) ![1] = ![-1] := by
    funext i
    fin_cases i; norm_num [linearDirection]
  have hit : ((List.finRange 1).filter fun i : Fin 1 => !decide (|-((![1] : Vec K 1) i)| < 1 / 10))
      = [0] := by
    norm_num [List.finRange_succ]
  have h1 : root 1 = 1 := root_value hroot 1 1 (by norm_num) (by norm_num)
  have hl : (fun i => min ((![0] : Vec K 1) i) (-(1 / 10))) = ![-(1 / 10)] := by
    funext i
    fin_cases i; norm_num
  have hu : (fun i => max ((![1] : Vec K 1) i) (1 / 10)) = ![1] := by
    funext i
    fin_cases i; norm_num
  have hn : ¬ norm2 root (![-1] : Vec K 1) < 1 / 10 := by
    unfold norm2 dot
    norm_num [h1]
  have hfree : unconstrainedStep root (1 / 10) (fun _ => 0) (![-1] : Vec K 1) 1 = ![-1] := by
    funext i
    unfold unconstrainedStep linearDistance dot
    fin_cases i; norm_num [h1]
  have hnext : nextActiveBound (![-1] : Vec K 1) ![-(1 / 10)] ![1] [0]
      = .ok (some (-(1 / 10), 0), []) := by
    unfold nextActiveBound
    rw [if_neg (List.cons_ne_nil _ _)]
    unfold scanBounds
    norm_num
  unfold minimizeTrsboxLinear
  rw [hd, hit, hl, hu, linearTrsboxLoop, if_neg hn]
  simp only [hfree, hnext]
  refine ⟨constrainedStep (fun _ => 0) ![-1] (-(1 / 10)) 0, rfl, ?_⟩
  norm_num [constrainedStep]

/-! ## C96: the geometry improving step -/

/-- C96: a center outside the bounds is refused. -/
theorem C96_center_refused (center g l u : Vec K n) (c : K)
    (h : ∃ i, center i + zero < l i ∨ u i < center i - zero) :
    improveGeometryLinear root zero center c g l u radius = .error .valueError := by
  obtain ⟨i, h | h⟩ := h
  · unfold improveGeometryLinear
    rw [if_pos (List.any_eq_true.2 ⟨i, List.mem_finRange i, by simpa using h⟩)]
  · unfold improveGeometryLinear
    split
    · rfl
    · rw [if_pos (List.any_eq_true.2 ⟨i, List.mem_finRange i, by simpa using h⟩)]

/-- C96: with one or two parameters the returned point is in the region around the center, satisfies the
bounds up to the threshold, and no point within the bounds and the region has a larger absolute value of
the Lagrange polynomial, up to the threshold. -/
theorem C96_lagrange_maximal_partial (hroot : SqrtSpec root) (hzero : 0 < zero) (hn : n ≤ 2)
    (center g l u x : Vec K n) (c : K)
    (h : improveGeometryLinear root zero center c g l u radius = .ok x) :
    InBallSq center radius x ∧
    (∀ i, (l i ≤ x i ∨ center i - zero ≤ x i) ∧ (x i ≤ u i ∨ x i ≤ center i + zero)) ∧
    ∀ y, InBox l u y → InBallSq center radius y →
      |c + ∑ i, g i * (y i - center i)| ≤
        |c + ∑ i, g i * (x i - center i)| + zero * ∑ i, |y i - center i| := by
  unfold improveGeometryLinear at h
  split at h
  · cases h
  · split at h
    · cases h
    · obtain ⟨xMin, hmin, h⟩ := except_bind_eq_ok h
      obtain ⟨xMax, hmax, h⟩ := except_bind_eq_ok h
      have key : ∀ (z : Vec K n) (g' : Vec K n),
          minimizeTrsboxLinear root zero g' (fun i => l i - center i) (fun i => u i - center i) radius
            = .ok z →
          NormLe z radius ∧ InWidenedBox zero (fun i => l i - center i) (fun i => u i - center i) z ∧
          ∀ y, InBox l u y → InBallSq center radius y →
            dot g' z ≤ ∑ i, g' i * (y i - center i) + zero * ∑ i, |y i - center i| := by
        intro z g' hz
        have hb := C51_bounds_two_parameters_partial hroot hzero hn g' _ _ z hz
        refine ⟨(C51_in_region_and_descent_partial hroot hzero g' _ _ z hz).1, hb, fun y hy hny => ?_⟩
        exact C51_optimal_within_bounds_partial hroot hzero g' _ _ z hz hb (fun i => y i - center i)
          (fun i => ⟨sub_le_sub_right (hy i).1 _, sub_le_sub_right (hy i).2 _⟩) hny
      obtain ⟨a1, a2, a3⟩ := key xMin g hmin
      obtain ⟨b1, b2, b3⟩ := key xMax _ hmax
      have hmove : ∀ z : Vec K n, NormLe z radius →
          InWidenedBox zero (fun i => l i - center i) (fun i => u i - center i) z →
          InBallSq center radius (fun i => z i + center i) ∧
          ∀ i, (l i ≤ z i + center i ∨ center i - zero ≤ z i + center i) ∧
            (z i + center i ≤ u i ∨ z i + center i ≤ center i + zero) := by
        intro z hz1 hz2
        constructor
        · unfold InBallSq
          have : (fun i => z i + center i - center i) = z := by funext i; ring
          rw [this]
          exact hz1
        · intro i
          obtain ⟨h1, h2⟩ := hz2 i
          refine ⟨h1.imp (fun h => by linarith) (fun h => by linarith),
            h2.imp (fun h => by linarith) (fun h => by linarith)⟩
      have hval : ∀ z : Vec K n, ∑ i, g i * (z i + center i - center i) = dot g z := by
        intro z
        refine Finset.sum_congr rfl fun i _ => ?_
        ring
      have hbound : ∀ y, InBox l u y → InBallSq center radius y →
          |c + ∑ i, g i * (y i - center i)| ≤
            max |c + dot g xMin| |c + dot g xMax| + zero * ∑ i, |y i - center i| := by
        intro y hy hny
        have e1 := a3 y hy hny
        have e2 := b3 y hy hny
        have e3 : dot (fun i => -(g i)) xMax = -dot g xMax := dot_neg_left g xMax
        have e4 : ∑ i, -(g i) * (y i - center i) = -∑ i, g i * (y i - center i) := by
          rw [← Finset.sum_neg_distrib]
          exact Finset.sum_congr rfl fun i _ => by ring
        rw [e3, e4] at e2
        have e5 := le_max_left |c + dot g xMin| |c + dot g xMax|
        have e6 := le_max_right |c + dot g xMin| |c + dot g xMax|
        refine abs_le.2 ⟨?_, ?_⟩
        · have := neg_abs_le (c + dot g xMin)
          linarith
        · have := le_abs_self (c + dot g xMax)
          linarith
      split at h
      · rename_i hcmp
        cases h
        obtain ⟨m1, m2⟩ := hmove xMin a1 a2
        refine ⟨m1, m2, fun y hy hny => ?_⟩
        rw [hval]
        have := hbound y hy hny
        rwa [max_eq_left hcmp] at this
      · rename_i hcmp
        cases h
        obtain ⟨m1, m2⟩ := hmove xMax b1 b2
        refine ⟨m1, m2, fun y hy hny => ?_⟩
        rw [hval]
        have := hbound y hy hny
        rwa [max_eq_right (not_le.1 hcmp).le] at this

/-- With one parameter the step is always found for a center within the bounds. -/
theorem C96_returns_one_parameter (hroot : SqrtSpec root) (hzero : 0 < zero)
    (center g l u : Vec K 1) (c : K) (hc : InBox l u center) :
    ∃ x, improveGeometryLinear root zero center c g l u radius = .ok x := by
  have hord : ∀ (l u d : Vec K 1), BoundsMetInOrder l u d := by
    intro l u d i j hij
    omega
  obtain ⟨xMin, hmin, -⟩ := C51_returns_in_order_partial (radius := radius) hroot hzero g
    (fun i => l i - center i) (fun i => u i - center i) (hord _ _ _)
  obtain ⟨xMax, hmax, -⟩ := C51_returns_in_order_partial (radius := radius) hroot hzero
    (fun i => -(g i)) (fun i => l i - center i) (fun i => u i - center i) (hord _ _ _)
  unfold improveGeometryLinear
  rw [if_neg, if_neg]
  · dsimp only
    rw [hmin]
    change ∃ x, (minimizeTrsboxLinear root zero (fun i => -(g i)) (fun i => l i - center i)
      (fun i => u i - center i) radius >>= _) = Except.ok x
    rw [hmax]
    change ∃ x, (if |c + dot g xMax| ≤ |c + dot g xMin| then
      Except.ok (ε := Err) fun i => xMin i + center i else .ok fun i => xMax i + center i) = .ok x
    split
    · exact ⟨_, rfl⟩
    · exact ⟨_, rfl⟩
  · simp only [List.any_eq_true, not_exists, not_and, decide_eq_true_eq, not_lt]
    intro i _
    linarith [(hc i).2]
  · simp only [List.any_eq_true, not_exists, not_and, decide_eq_true_eq, not_lt]
    intro i _
    linarith [(hc i).1]

/-- C96 is violated with two parameters already: the center is in the middle of the bounds, but no step is returned
because the solver of the subproblem raises `StopIteration`. -/
theorem C96_violated_raises (hroot : SqrtSpec root) (c : K) :
    improveGeometryLinear root (1 / 10 : K) ![0, 0] c ![-3, -4] ![-10, -1] ![10, 1] 5 = .error .stopIteration := by
  have hl : (fun i => (![-10, -1] : Vec K 2) i - (![0, 0] : Vec K 2) i) = ![-10, -1] := by
    funext i
    fin_cases i <;> simp
  have hu : (fun i => (![10, 1] : Vec K 2) i - (![0, 0] : Vec K 2) i) = ![10, 1] := by
    funext i
    fin_cases i <;> simp
  unfold improveGeometryLinear
  rw [if_neg, if_neg]
  · dsimp only
    rw [hl, hu, C51_violated_stop_iteration hroot]
    rfl
  · simp only [List.any_eq_true, not_exists, not_and, decide_eq_true_eq, not_lt]
    intro i _
    fin_cases i <;> norm_num
  · simp only [List.any_eq_true, not_exists, not_and, decide_eq_true_eq, not_lt]
    intro i _
    fin_cases i <;> norm_num

end Tranquilo
