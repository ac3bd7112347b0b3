import Verif.Props.GqtparWitness

/-!
# C108: the estimate of the smallest singular value in gqtpar
-/

namespace Tranquilo

variable {K : Type} [Field K] [LinearOrder K] [IsStrictOrderedRing K] {n : Nat}

/-- Changing one entry that was zero. -/
theorem sum_update_zero (a w : Vec K n) (k : Fin n) (c : K) (hk : w k = 0) :
    ∑ l, a l * Function.update w k c l = ∑ l, a l * w l + a k * c := by
  have : ∀ l, a l * Function.update w k c l = a l * w l + if l = k then a k * c else 0 := by
    intro l
    by_cases h : l = k
    · subst h; simp [hk]
    · simp [h]
  simp only [this, Finset.sum_add_distrib, Finset.sum_ite_eq', Finset.mem_univ, if_true]

/-- The state of the loop after the rows before `k`: `p` is the part of `u.T @ w` that is known. -/
structure ConditionInv (u : Mat K n n) (k : Nat) (pw : Vec K n × Vec K n) : Prop where
  partialSums : ∀ j : Fin n, k ≤ j → pw.1 j = ∑ i, u i j * pw.2 i
  rest : ∀ i : Fin n, k ≤ i → pw.2 i = 0
  signs : ∀ i : Fin n, (i : ℕ) < k → (∑ l, u l i * pw.2 l = 1 ∨ ∑ l, u l i * pw.2 l = -1)

theorem conditionStep_inv {u : Mat K n n} (hup : ∀ i j, j < i → u i j = 0) (hdiag : ∀ i, u i i ≠ 0) (k : Fin n)
    {pw : Vec K n × Vec K n} (h : ConditionInv u k pw) : ConditionInv u (k + 1) (conditionStep u pw k) := by
  have hk : pw.2 k = 0 := h.rest k le_rfl
  have main : ∀ e : K, (e = 1 ∨ e = -1) → ConditionInv u (k + 1)
      (fun j => if k < j then pw.1 j + u k j * ((e - pw.1 k) / u k k) else pw.1 j,
        Function.update pw.2 k ((e - pw.1 k) / u k k)) := by
    intro e he
    refine ⟨fun j hj => ?_, fun i hi => ?_, fun i hi => ?_⟩
    · have hkj : k < j := by rw [Fin.lt_def]; omega
      dsimp only
      rw [if_pos hkj, sum_update_zero _ _ _ _ hk, h.partialSums j (by rw [Fin.lt_def] at hkj; omega)]
    · dsimp only
      rw [Function.update_of_ne (by rintro rfl; omega)]
      exact h.rest i (by omega)
    · dsimp only
      rw [sum_update_zero _ _ _ _ hk]
      rcases Nat.lt_succ_iff_lt_or_eq.1 hi with hi | hi
      · rw [hup k i (by rw [Fin.lt_def]; exact hi), zero_mul, add_zero]
        exact h.signs i hi
      · obtain rfl : i = k := Fin.ext hi
        rw [← h.partialSums i le_rfl, mul_div_cancel₀ _ (hdiag i)]
        rcases he with rfl | rfl
        · left; ring
        · right; ring
  unfold conditionStep
  dsimp only
  split
  · exact main 1 (Or.inl rfl)
  · exact main (-1) (Or.inr rfl)

/-- C108: the vector `w` of `_estimate_condition` solves `u.T @ w = e` with entries of `e` in `{1, -1}`. -/
theorem C108_right_hand_side {u : Mat K n n} (hup : ∀ i j, j < i → u i j = 0) (hdiag : ∀ i, u i i ≠ 0) (k : Fin n) :
    ∑ j, u j k * estimateCondition u j = 1 ∨ ∑ j, u j k * estimateCondition u j = -1 := by
  have key : ∀ k, k ≤ n →
      ConditionInv u k (((List.finRange n).take k).foldl (conditionStep u) (fun _ => 0, fun _ => 0)) := by
    intro k
    induction k with
    | zero => exact fun _ => ⟨fun j _ => by simp, fun _ _ => rfl, fun _ h => absurd h (Nat.not_lt_zero _)⟩
    | succ k ih =>
      intro hk
      rw [List.take_add_one, List.foldl_append]
      have : (List.finRange n)[k]?.toList = [⟨k, hk⟩] := by
        rw [List.getElem?_eq_getElem (by simpa using hk)]
        simp
      rw [this]
      exact conditionStep_inv hup hdiag ⟨k, hk⟩ (ih (by omega))
  have h := key n le_rfl
  rw [List.take_of_length_le (by simp)] at h
  exact h.signs k k.isLt

/-- The rule that chooses between the two signs is greedy: the sign chosen gives the larger of the two numbers
`|w_k| + sum_{j > k} |p_j|`. -/
theorem C108_greedy (u : Mat K n n) (pw : Vec K n × Vec K n) (k : Fin n) :
    ∀ e : K, (e = 1 ∨ e = -1) →
      |(e - pw.1 k) / u k k| + ∑ j, (if k < j then |pw.1 j + u k j * ((e - pw.1 k) / u k k)| else 0) ≤
      |(conditionStep u pw k).2 k| + ∑ j, if k < j then |(conditionStep u pw k).1 j| else 0 := by
  have hs : ∀ q r : Vec K n, (∑ j, if k < j then |if k < j then q j else r j| else 0) =
      ∑ j, if k < j then |q j| else 0 := by
    intro q r
    refine Finset.sum_congr rfl fun j _ => ?_
    split <;> rfl
  rintro e (rfl | rfl) <;> unfold conditionStep <;> dsimp only <;> split <;>
    simp only [Function.update_self, hs] <;> first | exact le_rfl | assumption | exact le_of_not_ge ‹_›

/-- C108: `_estimate_smallest_singular_value` returns a vector `z` of length one and the length of `u @ z`. So the
estimate is at least the smallest singular value: it is at least any number `s` with `s |y| ≤ |u @ y|` for all `y`.
Moreover `z` is a multiple of the solution of `u.T @ u @ v = e` with entries of `e` in `{1, -1}`. -/
theorem C108_estimate {root : K → K} (hroot : SqrtSpec root) {ext : GqExternal K n} (hext : GqSpec ext) (hn : 0 < n)
    {u a : Mat K n n} (hu : UpperFactor u a) :
    sumSq (smallestSingular root ext u).2 = 1 ∧ 0 ≤ (smallestSingular root ext u).1 ∧
    sumSq (fun i => ∑ j, u i j * (smallestSingular root ext u).2 j) = (smallestSingular root ext u).1 ^ 2 ∧
    (∀ s, 0 ≤ s → (∀ y : Vec K n, s ^ 2 * sumSq y ≤ sumSq fun i => ∑ j, u i j * y j) →
      s ≤ (smallestSingular root ext u).1) ∧
    ∃ (t : K) (e : Vec K n), 0 < t ∧ (∀ i, e i = 1 ∨ e i = -1) ∧
      ∀ i, ∑ j, a i j * (t * (smallestSingular root ext u).2 j) = e i := by
  obtain ⟨h1, h2⟩ := smallestSingular_spec hroot hext hn hu
  have hq : ∀ y : Vec K n, (sumSq fun i => ∑ j, u i j * y j) = quadForm a y := by
    intro y
    rw [sumSq_eq_dot, quadForm_upperFactor hu]
    rfl
  set v := ext.solveUpper u (estimateCondition u) with hv
  have huv : ∀ i, ∑ j, u i j * v j = estimateCondition u i := hext.solveUpper u a _ hu
  have hz : ∀ i, (smallestSingular root ext u).2 i = v i / root (dot v v) := fun i => rfl
  have hs0 : 0 ≤ (smallestSingular root ext u).1 :=
    div_nonneg (hroot _ (dot_self_nonneg _)).1 (hroot _ (dot_self_nonneg _)).1
  have hv0 : root (dot v v) ≠ 0 := by
    intro h0
    have : (smallestSingular root ext u).2 = fun _ => 0 := by
      funext i
      rw [hz, h0, div_zero]
    rw [this] at h1
    simp [dot] at h1
  refine ⟨by rw [sumSq_eq_dot]; exact h1, hs0, by rw [hq, h2], fun s hs hy => ?_, root (dot v v),
    fun i => ∑ j, u j i * estimateCondition u j, lt_of_le_of_ne (hroot _ (dot_self_nonneg _)).1 hv0.symm,
    C108_right_hand_side hu.1 (fun i => (hu.2.1 i).ne'), fun i => ?_⟩
  · have := hy (smallestSingular root ext u).2
    rw [sumSq_eq_dot, h1, mul_one, hq, ← h2] at this
    exact (pow_le_pow_iff_left₀ hs hs0 two_ne_zero).1 this
  · have : ∀ j, root (dot v v) * (smallestSingular root ext u).2 j = v j := by
      intro j
      rw [hz, mul_div_cancel₀ _ hv0]
    simp only [this, ← huv, ← hu.2.2, Finset.sum_mul, Finset.mul_sum]
    rw [Finset.sum_comm]
    refine Finset.sum_congr rfl fun l _ => Finset.sum_congr rfl fun j _ => by ring

/-- The hypotheses hold for real numbers and the factor `[[1, 2], [0, 3]]`. -/
example : ∃ (ext : GqExternal ℝ 2) (a : Mat ℝ 2 2), GqSpec ext ∧ UpperFactor !![1, 2; 0, 3] a := by
  obtain ⟨ext, h⟩ := gqSpec_real 2
  refine ⟨ext, fun i j => ∑ l, (!![1, 2; 0, 3] : Matrix (Fin 2) (Fin 2) ℝ) l i * (!![1, 2; 0, 3] : Matrix (Fin 2) (Fin 2) ℝ) l j,
    h, ?_, ?_, fun _ _ => rfl⟩
  · intro i j hij
    fin_cases i <;> fin_cases j <;> simp_all
  · intro i
    fin_cases i <;> simp

end Tranquilo
