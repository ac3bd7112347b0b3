import Verif.Props.SingularEstimate

/-!
# The estimate of the smallest singular value is small for nearly singular factors
-/

namespace Tranquilo

variable {K : Type} [Field K] [LinearOrder K] [IsStrictOrderedRing K] {n : Nat}

/-- Back substitution: entries of the solution against entries of the right hand side. -/
theorem back_substitution {u : Mat K n n} (hup : ∀ i j, j < i → u i j = 0) {M eta b : K} (heta : 0 < eta)
    (heta1 : eta ≤ 1) (hM0 : 0 ≤ M) (hM : ∀ i j, |u i j| ≤ M) (hdiag : ∀ i, eta ≤ u i i) {v : Vec K n} (hb0 : 0 ≤ b)
    (hb : ∀ i, |matVec u v i| ≤ b) (t : ℕ) : ∀ i : Fin n, n - (i : ℕ) ≤ t → |v i| ≤ b * ((1 + n * M) / eta) ^ t := by
  have hC0 : (0 : K) ≤ 1 + n * M := by positivity
  have hC1 : 1 ≤ (1 + n * M) / eta := by
    rw [le_div_iff₀ heta]
    have : (0 : K) ≤ n * M := by positivity
    linarith
  induction t with
  | zero => intro i hi; have := i.isLt; omega
  | succ t ih =>
    intro i hi
    set B := b * ((1 + n * M) / eta) ^ t with hB
    have hpow : (1 : K) ≤ ((1 + n * M) / eta) ^ t := one_le_pow₀ hC1
    have hBb : b ≤ B := by rw [hB]; nlinarith
    have hsplit : u i i * v i = matVec u v i - ∑ j, if i < j then u i j * v j else 0 := by
      have h1 : ∀ j, u i j * v j = (if j = i then u i i * v i else 0) + if i < j then u i j * v j else 0 := by
        intro j
        rcases lt_trichotomy j i with h | h | h
        · rw [if_neg h.ne, if_neg (not_lt.2 h.le), hup i j h, zero_mul, add_zero]
        · subst h; simp
        · rw [if_neg h.ne', if_pos h, zero_add]
      simp only [matVec]
      rw [Finset.sum_congr rfl fun j _ => h1 j, Finset.sum_add_distrib]
      simp
    have hsum : |∑ j, if i < j then u i j * v j else 0| ≤ n * (M * B) := by
      refine (Finset.abs_sum_le_sum_abs _ _).trans ?_
      have : ∀ j ∈ (Finset.univ : Finset (Fin n)), |if i < j then u i j * v j else 0| ≤ M * B := by
        intro j _
        split
        · rename_i hij
          rw [abs_mul]
          refine mul_le_mul (hM i j) (ih j ?_) (abs_nonneg _) hM0
          rw [Fin.lt_def] at hij
          omega
        · rw [abs_zero]; exact mul_nonneg hM0 (hb0.trans hBb)
      refine (Finset.sum_le_sum this).trans ?_
      simp
    have h2 : eta * |v i| ≤ (1 + n * M) * B := by
      have h3 : |u i i * v i| ≤ b + n * (M * B) := by
        rw [hsplit]
        exact (abs_sub _ _).trans (add_le_add (hb i) hsum)
      rw [abs_mul, abs_of_pos (heta.trans_le (hdiag i))] at h3
      have h4 := mul_le_mul_of_nonneg_right (hdiag i) (abs_nonneg (v i))
      linarith
    rw [pow_succ, ← mul_assoc, ← hB, mul_div_assoc', le_div_iff₀ heta]
    linarith

/-- A triangular matrix that nearly annihilates a vector has a small entry on the diagonal. -/
theorem small_pivot {u : Mat K n n} (hup : ∀ i j, j < i → u i j = 0) {M eta eps : K} (heta : 0 < eta)
    (heta1 : eta ≤ 1) (hM0 : 0 ≤ M) (hM : ∀ i j, |u i j| ≤ M) {root : K → K} (hroot : SqrtSpec root)
    (heps : n * eps * ((1 + n * M) / eta) ^ (2 * n) < 1) {v : Vec K n} (hv : 0 < dot v v)
    (hsmall : dot (matVec u v) (matVec u v) ≤ eps * dot v v) : ∃ k, u k k < eta := by
  by_contra hc
  push Not at hc
  obtain ⟨hb0, hb⟩ := norm2_sq hroot (matVec u v)
  have hentry : ∀ i, |matVec u v i| ≤ norm2 root (matVec u v) := fun i => by
    refine abs_le_of_sq_le_sq ?_ hb0
    rw [hb, dot, sq]
    exact Finset.single_le_sum (f := fun i => matVec u v i * matVec u v i) (fun i _ => mul_self_nonneg _)
      (Finset.mem_univ i)
  have hall := fun i : Fin n => back_substitution hup heta heta1 hM0 hM hc hb0 hentry n i (Nat.sub_le _ _)
  set B := ((1 + n * M) / eta) ^ n with hB
  have hdot : dot v v ≤ n * (dot (matVec u v) (matVec u v) * B ^ 2) := by
    have : ∀ i ∈ (Finset.univ : Finset (Fin n)), v i * v i ≤ dot (matVec u v) (matVec u v) * B ^ 2 := by
      intro i _
      rw [← hb, ← mul_pow, ← sq, ← sq_abs]
      exact pow_le_pow_left₀ (abs_nonneg _) (hall i) 2
    refine (Finset.sum_le_sum this).trans ?_
    simp
  have e : ((1 + n * M) / eta) ^ (2 * n) = B ^ 2 := by rw [hB, ← pow_mul, Nat.mul_comm 2 n]
  rw [e] at heps
  have h1 : n * (dot (matVec u v) (matVec u v) * B ^ 2) ≤ n * (eps * dot v v * B ^ 2) := by
    have : (0 : K) ≤ n := Nat.cast_nonneg n
    gcongr
  nlinarith

/-- The state of the loop of `_estimate_condition` before row `k`. -/
theorem condition_state {u : Mat K n n} (hup : ∀ i j, j < i → u i j = 0) (hdiag : ∀ i, u i i ≠ 0) (k : Nat)
    (hk : k ≤ n) :
    ConditionInv u k (((List.finRange n).take k).foldl (conditionStep u) (fun _ => 0, fun _ => 0)) := by
  induction k with
  | zero => exact ⟨fun j _ => by simp, fun _ _ => rfl, fun _ h => absurd h (Nat.not_lt_zero _)⟩
  | succ k ih =>
    rw [List.take_add_one, List.foldl_append]
    have : (List.finRange n)[k]?.toList = [⟨k, hk⟩] := by
      rw [List.getElem?_eq_getElem (by simpa using hk)]
      simp
    rw [this]
    exact conditionStep_inv hup hdiag ⟨k, hk⟩ (ih (by omega))

/-- A small entry on the diagonal makes the vector of `_estimate_condition` long. -/
theorem estimate_long {u : Mat K n n} (hup : ∀ i j, j < i → u i j = 0) (hdiag : ∀ i, 0 < u i i) {M : K} (hM0 : 0 ≤ M)
    (hM : ∀ i j, |u i j| ≤ M) (k : Fin n) :
    1 ≤ u k k * ((1 + n * M) * ∑ i, |estimateCondition u i|) := by
  have hd : ∀ i, u i i ≠ 0 := fun i => (hdiag i).ne'
  set pw := ((List.finRange n).take k).foldl (conditionStep u) (fun _ => 0, fun _ => 0) with hpw
  have hinv := condition_state hup hd k k.isLt.le
  rw [← hpw] at hinv
  have hinv' := conditionStep_inv hup hd k hinv
  set pw' := conditionStep u pw k with hpw'
  have hw : ∀ i : Fin n, |pw'.2 i| ≤ |estimateCondition u i| := by
    intro i
    rcases Nat.lt_or_ge k i with hi | hi
    · rw [hinv'.rest i hi, abs_zero]; exact abs_nonneg _
    · have e : estimateCondition u
          = (((List.finRange n).drop (k + 1)).foldl (conditionStep u) pw').2 := by
        have h1 : List.finRange n = (List.finRange n).take k ++ k :: (List.finRange n).drop (k + 1) := by
          have h2 : (List.finRange n).drop k = k :: (List.finRange n).drop (k + 1) := by
            rw [List.drop_eq_getElem_cons (by simp)]
            simp
          rw [← h2, List.take_append_drop]
        unfold estimateCondition
        conv_lhs => rw [h1]
        rw [List.foldl_append, List.foldl_cons]
      rw [e, conditionFold_other]
      intro hmem
      obtain ⟨j, hj, hij⟩ := List.getElem_of_mem hmem
      simp at hij
      rw [← hij] at hi
      simp at hi
      omega
  have hS0 : 0 ≤ ∑ i, |estimateCondition u i| := Finset.sum_nonneg fun i _ => abs_nonneg _
  set S := ∑ i, |estimateCondition u i| with hS
  -- the chosen sign is at least as good as the one that makes the entry large
  have hchosen : 1 / u k k ≤ |pw'.2 k| + ∑ j, if k < j then |pw'.1 j| else 0 := by
    have hg := C108_greedy u pw k
    have hbest : ∃ e : K, (e = 1 ∨ e = -1) ∧ 1 ≤ |e - pw.1 k| := by
      rcases le_total 0 (pw.1 k) with h0 | h0
      · refine ⟨-1, .inr rfl, ?_⟩
        rw [abs_of_nonpos (by linarith)]
        linarith
      · refine ⟨1, .inl rfl, ?_⟩
        rw [abs_of_nonneg (by linarith)]
        linarith
    obtain ⟨e, he, h1⟩ := hbest
    refine le_trans ?_ (hg e he)
    have h2 : 1 / u k k ≤ |(e - pw.1 k) / u k k| := by
      rw [abs_div, abs_of_pos (hdiag k)]
      exact div_le_div_of_nonneg_right h1 (hdiag k).le
    have h3 : 0 ≤ ∑ j, (if k < j then |pw.1 j + u k j * ((e - pw.1 k) / u k k)| else 0) :=
      Finset.sum_nonneg fun j _ => by split <;> simp
    linarith
  have htail : ∀ j ∈ (Finset.univ : Finset (Fin n)), (if k < j then |pw'.1 j| else 0) ≤ M * S := by
    intro j _
    split
    · rename_i hkj
      rw [hinv'.partialSums j (by rw [Fin.lt_def] at hkj; omega)]
      refine (Finset.abs_sum_le_sum_abs _ _).trans ?_
      rw [hS, Finset.mul_sum]
      refine Finset.sum_le_sum fun i _ => ?_
      rw [abs_mul]
      exact mul_le_mul (hM i j) (hw i) (abs_nonneg _) hM0
    · exact mul_nonneg hM0 hS0
  have h1 : ∑ j, (if k < j then |pw'.1 j| else 0) ≤ n * (M * S) := by
    refine (Finset.sum_le_sum htail).trans ?_
    simp
  have h2 : |pw'.2 k| ≤ S := (hw k).trans
    (Finset.single_le_sum (f := fun i => |estimateCondition u i|) (fun i _ => abs_nonneg _) (Finset.mem_univ k))
  have h3 : 1 / u k k ≤ (1 + n * M) * S := by linarith
  rw [div_le_iff₀ (hdiag k)] at h3
  linarith

/-- The estimate is at most a multiple of each entry on the diagonal. -/
theorem estimate_le_pivot {root : K → K} (hroot : SqrtSpec root) {ext : GqExternal K n} (hext : GqSpec ext) (hn : 0 < n)
    {u a : Mat K n n} (hu : UpperFactor u a) {M : K} (hM0 : 0 ≤ M) (hM : ∀ i j, |u i j| ≤ M) (k : Fin n) :
    (smallestSingular root ext u).1 ^ 2 ≤ (n * (1 + n * M) * u k k) ^ 2 := by
  set w := estimateCondition u with hw
  set v := ext.solveUpper u w with hv
  have huv : matVec u v = w := funext fun i => hext.solveUpper u a w hu i
  have hwne : w ≠ fun _ => 0 := by
    obtain ⟨m, rfl⟩ : ∃ m, n = m + 1 := ⟨n - 1, by omega⟩
    exact estimateCondition_ne_zero u (hu.2.1 0).ne'
  have hvne : v ≠ fun _ => 0 := by
    intro h0
    apply hwne
    rw [← huv, h0]
    funext i
    simp [matVec]
  have hvpos := dot_self_pos hvne
  have hwpos := dot_self_pos hwne
  have hs : (smallestSingular root ext u).1 ^ 2 = dot w w / dot v v := by
    have e : (smallestSingular root ext u).1 = norm2 root w / norm2 root v := rfl
    rw [e, div_pow, (norm2_sq hroot _).2, (norm2_sq hroot _).2]
  -- |w|² = e · v
  have hew : dot w w = dot (fun i => ∑ j, u j i * w j) v := by
    conv_lhs => rw [← huv]
    simp only [dot, matVec, Finset.sum_mul]
    rw [Finset.sum_comm]
    refine Finset.sum_congr rfl fun i _ => ?_
    refine Finset.sum_congr rfl fun j _ => ?_
    have := congrFun huv j
    simp only [matVec] at this
    rw [this]; ring
  have hee : dot (fun i => ∑ j, u j i * w j) (fun i => ∑ j, u j i * w j) = n := by
    have : ∀ i ∈ (Finset.univ : Finset (Fin n)), (∑ j, u j i * w j) * (∑ j, u j i * w j) = 1 := by
      intro i _
      rcases C108_right_hand_side hu.1 (fun i => (hu.2.1 i).ne') i with h | h <;> rw [← hw] at h <;> rw [h] <;> ring
    simp only [dot]
    rw [Finset.sum_congr rfl this]
    simp
  have h1 : dot w w ^ 2 ≤ n * dot v v := by
    have := cauchy_schwarz (fun i => ∑ j, u j i * w j) v
    rwa [hee, ← hew] at this
  have h2 := estimate_long hu.1 hu.2.1 hM0 hM k
  rw [← hw] at h2
  have h3 : (∑ i, |w i|) ^ 2 ≤ n * dot w w := by
    have := Finset.sum_mul_sq_le_sq_mul_sq Finset.univ (fun _ : Fin n => (1 : K)) (fun i => |w i|)
    simp only [one_mul, one_pow, sq_abs, Finset.sum_const, Finset.card_univ, Fintype.card_fin, nsmul_eq_mul,
      mul_one] at this
    have e : dot w w = ∑ i, w i ^ 2 := Finset.sum_congr rfl fun i _ => (sq _).symm
    rwa [e]
  rw [hs, div_le_iff₀ hvpos]
  set c := u k k * (1 + n * M) with hc
  have hc0 : 0 ≤ c := mul_nonneg (hu.2.1 k).le (by positivity)
  have h4 : 1 ≤ c ^ 2 * (n * dot w w) := by
    have h5 : 1 ≤ c * ∑ i, |w i| := by rw [hc, mul_assoc]; exact h2
    have h6 : 1 ≤ (c * ∑ i, |w i|) ^ 2 := one_le_pow₀ h5
    rw [mul_pow] at h6
    exact h6.trans (mul_le_mul_of_nonneg_left h3 (sq_nonneg _))
  have h7 : dot w w ≤ c ^ 2 * n * dot w w ^ 2 := by nlinarith
  have h8 : c ^ 2 * n * dot w w ^ 2 ≤ c ^ 2 * n * (n * dot v v) :=
    mul_le_mul_of_nonneg_left h1 (by positivity)
  calc dot w w ≤ c ^ 2 * n * (n * dot v v) := h7.trans h8
    _ = (n * (1 + n * M) * u k k) ^ 2 * dot v v := by rw [hc]; ring

end Tranquilo
