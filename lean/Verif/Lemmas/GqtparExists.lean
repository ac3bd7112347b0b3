import Verif.Lemmas.Gqtpar
import Mathlib.LinearAlgebra.FiniteDimensional.Lemmas
import Mathlib.LinearAlgebra.Dimension.Constructions

/-!
# Library functions that meet the contract `GqSpec` exist

The theorems on gqtpar quantify over all library functions that meet `GqSpec`. Here the contract is
shown to be satisfiable in every dimension (over every field with square roots).
-/

namespace Tranquilo

variable {K : Type} [Field K] [LinearOrder K] [IsStrictOrderedRing K] {n : Nat}

/-- The rows before `m` of a Cholesky factor. -/
structure PartialFactor (u a : Mat K n n) (m : Nat) : Prop where
  upper : ∀ i j, j < i → u i j = 0
  diag : ∀ i : Fin n, i.val < m → 0 < u i i
  factor : ∀ i j : Fin n, i.val < m → (∑ l : Fin n, if l.val < m then u l i * u l j else 0) = a i j

theorem partialFactor_succ {root : K → K} (hroot : SqrtSpec root) {a u : Mat K n n}
    (hs : SymmetricMat a) {m : Nat} (hm : m < n) (hp : PartialFactor u a m) :
    (∃ u', PartialFactor u' a (m + 1)) ∨ LeadingFactor u a ⟨m, hm⟩ := by
  set k : Fin n := ⟨m, hm⟩ with hk
  have hlt : ∀ l : Fin n, l < k ↔ l.val < m := fun l => Iff.rfl
  by_cases hpiv : a k k ≤ ∑ l, if l < k then u l k ^ 2 else 0
  · right
    exact ⟨hp.upper, fun i hi => hp.diag i hi, fun i j hi _ => hp.factor i j hi, hpiv⟩
  · left
    push Not at hpiv
    set p := a k k - ∑ l, (if l < k then u l k ^ 2 else 0) with hpdef
    have hp0 : 0 < p := sub_pos.2 hpiv
    obtain ⟨hr0, hr1⟩ := hroot p hp0.le
    have hrpos : 0 < root p := by
      rcases hr0.eq_or_lt with h0 | h0
      · rw [← h0, mul_zero] at hr1
        exact absurd hr1 hp0.ne
      · exact h0
    let row : Vec K n := fun j => if j < k then 0 else if j = k then root p
      else (a k j - ∑ l, if l < k then u l k * u l j else 0) / root p
    have hrow_lt : ∀ j, j < k → row j = 0 := fun j hj => by simp only [row, if_pos hj]
    have hrow_k : row k = root p := by simp [row]
    have hrow_gt : ∀ j, k < j → row j = (a k j - ∑ l, if l < k then u l k * u l j else 0) / root p := by
      intro j hj
      simp only [row, if_neg (not_lt.2 hj.le), if_neg hj.ne']
    let u' : Mat K n n := fun i j => if i = k then row j else u i j
    have hu'k : ∀ j, u' k j = row j := fun j => by simp [u']
    have hu'ne : ∀ i j, i ≠ k → u' i j = u i j := fun i j hi => by simp [u', hi]
    -- sums over the rows up to k
    have hsum : ∀ i j, (∑ l : Fin n, if l.val < m + 1 then u' l i * u' l j else 0)
        = (∑ l, if l < k then u l i * u l j else 0) + row i * row j := by
      intro i j
      have h1 : ∀ l : Fin n, (if l.val < m + 1 then u' l i * u' l j else 0)
          = (if l < k then u l i * u l j else 0) + if l = k then row i * row j else 0 := by
        intro l
        rcases lt_trichotomy l k with h | h | h
        · have h2 : l.val < m := h
          rw [if_pos (by omega), if_pos h, if_neg h.ne, hu'ne l i h.ne, hu'ne l j h.ne, add_zero]
        · subst h
          rw [if_pos (by simp [hk]), if_neg (lt_irrefl _), if_pos rfl, hu'k, hu'k, zero_add]
        · have h2 : m < l.val := h
          rw [if_neg (by omega), if_neg (not_lt.2 h.le), if_neg h.ne', add_zero]
      rw [Finset.sum_congr rfl fun l _ => h1 l, Finset.sum_add_distrib]
      simp
    refine ⟨u', ?_, ?_, ?_⟩
    · intro i j hj
      by_cases hi : i = k
      · subst hi; rw [hu'k, hrow_lt j hj]
      · rw [hu'ne i j hi, hp.upper i j hj]
    · intro i hi
      by_cases hik : i = k
      · rw [hik, hu'k, hrow_k]; exact hrpos
      · rw [hu'ne i i hik]
        refine hp.diag i ?_
        have : i.val ≠ m := fun h => hik (Fin.ext h)
        omega
    · intro i j hi
      rw [hsum]
      by_cases hik : i = k
      · rw [hik, hrow_k]
        rcases lt_trichotomy j k with h | h | h
        · rw [hrow_lt j h, mul_zero, add_zero, hs k j, ← hp.factor j k h]
          exact Finset.sum_congr rfl fun l _ => by
            simp only [hlt]; split <;> ring
        · rw [h, hrow_k, hr1, hpdef]
          have : (∑ l, if l < k then u l k * u l k else 0) = ∑ l, if l < k then u l k ^ 2 else 0 :=
            Finset.sum_congr rfl fun l _ => by split <;> ring
          rw [this]; ring
        · rw [hrow_gt j h]
          field_simp
          ring
      · have him : i.val < m := by
          have : i.val ≠ m := fun h => hik (Fin.ext h)
          omega
        rw [hrow_lt i him, zero_mul, add_zero]
        exact hp.factor i j him

/-- Every symmetric matrix has a Cholesky factor or a factorization that fails at some pivot. -/
theorem chol_exists {root : K → K} (hroot : SqrtSpec root) {a : Mat K n n} (hs : SymmetricMat a) :
    (∃ u, UpperFactor u a) ∨ ∃ k u, LeadingFactor u a k := by
  have key : ∀ m, m ≤ n → (∃ u : Mat K n n, PartialFactor u a m) ∨ ∃ k u, LeadingFactor u a k := by
    intro m
    induction m with
    | zero =>
      intro _
      exact Or.inl ⟨fun _ _ => 0, fun _ _ _ => rfl, fun i hi => absurd hi (Nat.not_lt_zero _),
        fun i _ hi => absurd hi (Nat.not_lt_zero _)⟩
    | succ m ih =>
      intro hm
      rcases ih (by omega) with ⟨u, hu⟩ | h
      · rcases partialFactor_succ hroot hs (by omega) hu with h | h
        · exact Or.inl h
        · exact Or.inr ⟨_, _, h⟩
      · exact Or.inr h
  rcases key n le_rfl with ⟨u, hu⟩ | h
  · refine Or.inl ⟨u, hu.upper, fun i => hu.diag i i.isLt, fun i j => ?_⟩
    rw [← hu.factor i j i.isLt]
    exact Finset.sum_congr rfl fun l _ => by rw [if_pos l.isLt]
  · exact Or.inr h

omit [LinearOrder K] [IsStrictOrderedRing K] in
/-- An injective square matrix is surjective. -/
theorem matVec_surjective (a : Mat K n n) (hinj : ∀ d : Vec K n, matVec a d = (fun _ => 0) → d = fun _ => 0)
    (b : Vec K n) : ∃ x, matVec a x = b := by
  let f : (Fin n → K) →ₗ[K] (Fin n → K) :=
    { toFun := matVec a
      map_add' := fun x y => by
        have := matVec_axpy a x y 1
        simp only [one_mul] at this
        exact this
      map_smul' := fun t x => by
        funext i
        simp only [matVec, Pi.smul_apply, smul_eq_mul, Finset.mul_sum, RingHom.id_apply]
        exact Finset.sum_congr rfl fun j _ => by ring }
  have hf : Function.Injective f := by
    rw [← LinearMap.ker_eq_bot, LinearMap.ker_eq_bot']
    exact fun d hd => hinj d hd
  exact (LinearMap.injective_iff_surjective.1 hf) b

theorem upperFactor_matVec_injective {u a : Mat K n n} (hu : UpperFactor u a) (d : Vec K n)
    (h : matVec a d = fun _ => 0) : d = fun _ => 0 := by
  by_contra hne
  have := upperFactor_pos hu hne
  rw [quadForm_eq_dot, h, dot_zero_right] at this
  exact lt_irrefl _ this

omit [IsStrictOrderedRing K] in
/-- The leading block of a partial factor, extended by the identity, has an inverse. -/
theorem leading_solvable [IsStrictOrderedRing K] {u a : Mat K n n} {k : Fin n}
    (hf : LeadingFactor u a k) (b : Vec K n) :
    ∃ x : Vec K n, ∀ i, i < k → (∑ j, if j < k then u i j * x j else 0) = b i := by
  let w : Mat K n n := fun i j => if i < k ∧ j < k then u i j else if i = j then 1 else 0
  have hw : UpperFactor w (fun i j => ∑ l, w l i * w l j) := by
    refine ⟨fun i j hij => ?_, fun i => ?_, fun _ _ => rfl⟩
    · simp only [w]
      split
      · exact hf.upper i j hij
      · rw [if_neg hij.ne']
    · simp only [w]
      split
      · rename_i h; exact hf.diag i h.1
      · simp
  obtain ⟨x, hx⟩ := matVec_surjective w (fun d hd => upperFactor_injective hw hd) b
  refine ⟨x, fun i hi => ?_⟩
  rw [← congrFun hx i, matVec]
  refine Finset.sum_congr rfl fun j _ => ?_
  simp only [w]
  by_cases hj : j < k
  · simp [hi, hj]
  · have : i ≠ j := fun h => hj (h ▸ hi)
    simp [hj, this]

/-- The contract can be met. -/
theorem gqSpec_exists {root : K → K} (hroot : SqrtSpec root) (n : Nat) :
    ∃ ext : GqExternal K n, GqSpec ext := by
  classical
  have hchol : ∀ a : Mat K n n, ∃ c : CholResult K n, c.info ≤ n ∧
      (SymmetricMat a → c.info = 0 → UpperFactor c.upper a) ∧
      (SymmetricMat a → ∀ k : Fin n, c.info = k + 1 → LeadingFactor c.upper a k) := by
    intro a
    by_cases hs : SymmetricMat a
    · rcases chol_exists hroot hs with ⟨u, hu⟩ | ⟨k, u, hu⟩
      · exact ⟨⟨u, 0⟩, Nat.zero_le _, fun _ _ => hu, fun _ k hk => by simp at hk⟩
      · refine ⟨⟨u, k + 1⟩, k.isLt, fun _ h0 => by simp at h0, fun _ k' hk' => ?_⟩
        have : k' = k := Fin.ext (by simp at hk'; omega)
        rw [this]; exact hu
    · exact ⟨⟨a, 0⟩, Nat.zero_le _, fun h => absurd h hs, fun h => absurd h hs⟩
  have hsol : ∀ (u : Mat K n n) (b : Vec K n), ∃ x : Vec K n, ∀ a, UpperFactor u a →
      ∀ i, ∑ j, a i j * x j = b i := by
    intro u b
    by_cases hex : ∃ a, UpperFactor u a
    · obtain ⟨a, ha⟩ := hex
      obtain ⟨x, hx⟩ := matVec_surjective a (upperFactor_matVec_injective ha) b
      refine ⟨x, fun a' ha' i => ?_⟩
      have e : a' = a := by
        funext i j
        rw [← ha.2.2 i j, ← ha'.2.2 i j]
      rw [e]
      exact congrFun hx i
    · exact ⟨b, fun a ha => absurd ⟨a, ha⟩ hex⟩
  have hup : ∀ (u : Mat K n n) (b : Vec K n), ∃ x : Vec K n, ∀ a, UpperFactor u a →
      ∀ i, ∑ j, u i j * x j = b i := by
    intro u b
    by_cases hex : ∃ a, UpperFactor u a
    · obtain ⟨a, ha⟩ := hex
      obtain ⟨x, hx⟩ := matVec_surjective u (fun d hd => upperFactor_injective ha hd) b
      exact ⟨x, fun a' _ i => congrFun hx i⟩
    · exact ⟨b, fun a ha => absurd ⟨a, ha⟩ hex⟩
  have htr : ∀ (u : Mat K n n) (b : Vec K n), ∃ x : Vec K n, ∀ a, UpperFactor u a →
      ∀ i, ∑ j, u j i * x j = b i := by
    intro u b
    by_cases hex : ∃ a, UpperFactor u a
    · obtain ⟨a, ha⟩ := hex
      obtain ⟨x, hx⟩ := matVec_surjective a (upperFactor_matVec_injective ha) b
      refine ⟨matVec u x, fun _ _ i => ?_⟩
      rw [← congrFun hx i]
      simp only [matVec, Finset.mul_sum]
      rw [Finset.sum_comm]
      refine Finset.sum_congr rfl fun j _ => ?_
      rw [← ha.2.2 i j, Finset.sum_mul]
      exact Finset.sum_congr rfl fun l _ => by ring
    · exact ⟨b, fun a ha => absurd ⟨a, ha⟩ hex⟩
  have hlead : ∀ (k : Nat) (u : Mat K n n) (b : Vec K n), ∃ x : Vec K n, ∀ a (k' : Fin n), k'.val = k →
      LeadingFactor u a k' → ∀ i, i < k' → (∑ j, if j < k' then u i j * x j else 0) = b i := by
    intro k u b
    by_cases hex : ∃ a, ∃ k' : Fin n, k'.val = k ∧ LeadingFactor u a k'
    · obtain ⟨a, k', hk', ha⟩ := hex
      obtain ⟨x, hx⟩ := leading_solvable ha b
      refine ⟨x, fun a' k'' hk'' _ => ?_⟩
      have : k'' = k' := Fin.ext (by omega)
      rw [this]; exact hx
    · exact ⟨b, fun a k' hk' ha => absurd ⟨a, k', hk', ha⟩ hex⟩
  choose chol h1 h2 h3 using hchol
  choose sol hsol using hsol
  choose up hup using hup
  choose tr htr using htr
  choose lead hlead using hlead
  refine ⟨⟨chol, sol, tr, up, lead, fun a b c =>
    ((-b + root (b ^ 2 - 4 * a * c)) / (2 * a), (-b - root (b ^ 2 - 4 * a * c)) / (2 * a))⟩, ?_⟩
  refine ⟨h1, h2, h3, fun u a b hu => hsol u b a hu, fun u a b hu => htr u b a hu,
    fun u a b hu => hup u b a hu, fun u a k b hf => hlead k u b a k rfl hf, ?_⟩
  intro a b c ha hd t
  have hr := (hroot _ hd).2
  simp only
  generalize root (b ^ 2 - 4 * a * c) = r at hr ⊢
  field_simp
  linear_combination hr

end Tranquilo
