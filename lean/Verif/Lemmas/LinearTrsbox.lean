import Verif.Model.LinearTrsbox
import Verif.Lemmas.Dot
import Verif.Lemmas.Bntr
import Verif.Spec.Region
import Verif.Spec.Subsolver
import Mathlib.Tactic.Linarith
import Mathlib.Tactic.Ring
import Mathlib.Tactic.FieldSimp
import Mathlib.Algebra.Order.BigOperators.Ring.Finset

/-! # Lemmas on the linear trsbox solver -/

namespace Tranquilo

variable {K : Type} [Field K] [LinearOrder K] [IsStrictOrderedRing K] {n : Nat}

/-- Coordinate `i` will not change any more: it is zero as its direction, or at a bound that the path
`τ * d` has passed. -/
def Settled (l u d : Vec K n) (τ : K) (x : Vec K n) (i : Fin n) : Prop :=
  (x i = 0 ∧ d i = 0) ∨ (x i = u i ∧ 0 < d i ∧ u i ≤ τ * d i) ∨ (x i = l i ∧ d i < 0 ∧ τ * d i ≤ l i)

omit [IsStrictOrderedRing K] in
theorem Settled.congr {l u d : Vec K n} {τ : K} {x y : Vec K n} {i : Fin n} (h : Settled l u d τ x i)
    (hy : y i = x i) : Settled l u d τ y i := by
  unfold Settled at *
  rw [hy]
  exact h

theorem Settled.mono {l u d : Vec K n} {τ τ' : K} {x : Vec K n} {i : Fin n} (h : Settled l u d τ x i)
    (hτ : τ ≤ τ') : Settled l u d τ' x i := by
  rcases h with h | ⟨h1, h2, h3⟩ | ⟨h1, h2, h3⟩
  · exact Or.inl h
  · exact Or.inr (Or.inl ⟨h1, h2, h3.trans (mul_le_mul_of_nonneg_right hτ h2.le)⟩)
  · exact Or.inr (Or.inr ⟨h1, h2, (mul_le_mul_of_nonpos_right hτ h2.le).trans h3⟩)

/-- The settled coordinates stay, the others are at the end of the path. -/
def pathEnd (x d : Vec K n) (τ : K) : Vec K n := fun i => if d i = 0 then x i else τ * d i

/-- What holds at the start of each pass of the loop. -/
structure LinInv (zero radius : K) (l u d0 x d : Vec K n) (it : List (Fin n)) (t τ : K) : Prop where
  dir : ∀ i, d i = 0 ∨ d i = d0 i
  free : ∀ i, d i ≠ 0 → x i = t * d i
  fixed : ∀ i, d i = 0 → Settled l u d0 τ x i
  t_nonneg : 0 ≤ t
  t_le : t ≤ τ
  ball : dot (pathEnd x d τ) (pathEnd x d τ) ≤ radius ^ 2
  mem : ∀ i ∈ it, d i ≠ 0
  nodup : it.Nodup
  big : ∀ i, d i ≠ 0 → zero ≤ |d i|

omit [IsStrictOrderedRing K] in
theorem dot_pathEnd (x d : Vec K n) (s : K) :
    dot (pathEnd x d s) (pathEnd x d s) =
      dot (pathEnd x d 0) (pathEnd x d 0) + s ^ 2 * dot d d := by
  unfold dot pathEnd
  rw [Finset.mul_sum, ← Finset.sum_add_distrib]
  refine Finset.sum_congr rfl fun i _ => ?_
  by_cases h : d i = 0
  · simp [h]
  · simp only [h, if_false]
    ring

/-- The step to the boundary ends on the boundary, and not before the last one. -/
theorem unconstrainedStep_spec {root : K → K} (hroot : SqrtSpec root) {zero radius : K}
    {l u d0 x d : Vec K n} {it : List (Fin n)} {t τ : K} (h : LinInv zero radius l u d0 x d it t τ)
    (hzero : 0 < zero) (hd : ¬ norm2 root d < zero) :
    ∃ τ', τ ≤ τ' ∧ unconstrainedStep root zero x d radius = pathEnd x d τ' ∧
      dot (pathEnd x d τ') (pathEnd x d τ') = radius ^ 2 := by
  have hgg : 0 < dot d d := by
    rcases (dot_self_nonneg d).lt_or_eq with h0 | h0
    · exact h0
    · exfalso
      apply hd
      have := (hroot (dot d d) h0.le).2
      unfold norm2
      rw [← h0] at this ⊢
      rw [mul_self_eq_zero.1 this]
      exact hzero
  have hdx : dot d x = t * dot d d := by
    unfold dot
    rw [Finset.mul_sum]
    refine Finset.sum_congr rfl fun i _ => ?_
    by_cases hi : d i = 0
    · simp [hi]
    · rw [h.free i hi]; ring
  have hx : x = pathEnd x d t := by
    funext i
    unfold pathEnd
    by_cases hi : d i = 0
    · simp [hi]
    · simp only [hi, if_false]
      exact h.free i hi
  have hxx : dot x x = dot (pathEnd x d 0) (pathEnd x d 0) + t ^ 2 * dot d d := by
    conv_lhs => rw [hx]
    exact dot_pathEnd x d t
  set F := dot (pathEnd x d 0) (pathEnd x d 0) with hF
  have hball := h.ball
  rw [dot_pathEnd, ← hF] at hball
  have hval : dot d x ^ 2 + dot d d * (radius ^ 2 - dot x x) = dot d d * (radius ^ 2 - F) := by
    rw [hdx, hxx]; ring
  have hτ0 : 0 ≤ τ := h.t_nonneg.trans h.t_le
  have hFr : 0 ≤ radius ^ 2 - F := by nlinarith [sq_nonneg τ, mul_nonneg (sq_nonneg τ) hgg.le]
  have hnn : 0 ≤ dot d d * (radius ^ 2 - F) := mul_nonneg hgg.le hFr
  obtain ⟨hr0, hr1⟩ := hroot _ hnn
  set r := root (dot d d * (radius ^ 2 - F)) with hr
  refine ⟨r / dot d d, ?_, ?_, ?_⟩
  · rw [le_div_iff₀ hgg]
    refine abs_le_of_sq_le_sq' ?_ hr0 |>.2
    have : (τ * dot d d) ^ 2 = dot d d * (τ ^ 2 * dot d d) := by ring
    rw [this, sq r, hr1]
    exact mul_le_mul_of_nonneg_left (by linarith) hgg.le
  · funext i
    unfold unconstrainedStep linearDistance
    rw [if_neg (show ¬ root (dot d d) < zero from hd), hval, max_eq_right hnn, ← hr, hdx]
    unfold pathEnd
    by_cases hi : d i = 0
    · simp [hi]
    · simp only [hi, if_false]
      rw [h.free i hi]
      field_simp
      ring
  · rw [dot_pathEnd, ← hF]
    have : (r / dot d d) ^ 2 * dot d d = radius ^ 2 - F := by
      rw [div_pow, sq r, hr1]
      field_simp
    rw [this]
    ring

omit [Field K] [IsStrictOrderedRing K] in
theorem scanBounds_none {x l u : Vec K n} : ∀ {it it' : List (Fin n)},
    scanBounds x l u it = (none, it') → ∀ i ∈ it, l i < x i ∧ x i < u i
  | [], _, _, i, hi => by cases hi
  | j :: rest, it', h, i, hi => by
    unfold scanBounds at h
    split at h
    · cases h
    · split at h
      · cases h
      · rename_i h1 h2
        rcases List.mem_cons.1 hi with rfl | hi
        · exact ⟨lt_of_not_ge h2, lt_of_not_ge h1⟩
        · exact scanBounds_none h i hi

omit [Field K] [IsStrictOrderedRing K] in
theorem scanBounds_some {x l u : Vec K n} {b : K} {i : Fin n} : ∀ {it it' : List (Fin n)},
    scanBounds x l u it = (some (b, i), it') →
      ∃ pre, it = pre ++ i :: it' ∧ (∀ j ∈ pre, l j < x j ∧ x j < u j) ∧
        ((b = u i ∧ u i ≤ x i) ∨ (b = l i ∧ x i ≤ l i))
  | [], _, h => by cases h
  | j :: rest, it', h => by
    unfold scanBounds at h
    split at h
    · rename_i h1
      cases h
      exact ⟨[], rfl, by simp, Or.inl ⟨rfl, h1⟩⟩
    · split at h
      · rename_i h2
        cases h
        exact ⟨[], rfl, by simp, Or.inr ⟨rfl, h2⟩⟩
      · rename_i h1 h2
        obtain ⟨pre, hp, hin, hb⟩ := scanBounds_some h
        refine ⟨j :: pre, by rw [hp]; rfl, fun k hk => ?_, hb⟩
        rcases List.mem_cons.1 hk with rfl | hk
        · exact ⟨lt_of_not_ge h2, lt_of_not_ge h1⟩
        · exact hin k hk

/-- The next pass starts with one more settled coordinate. -/
theorem LinInv.next {zero radius : K} {l u d0 x d : Vec K n} {it : List (Fin n)} {t τ τ' : K}
    (h : LinInv zero radius l u d0 x d it t τ) (hl : ∀ i, l i < 0) (hu : ∀ i, 0 < u i)
    (hτ : τ ≤ τ') (hball : dot (pathEnd x d τ') (pathEnd x d τ') ≤ radius ^ 2) {b : K} {i : Fin n}
    {pre it' : List (Fin n)} (hit : it = pre ++ i :: it')
    (hb : (b = u i ∧ u i ≤ pathEnd x d τ' i) ∨ (b = l i ∧ pathEnd x d τ' i ≤ l i)) :
    LinInv zero radius l u d0 (constrainedStep x d b i) (dropDirection d i) it' (b / d i) τ' ∧
      Settled l u d0 τ' (constrainedStep x d b i) i := by
  have hi : d i ≠ 0 := h.mem i (by rw [hit]; simp)
  have hd0 : d0 i = d i := ((h.dir i).resolve_left hi).symm
  have hend : pathEnd x d τ' i = τ' * d i := if_neg hi
  have hxi : x i = t * d i := h.free i hi
  have hτ0 : 0 ≤ τ' := h.t_nonneg.trans (h.t_le.trans hτ)
  have hset : Settled l u d0 τ' (constrainedStep x d b i) i ∧ 0 ≤ b / d i ∧ b / d i ≤ τ' ∧
      b ^ 2 ≤ (τ' * d i) ^ 2 := by
    have hbi : constrainedStep x d b i i = b := if_pos rfl
    rw [hend] at hb
    rcases hb with ⟨rfl, hb⟩ | ⟨rfl, hb⟩
    · have hpos : 0 < d i := by
        by_contra hn
        have := mul_nonpos_of_nonneg_of_nonpos hτ0 (not_lt.1 hn)
        linarith [hu i]
      refine ⟨Or.inr (Or.inl ⟨hbi, by rw [hd0]; exact hpos, by rw [hd0]; exact hb⟩),
        div_nonneg (hu i).le hpos.le, (div_le_iff₀ hpos).2 hb, ?_⟩
      exact pow_le_pow_left₀ (hu i).le hb 2
    · have hneg : d i < 0 := by
        by_contra hn
        have := mul_nonneg hτ0 (not_lt.1 hn)
        linarith [hl i]
      refine ⟨Or.inr (Or.inr ⟨hbi, by rw [hd0]; exact hneg, by rw [hd0]; exact hb⟩),
        div_nonneg_of_nonpos (hl i).le hneg.le, (div_le_iff_of_neg hneg).2 hb, ?_⟩
      have := pow_le_pow_left₀ (neg_nonneg.2 (hl i).le) (neg_le_neg hb) 2
      simpa using this
  obtain ⟨hset, ht0, ht1, hsq⟩ := hset
  refine ⟨⟨fun j => ?_, fun j hj => ?_, fun j hj => ?_, ht0, ht1, ?_, fun j hj => ?_, ?_, fun j hj => ?_⟩,
    hset⟩
  · unfold dropDirection
    split
    · exact Or.inl rfl
    · exact h.dir j
  · have hji : j ≠ i := by rintro rfl; exact hj (if_pos rfl)
    have hdj : dropDirection d i j = d j := if_neg hji
    rw [hdj] at hj ⊢
    unfold constrainedStep
    rw [if_neg hji, h.free j hj, hxi]
    field_simp
    ring
  · by_cases hji : j = i
    · rw [hji]; exact hset
    · have hdj : dropDirection d i j = d j := if_neg hji
      rw [hdj] at hj
      refine ((h.fixed j hj).mono hτ).congr ?_
      unfold constrainedStep
      rw [if_neg hji, hj]
      ring
  · refine le_trans (Finset.sum_le_sum fun j _ => ?_) hball
    by_cases hji : j = i
    · subst hji
      have : pathEnd (constrainedStep x d b j) (dropDirection d j) τ' j = b := by
        unfold pathEnd dropDirection constrainedStep
        simp
      rw [this, hend, ← sq, ← sq]
      exact hsq
    · have hdj : dropDirection d i j = d j := if_neg hji
      have : pathEnd (constrainedStep x d b i) (dropDirection d i) τ' j = pathEnd x d τ' j := by
        unfold pathEnd
        rw [hdj]
        by_cases hj : d j = 0
        · simp [constrainedStep, hji, hj]
        · simp [hj]
      rw [this]
  · have hnd := h.nodup
    rw [hit] at hnd
    have hji : j ≠ i := by
      rintro rfl
      have := (List.nodup_append.1 hnd).2.1
      exact (List.nodup_cons.1 this).1 hj
    have hdj : dropDirection d i j = d j := if_neg hji
    rw [hdj]
    exact h.mem j (by rw [hit]; simp [hj])
  · have hnd := h.nodup
    rw [hit] at hnd
    exact (List.nodup_cons.1 (List.nodup_append.1 hnd).2.1).2
  · have hji : j ≠ i := by rintro rfl; exact hj (if_pos rfl)
    have hdj : dropDirection d i j = d j := if_neg hji
    rw [hdj] at hj ⊢
    exact h.big j hj

/-- The directions that are left. -/
def leftDirections (d : Vec K n) : Finset (Fin n) := Finset.univ.filter fun i => d i ≠ 0

omit [IsStrictOrderedRing K] in
theorem card_dropDirection {d : Vec K n} {i : Fin n} (hi : d i ≠ 0) :
    (leftDirections (dropDirection d i)).card + 1 = (leftDirections d).card := by
  have : leftDirections (dropDirection d i) = (leftDirections d).erase i := by
    ext j
    simp only [leftDirections, Finset.mem_filter, Finset.mem_univ, true_and, Finset.mem_erase,
      dropDirection]
    by_cases h : j = i
    · simp [h]
    · simp [h]
  rw [this]
  exact Finset.card_erase_add_one (by simp [leftDirections, hi])

/-- The returned point. -/
def LinEnd (radius : K) (l u d0 y : Vec K n) : Prop :=
  ∃ τ, 0 ≤ τ ∧ dot y y ≤ radius ^ 2 ∧ (∀ i, Settled l u d0 τ y i ∨ y i = τ * d0 i) ∧
    (dot y y = radius ^ 2 ∨ ∀ i, Settled l u d0 τ y i)

omit [IsStrictOrderedRing K] in
theorem norm2_zero_vec {root : K → K} (hroot : SqrtSpec root) {d : Vec K n} (hd : ∀ i, d i = 0) :
    norm2 root d = 0 := by
  have : d = fun _ => 0 := funext hd
  unfold norm2
  rw [this, dot_zero_left]
  exact mul_self_eq_zero.1 (hroot 0 le_rfl).2

/-- All directions are used up when the norm is below the threshold. -/
theorem LinInv.all_zero {root : K → K} (hroot : SqrtSpec root) {zero radius : K}
    {l u d0 x d : Vec K n} {it : List (Fin n)} {t τ : K} (h : LinInv zero radius l u d0 x d it t τ)
    (hd : norm2 root d < zero) (i : Fin n) : d i = 0 := by
  by_contra hi
  have h1 := h.big i hi
  have h0 : 0 ≤ dot d d := dot_self_nonneg d
  obtain ⟨hr0, hr1⟩ := hroot _ h0
  have h2 : |d i| ≤ norm2 root d := by
    refine abs_le_of_sq_le_sq' ?_ hr0 |> fun h => abs_le.2 h
    unfold norm2
    rw [sq (root _), hr1, sq]
    exact Finset.single_le_sum (f := fun j => d j * d j) (fun j _ => mul_self_nonneg _)
      (Finset.mem_univ i)
  linarith

theorem LinInv.end_of_zero {zero radius : K} {l u d0 x d : Vec K n} {it : List (Fin n)} {t τ : K}
    (h : LinInv zero radius l u d0 x d it t τ) (hd : ∀ i, d i = 0) : LinEnd radius l u d0 x := by
  have hx : pathEnd x d τ = x := by
    funext i
    exact if_pos (hd i)
  refine ⟨τ, h.t_nonneg.trans h.t_le, ?_, fun i => Or.inl (h.fixed i (hd i)),
    Or.inr fun i => h.fixed i (hd i)⟩
  have := h.ball
  rwa [hx] at this

theorem linearTrsboxLoop_end {root : K → K} (hroot : SqrtSpec root) {zero radius : K}
    (hzero : 0 < zero) {l u d0 : Vec K n} (hl : ∀ i, l i < 0) (hu : ∀ i, 0 < u i) :
    ∀ (k : Nat) (x d : Vec K n) (it : List (Fin n)) (t τ : K) (y : Vec K n),
      LinInv zero radius l u d0 x d it t τ → (leftDirections d).card ≤ k →
      linearTrsboxLoop root zero radius l u k x d it = .ok y → LinEnd radius l u d0 y
  | 0, x, d, it, t, τ, y, h, hk, hy => by
    have hd : ∀ i, d i = 0 := by
      intro i
      by_contra hi
      have : leftDirections d = ∅ := Finset.card_eq_zero.1 (Nat.le_zero.1 hk)
      have hm : i ∈ leftDirections d := by simp [leftDirections, hi]
      rw [this] at hm
      exact absurd hm (Finset.notMem_empty i)
    cases hy
    exact h.end_of_zero hd
  | k + 1, x, d, it, t, τ, y, h, hk, hy => by
    unfold linearTrsboxLoop at hy
    split at hy
    · rename_i hd
      cases hy
      exact h.end_of_zero (h.all_zero hroot hd)
    · rename_i hd
      obtain ⟨τ', hτ, hpath, hball⟩ := unconstrainedStep_spec hroot h hzero hd
      have hτ0 : 0 ≤ τ' := h.t_nonneg.trans (h.t_le.trans hτ)
      simp only [hpath] at hy
      unfold nextActiveBound at hy
      split at hy
      · rename_i heq
        cases hy
      · cases hy
        refine ⟨τ', hτ0, hball.le, fun i => ?_, Or.inl hball⟩
        unfold pathEnd
        by_cases hi : d i = 0
        · refine Or.inl (((h.fixed i hi).mono hτ).congr ?_)
          exact if_pos hi
        · right
          rw [if_neg hi, (h.dir i).resolve_left hi]
      · rename_i b i it' heq
        split at heq
        · cases heq
        · obtain ⟨pre, hit, -, hb⟩ := scanBounds_some (Except.ok.inj heq)
          obtain ⟨hnext, -⟩ := h.next hl hu hτ hball.le hit hb
          have hi : d i ≠ 0 := h.mem i (by rw [hit]; simp)
          have := card_dropDirection hi
          exact linearTrsboxLoop_end hroot hzero hl hu k _ _ _ _ _ y hnext (by omega) hy

/-- The invariant at the start. -/
theorem LinInv.start {zero : K} (radius : K) (hzero : 0 < zero) (g l u : Vec K n) :
    LinInv zero radius l u (linearDirection zero g) (fun _ => 0) (linearDirection zero g)
      ((List.finRange n).filter fun i => !decide (|-(g i)| < zero)) 0 0 := by
  refine ⟨fun i => Or.inr rfl, fun i _ => by ring, fun i hi => Or.inl ⟨rfl, hi⟩, le_rfl, le_rfl, ?_, ?_,
    (List.nodup_finRange n).filter _, ?_⟩
  · have : pathEnd (fun _ => 0) (linearDirection zero g) 0 = fun _ => 0 := by
      funext i
      unfold pathEnd
      split <;> simp
    rw [this, dot_zero_left]
    exact sq_nonneg _
  · intro i hi
    have h0 : ¬ |-(g i)| < zero := by simpa using (List.mem_filter.1 hi).2
    unfold linearDirection
    rw [if_neg h0]
    intro h1
    rw [h1, abs_zero] at h0
    exact h0 hzero
  · intro i hi
    unfold linearDirection at hi ⊢
    split
    · rename_i h0
      rw [if_pos h0] at hi
      exact absurd rfl hi
    · rename_i h0
      exact not_lt.1 h0

omit [IsStrictOrderedRing K] in
theorem card_leftDirections_le (d : Vec K n) : (leftDirections d).card ≤ n := by
  simpa using Finset.card_le_univ (leftDirections d)

end Tranquilo
