import Verif.Model.Infinity
import Mathlib.Data.Rat.Floor
import Mathlib.Tactic.NormNum
import Mathlib.Tactic.Positivity

/-!
# C38: infinite values are replaced by bad but finite values
-/

namespace Tranquilo

variable {K : Type} [Field K] [LinearOrder K] [IsStrictOrderedRing K]

omit [Field K] [IsStrictOrderedRing K] in
theorem foldMin_spec (l : List K) (b : K) :
    l.foldl min b ≤ b ∧ (∀ a ∈ l, l.foldl min b ≤ a) ∧ (l.foldl min b = b ∨ l.foldl min b ∈ l) := by
  induction l generalizing b with
  | nil => simp
  | cons a l ih =>
    obtain ⟨h1, h2, h3⟩ := ih (min b a)
    simp only [List.foldl_cons, List.mem_cons, forall_eq_or_imp]
    refine ⟨h1.trans (min_le_left _ _), ⟨h1.trans (min_le_right _ _), h2⟩, ?_⟩
    rcases h3 with h3 | h3
    · rcases min_choice b a with h | h
      · left; rw [h3, h]
      · right; left; rw [h3, h]
    · right; right; exact h3

omit [Field K] [IsStrictOrderedRing K] in
theorem foldMax_spec (l : List K) (b : K) :
    b ≤ l.foldl max b ∧ (∀ a ∈ l, a ≤ l.foldl max b) ∧ (l.foldl max b = b ∨ l.foldl max b ∈ l) := by
  induction l generalizing b with
  | nil => simp
  | cons a l ih =>
    obtain ⟨h1, h2, h3⟩ := ih (max b a)
    simp only [List.foldl_cons, List.mem_cons, forall_eq_or_imp]
    refine ⟨(le_max_left _ _).trans h1, ⟨(le_max_right _ _).trans h1, h2⟩, ?_⟩
    rcases h3 with h3 | h3
    · rcases max_choice b a with h | h
      · left; rw [h3, h]
      · right; left; rw [h3, h]
    · right; right; exact h3

omit [Field K] [LinearOrder K] [IsStrictOrderedRing K] in
theorem mem_finitePart (col : List (XVal K)) (a : K) : a ∈ finitePart col ↔ XVal.fin a ∈ col := by
  unfold finitePart
  rw [List.mem_filterMap]
  constructor
  · rintro ⟨v, hv, h⟩
    cases v <;> simp at h
    subst h; exact hv
  · intro h; exact ⟨_, h, rfl⟩

/-- All finite entries are within the range that the initial values of the masked minimum and maximum
allow. -/
def Representable (col : List (XVal K)) : Prop := ∀ a, XVal.fin a ∈ col → |a| ≤ 10 ^ 300

/-- Minimum and maximum of the finite entries. -/
theorem masked_spec (col : List (XVal K)) (hr : Representable col) (a : K) (ha : XVal.fin a ∈ col) :
    (∀ b, XVal.fin b ∈ col → maskedMin col ≤ b ∧ b ≤ maskedMax col) ∧
    XVal.fin (maskedMin col) ∈ col ∧ XVal.fin (maskedMax col) ∈ col := by
  obtain ⟨h1, h2, h3⟩ := foldMin_spec (finitePart col) (10 ^ 300)
  obtain ⟨g1, g2, g3⟩ := foldMax_spec (finitePart col) (-(10 ^ 300))
  have ha' := (mem_finitePart col a).2 ha
  have hab := abs_le.1 (hr a ha)
  refine ⟨fun b hb => ⟨h2 b ((mem_finitePart col b).2 hb), g2 b ((mem_finitePart col b).2 hb)⟩, ?_, ?_⟩
  · rw [← mem_finitePart]
    rcases h3 with h | h
    · have : a = 10 ^ 300 := le_antisymm hab.2 (h ▸ h2 a ha')
      rw [show maskedMin col = a from h.trans this.symm]; exact ha'
    · exact h
  · rw [← mem_finitePart]
    rcases g3 with h | h
    · have : a = -(10 ^ 300) := le_antisymm (h ▸ g2 a ha') hab.1
      rw [show maskedMax col = a from h.trans this.symm]; exact ha'
    · exact h

omit [IsStrictOrderedRing K] in
/-- C38, first part: the column keeps its length and finite entries are unchanged. All results are
finite numbers because the result is a list over `K`. -/
theorem C38_finite_entries_unchanged (col : List (XVal K)) :
    (clipRelative col).length = col.length ∧
    ∀ (i : Nat) (a : K), col[i]? = some (.fin a) → (clipRelative col)[i]? = some a := by
  refine ⟨by simp [clipRelative], fun i a h => ?_⟩
  simp [clipRelative, h, replaceInfinite]

/-- C38, second part: in a column with at least two different finite entries `+inf` and NaN become
larger than every finite entry and `-inf` smaller. What is missing: columns whose finite entries are
all equal, where this is false, see `C38_violated_for_equal_values`. -/
theorem C38_infinite_entries_partial (col : List (XVal K)) (hr : Representable col) (a b : K)
    (ha : XVal.fin a ∈ col) (hb : XVal.fin b ∈ col) (hab : a < b) (i : Nat) (c : K)
    (hc : XVal.fin c ∈ col) :
    (col[i]? = some .pinf ∨ col[i]? = some .nan → ∃ v, (clipRelative col)[i]? = some v ∧ c < v) ∧
    (col[i]? = some .ninf → ∃ v, (clipRelative col)[i]? = some v ∧ v < c) := by
  obtain ⟨h1, -, -⟩ := masked_spec col hr a ha
  have hdiff : 0 < maskedMax col - maskedMin col := by
    have := (h1 a ha).1
    have := (h1 b hb).2
    linarith
  have hcb := h1 c hc
  have hpos : c < posPenalty col := by
    simp only [posPenalty, npSign, hdiff, if_true, mul_one]
    linarith
  have hneg : negPenalty col < c := by
    simp only [negPenalty, npSign, hdiff, if_true, mul_one]
    linarith
  refine ⟨?_, ?_⟩
  · rintro (h | h) <;> exact ⟨posPenalty col, by simp [clipRelative, h, replaceInfinite], hpos⟩
  · intro h; exact ⟨negPenalty col, by simp [clipRelative, h, replaceInfinite], hneg⟩

/-- C38: the results do not overflow: they are far below the largest double (about 1.79e308). -/
theorem C38_no_overflow (col : List (XVal K)) (hr : Representable col) (v : K)
    (hv : v ∈ clipRelative col) : |v| ≤ 5 * 10 ^ 300 + 1 := by
  have hB : (0 : K) < 10 ^ 300 := by positivity
  have hmin : -(10 ^ 300) ≤ maskedMin col ∧ maskedMin col ≤ 10 ^ 300 := by
    obtain ⟨h1, -, h3⟩ := foldMin_spec (finitePart col) (10 ^ 300)
    refine ⟨?_, h1⟩
    rcases h3 with h | h
    · rw [show maskedMin col = _ from h]; exact neg_le_self hB.le
    · exact (abs_le.1 (hr _ ((mem_finitePart _ _).1 h))).1
  have hmax : -(10 ^ 300) ≤ maskedMax col ∧ maskedMax col ≤ 10 ^ 300 := by
    obtain ⟨h1, -, h3⟩ := foldMax_spec (finitePart col) (-(10 ^ 300))
    refine ⟨h1, ?_⟩
    rcases h3 with h | h
    · rw [show maskedMax col = _ from h]; exact neg_le_self hB.le
    · exact (abs_le.1 (hr _ ((mem_finitePart _ _).1 h))).2
  unfold Representable at hr
  generalize (10 : K) ^ 300 = B at *
  have hp : |posPenalty col| ≤ 5 * B + 1 := by
    simp only [posPenalty, npSign]
    rw [abs_le]
    split
    · constructor <;> linarith [hmin.1, hmin.2, hmax.1, hmax.2]
    · split
      · constructor <;> linarith [hmin.1, hmin.2, hmax.1, hmax.2]
      · constructor <;> linarith [hmin.1, hmin.2, hmax.1, hmax.2]
  have hn : |negPenalty col| ≤ 5 * B + 1 := by
    simp only [negPenalty, npSign]
    rw [abs_le]
    split
    · constructor <;> linarith [hmin.1, hmin.2, hmax.1, hmax.2]
    · split
      · constructor <;> linarith [hmin.1, hmin.2, hmax.1, hmax.2]
      · constructor <;> linarith [hmin.1, hmin.2, hmax.1, hmax.2]
  unfold clipRelative at hv
  rw [List.mem_map] at hv
  obtain ⟨x, hx, rfl⟩ := hv
  cases x with
  | fin a => simp only [replaceInfinite]; linarith [hr a hx]
  | pinf => exact hp
  | ninf => exact hn
  | nan => exact hp

/-- C38 is false if all finite entries of a column are equal: `+inf` and NaN are then replaced by 1 and
`-inf` by -1, whatever the finite value is. If that value is 1 or more, failed evaluations look at
least as good as it. -/
theorem C38_violated_for_equal_values (col : List (XVal K)) (hr : Representable col) (a : K)
    (ha : XVal.fin a ∈ col) (heq : ∀ b, XVal.fin b ∈ col → b = a) (i : Nat) :
    (col[i]? = some .pinf ∨ col[i]? = some .nan → (clipRelative col)[i]? = some 1) ∧
    (col[i]? = some .ninf → (clipRelative col)[i]? = some (-1)) := by
  obtain ⟨-, h2, h3⟩ := masked_spec col hr a ha
  have e1 := heq _ h2
  have e2 := heq _ h3
  have hp : posPenalty col = 1 := by simp [posPenalty, npSign, e1, e2]
  have hn : negPenalty col = -1 := by simp [negPenalty, npSign, e1, e2]
  refine ⟨?_, ?_⟩
  · rintro (h | h) <;> simp [clipRelative, h, replaceInfinite, hp]
  · intro h; simp [clipRelative, h, replaceInfinite, hn]

/-- C38, the concrete witness: one finite value 100 and one failed evaluation. -/
theorem C38_violated_witness :
    clipRelative [XVal.fin (100 : ℚ), .pinf] = [100, 1] := by
  decide +kernel

/-- C38 is not vacuous: different finite values. -/
example : clipRelative [XVal.fin (2 : ℚ), .pinf, .fin 5, .ninf, .nan] = [2, 12, 5, -5, 12] := by
  decide +kernel

/-- A column without finite entries. -/
example : clipRelative [XVal.pinf, (.ninf : XVal ℚ)] = [5 * 10 ^ 300 + 1, -(5 * 10 ^ 300 + 1)] := by
  decide +kernel

end Tranquilo
