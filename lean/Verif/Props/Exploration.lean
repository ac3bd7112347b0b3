import Verif.Spec.Exploration
import Verif.Props.Fallback
import Mathlib.Tactic.LinearCombination
import Mathlib.Tactic.FieldSimp
import Mathlib.Analysis.SpecialFunctions.Pow.Real

/-!
# C99: exploration samples
-/

namespace Tranquilo

variable {K : Type} [Field K] [LinearOrder K] [IsStrictOrderedRing K] {n : Nat}

/-- The seeds that can be used: none, a generator, or a nonnegative integer. -/
def UsableSeed (seed : SeedArg) : Prop :=
  seed = .none ∨ (∃ id, seed = .generator id) ∨ ∃ i : Int, 0 ≤ i ∧ seed = .int i

/-- C99, seeds: a generator is used as it is, a nonnegative integer is the seed of a new generator, without seed the
generator is new; negative integers are refused with a `ValueError`, everything else with a `TypeError`. -/
theorem C99_get_rng :
    (∀ id, getRng (.generator id) = .ok (.given id)) ∧
    (∀ i : Int, 0 ≤ i → getRng (.int i) = .ok (.fresh (some i))) ∧
    getRng .none = .ok (.fresh none) ∧
    (∀ i : Int, i < 0 → getRng (.int i) = .error .valueError) ∧
    getRng .other = .error .typeError :=
  ⟨fun _ => rfl, fun i hi => by rw [getRng, if_neg (not_lt.2 hi)], rfl, fun i hi => by rw [getRng, if_pos hi], rfl⟩

theorem getRng_ok_iff (seed : SeedArg) : (∃ s, getRng seed = .ok s) ↔ UsableSeed seed := by
  obtain ⟨h1, h2, h3, h4, h5⟩ := C99_get_rng
  cases seed with
  | none => exact ⟨fun _ => .inl rfl, fun _ => ⟨_, h3⟩⟩
  | generator id => exact ⟨fun _ => .inr (.inl ⟨id, rfl⟩), fun _ => ⟨_, h1 id⟩⟩
  | int i =>
    rcases lt_or_ge i 0 with hi | hi
    · refine ⟨fun ⟨s, hs⟩ => ?_, ?_⟩
      · rw [h4 i hi] at hs; cases hs
      · rintro (h | ⟨_, h⟩ | ⟨j, hj, h⟩)
        · cases h
        · cases h
        · cases h; omega
    · exact ⟨fun _ => .inr (.inr ⟨i, hi, rfl⟩), fun _ => ⟨_, h2 i hi⟩⟩
  | other =>
    refine ⟨fun ⟨s, hs⟩ => ?_, ?_⟩
    · rw [h5] at hs; cases hs
    · rintro (h | ⟨_, h⟩ | ⟨j, _, h⟩) <;> cases h

/-- The arguments that pass the checks of names, bounds and seed. -/
structure Admissible (lower upper : Fin n → XVal K) (distribution method : String) (seed : SeedArg) : Prop where
  knownMethod : method = "sobol" ∨ method = "halton" ∨ method = "latin_hypercube" ∨ method = "random"
  knownDistribution : distribution = "uniform" ∨ distribution = "triangular"
  finiteLower : ∀ i, ∃ a, lower i = .fin a
  finiteUpper : ∀ i, ∃ a, upper i = .fin a
  usableSeed : method = "random" → UsableSeed seed

omit [Field K] [LinearOrder K] [IsStrictOrderedRing K] in
theorem isFinite_iff (v : XVal K) : v.isFinite = true ↔ ∃ a, v = .fin a := by
  cases v <;> simp [XVal.isFinite]

omit [IsStrictOrderedRing K] in
theorem explorationSample_of_admissible (root : K → K) (draws : String → Nat → List (Vec K n)) (x : Vec K n)
    {lower upper : Fin n → XVal K} (nSamples : Nat) {distribution method : String} {seed : SeedArg}
    (ha : Admissible lower upper distribution method seed) :
    explorationSample root draws x lower upper nSamples distribution method seed
      = scaleDraws root x (fun i => finiteValue (lower i)) (fun i => finiteValue (upper i)) distribution
          (draws method nSamples) := by
  have h1 : ¬ method ∉ ["sobol", "halton", "latin_hypercube", "random"] := by
    refine not_not.2 ?_
    simpa using ha.knownMethod
  have h2 : ¬ distribution ∉ ["uniform", "triangular"] := by
    refine not_not.2 ?_
    simpa using ha.knownDistribution
  have h3 : ¬ ¬ ∀ i, (lower i).isFinite = true := not_not.2 fun i => (isFinite_iff _).2 (ha.finiteLower i)
  have h4 : ¬ ¬ ∀ i, (upper i).isFinite = true := not_not.2 fun i => (isFinite_iff _).2 (ha.finiteUpper i)
  have h5 : seedCheck method seed = .ok () := by
    unfold seedCheck
    split
    · rename_i h
      obtain ⟨s, hs⟩ := (getRng_ok_iff seed).2 (ha.usableSeed h)
      rw [hs]; rfl
    · rfl
  rw [explorationSample, if_neg h1, if_neg h2, if_neg h3, if_neg h4, h5]
  rfl

omit [IsStrictOrderedRing K] in
/-- C99, refusals: an unknown method, an unknown distribution, a bound that is infinite or NaN, or a seed of the
wrong type or sign for the method "random" is refused with an exception. -/
theorem C99_refuses (root : K → K) (draws : String → Nat → List (Vec K n)) (x : Vec K n)
    (lower upper : Fin n → XVal K) (nSamples : Nat) (distribution method : String) (seed : SeedArg)
    (ha : ¬ Admissible lower upper distribution method seed) :
    ∃ e, explorationSample root draws x lower upper nSamples distribution method seed = .error e := by
  unfold explorationSample
  split
  · exact ⟨_, rfl⟩
  rename_i h1
  split
  · exact ⟨_, rfl⟩
  rename_i h2
  split
  · exact ⟨_, rfl⟩
  rename_i h3
  split
  · exact ⟨_, rfl⟩
  rename_i h4
  cases hs : seedCheck method seed with
  | error e => exact ⟨e, rfl⟩
  | ok _ =>
    refine absurd ⟨by simpa using not_not.1 h1, by simpa using not_not.1 h2, fun i => (isFinite_iff _).1 (not_not.1 h3 i),
      fun i => (isFinite_iff _).1 (not_not.1 h4 i), fun hm => ?_⟩ ha
    unfold seedCheck at hs
    rw [if_pos hm] at hs
    cases hg : getRng seed with
    | error e => rw [hg] at hs; cases hs
    | ok s => exact (getRng_ok_iff seed).1 ⟨s, hg⟩

omit [IsStrictOrderedRing K] in
/-- C99, refusals of names and bounds are `ValueError`s. -/
theorem C99_value_error (root : K → K) (draws : String → Nat → List (Vec K n)) (x : Vec K n)
    (lower upper : Fin n → XVal K) (nSamples : Nat) (distribution method : String) (seed : SeedArg)
    (h : (method ≠ "sobol" ∧ method ≠ "halton" ∧ method ≠ "latin_hypercube" ∧ method ≠ "random") ∨
      (distribution ≠ "uniform" ∧ distribution ≠ "triangular") ∨
      (∃ i, ∀ a, lower i ≠ .fin a) ∨ ∃ i, ∀ a, upper i ≠ .fin a) :
    explorationSample root draws x lower upper nSamples distribution method seed = .error .valueError := by
  unfold explorationSample
  split
  · rfl
  rename_i h1
  split
  · rfl
  rename_i h2
  split
  · rfl
  rename_i h3
  split
  · rfl
  rename_i h4
  exfalso
  rcases h with h | h | ⟨i, h⟩ | ⟨i, h⟩
  · exact h1 (by simpa using h)
  · exact h2 (by simpa using h)
  · obtain ⟨a, ha⟩ := (isFinite_iff _).1 (not_not.1 h3 i)
    exact h a ha
  · obtain ⟨a, ha⟩ := (isFinite_iff _).1 (not_not.1 h4 i)
    exact h a ha

/-- The rows belong to the draws, one to one. -/
def RowsFrom (rows : List (Fin n → Option K)) (sample : List (Vec K n))
    (P : Vec K n → Vec K n → Prop) : Prop :=
  List.Forall₂ (fun row s => ∃ v, RowIs row v ∧ P s v) rows sample

omit [Field K] [LinearOrder K] [IsStrictOrderedRing K] in
theorem rowsFrom_map {sample : List (Vec K n)} (f : Vec K n → Fin n → Option K)
    {P : Vec K n → Vec K n → Prop} (h : ∀ s ∈ sample, ∃ v, RowIs (f s) v ∧ P s v) :
    RowsFrom (sample.map f) sample P := by
  unfold RowsFrom
  induction sample with
  | nil => exact .nil
  | cons s rest ih =>
    exact .cons (h s (by simp)) (ih fun t ht => h t (by simp [ht]))

omit [IsStrictOrderedRing K] in
theorem scaleDraws_uniform (root : K → K) (x l u : Vec K n) (sample : List (Vec K n)) :
    scaleDraws root x l u "uniform" sample
      = (qmcScale l u sample).map fun r => r.map fun s i => some (s i) := by
  rw [scaleDraws, if_pos rfl]

/-- C99, uniform: for strictly ordered finite bounds and at least one point and one parameter the sample exists, has
one row for each draw, and the position of each entry between its bounds is the drawn number; hence all rows
are within the bounds. -/
theorem C99_uniform (root : K → K) {draws : String → Nat → List (Vec K n)} (hd : UnitDraws draws) (x : Vec K n)
    (l u : Vec K n) (hlu : ∀ i, l i < u i) (nSamples : Nat) (hs : 0 < nSamples) (hn : 0 < n)
    {method : String} {seed : SeedArg}
    (ha : Admissible (fun i => .fin (l i)) (fun i => .fin (u i)) "uniform" method seed) :
    ∃ rows, explorationSample root draws x (fun i => .fin (l i)) (fun i => .fin (u i)) nSamples "uniform" method
        seed = .ok rows ∧ rows.length = nSamples ∧
      RowsFrom rows (draws method nSamples) fun s v =>
        ∀ i, l i ≤ v i ∧ v i < u i ∧ (v i - l i) / (u i - l i) = s i := by
  obtain ⟨hlen, hunit⟩ := hd method nSamples
  have h1 : ¬ (draws method nSamples = [] ∨ n = 0) := by
    rintro (h | h)
    · rw [h] at hlen; simp at hlen; omega
    · omega
  have h2 : ¬ ¬ ∀ s ∈ draws method nSamples, ∀ i, 0 ≤ s i ∧ s i ≤ 1 :=
    not_not.2 fun s hs i => ⟨(hunit s hs i).1, (hunit s hs i).2.le⟩
  have h3 : ¬ ¬ ∀ i, l i < u i := not_not.2 hlu
  refine ⟨(draws method nSamples).map fun s i => some (s i * (u i - l i) + l i), ?_, by simp [hlen], ?_⟩
  · rw [explorationSample_of_admissible root draws x nSamples ha]
    rw [scaleDraws_uniform]
    change (qmcScale l u (draws method nSamples)).map _ = _
    rw [qmcScale, if_neg h1, if_neg h2, if_neg h3]
    simp only [Except.map, List.map_map]
    rfl
  · refine rowsFrom_map _ fun s hs => ⟨fun i => s i * (u i - l i) + l i, fun i => rfl, fun i => ?_⟩
    obtain ⟨h0, h1⟩ := hunit s hs i
    have hpos : 0 < u i - l i := sub_pos.2 (hlu i)
    refine ⟨?_, ?_, ?_⟩
    · have := mul_nonneg h0 hpos.le
      linarith
    · have := mul_lt_mul_of_pos_right h1 hpos
      linarith
    · field_simp
      ring

/-- C99, uniform: equal or reversed bounds, no points or no parameters are refused. -/
theorem C99_uniform_refuses (root : K → K) (draws : String → Nat → List (Vec K n)) (hd : UnitDraws draws)
    (x : Vec K n) (l u : Vec K n) (nSamples : Nat) (method : String) (seed : SeedArg)
    (h : (∃ i, u i ≤ l i) ∨ nSamples = 0 ∨ n = 0) :
    ∃ e, explorationSample root draws x (fun i => .fin (l i)) (fun i => .fin (u i)) nSamples "uniform" method seed
      = .error e := by
  by_cases ha : Admissible (fun i => .fin (l i)) (fun i => XVal.fin (u i)) "uniform" method seed
  · rw [explorationSample_of_admissible root draws x nSamples ha]
    rw [scaleDraws_uniform]
    change ∃ e, (qmcScale l u (draws method nSamples)).map _ = _
    rw [qmcScale]
    split
    · exact ⟨_, rfl⟩
    rename_i h1
    split
    · exact ⟨_, rfl⟩
    split
    · exact ⟨_, rfl⟩
    rename_i h3
    exfalso
    rcases h with ⟨i, h⟩ | h | h
    · exact absurd (not_not.1 h3 i) (not_lt.2 h)
    · refine h1 (.inl (List.length_eq_zero_iff.1 ?_))
      rw [(hd method nSamples).1, h]
    · exact h1 (.inr h)
  · exact C99_refuses root draws x _ _ nSamples _ method seed ha

/-- C99: points of the Sobol sequence are in the interior of the box. -/
theorem C99_sobol_interior (root : K → K) {draws : String → Nat → List (Vec K n)} (hd : UnitDraws draws)
    (hp : SobolPositive draws) (x : Vec K n) (l u : Vec K n) (hlu : ∀ i, l i < u i) (nSamples : Nat)
    (hs : 0 < nSamples) (hn : 0 < n) (seed : SeedArg) :
    ∃ rows, explorationSample root draws x (fun i => .fin (l i)) (fun i => .fin (u i)) nSamples "uniform" "sobol"
        seed = .ok rows ∧ rows.length = nSamples ∧
      ∀ row ∈ rows, ∃ v, RowIs row v ∧ ∀ i, l i < v i ∧ v i < u i := by
  obtain ⟨rows, h1, h2, h3⟩ := C99_uniform root hd x l u hlu nSamples hs hn
    (method := "sobol") (seed := seed) ⟨by simp, by simp, fun i => ⟨_, rfl⟩, fun i => ⟨_, rfl⟩, by simp⟩
  refine ⟨rows, h1, h2, fun row hrow => ?_⟩
  obtain ⟨s, hs, v, hv, hP⟩ : ∃ s ∈ draws "sobol" nSamples, ∃ v, RowIs row v ∧
      ∀ i, l i ≤ v i ∧ v i < u i ∧ (v i - l i) / (u i - l i) = s i := by
    clear h1 h2
    unfold RowsFrom at h3
    generalize draws "sobol" nSamples = sample at h3
    induction h3 with
    | nil => simp at hrow
    | cons h _ ih =>
      rcases List.mem_cons.1 hrow with rfl | hr
      · exact ⟨_, by simp, h⟩
      · obtain ⟨s, hs, h⟩ := ih hr
        exact ⟨s, by simp [hs], h⟩
  refine ⟨v, hv, fun i => ⟨lt_of_le_of_ne (hP i).1 fun h => ?_, (hP i).2.1⟩⟩
  have := (hP i).2.2
  rw [← h, sub_self, zero_div] at this
  exact absurd this (hp nSamples s hs i).ne

theorem triangPpf_spec {root : K → K} (hroot : SqrtSpec root) {l m u q : K} (hl : l ≤ m) (hu : m ≤ u) (hlu : l < u)
    (hq : 0 ≤ q) (hq1 : q < 1) :
    ∃ v, triangPpf root q ((m - l) / (u - l)) l (u - l) = some v ∧ l ≤ v ∧ v < u ∧ triCdf l m u v = q := by
  have hd : 0 < u - l := sub_pos.2 hlu
  set d := u - l with hdd
  set c := (m - l) / d with hc
  have hc0 : 0 ≤ c := div_nonneg (by linarith) hd.le
  have hc1 : c ≤ 1 := (div_le_one hd).2 (by linarith)
  have hm : m = c * d + l := by rw [hc]; field_simp; ring
  have hu' : u = d + l := by rw [hdd]; ring
  have hcond : 0 ≤ c ∧ c ≤ 1 ∧ 0 < d ∧ 0 ≤ q ∧ q ≤ 1 := ⟨hc0, hc1, hd, hq, hq1.le⟩
  rw [triangPpf, if_pos hcond]
  by_cases h0 : q = 0
  · rw [if_pos h0]
    refine ⟨l, rfl, le_rfl, hlu, ?_⟩
    unfold triCdf
    split
    · simp [h0]
    · rename_i h
      have : m = l := le_antisymm (not_lt.1 h) hl
      rw [this, h0, ← hdd, pow_two, div_self (mul_pos hd hd).ne', sub_self]
  rw [if_neg h0, if_neg hq1.ne]
  have hqpos : 0 < q := lt_of_le_of_ne hq (Ne.symm h0)
  by_cases hqc : q < c
  · rw [if_pos hqc]
    have hcpos : 0 < c := hqpos.trans hqc
    obtain ⟨r0, r1⟩ := hroot (c * q) (mul_nonneg hc0 hq)
    set w := root (c * q)
    have hwc : w < c := by
      by_contra hcon
      push Not at hcon
      nlinarith [mul_le_mul hcon hcon hc0 r0, mul_lt_mul_of_pos_left hqc hcpos]
    refine ⟨w * d + l, rfl, by nlinarith, by nlinarith, ?_⟩
    have hlt : w * d + l < m := by rw [hm]; nlinarith
    rw [triCdf, if_pos hlt, ← hdd]
    have hml : m - l = c * d := by rw [hm]; ring
    rw [hml, div_eq_iff (by positivity)]
    linear_combination d ^ 2 * r1
  · rw [if_neg hqc]
    push Not at hqc
    have hc1' : c < 1 := lt_of_le_of_lt hqc hq1
    have hnn : 0 ≤ (1 - c) * (1 - q) := mul_nonneg (by linarith) (by linarith)
    obtain ⟨r0, r1⟩ := hroot ((1 - c) * (1 - q)) hnn
    set w := root ((1 - c) * (1 - q))
    have hw : w ≤ 1 - c := by
      by_contra hcon
      push Not at hcon
      nlinarith [mul_lt_mul hcon hcon.le (by linarith) r0]
    have hwpos : 0 < w := by
      rcases r0.lt_or_eq with h | h
      · exact h
      · rw [← h] at r1
        have : 0 < (1 - c) * (1 - q) := mul_pos (by linarith) (by linarith)
        linarith
    refine ⟨(1 - w) * d + l, rfl, ?_, ?_, ?_⟩
    · nlinarith
    · nlinarith
    · have hge : ¬ (1 - w) * d + l < m := by rw [hm]; nlinarith
      rw [triCdf, if_neg hge, ← hdd]
      have h1 : u - ((1 - w) * d + l) = w * d := by rw [hu']; ring
      have h2 : u - m = (1 - c) * d := by rw [hu', hm]; ring
      have hp : 0 < 1 - c := by linarith
      have h3 : (w * d) ^ 2 / (d * ((1 - c) * d)) = 1 - q := by
        rw [div_eq_iff (by positivity)]
        linear_combination d ^ 2 * r1
      rw [h1, h2, h3]
      ring

/-- C99, triangular, where it is true: if the bounds are strictly ordered and the vector `x` is within the bounds, the
sample has one row for each draw, all rows are within the bounds, and the probability of smaller values under the
triangular distribution with mode `x` is the drawn number. Missing: equal bounds and `x` outside of the bounds, where
the rows have NaN entries (`C99_violated_fixed_parameter`, `C99_violated_outside`). -/
theorem C99_triangular_partial {root : K → K} (hroot : SqrtSpec root) {draws : String → Nat → List (Vec K n)}
    (hd : UnitDraws draws) (x : Vec K n) (l u : Vec K n) (hlu : ∀ i, l i < u i)
    (hx : ∀ i, l i ≤ x i ∧ x i ≤ u i) (nSamples : Nat) {method : String} {seed : SeedArg}
    (ha : Admissible (fun i => .fin (l i)) (fun i => .fin (u i)) "triangular" method seed) :
    ∃ rows, explorationSample root draws x (fun i => .fin (l i)) (fun i => .fin (u i)) nSamples "triangular" method
        seed = .ok rows ∧ rows.length = nSamples ∧
      RowsFrom rows (draws method nSamples) fun s v =>
        ∀ i, l i ≤ v i ∧ v i < u i ∧ triCdf (l i) (x i) (u i) (v i) = s i := by
  obtain ⟨hlen, hunit⟩ := hd method nSamples
  refine ⟨(draws method nSamples).map fun s i =>
      triangPpf root (s i) ((x i - l i) / (u i - l i)) (l i) (u i - l i), ?_, by simp [hlen], ?_⟩
  · rw [explorationSample_of_admissible root draws x nSamples ha]
    rfl
  · refine rowsFrom_map _ fun s hs => ?_
    choose v hv h1 h2 h3 using fun i =>
      triangPpf_spec hroot (hx i).1 (hx i).2 (hlu i) (hunit s hs i).1 (hunit s hs i).2
    exact ⟨v, hv, fun i => ⟨h1 i, h2 i, h3 i⟩⟩

omit [IsStrictOrderedRing K] in
theorem triangular_row (root : K → K) (draws : String → Nat → List (Vec K n)) (x l u : Vec K n)
    (nSamples : Nat) (method : String) (seed : SeedArg)
    (ha : Admissible (fun i => .fin (l i)) (fun i => .fin (u i)) "triangular" method seed)
    (i : Fin n) (h : ∀ q, triangPpf root q ((x i - l i) / (u i - l i)) (l i) (u i - l i) = none) :
    ∃ rows, explorationSample root draws x (fun i => .fin (l i)) (fun i => .fin (u i)) nSamples "triangular" method
        seed = .ok rows ∧ ∀ row ∈ rows, row i = none := by
  refine ⟨_, (explorationSample_of_admissible root draws x nSamples ha).trans rfl, fun row hrow => ?_⟩
  obtain ⟨s, -, rfl⟩ := List.mem_map.1 hrow
  exact h _

omit [IsStrictOrderedRing K] in
/-- C99 is false for fixed parameters and the triangular distribution: if the two bounds of a parameter are equal, no
exception is raised and every row of the sample has a NaN entry. -/
theorem C99_violated_fixed_parameter (root : K → K) (draws : String → Nat → List (Vec K n)) (x l u : Vec K n)
    (nSamples : Nat) (method : String) (seed : SeedArg)
    (ha : Admissible (fun i => .fin (l i)) (fun i => .fin (u i)) "triangular" method seed)
    (i : Fin n) (h : u i = l i) :
    ∃ rows, explorationSample root draws x (fun i => .fin (l i)) (fun i => .fin (u i)) nSamples "triangular" method
        seed = .ok rows ∧ ∀ row ∈ rows, row i = none := by
  refine triangular_row root draws x l u nSamples method seed ha i fun q => ?_
  rw [triangPpf, if_neg]
  rintro ⟨-, -, h', -⟩
  rw [h, sub_self] at h'
  exact lt_irrefl _ h'

/-- C99 is false for the triangular distribution if the vector is outside of the bounds. -/
theorem C99_violated_outside (root : K → K) (draws : String → Nat → List (Vec K n)) (x l u : Vec K n)
    (nSamples : Nat) (method : String) (seed : SeedArg)
    (ha : Admissible (fun i => .fin (l i)) (fun i => .fin (u i)) "triangular" method seed)
    (i : Fin n) (h : x i < l i ∨ u i < x i) :
    ∃ rows, explorationSample root draws x (fun i => .fin (l i)) (fun i => .fin (u i)) nSamples "triangular" method
        seed = .ok rows ∧ ∀ row ∈ rows, row i = none := by
  refine triangular_row root draws x l u nSamples method seed ha i fun q => ?_
  rw [triangPpf, if_neg]
  rintro ⟨h0, h1, hd, -⟩
  rcases h with h | h
  · have := div_neg_of_neg_of_pos (sub_neg.2 h) hd
    linarith
  · rw [div_le_one hd] at h1
    linarith

/-- C99 and C52: the multistart solver draws 100 start values in the interior of the cube, and returns a result
of one of the runs with the smallest value of all runs, in the unit cube. -/
theorem C99_multistart (root : K → K) {draws : String → Nat → List (Vec K n)} (hd : UnitDraws draws)
    (hp : SobolPositive draws) (scipy : ScipyMinimize K n) (hscipy : ScipySpec scipy) (hn : 0 < n)
    (model : ScalarModel K n) (h : Mat K n n) (hm : model.squareTerms = some h) (x : Vec K n) :
    ∃ (starts : List (Vec K n)) (y : Vec K n) (value : K),
      starts.length = 100 ∧ (∀ s ∈ starts, ∀ i, -1 < s i ∧ s i < 1) ∧
      multistartSolver root draws scipy model x = .ok (some (y, value)) ∧
      (∃ x0 ∈ starts, ∃ res, robustCube scipy 1 model x0 = .ok res ∧ res.x = y) ∧
      (∀ x0 ∈ starts, ∀ res, robustCube scipy 1 model x0 = .ok res → model.predict y ≤ model.predict res.x) ∧
      value = model.predict y ∧ ∀ i, -1 ≤ y i ∧ y i ≤ 1 := by
  obtain ⟨rows, h1, h2, h3⟩ := C99_sobol_interior root hd hp x (fun _ => -1) (fun _ => 1)
    (fun _ => by linarith) 100 (by norm_num) hn (.int 1234)
  have hstarts : ∃ starts : List (Vec K n), rows.filterMap fullRow = starts ∧ starts.length = rows.length ∧
      ∀ s ∈ starts, ∀ i, -1 < s i ∧ s i < 1 := by
    clear h1 h2
    induction rows with
    | nil => exact ⟨[], rfl, rfl, by simp⟩
    | cons row rest ih =>
      obtain ⟨starts, e1, e2, e3⟩ := ih fun r hr => h3 r (by simp [hr])
      obtain ⟨v, hv, hb⟩ := h3 row (by simp)
      have hfull : fullRow row = some v := by
        have : ∀ i, (row i).isSome = true := fun i => by rw [hv i]; rfl
        rw [fullRow, if_pos this]
        congr 1
        funext i
        rw [hv i]; rfl
      refine ⟨v :: starts, by rw [List.filterMap_cons_some hfull, e1], by simp [e2], fun s hs => ?_⟩
      rcases List.mem_cons.1 hs with rfl | hs
      · exact hb
      · exact e3 s hs
  obtain ⟨starts, e1, e2, e3⟩ := hstarts
  have hne : starts ≠ [] := by
    intro e
    rw [e, h2] at e2
    simp at e2
  obtain ⟨y, value, hms, r1, r2, r3, r4⟩ := C52_multistart scipy hscipy starts hne model h hm
  refine ⟨starts, y, value, by rw [e2, h2], e3, ?_, r1, r2, r3, r4⟩
  rw [multistartSolver, h1]
  change multistart scipy (rows.filterMap fullRow) model = _
  rw [e1, hms]

/-! ## The hypotheses can be satisfied -/

/-- Draws in the middle of the cube. -/
example : UnitDraws (fun _ k => List.replicate k (fun _ : Fin 2 => (1 / 2 : ℚ))) ∧
    SobolPositive (fun _ k => List.replicate k (fun _ : Fin 2 => (1 / 2 : ℚ))) := by
  refine ⟨fun _ k => ⟨by simp, fun s hs i => ?_⟩, fun k s hs i => ?_⟩
  · rw [List.eq_of_mem_replicate hs]; norm_num
  · rw [List.eq_of_mem_replicate hs]; norm_num

/-- A sample from the box `[0, 4] × [-1, 1]`. -/
example : (explorationSample (fun _ => 0) (fun _ k => List.replicate k (fun _ : Fin 2 => (1 / 4 : ℚ))) ![1, 0]
      ![.fin 0, .fin (-1)] ![.fin 4, .fin 1] 2 "uniform" "halton" .none).toOption.map
        (fun rows => rows.map fun r => (r 0, r 1))
    = some [(some 1, some (-1 / 2)), (some 1, some (-1 / 2))] := by
  decide +kernel

/-- A quantile of the triangular distribution on `[0, 1]` with mode 1. -/
example : triangPpf Real.sqrt (1 / 4) 1 0 1 = some (1 / 2) := by
  have : Real.sqrt (1 * (1 / 4)) = 1 / 2 := by
    rw [show (1 * (1 / 4) : ℝ) = (1 / 2) ^ 2 by norm_num]
    exact Real.sqrt_sq (by norm_num)
  rw [triangPpf, if_pos (by norm_num), if_neg (by norm_num), if_neg (by norm_num), if_pos (by norm_num), this]
  norm_num

end Tranquilo
