import Verif.Props.Acceptance
import Verif.Props.SampleSize

/-!
# Properties C82 and C83: how the noisy decider and the line search spend their evaluations
-/

namespace Tranquilo

variable {K : Type} [Field K] [LinearOrder K] [IsStrictOrderedRing K] {n : Nat}

/-! ## C82 -/

omit [IsStrictOrderedRing K] in
/-- Number of new values at one point, for a request with two different points. -/
theorem length_fvals_evaluate_two (oracle : Oracle K n) (h : Log K n) (i j a b : Nat) (hij : i ≠ j)
    (hi : i < h.xs.length) (hj : j < h.xs.length) :
    ((h.evaluate oracle [(i, a), (j, b)]).fvals i).length = (h.fvals i).length + a ∧
    ((h.evaluate oracle [(i, a), (j, b)]).fvals j).length = (h.fvals j).length + b := by
  have key : ∀ k, ((h.evaluate oracle [(i, a), (j, b)]).fvals k).length
      = (h.fvals k).length + (List.replicate a i ++ List.replicate b j).countP (fun l => l = k) := by
    intro k
    rw [Log.evaluate_eq, Log.fvals_append]
    have hfst := Log.newEvals_fst oracle h.xs (List.replicate a i ++ List.replicate b j)
      (by
        intro l hl
        rcases List.mem_append.1 hl with hl | hl
        · rw [List.eq_of_mem_replicate hl]; exact hi
        · rw [List.eq_of_mem_replicate hl]; exact hj) h.evals.length
    simp only [List.flatMap_cons, List.flatMap_nil, List.append_nil, List.length_append,
      List.length_map]
    congr 1
    conv_rhs => rw [← hfst]
    rw [List.countP_map, List.countP_eq_length_filter]
    rfl
  constructor
  · rw [key]
    simp [List.countP_append, List.countP_replicate, Ne.symm hij]
  · rw [key]
    simp [List.countP_append, List.countP_replicate, hij]

/-- C82. The history after the noisy decision: the candidate has been evaluated between `n_min` and
`n_max` times, the current point has at most `n_max` evaluations unless it already had more (then no
evaluation is spent on it), no other point has been evaluated, and unless the limit `n_max` is hit the two
means are precise enough: the variance of their difference, for evaluations with standard
deviation `sigma`, is at most `(effect / (z_conf + z_power))^2`. -/
theorem C82_noisy_evaluations [FloorRing K] (nrm : Vec K n → K) (oracle : Oracle K n) (m sigma z1 z2 : K)
    (nMin nMax : Nat) (hlim : nMin ≤ nMax) (sub : SubSolution K n) (old : Current K n) (h h' : Log K n)
    (hw : h.WF) (hold : old.index < h.xs.length) (res : AcceptanceResult K n)
    (hres : acceptNoisy nrm oracle m sigma z1 z2 nMin nMax sub old h = (h', res)) :
    let before := (h.fvals old.index).length
    let current := (h'.fvals old.index).length
    let candidate := (h'.fvals h.xs.length).length
    h'.xs = h.xs ++ [sub.x] ∧
    nMin ≤ candidate ∧ candidate ≤ nMax ∧
    before ≤ current ∧ current ≤ max nMax before ∧
    (∀ i, i ≠ old.index → i ≠ h.xs.length → h'.fvals i = h.fvals i) ∧
    (0 < sigma → 0 < z1 + z2 → current < nMax → candidate < nMax → 0 < current ∧ 0 < candidate ∧
      sigma ^ 2 / (current : K) + sigma ^ 2 / (candidate : K)
        ≤ (max sub.expectedImprovement (1 / 100000000) / (z1 + z2)) ^ 2) := by
  intro before current candidate
  unfold acceptNoisy at hres
  simp only [Prod.mk.injEq] at hres
  obtain ⟨hh, -⟩ := hres
  have hfv : ((h.addX sub.x).1.fvals old.index) = h.fvals old.index := rfl
  have hfc : ((h.addX sub.x).1.fvals h.xs.length) = [] := Log.fvals_fresh hw le_rfl
  have hidx : (h.addX sub.x).2 = h.xs.length := rfl
  rw [hfv, hidx] at hh
  obtain ⟨n1, n2, hs⟩ : ∃ n1 n2, getAcceptanceSampleSizes sigma (h.fvals old.index).length
    sub.expectedImprovement z1 z2 nMin nMax = (n1, n2) := ⟨_, _, rfl⟩
  rw [hs] at hh
  simp only at hh
  obtain ⟨a1, a2, a3, a4, a5⟩ := C19_sample_sizes_within_limits sigma _ _ z1 z2 nMin nMax hlim n1 n2 hs
  have hlen := length_fvals_evaluate_two oracle (h.addX sub.x).1 old.index h.xs.length n1.toNat n2.toNat
    (by omega) (by simp [Log.addX]; omega) (by simp [Log.addX])
  rw [hh, hfv, hfc] at hlen
  obtain ⟨l1, l2⟩ := hlen
  have hc : (current : Int) = before + n1 := by
    show (((h'.fvals old.index).length : Nat) : Int) = _
    rw [l1]; push_cast; rw [Int.toNat_of_nonneg a3]
  have hk : (candidate : Int) = n2 := by
    show (((h'.fvals h.xs.length).length : Nat) : Int) = _
    rw [l2]; simp only [List.length_nil, zero_add]; rw [Int.toNat_of_nonneg (by omega)]
  refine ⟨by rw [← hh]; simp [Log.addX], by omega, by omega, by omega, by omega, ?_, ?_⟩
  · intro i h1 h2
    rw [← hh, Log.fvals_evaluate_of_not_mem _ _ _ _ (by simp [h1, h2])]
    rfl
  · intro hsig hz hc1 hc2
    obtain ⟨p1, p2, p3⟩ := C18_power sigma hsig _ _ z1 z2 hz nMin nMax n1 n2 hs
      (Or.inl (by omega)) (by omega)
    refine ⟨by omega, by omega, ?_⟩
    have e1 : (current : K) = (n1 : K) + ((h.fvals old.index).length : K) := by
      have := congrArg (Int.cast (R := K)) hc
      push_cast at this
      rw [this, add_comm]
    have e2 : (candidate : K) = (n2 : K) := by
      have := congrArg (Int.cast (R := K)) hk
      push_cast at this
      exact this
    rw [e1, e2]
    exact p3

/-- The hypotheses are met, with different numbers of evaluations of the two points: the current point
has four evaluations already, one is added; the candidate gets five. -/
example :
    let out := acceptNoisy (fun x : Vec ℚ 1 => |x 0|) (fun _ x => .fin (10 - x 0)) 0 1 1 (1 / 2) 2 6
      ⟨fun _ => 1, 1⟩ ⟨⟨fun _ => 0, 1, ⟨fun _ => none, fun _ => none⟩⟩, fun _ => 0, .fin 10, 0⟩
      ⟨[fun _ => 0], [(0, .fin 10), (0, .fin 10), (0, .fin 10), (0, .fin 10)]⟩
    (out.1.fvals 0).length = 5 ∧ (out.1.fvals 1).length = 5 := by
  decide +kernel

/-! ## C83 -/

/-- The distance of the point to the border of a ball region is at most a tenth of the radius (plus the
tolerance `1e-8`). -/
def NearBorderOfBall (nrm : Vec K n → K) (r : Region K n) (x : Vec K n) : Prop :=
  |nrm (fun i => x i - r.center i) - r.radius| ≤ 1 / 100000000 + 1 / 10 * |r.radius|

/-- C83, ball regions (boxes: see the violation below). The points that the decider evaluates besides the candidate: if the candidate is
near the border of the region, these are the points at 2, 4 and 8 times the step (as many as the batch
allows), followed by sampled points; otherwise all of them are sampled. Sampled points come from the
sampler for the region around the candidate with `radius_factor` times the radius. -/
theorem C83_line_search_iff_near_border_partial (nrm : Vec K n → K) (cr : K → K) (oracle : Oracle K n)
    (sample : Sampler K n) (rf m : K) (b : Nat) (hb : 2 ≤ b) (sub : SubSolution K n) (old : Current K n)
    (h : Log K n) (hshape : old.trustregion.shape = .sphere) :
    ∃ (line sampled existing : List (Vec K n)),
      (acceptLineSearch nrm cr oracle sample rf m b sub old h).1.xs = h.xs ++ sub.x :: (line ++ sampled) ∧
      (NearBorderOfBall nrm old.trustregion sub.x → line.length = min (b - 1) 3 ∧
        ∀ k (hk : k < line.length), line[k] = fun i => old.x i + 2 ^ (k + 1) * (sub.x i - old.x i)) ∧
      (¬ NearBorderOfBall nrm old.trustregion sub.x → line = []) ∧
      (sampled = [] ∧ b = line.length + 1 ∨
        sampled = sample (h.addX sub.x).1
          { old.trustregion with center := sub.x, radius := rf * old.trustregion.radius }
          (b - 1 - line.length) existing) := by
  have hbd : isOnBorder nrm cr old.trustregion sub.x (1 / 10) = true ↔
      NearBorderOfBall nrm old.trustregion sub.x := by
    unfold isOnBorder NearBorderOfBall isClose
    rw [hshape]
    simp
  rw [lineSearch_log nrm cr oracle sample rf m b sub old h (by omega)]
  simp only [lineSearchPoints]
  unfold lineSearchXs
  set line := (if isOnBorder nrm cr old.trustregion sub.x (1 / 10) = true
      then sampleOnLine old.x sub.x (alphaGrid b) else []) with hline
  have hlen : NearBorderOfBall nrm old.trustregion sub.x → line.length = min (b - 1) 3 := by
    intro hn
    rw [hline, if_pos (hbd.2 hn)]
    simp only [sampleOnLine, alphaGrid, List.length_map, List.length_range]
    omega
  have hnear : ¬ NearBorderOfBall nrm old.trustregion sub.x → line = [] := by
    intro hn
    rw [hline, if_neg (fun hc => hn (hbd.1 hc))]
  have hle : line.length ≤ b - 1 := by
    by_cases hn : NearBorderOfBall nrm old.trustregion sub.x
    · rw [hlen hn]; omega
    · rw [hnear hn]; simp
  refine ⟨line, _, ((h.addX sub.x).1.getXs ((h.addX sub.x).1.indicesInRegion nrm sub.x
    (rf * old.trustregion.radius))) ++ line, rfl, fun hn => ⟨hlen hn, ?_⟩, hnear, ?_⟩
  · intro k hk
    have : line = sampleOnLine old.x sub.x (alphaGrid b) := by rw [hline, if_pos (hbd.2 hn)]
    simp only [this, sampleOnLine, alphaGrid, List.getElem_map, List.getElem_range]
  · by_cases hk : 0 < b - 1 - line.length
    · right
      rw [if_pos hk]
      rfl
    · left
      rw [if_neg hk]
      exact ⟨rfl, by omega⟩

/-- C83 is false for boxes: nearness to the border is measured relative to the coordinates of the border
instead of the size of the region. With the box [99, 100.5] around 100 the candidate 100.1 (far from both
borders) triggers a line search that evaluates 100.2; with the box [0, 2] around 1 the candidate
0.01 (a hundredth of the radius away from the border) does not: here all other points are the ones of the
sampler, which always returns the point 5. -/
theorem C83_violated_in_boxes :
    ((acceptLineSearch (fun x : Vec ℚ 1 => |x 0|) id (fun _ _ => .fin 0)
        (fun _ _ k _ => List.replicate k fun _ => 5) 5 0 2 ⟨fun _ => 1001 / 10, 1⟩
        ⟨⟨fun _ => 100, 1, ⟨fun _ => some 0, fun _ => some (201 / 2)⟩⟩, fun _ => 100, .fin 1, 0⟩
        ⟨[fun _ => 100], [(0, .fin 1)]⟩).1.xs.map fun x => x 0) = [100, 1001 / 10, 1002 / 10] ∧
    ((acceptLineSearch (fun x : Vec ℚ 1 => |x 0|) id (fun _ _ => .fin 0)
        (fun _ _ k _ => List.replicate k fun _ => 5) 5 0 2 ⟨fun _ => 1 / 100, 1⟩
        ⟨⟨fun _ => 1, 1, ⟨fun _ => some 0, fun _ => some 10⟩⟩, fun _ => 1, .fin 1, 0⟩
        ⟨[fun _ => 1], [(0, .fin 1)]⟩).1.xs.map fun x => x 0) = [1, 1 / 100, 5] := by
  decide +kernel

/-- A candidate on the border of a ball: the hypotheses are met, and both cases occur. -/
example :
    (⟨fun _ => 0, 1, ⟨fun _ => none, fun _ => none⟩⟩ : Region ℚ 1).shape = .sphere ∧
    NearBorderOfBall (fun x : Vec ℚ 1 => |x 0|) ⟨fun _ => 0, 1, ⟨fun _ => none, fun _ => none⟩⟩
      (fun _ => 19 / 20) ∧
    ¬ NearBorderOfBall (fun x : Vec ℚ 1 => |x 0|) ⟨fun _ => 0, 1, ⟨fun _ => none, fun _ => none⟩⟩
      (fun _ => 1 / 2) := by
  refine ⟨by decide +kernel, ?_, ?_⟩ <;> unfold NearBorderOfBall <;> norm_num

end Tranquilo
