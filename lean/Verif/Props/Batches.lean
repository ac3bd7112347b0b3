import Verif.Spec.Batches
import Verif.Props.CallLimits
import Verif.Props.CallGuarantees
import Verif.Lemmas.Steps
import Verif.Props.MainLoopRaise
import Verif.Lemmas.RunsLonger

/-!
# C60: full batches in runs and calls
-/

namespace Tranquilo

variable {K : Type} [Field K] [LinearOrder K] {n : Nat} {VM SM : Type}

/-- A number of full batches of points is added. -/
def AddsBatches (b : Nat) (h h' : Log K n) : Prop := b ∣ h'.xs.length - h.xs.length ∧ h.xs.length ≤ h'.xs.length

theorem AddsBatches.refl (b : Nat) (h : Log K n) : AddsBatches b h h := ⟨by simp, le_rfl⟩

theorem AddsBatches.trans {b : Nat} {h1 h2 h3 : Log K n} (p : AddsBatches b h1 h2) (q : AddsBatches b h2 h3) :
    AddsBatches b h1 h3 := by
  obtain ⟨⟨k, hk⟩, h12⟩ := p
  obtain ⟨⟨l, hl⟩, h23⟩ := q
  exact ⟨⟨k + l, by rw [mul_add]; omega⟩, by omega⟩

theorem addsBatches_evaluate {b : Nat} (h : Log K n) (pts : List (Vec K n)) (oracle : Oracle K n)
    (req : List (Nat × Nat)) (hd : b ∣ pts.length) : AddsBatches b h ((h.addXs pts).1.evaluate oracle req) := by
  refine ⟨?_, ?_⟩ <;> rw [Log.evaluate_xs] <;> simp [Log.addXs, hd]

section build

variable {c : Config K} {ce : ComponentsR K n VM SM} {state : LoopState K n VM SM}

theorem stagnationLoopR_batches (hs : SamplerExactR ce) (hinc : c.batchSize ∣ c.stagnation.sampleIncrement)
    {nEvals : Int} {it fuel k : Nat} {b b' : Build K n VM SM}
    (h : stagnationLoopR c ce state nEvals it fuel k b = .ok b') : AddsBatches c.batchSize b.log b'.log := by
  induction fuel generalizing b k with
  | zero => cases h; exact AddsBatches.refl _ _
  | succ fuel ih =>
    unfold stagnationLoopR at h
    split at h
    · obtain ⟨b1, h1, h⟩ := bindOk h
      have hb1 : AddsBatches c.batchSize b.log b1.log := by
        unfold stagnationRoundR at h1
        obtain ⟨r, -, h1⟩ := bindOk h1
        obtain ⟨ys, g2, h1⟩ := bindOk h1
        rw [buildModelR_log h1]
        exact addsBatches_evaluate _ _ _ _ (by rw [hs _ _ _ _ _ _ _ g2]; exact hinc)
      split at h
      · cases h; exact hb1
      · exact hb1.trans (ih h)
    · cases h; exact AddsBatches.refl _ _

variable [IsStrictOrderedRing K] [FloorRing K]

theorem buildPhaseR_batches (hb : 1 ≤ c.batchSize) (hs : SamplerExactR ce)
    (hinc : c.batchSize ∣ c.stagnation.sampleIncrement) {it : Nat} {log : Log K n} {nEvals : Int}
    {p : List Nat × Build K n VM SM} (h : buildPhaseR c ce it state log nEvals = .ok p) :
    AddsBatches c.batchSize log p.2.log := by
  unfold buildPhaseR at h
  obtain ⟨kept, -, h⟩ := bindOk h
  obtain ⟨newXs, h0, h⟩ := bindOk h
  obtain ⟨b, h1, h⟩ := bindOk h
  obtain ⟨b2, h2, h⟩ := bindOk h
  obtain ⟨b3, h3, h⟩ := bindOk h
  cases h
  have e := stagnationLoopR_batches hs hinc h3
  rw [dropLoopR_log h2, buildModelR_log h1] at e
  refine (addsBatches_evaluate _ _ _ _ ?_).trans e
  rw [hs _ _ _ _ _ _ _ h0]
  obtain ⟨⟨q, hq⟩, h2, -⟩ := C60_next_multiple (K := K) (c.targetSize - kept.1.length) c.batchSize hb
  have := Int.toNat_of_nonneg (le_trans (Int.natCast_nonneg _) h2)
  exact Int.natCast_dvd_natCast.1 (by rw [this]; exact ⟨q, hq⟩)

omit [IsStrictOrderedRing K] in
/-- The acceptance step adds one point, or a full batch. -/
theorem runDeciderR_batches (hb : 1 ≤ c.batchSize) (hs : SamplerExactR ce) {it : Nat} {sigma : Option (Option K)}
    {sub : SubSolution K n} {cur : Current K n} {log : Log K n} {d : Log K n × AcceptanceResult K n}
    (h : runDeciderR c ce it sigma sub cur log = .ok d) :
    (SingleCandidate c → d.1.xs.length = log.xs.length + 1) ∧
    (¬ SingleCandidate c → d.1.xs.length = log.xs.length + c.batchSize) := by
  have hsimple : ∀ m ne, (acceptSimple ce.nrm ce.oracle m ne sub cur log).1.xs.length = log.xs.length + 1 := by
    intro m ne
    unfold acceptSimple
    dsimp only
    rw [Log.evaluate_xs]
    simp [Log.addX]
  unfold runDeciderR at h
  split at h
  · rename_i m hdec
    have hsc : SingleCandidate c := Or.inl fun m rf e => by rw [hdec] at e; cases e
    injection h with h
    rw [← h]
    exact ⟨fun _ => hsimple m 1, fun h' => absurd hsc h'⟩
  · rename_i m hdec
    have hsc : SingleCandidate c := Or.inl fun m rf e => by rw [hdec] at e; cases e
    injection h with h
    rw [← h]
    exact ⟨fun _ => hsimple m _, fun h' => absurd hsc h'⟩
  · rename_i m zc zp nMin nMax hdec
    have hsc : SingleCandidate c := Or.inl fun m rf e => by rw [hdec] at e; cases e
    split at h
    · injection h with h
      rw [← h]
      refine ⟨fun _ => ?_, fun h' => absurd hsc h'⟩
      unfold acceptNoisy
      dsimp only
      rw [Log.evaluate_xs]
      simp [Log.addX]
    · cases h
    · cases h
  · rename_i m rf hdec
    unfold acceptLineSearchR at h
    split at h
    · rename_i h1
      injection h with h
      rw [← h]
      exact ⟨fun _ => hsimple m 1, fun h' => absurd (Or.inr h1) h'⟩
    · rename_i h1
      refine ⟨fun h' => absurd h' ?_, fun _ => ?_⟩
      · rintro (h' | h')
        · exact h' m rf hdec
        · exact h1 h'
      · obtain ⟨newXs, g1, h⟩ := bindOk h
        have hlen : newXs.length = c.batchSize - 1 := by
          unfold lineSearchXsR at g1
          dsimp only at g1
          have hline : (if isOnBorder ce.nrm ce.cubeRadius cur.trustregion sub.x (1 / 10) = true then
              sampleOnLine cur.x sub.x (alphaGrid c.batchSize) else []).length ≤ c.batchSize - 1 := by
            split
            · simp only [sampleOnLine, alphaGrid, List.length_map, List.length_range]; omega
            · simp
          generalize (if isOnBorder ce.nrm ce.cubeRadius cur.trustregion sub.x (1 / 10) = true then
              sampleOnLine cur.x sub.x (alphaGrid c.batchSize) else []) = line at g1 hline
          split at g1
          · rename_i hpos
            obtain ⟨ys, g2, g1⟩ := bindOk g1
            have := hs _ _ _ _ _ _ _ g2
            cases g1
            rw [List.length_append, this]
            omega
          · rename_i hpos
            cases g1
            rw [List.append_nil]
            omega
        unfold finishLineSearchR at h
        obtain ⟨q, -, h⟩ := bindOk h
        cases h
        rw [Log.evaluate_xs]
        simp [Log.addX, Log.addXs, hlen]
        omega

/-- C60 for runs with any components: if the sampler gives what is requested and `sample_increment` is a multiple of the batch
size, then the points of a run, besides the start vector, come in full batches and, without line search, single
candidates, one for each iteration. -/
theorem C60_full_batches_in_a_run_partial (hb : 1 ≤ c.batchSize) (hs : SamplerExactR ce)
    (hinc : c.batchSize ∣ c.stagnation.sampleIncrement) {x : Vec K n} {radius : K} {bounds : Bounds K n}
    {r : Run K n VM SM} (hr : tranquiloR c ce x radius bounds = .ok r) :
    (SingleCandidate c → ∃ q, r.log.xs.length = r.states.length + q * c.batchSize) ∧
    (¬ SingleCandidate c → ∃ q, r.log.xs.length = 1 + q * c.batchSize) := by
  refine tranquiloR_invariant (fun r : Run K n VM SM =>
    (SingleCandidate c → ∃ q, r.log.xs.length = r.states.length + q * c.batchSize) ∧
    (¬ SingleCandidate c → ∃ q, r.log.xs.length = 1 + q * c.batchSize)) ?_ ?_ hr
  · intro r h
    unfold startRunR at h
    obtain ⟨sm, -, h⟩ := bindOk h
    cases h
    refine ⟨fun _ => ⟨0, ?_⟩, fun _ => ⟨0, ?_⟩⟩ <;> simp [startLogR, Log.evaluate_xs]
  · rintro it r r' ⟨p1, p2⟩ h
    unfold iterationR at h
    obtain ⟨p, h1, h⟩ := bindOk h
    obtain ⟨sigma, -, h⟩ := bindOk h
    obtain ⟨d, h3, h⟩ := bindOk h
    dsimp only at h
    obtain ⟨next, -, h⟩ := bindOk h
    injection h with h
    obtain ⟨⟨k, hk⟩, hle⟩ := buildPhaseR_batches hb hs hinc h1
    obtain ⟨d1, d2⟩ := runDeciderR_batches hb hs h3
    have e1 : r'.log = d.1 := by
      rw [← h]; unfold endIterationR; dsimp only; split
      · rfl
      · split <;> rfl
    have e2 : r'.states.length = r.states.length + 1 := by
      rw [← h]; unfold endIterationR; dsimp only; split
      · simp
      · split <;> simp
    rw [e1, e2]
    refine ⟨fun hsc => ?_, fun hsc => ?_⟩
    · obtain ⟨q, hq⟩ := p1 hsc
      refine ⟨q + k, ?_⟩
      rw [d1 hsc, add_mul, mul_comm k]
      omega
    · obtain ⟨q, hq⟩ := p2 hsc
      refine ⟨q + k + 1, ?_⟩
      rw [d2 hsc, add_mul, add_mul, mul_comm k]
      omega

/-- C60 for the start: with more than one requested evaluation at the start, a run begins with full batches of
evaluations of the start vector, as few as possible. -/
theorem C60_evaluations_at_start (hb : 1 ≤ c.batchSize) (hn : 1 < c.nEvalsAtStart) {x : Vec K n} {radius : K}
    {bounds : Bounds K n} {r : Run K n VM SM} (hr : tranquiloR c ce x radius bounds = .ok r) :
    r.log.xs[0]? = some x ∧ ∃ q, c.nEvalsAtStart ≤ q * c.batchSize ∧ q * c.batchSize < c.nEvalsAtStart + c.batchSize ∧
      List.replicate (q * c.batchSize) 0 <+: r.log.evals.map Prod.fst := by
  have hr' := hr
  unfold tranquiloR at hr'
  obtain ⟨r0, h0, h1⟩ := bindOk hr'
  have hbegin := runLoopR_begins h1
  have hlog : r0.log = startLogR c ce.oracle x := by
    unfold startRunR at h0
    obtain ⟨sm, -, h0⟩ := bindOk h0
    cases h0
    rfl
  obtain ⟨⟨q, hq⟩, h2, h3⟩ := C60_next_multiple (K := K) c.nEvalsAtStart c.batchSize hb
  have hqn : 0 ≤ q := by
    by_contra h
    have : (c.batchSize : ℤ) * q ≤ 0 := mul_nonpos_of_nonneg_of_nonpos (by positivity) (by omega)
    omega
  obtain ⟨k, rfl⟩ := Int.eq_ofNat_of_zero_le hqn
  have hnat : (nextMultiple (K := K) c.nEvalsAtStart c.batchSize).toNat = k * c.batchSize := by
    rw [hq]
    norm_cast
    rw [mul_comm]
    exact Int.toNat_natCast _
  have hlow : c.nEvalsAtStart ≤ k * c.batchSize := by
    rw [← hnat]; omega
  have hhigh : k * c.batchSize < c.nEvalsAtStart + c.batchSize := by
    by_contra h
    have := h3 ((c.batchSize : ℤ) * (k - 1)) ⟨_, rfl⟩ (by
      have : (c.nEvalsAtStart : ℤ) + c.batchSize ≤ k * c.batchSize := by exact_mod_cast not_lt.1 h
      linarith)
    rw [hq] at this
    have hb' : (1 : ℤ) ≤ c.batchSize := by exact_mod_cast hb
    have e : (c.batchSize : ℤ) * (k - 1) = c.batchSize * k - c.batchSize := by ring
    rw [e] at this
    linarith
  refine ⟨?_, k, hlow, hhigh, ?_⟩
  · refine getElem?_of_prefix hbegin.points ?_
    rw [hlog]
    simp [startLogR, Log.evaluate_xs]
  · have hp := hbegin.evaluations.map Prod.fst
    rw [hlog] at hp
    have e : (startLogR c ce.oracle x).evals.map Prod.fst = List.replicate (k * c.batchSize) 0 := by
      unfold startLogR
      rw [if_pos hn, hnat, Log.evaluate_eq]
      simp only [List.nil_append, List.flatMap_cons, List.flatMap_nil, List.append_nil]
      exact Log.newEvals_fst _ _ _ (by simp) _
    rwa [e] at hp

end build

/-! ## The built in samplers -/

section samplers

variable {O : Type} {m : Nat}

/-- The shapes of the arrays of random numbers, with the number of blocks. -/
structure RngArrays (rng : SampleRng K n) : Prop extends RngShapes rng where
  normalCount : ∀ q k, (rng.normalBlocks q k).length = q
  uniformCount : ∀ q k, (rng.uniformBlocks01 q k).length = q

theorem drawBlocks_count {d : String} {rng : SampleRng K n} (hrng : RngArrays rng) {q k : Nat}
    {blocks : List (List (Vec K n))} (h : drawBlocks d rng q k = .ok blocks) : blocks.length = q := by
  unfold drawBlocks at h
  split at h
  · cases h; exact hrng.normalCount q k
  · split at h
    · cases h; simp [hrng.uniformCount q k]
    · cases h

/-- `np.argmax` gives a position of the list. -/
theorem npArgmax_lt {l : List (XVal K)} {i : Nat} (h : npArgmax l = .ok i) : i < l.length := by
  have total : ∀ a b : XVal K, a ≠ .nan → b ≠ .nan → a ≤ b ∨ b ≤ a := by
    intro a b ha hb
    cases a <;> cases b <;> first
      | exact absurd rfl ha
      | exact absurd rfl hb
      | exact Or.inl trivial
      | exact Or.inr trivial
      | exact le_total (α := K) _ _
  have trans : ∀ a b c : XVal K, a ≤ b → b ≤ c → a ≤ c := by
    intro a b c h1 h2
    cases a <;> cases b <;> cases c <;> first
      | exact absurd h1 id
      | exact absurd h2 id
      | exact trivial
      | exact le_trans (α := K) h1 h2
  unfold npArgmax at h
  split at h
  · cases h
  · rename_i hl
    cases h
    cases hnan : l.findIdx? XVal.isNan with
    | some j => exact (List.findIdx?_eq_some_iff_getElem.1 hnan).1
    | none =>
      rw [List.findIdx?_eq_none_iff] at hnan
      refine List.findIdx_lt_length_of_exists ?_
      have hmax : ∀ l : List (XVal K), l ≠ [] → (∀ a ∈ l, a ≠ .nan) → ∃ a ∈ l, ∀ b ∈ l, b ≤ a := by
        intro l
        induction l with
        | nil => intro h; exact absurd rfl h
        | cons a rest ih =>
          intro _ hn
          have ha := hn a List.mem_cons_self
          have haa : a ≤ a := (total a a ha ha).elim id id
          by_cases hrest : rest = []
          · subst hrest
            exact ⟨a, by simp, by simpa using haa⟩
          · obtain ⟨w, hw, hw2⟩ := ih hrest fun b hb => hn b (List.mem_cons_of_mem _ hb)
            rcases total a w ha (hn w (List.mem_cons_of_mem _ hw)) with h | h
            · refine ⟨w, List.mem_cons_of_mem _ hw, fun b hb => ?_⟩
              rcases List.mem_cons.1 hb with rfl | hb
              · exact h
              · exact hw2 b hb
            · refine ⟨a, List.mem_cons_self, fun b hb => ?_⟩
              rcases List.mem_cons.1 hb with rfl | hb
              · exact haa
              · exact trans _ _ _ (hw2 b hb) h
      obtain ⟨a, ha, hb⟩ := hmax l hl (fun a ha e => by have := hnan a ha; rw [e] at this; cases this)
      exact ⟨a, ha, by simpa using hb⟩

theorem startSample_length {root : K → K} {e : Option (List (Vec K n))} {shape : Shape} {q k : Nat}
    {cands : List (List (Row K n))} {x0 : List (Row K n)} (hq : cands.length = q) (hc : ∀ b ∈ cands, b.length = k)
    (h : startSample root e shape q cands = .ok x0) : x0.length = k := by
  unfold startSample at h
  split at h
  · rename_i h1
    cases h
    cases cands with
    | nil => simp at hq; omega
    | cons b _ => exact hc b (by simp)
  · split at h
    · cases h
    · rename_i i hi
      cases h
      have hlt : i < cands.length := by
        have := npArgmax_lt hi
        simpa using this
      rw [List.getD_eq_getElem?_getD, List.getElem?_eq_getElem hlt]
      exact hc _ (List.getElem_mem hlt)

theorem optimizeSample_length {root cr : K → K} {region : Region K n} {p : Int} {o : OptimalSampler K n}
    {e : Option (List (Vec K n))} {x0 : List (Row K n)}
    (ho : ∀ f x, (o.minimize f x).length = x.length) : (optimizeSample root cr region p o e x0).1.length = x0.length := by
  simp only [optimizeSample, projectHull, List.length_map]
  split
  · rfl
  · unfold optimizerResult
    split
    · rfl
    · rw [ho]

/-- Built in samplers return as many points as they are asked for. -/
theorem builtin_samplerExactR [FloorRing K] (b : BuiltinSettings K n m)
    (hrng : ∀ it round log, RngArrays (b.rng it round log))
    (ho : ∀ o, b.sampler = .optimalHull o → ∀ f x, (o.minimize f x).length = x.length) :
    SamplerExactR (builtinComponents b) := by
  intro it round log region k xs ys h
  have h' : builtinSampleR b it round log region k xs = .ok ys := h
  unfold builtinSampleR at h'
  have tail : ∀ {rows : List (Row K n)}, rows.length = k → (match allRows rows with
      | some ys => pure ys
      | none => Except.error Err.valueError) = Except.ok ys → ys.length = k := by
    intro rows hlen h
    split at h
    · rename_i zs hz
      cases h
      rw [allRows_length hz]
      exact hlen
    · cases h
  dsimp only at h'
  split at h'
  · obtain ⟨rows, hrows, h'⟩ := except_bind_ok.1 h'
    refine tail ?_ h'
    unfold interiorSampler ballSampler boxSampler at hrows
    split at hrows <;> split at hrows <;> cases hrows <;>
      simp [(hrng it round log).normal, (hrng it round log).uniform]
  · obtain ⟨rows, hrows, h'⟩ := except_bind_ok.1 h'
    refine tail ?_ h'
    unfold hullSampler at hrows
    split at hrows
    · cases hrows
    · split at hrows
      · cases hrows
      · rename_i raw hraw
        cases hrows
        simp [projectHull, drawRows_length (hrng it round log).toRngShapes hraw]
  · rename_i o hsam
    obtain ⟨rows, hrows, h'⟩ := except_bind_ok.1 h'
    refine tail ?_ h'
    obtain ⟨q, hq, rfl⟩ := except_map_ok.1 hrows
    unfold optimalHullSampler at hq
    split at hq
    · cases hq; simp; omega
    · dsimp only at hq
      split at hq
      · cases hq
      · rename_i blocks hblocks
        split at hq
        · cases hq
        · rename_i x0 hx0
          cases hq
          dsimp only
          rw [optimizeSample_length (ho o hsam)]
          refine startSample_length ?_ ?_ hx0
          · rw [List.length_map]
            exact drawBlocks_count (hrng it round log) hblocks
          · intro b' hb'
            obtain ⟨b'', hb'', rfl⟩ := List.mem_map.1 hb'
            simpa [projectHull] using drawBlocks_lengths (hrng it round log).toRngShapes hblocks b'' hb''

/-- C60 for calls for criteria without noise: if `sample_increment` is a multiple of the batch size, then the evaluations
after the first one come in full batches and, without line search, single candidates, one for each iteration. -/
theorem C60_call_partial [IsStrictOrderedRing K] [FloorRing K] {env : PyEnv K O} {ext : Externals K O n m}
    {a : Arguments K O (Option (Piece K n))} {x : Vec K n} {bounds : Bounds K n}
    {r : Run K n (VectorModel K n m) (ScalarModel K n)} (hr : tranquiloCall env ext a x bounds = .ok (some r))
    (hbatch : PositiveBatch env a) (hp : PlainCall env a) {s : String} (hsam : a.sampler = .str s)
    (hrng : ∀ it round log, RngArrays (ext.rng it round log))
    (hmin : ∀ u v f y, (ext.minimize u v f y).length = y.length) :
    ∃ (c : Config K) (b : BuiltinSettings K n m) (radius : K), CallUses env ext a x c b radius ∧
      (c.batchSize ∣ c.stagnation.sampleIncrement →
        (SingleCandidate c → ∃ q, r.log.nFun = r.states.length + q * c.batchSize) ∧
        (¬ SingleCandidate c → ∃ q, r.log.nFun = 1 + q * c.batchSize)) := by
  obtain ⟨c, b, radius, hrun, hu⟩ := C118_run_uses_the_arguments env ext a x bounds r hr
  obtain ⟨hn, hdec, hone, hstart⟩ := hp.config hu
  have hs : SamplerExactR (builtinComponents b) := by
    refine builtin_samplerExactR b (fun it round log => ?_) (fun o h => ?_)
    · rw [hu.numpy.2.2.2.2.2.2.2.1]; exact hrng it round log
    · have hS := hu.sampler s hsam
      rw [h] at hS
      cases hS
      exact hmin _ _
  refine ⟨c, b, radius, hu, fun hinc => ?_⟩
  rw [(C133_every_point_once_partial (builtin_filterSelectsR b) hdec hn hone hstart.le hrun).1]
  exact C60_full_batches_in_a_run_partial (by exact_mod_cast hbatch _ hu.batchSize) hs hinc hrun

end samplers

/-- **C60 is false for rounds against stagnation**: these ask for `sample_increment` points, by default one, whatever the
batch size is. A run with the default options against stagnation and a batch size of two that takes no step evaluates
the start vector, a full batch, one more point and the candidate. -/
theorem C60_violated_by_stagnation_rounds :
    SamplerExactR (toyComponentsR fun _ v => .fin (v 0 ^ 2)) ∧
    ∃ r, tranquiloR (toyConfig 1 100 2 (.classic 0)) (toyComponentsR fun _ v => .fin (v 0 ^ 2)) (fun _ => 0) 1
        noBounds = .ok r ∧ r.states.length = 2 ∧ r.log.nFun = 5 ∧
      ¬ ∃ q, r.log.nFun = r.states.length + q * 2 := by
  refine ⟨?_, ?_⟩
  · intro it round log region k xs ys h
    cases h
    simp [centerSample]
  have key : (match tranquiloR (toyConfig 1 100 2 (.classic 0)) (toyComponentsR fun _ v => .fin (v 0 ^ 2)) (fun _ => 0) 1
        noBounds with
      | .ok r => decide (r.states.length = 2 ∧ r.log.nFun = 5)
      | _ => false) = true := by
    decide +kernel
  split at key
  · rename_i r hr
    obtain ⟨h1, h2⟩ := of_decide_eq_true key
    refine ⟨r, hr, h1, h2, ?_⟩
    rw [h1, h2]
    rintro ⟨q, hq⟩
    omega
  · cases key

/-- The default options against stagnation, except for the number of points. -/
def twoPoints : StagnationOptions ℚ :=
  { minRelativeStepKeep := 1 / 8, drop := true, minRelativeStep := 1 / 20, sampleIncrement := 2, maxTrials := 1 }

/-- C60 for the same run with `sample_increment` equal to the batch size: start vector, two full batches and the candidate;
with the line search the candidate is part of a full batch. -/
example : (∃ r, tranquiloR { toyConfig 1 100 2 (.classic 0) with stagnation := twoPoints }
        (toyComponentsR fun _ v => .fin (v 0 ^ 2)) (fun _ => 0) 1 noBounds = .ok r ∧
      r.states.length = 2 ∧ r.log.nFun = 2 + 2 * 2) ∧
    (∃ r, tranquiloR { toyConfig 1 100 2 (.lineSearch 0 1) with stagnation := twoPoints }
        (toyComponentsR fun _ v => .fin (v 0 ^ 2)) (fun _ => 0) 1 noBounds = .ok r ∧
      r.states.length = 2 ∧ r.log.nFun = 1 + 3 * 2) := by
  have key : ∀ b : Bool, (match tranquiloR { toyConfig 1 100 2 (if b then .classic 0 else .lineSearch 0 1) with
          stagnation := twoPoints }
        (toyComponentsR fun _ v => .fin (v 0 ^ 2)) (fun _ => 0) 1 noBounds with
      | .ok r => decide (r.states.length = 2 ∧ r.log.nFun = if b then 6 else 7)
      | _ => false) = true := by
    decide +kernel
  have k1 := key true
  have k2 := key false
  split at k1
  · rename_i r hr
    split at k2
    · rename_i r2 hr2
      exact ⟨⟨r, hr, of_decide_eq_true k1⟩, ⟨r2, hr2, of_decide_eq_true k2⟩⟩
    · cases k2
  · cases k1

/-- C60 for the start: three requested evaluations with a batch size of two, no iteration. -/
example : ∃ r, tranquiloR { toyConfig 0 100 2 (.classic 0) with nEvalsAtStart := 3 }
      (toyComponentsR fun _ v => .fin (v 0 ^ 2)) (fun _ => 2) 1 noBounds = .ok r ∧ r.log.nFun = 4 := by
  have key : (match tranquiloR { toyConfig 0 100 2 (.classic 0) with nEvalsAtStart := 3 }
        (toyComponentsR fun _ v => .fin (v 0 ^ 2)) (fun _ => 2) 1 noBounds with
      | .ok r => decide (r.log.nFun = 4)
      | _ => false) = true := by
    decide +kernel
  split at key
  · rename_i r hr
    exact ⟨r, hr, of_decide_eq_true key⟩
  · cases key

/-- C60 for calls: one iteration for the residual `x`, from `1`, with a batch size of three; no round against stagnation. The
hypotheses hold for these random numbers. -/
example : ∃ r, tranquiloCall plainEnv coresExternals
      { functype := "least_squares", x := [], batchSize := .int 3, maxIter := .int 1 } (fun _ => 1)
      ⟨fun _ => none, fun _ => none⟩ = .ok (some r) ∧ r.states.length = 2 ∧ r.log.nFun = 2 + 1 * 3 ∧
      ∀ it round log, RngArrays (coresExternals.rng it round log) := by
  have key : (match tranquiloCall plainEnv coresExternals
        { functype := "least_squares", x := [], batchSize := .int 3, maxIter := .int 1 } (fun _ => 1)
        ⟨fun _ => none, fun _ => none⟩ with
      | .ok (some r) => decide (r.states.length = 2 ∧ r.log.nFun = 5)
      | _ => false) = true := by
    decide +kernel
  split at key
  · rename_i r hr
    obtain ⟨h1, h2⟩ := of_decide_eq_true key
    refine ⟨r, hr, h1, h2, fun _ _ _ => ⟨⟨fun _ => ?_, fun _ => ?_, fun q k b hb => ?_, fun q k b hb => ?_⟩,
      fun _ _ => ?_, fun _ _ => ?_⟩⟩ <;> simp [coresExternals, slopeExternals, slopeRng] at *
    · rw [hb.2]; simp
    · rw [hb.2]; simp
  · cases key

end Tranquilo
