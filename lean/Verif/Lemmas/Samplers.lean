import Verif.Spec.Samplers
import Verif.Lemmas.Dot
import Verif.Lemmas.Gqtpar
import Verif.Props.Region

/-!
# Lemmas about projections onto the hull
-/

namespace Tranquilo

variable {K : Type} [Field K] [LinearOrder K] [IsStrictOrderedRing K] {n : Nat}

/-- Points of the hull of the unit ball or unit cube. -/
def OnUnitHull (shape : Shape) (u : Vec K n) : Prop :=
  match shape with
  | .sphere => sumSq u = 1
  | .cube => (∀ i, |u i| ≤ 1) ∧ ∃ i, |u i| = 1

omit [LinearOrder K] [IsStrictOrderedRing K] in
theorem dot_self_eq_sumSq (x : Vec K n) : dot x x = sumSq x :=
  Finset.sum_congr rfl fun i _ => by ring

theorem vecMax_attained (v : Vec K n) (hn : 0 < n) : ∃ i, vecMax v = v i := by
  have hne : (Finset.univ : Finset (Fin n)).Nonempty := ⟨⟨0, hn⟩, Finset.mem_univ _⟩
  rw [vecMax, dif_pos hne]
  obtain ⟨i, _, hi⟩ := Finset.exists_mem_eq_sup' hne v
  exact ⟨i, hi⟩

theorem exists_ne_of_ne_zero {x : Vec K n} (hx : x ≠ fun _ => 0) : ∃ i, x i ≠ 0 := by
  by_contra h
  push Not at h
  exact hx (funext h)

theorem sumSq_pos {x : Vec K n} (hx : x ≠ fun _ => 0) : 0 < sumSq x := by
  obtain ⟨i, hi⟩ := exists_ne_of_ne_zero hx
  exact Finset.sum_pos' (fun j _ => sq_nonneg _) ⟨i, Finset.mem_univ i, by positivity⟩

theorem root_sumSq_pos {root : K → K} (hroot : SqrtSpec root) {x : Vec K n} (hx : x ≠ fun _ => 0) :
    0 < norm2 root x := by
  have h := sumSq_pos hx
  rw [norm2, dot_self_eq_sumSq]
  obtain ⟨h1, h2⟩ := hroot _ h.le
  rcases h1.lt_or_eq with h1 | h1
  · exact h1
  · rw [← h1] at h2; simp at h2; exact absurd h2 h.ne

theorem hullNorm_pos {root : K → K} (hroot : SqrtSpec root) (shape : Shape) {x : Vec K n}
    (hx : x ≠ fun _ => 0) : 0 < hullNorm root shape x := by
  cases shape with
  | sphere => exact root_sumSq_pos hroot hx
  | cube =>
    obtain ⟨i, hi⟩ := exists_ne_of_ne_zero hx
    exact lt_of_lt_of_le (abs_pos.2 hi) (le_vecMax (fun i => |x i|) i)

theorem projectRow_ok {root : K → K} (hroot : SqrtSpec root) (shape : Shape) {x : Vec K n}
    (hx : x ≠ fun _ => 0) :
    ∃ u, projectRow root shape (some x) = some u ∧ OnUnitHull shape u := by
  have hpos := hullNorm_pos hroot shape hx
  refine ⟨fun i => x i / hullNorm root shape x, by simp only [projectRow, if_neg hpos.ne'], ?_⟩
  cases shape with
  | sphere =>
    show sumSq (fun i => x i / norm2 root x) = 1
    have hpos : 0 < norm2 root x := hpos
    have h2 : norm2 root x ^ 2 = sumSq x := by
      rw [norm2, dot_self_eq_sumSq, sq]; exact (hroot _ (sumSq_pos hx).le).2
    have : sumSq (fun i => x i / norm2 root x) = sumSq x / norm2 root x ^ 2 := by
      simp only [sumSq, Finset.sum_div, div_pow]
    rw [this, h2, div_self (sumSq_pos hx).ne']
  | cube =>
    obtain ⟨i0, -⟩ := exists_ne_of_ne_zero hx
    have hn : 0 < n := i0.pos
    set m := hullNorm root .cube x with hm
    have hm' : m = vecMax fun i => |x i| := rfl
    refine ⟨fun i => ?_, ?_⟩
    · show |x i / m| ≤ 1
      rw [abs_div, abs_of_pos hpos, div_le_one hpos, hm']
      exact le_vecMax (fun i => |x i|) i
    · obtain ⟨i, hi⟩ := vecMax_attained (fun i => |x i|) hn
      refine ⟨i, ?_⟩
      show |x i / m| = 1
      rw [abs_div, abs_of_pos hpos, ← hi, ← hm', div_self hpos.ne']

theorem onUnitHull_ne_zero {shape : Shape} {u : Vec K n} (hu : OnUnitHull shape u) :
    u ≠ fun _ => 0 := by
  rintro rfl
  cases shape with
  | sphere => simp [OnUnitHull, sumSq] at hu
  | cube => obtain ⟨-, i, hi⟩ := hu; simp at hi

theorem hullNorm_unit {root : K → K} (hroot : SqrtSpec root) {shape : Shape} {u : Vec K n}
    (hu : OnUnitHull shape u) : hullNorm root shape u = 1 := by
  cases shape with
  | sphere =>
    show norm2 root u = 1
    have hu : sumSq u = 1 := hu
    rw [norm2, dot_self_eq_sumSq, hu]
    obtain ⟨h1, h2⟩ := hroot 1 zero_le_one
    nlinarith
  | cube =>
    obtain ⟨h1, i, hi⟩ := hu
    show (vecMax fun i => |u i|) = 1
    refine le_antisymm ?_ (hi ▸ le_vecMax (fun i => |u i|) i)
    obtain ⟨j, hj⟩ := vecMax_attained (fun i => |u i|) i.pos
    rw [hj]; exact h1 j

/-- Projecting a second time changes nothing. -/
theorem projectRow_unit {root : K → K} (hroot : SqrtSpec root) {shape : Shape} {u : Vec K n}
    (hu : OnUnitHull shape u) : projectRow root shape (some u) = some u := by
  simp only [projectRow, hullNorm_unit hroot hu, one_ne_zero, if_false, div_one]

/-- `map_from_unit` takes the hull of the unit figure to the hull of the region. -/
theorem mapFromUnit_hull (cr : K → K) (r : Region K n) (hc : InBounds r.bounds r.center)
    (hr : 0 ≤ r.radius) (hcr : 0 ≤ cr r.radius) {u : Vec K n} (hu : OnUnitHull r.shape u) :
    OnRegionHull cr r (r.mapFromUnit cr u) ∧ InBounds r.bounds (r.mapFromUnit cr u) := by
  cases hs : r.shape with
  | sphere =>
    rw [hs] at hu
    have hu : sumSq u = 1 := hu
    have he : sumSq (fun i => r.mapFromUnit cr u i - r.center i) = r.radius ^ 2 := by
      have : sumSq (fun i => r.mapFromUnit cr u i - r.center i) = sumSq u * r.radius ^ 2 := by
        simp only [sumSq, Region.mapFromUnit, hs, add_sub_cancel_right, mul_pow, Finset.sum_mul]
      rw [this, hu, one_mul]
    have hball : InBallSq r.center r.radius (r.mapFromUnit cr u) := he.le
    refine ⟨⟨?_, ?_⟩, ?_⟩
    · simp only [InFeasibleRegion, hs]; exact hball
    · simp only [hs]; exact he
    · intro i
      obtain ⟨h1, h2⟩ := C27_sphere_strictly_in_bounds r hr hs _ hball i
      exact ⟨fun l hl => (h1 l hl).le, fun v hv => (h2 v hv).le⟩
  | cube =>
    rw [hs] at hu
    obtain ⟨-, i, hi⟩ := hu
    obtain ⟨h1, h2⟩ := C28_cube_points_in_bounds_partial cr r hs hc hcr u
    have hin : InFeasibleRegion cr r (r.mapFromUnit cr u) := by
      simp only [InFeasibleRegion, hs]; exact ⟨h1, h2⟩
    refine ⟨⟨hin, ?_⟩, h1⟩
    simp only [hs]
    have hbox : ∀ y, InFeasibleRegion cr r y → InBox (r.cubeLower cr) (r.cubeUpper cr) y := by
      intro y hy
      simp only [InFeasibleRegion, hs] at hy
      exact (C28_cube_is_intersection cr r hs y).2 hy
    have hle : r.cubeLower cr i ≤ r.cubeUpper cr i :=
      (hbox _ hin i).1.trans (hbox _ hin i).2
    refine ⟨i, ?_⟩
    rcases abs_eq (zero_le_one' K) |>.1 hi with hi | hi
    · left
      intro y hy
      have : r.mapFromUnit cr u i = r.cubeUpper cr i := by
        simp only [Region.mapFromUnit, hs, hi]
        have : (r.cubeUpper cr i - r.cubeLower cr i) * (1 + 1) / 2 + r.cubeLower cr i
          = r.cubeUpper cr i := by ring
        rw [this, npClip, max_eq_left hle, min_self]
      rw [this]; exact (hbox y hy i).2
    · right
      intro y hy
      have : r.mapFromUnit cr u i = r.cubeLower cr i := by
        simp only [Region.mapFromUnit, hs, hi]
        have : (r.cubeUpper cr i - r.cubeLower cr i) * (-1 + 1) / 2 + r.cubeLower cr i
          = r.cubeLower cr i := by ring
        rw [this, npClip, max_self, min_eq_left hle]
      rw [this]; exact (hbox y hy i).1

/-- Rows that are on the unit hull. -/
def UnitRows (shape : Shape) (rows : List (Row K n)) : Prop :=
  ∀ p ∈ rows, ∃ u, p = some u ∧ OnUnitHull shape u

theorem projectHull_unitRows {root : K → K} (hroot : SqrtSpec root) (shape : Shape)
    {rows : List (Row K n)} (h : ∀ p ∈ rows, ∃ x, p = some x ∧ x ≠ fun _ => 0) :
    UnitRows shape (projectHull root shape rows) := by
  intro p hp
  obtain ⟨q, hq, rfl⟩ := List.mem_map.1 hp
  obtain ⟨x, rfl, hx⟩ := h q hq
  exact projectRow_ok hroot shape hx

theorem projectHull_of_unitRows {root : K → K} (hroot : SqrtSpec root) {shape : Shape}
    {rows : List (Row K n)} (h : UnitRows shape rows) : projectHull root shape rows = rows := by
  refine (List.map_congr_left (g := id) ?_).trans (List.map_id _)
  intro p hp
  obtain ⟨u, rfl, hu⟩ := h p hp
  exact projectRow_unit hroot hu

omit [Field K] [LinearOrder K] [IsStrictOrderedRing K] in
theorem allRows_map_some (us : List (Vec K n)) : allRows (us.map some) = some us := by
  induction us with
  | nil => rfl
  | cons x rest ih => simp [allRows, ih]

theorem exists_unit_list {shape : Shape} {rows : List (Row K n)} (h : UnitRows shape rows) :
    ∃ us : List (Vec K n), rows = us.map some ∧ ∀ u ∈ us, OnUnitHull shape u := by
  induction rows with
  | nil => exact ⟨[], rfl, by simp⟩
  | cons p rest ih =>
    obtain ⟨us, rfl, hus⟩ := ih fun q hq => h q (List.mem_cons_of_mem _ hq)
    obtain ⟨u, rfl, hu⟩ := h p List.mem_cons_self
    exact ⟨u :: us, rfl, by simpa using ⟨hu, hus⟩⟩

theorem exists_some_list {rows : List (Row K n)} {P : Vec K n → Prop}
    (h : ∀ p ∈ rows, ∃ x, p = some x ∧ P x) :
    ∃ us : List (Vec K n), rows = us.map some ∧ ∀ u ∈ us, P u := by
  induction rows with
  | nil => exact ⟨[], rfl, by simp⟩
  | cons p rest ih =>
    obtain ⟨us, rfl, hus⟩ := ih fun q hq => h q (List.mem_cons_of_mem _ hq)
    obtain ⟨u, rfl, hu⟩ := h p List.mem_cons_self
    exact ⟨u :: us, rfl, by simpa using ⟨hu, hus⟩⟩

theorem determinantOnHull_unit {root : K → K} (hroot : SqrtSpec root) {shape : Shape}
    (existing : Option (List (Vec K n))) {us : List (Vec K n)} (hus : ∀ u ∈ us, OnUnitHull shape u) :
    determinantOnHull root existing shape (us.map some)
      = .fin (dOptimality us (existing.getD [])) := by
  have hu : UnitRows shape (us.map some) := by
    intro p hp
    obtain ⟨u, hu, rfl⟩ := List.mem_map.1 hp
    exact ⟨u, rfl, hus u hu⟩
  unfold determinantOnHull
  rw [projectHull_of_unitRows hroot hu, allRows_map_some]
  simp only [List.length_map]
  rfl

theorem determinantOnHull_project {root : K → K} (hroot : SqrtSpec root) {shape : Shape}
    (existing : Option (List (Vec K n))) {rows : List (Row K n)}
    (h : ∀ p ∈ rows, ∃ x, p = some x ∧ x ≠ fun _ => 0) :
    determinantOnHull root existing shape rows
      = determinantOnHull root existing shape (projectHull root shape rows) := by
  unfold determinantOnHull
  rw [projectHull_of_unitRows hroot (projectHull_unitRows hroot shape h)]
  simp [projectHull]

end Tranquilo
