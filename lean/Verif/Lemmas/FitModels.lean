import Verif.Lemmas.Models
import Verif.Model.FitModels
import Mathlib.Algebra.BigOperators.Intervals
import Mathlib.Data.List.NodupEquivFin
import Mathlib.Data.List.OfFn

/-!
# Lemmas about features and coefficients
-/

namespace Tranquilo

variable {K : Type} [Field K] {n m N : Nat}

theorem filter_le_finRange (n : Nat) (i : Fin n) :
    (List.finRange n).filter (fun j => decide (i ≤ j)) = (List.finRange n).drop i.val := by
  conv_lhs => rw [← List.take_append_drop i.val (List.finRange n)]
  rw [List.filter_append]
  have h1 : ((List.finRange n).take i.val).filter (fun j => decide (i ≤ j)) = [] := by
    rw [List.filter_eq_nil_iff]
    intro a ha
    rw [List.mem_take_iff_getElem] at ha
    obtain ⟨k, hk, rfl⟩ := ha
    simp only [decide_eq_true_eq, not_le]
    rw [Fin.lt_def]
    simp only [List.getElem_finRange]
    simp at hk ⊢
    omega
  have h2 : ((List.finRange n).drop i.val).filter (fun j => decide (i ≤ j)) =
      (List.finRange n).drop i.val := by
    rw [List.filter_eq_self]
    intro a ha
    rw [List.mem_drop_iff_getElem] at ha
    obtain ⟨k, hk, rfl⟩ := ha
    simp only [decide_eq_true_eq]
    rw [Fin.le_def]
    simp
  rw [h1, h2, List.nil_append]

/-- The loops of the feature matrix run through the upper triangle in row-major order. -/
theorem triuIndices_eq (n : Nat) :
    triuIndices n = (List.finRange n).flatMap fun i =>
      ((List.finRange n).drop i.val).map fun j => (i, j) := by
  unfold triuIndices
  rw [List.filter_flatMap]
  refine congrArg (fun f => List.flatMap f (List.finRange n)) (funext fun i => ?_)
  rw [List.filter_map, ← filter_le_finRange]
  rfl

theorem quadraticTerms_eq (x : Vec K n) :
    quadraticTerms x = (triuIndices n).map fun p => x p.1 * x p.2 := by
  rw [triuIndices_eq, List.map_flatMap]
  unfold quadraticTerms
  refine congrArg₂ _ rfl rfl |>.trans ?_
  simp [List.map_map, Function.comp_def]

theorem mem_triuIndices (p : Fin n × Fin n) : p ∈ triuIndices n ↔ p.1 ≤ p.2 := by
  unfold triuIndices
  simp [List.mem_filter]

theorem nodup_triuIndices (n : Nat) : (triuIndices n).Nodup := by
  unfold triuIndices
  refine List.Nodup.filter _ ?_
  rw [List.nodup_flatMap]
  refine ⟨fun i _ => (List.nodup_finRange n).map fun a b h => (Prod.mk.inj h).2, ?_⟩
  refine (List.nodup_finRange n).imp ?_
  intro a b hab p h1 h2
  simp only [List.mem_map] at h1 h2
  obtain ⟨_, _, rfl⟩ := h1
  obtain ⟨_, _, h⟩ := h2
  exact hab (Prod.mk.inj h).1.symm

theorem length_triuIndices (n : Nat) : (triuIndices n).length = nSecondOrderTerms n := by
  rw [triuIndices_eq, List.length_flatMap]
  simp only [List.length_map, List.length_drop, List.length_finRange]
  have : ((List.finRange n).map fun a => n - a.val).sum = ∑ a : Fin n, (n - a.val) := by
    rw [← List.ofFn_eq_map, List.sum_ofFn]
  rw [this, Fin.sum_univ_eq_sum_range (fun k => n - k) n]
  unfold nSecondOrderTerms
  have h2 : ∀ n : Nat, ∑ k ∈ Finset.range n, (n - k) = ∑ k ∈ Finset.range (n + 1), k := by
    intro n
    rw [← Finset.sum_range_reflect]
    rw [Finset.sum_range_succ' (fun k => k)]
    simp only [add_zero]
    refine Finset.sum_congr rfl fun k hk => ?_
    have := Finset.mem_range.1 hk
    omega
  rw [h2, Finset.sum_range_id]
  congr 1
  simp [Nat.mul_comm]

theorem length_quadraticTerms (x : Vec K n) : (quadraticTerms x).length = nSecondOrderTerms n := by
  rw [quadraticTerms_eq, List.length_map, length_triuIndices]

theorem length_featureRow (mt : ModelType) (x : Vec K n) : (featureRow mt x).length = nCols n mt := by
  cases mt <;> simp [featureRow, nCols, length_quadraticTerms]; omega

/-- Sum over an index type against list lookups. -/
theorem sum_lookup {ι : Type} [Fintype ι] [BEq ι] [LawfulBEq ι] (l : List (ι × K)) (f : ι → K)
    (hl : (l.map Prod.fst).Nodup) :
    ∑ p, (l.lookup p).getD 0 * f p = (l.map fun e => e.2 * f e.1).sum := by
  classical
  induction l with
  | nil => simp
  | cons e l ih =>
    rw [List.map_cons, List.nodup_cons] at hl
    rw [List.map_cons, List.sum_cons, ← ih hl.2]
    rw [← Finset.add_sum_erase _ _ (Finset.mem_univ e.1)]
    rw [← Finset.add_sum_erase (a := e.1) (f := fun p => (l.lookup p).getD 0 * f p) _ (Finset.mem_univ e.1)]
    have h0 : l.lookup e.1 = none := by
      rw [List.lookup_eq_none_iff]
      intro p hp
      have : p.1 ∈ l.map Prod.fst := List.mem_map_of_mem hp
      simp only [bne_iff_ne, ne_eq, beq_eq_false_iff_ne]
      intro h
      exact hl.1 (h ▸ this)
    have h1 : (e :: l).lookup e.1 = some e.2 := by
      simp [List.lookup]
    rw [h0, h1]
    have h2 : ∑ p ∈ Finset.univ.erase e.1, ((e :: l).lookup p).getD 0 * f p
        = ∑ p ∈ Finset.univ.erase e.1, (l.lookup p).getD 0 * f p := by
      refine Finset.sum_congr rfl fun p hp => ?_
      have hpe : p ≠ e.1 := (Finset.mem_erase.1 hp).1
      have : (p == e.1) = false := by simpa using hpe
      simp [List.lookup, this]
    rw [h2]; simp

theorem sum_getD_mul (c l : List K) (h : c.length = l.length) (p : Nat) (hp : l.length = p) :
    ∑ k : Fin p, c.getD k 0 * l.getD k 0 = (List.zipWith (· * ·) c l).sum := by
  subst hp
  induction c generalizing l with
  | nil => cases l with
    | nil => simp
    | cons => simp at h
  | cons a c ih => cases l with
    | nil => simp at h
    | cons b l =>
      rw [List.length_cons, Fin.sum_univ_succ]
      simp only [Fin.val_zero, Fin.val_succ, List.getD_cons_zero, List.getD_cons_succ,
        List.zipWith_cons_cons, List.sum_cons]
      rw [ih l (by simpa using h)]

end Tranquilo
