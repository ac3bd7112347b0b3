import Verif.Model.Adjust

/-! # Lemmas on `np.clip` -/

namespace Tranquilo

theorem npClip_mem {α : Type} [LinearOrder α] {a lo hi : α} (h : lo ≤ hi) :
    lo ≤ npClip a lo hi ∧ npClip a lo hi ≤ hi :=
  ⟨le_min (le_max_right _ _) h, min_le_right _ _⟩

theorem npClip_le {α : Type} [LinearOrder α] (a lo hi : α) : npClip a lo hi ≤ hi :=
  min_le_right _ _

end Tranquilo
