import Verif.Props.NormFactor

/-!
# Property C53: the normalisation factor is the interpolated percentile
-/

namespace Coralign.Props

open Coralign

variable {K : Type} [Field K] [LinearOrder K] [IsStrictOrderedRing K] [FloorRing K]

/-- **C53.** The value of the factor: with the selected pixels in increasing order, numbered from zero, it is read at position `(N - 1) p / 100`, and
between two neighbours it is interpolated linearly. -/
theorem C53_interpolated {n m : ℕ} (f mask : Fin n → Fin m → K) (p : K) (h : NormArgs mask p) (s : List K) (hs : s.Pairwise (· ≤ ·))
    (hc : ∀ v, s.count v = selectedCount f mask (· = v)) (k : ℕ) (t : K) (h0 : 0 ≤ t) (h1 : t < 1) (hk : ((s.length : K) - 1) * p / 100 = k + t) :
    ∃ a, s[k]? = some a ∧ computeNormFactor ⟨n, m, f⟩ ⟨n, m, mask⟩ p = .ok (a + t * ((s[k + 1]?).getD a - a)) := by
  have hperm : (selectedValues f mask).Perm s := by
    rw [List.perm_iff_count]
    intro v
    rw [hc v, ← count_selected f mask (· = v)]
    unfold List.count
    congr 1
  have hsort : (selectedValues f mask).mergeSort (fun a b => decide (a ≤ b)) = s := by
    have hp := (List.mergeSort_perm (selectedValues f mask) fun a b : K => decide (a ≤ b)).trans hperm
    have hw := List.pairwise_mergeSort (le := fun a b : K => decide (a ≤ b)) (fun a b c h1 h2 => by
      simp only [decide_eq_true_eq] at h1 h2 ⊢; exact h1.trans h2) (fun a b => by simp; exact le_total a b) (selectedValues f mask)
    exact hp.eq_of_pairwise (fun a b _ _ h1 h2 => le_antisymm h1 h2) (hw.imp fun h => of_decide_eq_true h) hs
  have hlen : (selectedValues f mask).length = s.length := hperm.length_eq
  have hne : selectedValues f mask ≠ [] := by
    obtain ⟨-, ⟨i, j, hij⟩, -⟩ := h
    exact List.ne_nil_of_mem ((mem_selectedValues f mask _).mpr ⟨i, j, hij, rfl⟩)
  have hpos : (1 : K) ≤ s.length := by
    rw [← hlen]
    exact_mod_cast List.length_pos_iff.mpr hne
  have hkl : k < s.length := by
    have : (k : K) < s.length := by
      have hb : ((s.length : K) - 1) * p / 100 ≤ (s.length : K) - 1 := by
        rw [div_le_iff₀ (by norm_num)]
        exact mul_le_mul_of_nonneg_left h.2.2.2 (by linarith)
      linarith
    exact_mod_cast this
  have hfl : ⌊(k : K) + t⌋.toNat = k := by
    have : ⌊(k : K) + t⌋ = (k : ℤ) := by
      rw [Int.floor_eq_iff]
      push_cast
      constructor <;> linarith
    rw [this, Int.toNat_natCast]
  refine ⟨s[k], List.getElem?_eq_getElem hkl, ?_⟩
  rw [norm_eq f mask p h]
  congr 1
  unfold percentile
  simp only
  rw [hsort, hlen, hk, hfl, add_sub_cancel_left, List.getD_eq_getElem _ _ hkl, List.getD_eq_getElem?_getD]

/-- Three selected pixels 5, 1, 3 and a dark one: the 75th percentile is halfway between 3 and 5. -/
example : computeNormFactor (⟨2, 2, ![![5, 1], ![7, 3]]⟩ : Arr2 ℚ) ⟨2, 2, ![![1, 1], ![0, 1]]⟩ 75 = .ok 4 := by
  obtain ⟨a, ha, h⟩ := C53_interpolated ![![(5 : ℚ), 1], ![7, 3]] ![![1, 1], ![0, 1]] 75
    ⟨by decide, ⟨0, 0, rfl⟩, by norm_num, by norm_num⟩ [1, 3, 5] (by decide)
    (by
      intro v
      rw [← count_selected _ _ (· = v)]
      have : selectedValues ![![(5 : ℚ), 1], ![7, 3]] ![![1, 1], ![0, 1]] = [5, 1, 3] := by decide +kernel
      rw [this, show ([5, 1, 3] : List ℚ).countP (fun w => decide (w = v)) = ([5, 1, 3] : List ℚ).count v by
        unfold List.count; congr 1]
      exact List.Perm.count_eq (by decide) v) 1 (1 / 2) (by norm_num) (by norm_num) (by norm_num)
  obtain rfl : (3 : ℚ) = a := by simpa using ha
  rw [h]
  norm_num

end Coralign.Props
