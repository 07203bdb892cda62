import Verif.Base.Arr2
import Mathlib.Algebra.BigOperators.Finprod
import Mathlib.Algebra.BigOperators.Fin

/-!
# Sums over the pixels of an array, as sums over the whole integer plane

`zext` is the image extended by zeros to the whole integer plane.  A sum over the pixels of a quantity that
vanishes where the image does is the sum over the plane, so translations and reflections of the image are
just bijections of the plane.
-/

namespace Coralign

namespace Arr2

variable {K : Type}

/-- The image extended by zeros. -/
def zext [Zero K] (a : Arr2 K) (i j : ℤ) : K := (a.px i j).getD 0

theorem zext_val [Zero K] (a : Arr2 K) (i : Fin a.nr) (j : Fin a.nc) :
    a.zext (i : ℕ) (j : ℕ) = a.val i j := by
  unfold zext; rw [px_val]; rfl

theorem zext_ne_zero [Zero K] (a : Arr2 K) {i j : ℤ} (h : a.zext i j ≠ 0) :
    (0 ≤ i ∧ i < a.nr) ∧ (0 ≤ j ∧ j < a.nc) := by
  by_contra hc
  exact h (by unfold zext; rw [px_of_not_inB a hc]; rfl)

/-- A pixel sum is a sum over the plane. -/
theorem sum_eq_finsum [Zero K] {M : Type} [AddCommMonoid M] (a : Arr2 K) (g : ℤ → ℤ → K → M)
    (hg : ∀ i j, g i j 0 = 0) :
    ∑ i : Fin a.nr, ∑ j : Fin a.nc, g (i : ℕ) (j : ℕ) (a.val i j) =
      ∑ᶠ p : ℤ × ℤ, g p.1 p.2 (a.zext p.1 p.2) := by
  classical
  let e : Fin a.nr × Fin a.nc ↪ ℤ × ℤ :=
    ⟨fun p => (((p.1 : ℕ) : ℤ), ((p.2 : ℕ) : ℤ)), by
      rintro ⟨i, j⟩ ⟨i', j'⟩ h
      simp only [Prod.mk.injEq, Nat.cast_inj] at h
      exact Prod.ext (Fin.ext h.1) (Fin.ext h.2)⟩
  rw [finsum_eq_sum_of_support_subset (s := Finset.univ.map e)]
  · rw [Finset.sum_map, ← Finset.univ_product_univ, Finset.sum_product]
    refine Finset.sum_congr rfl fun i _ => Finset.sum_congr rfl fun j _ => ?_
    show _ = g (i : ℕ) (j : ℕ) (a.zext (i : ℕ) (j : ℕ))
    rw [zext_val]
  · rintro ⟨i, j⟩ h
    have hz : a.zext i j ≠ 0 := by
      intro h0
      apply h
      show g i j (a.zext i j) = 0
      rw [h0, hg]
    have hb := zext_ne_zero a hz
    simp only [Finset.coe_map, Finset.coe_univ, Set.image_univ, Set.mem_range]
    refine ⟨(⟨i.toNat, by omega⟩, ⟨j.toNat, by omega⟩), ?_⟩
    show (((i.toNat : ℕ) : ℤ), ((j.toNat : ℕ) : ℤ)) = (i, j)
    rw [Int.toNat_of_nonneg hb.1.1, Int.toNat_of_nonneg hb.2.1]

end Arr2

end Coralign
