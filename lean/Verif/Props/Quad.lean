import Verif.Model.Quad
import Verif.Spec.Center
import Mathlib.Algebra.BigOperators.Ring.Finset
import Mathlib.Algebra.BigOperators.Field
import Mathlib.Tactic.FieldSimp
import Mathlib.Tactic.Linarith

/-!
# Property C11: `quadrant_energy_balance`
-/

namespace Coralign.Props

open Coralign Coralign.Spec

/-- Specification: `b` is the mirror image of `a` about column `ox` (columns reversed, rows kept). -/
def MirroredX (a b : Arr2 ℝ) (ox : ℤ) : Prop := ∀ i j, b.zext i (2 * ox - j) = a.zext i j
/-- Specification: `b` is the mirror image of `a` about row `oy`. -/
def MirroredY (a b : Arr2 ℝ) (oy : ℤ) : Prop := ∀ i j, b.zext (2 * oy - i) j = a.zext i j

/-- Specification: the energy of the pixels within `radius` of the origin whose offset satisfies `q`. -/
noncomputable def discEnergy (a : Arr2 ℝ) (ox oy : ℤ) (radius : ℝ) (q : ℤ → ℤ → Prop) : ℝ :=
  ∑ i : Fin a.nr, ∑ j : Fin a.nc,
    sel (q (((j : ℕ) : ℤ) - ox) (((i : ℕ) : ℤ) - oy) ∧
      ((((j : ℕ) : ℤ) - ox : ℤ) : ℝ) ^ 2 + ((((i : ℕ) : ℤ) - oy : ℤ) : ℝ) ^ 2 ≤ radius ^ 2) (a.val i j)

theorem quadCounts_eq (a : Arr2 ℝ) (ox oy : ℤ) (radius : ℝ) (hr : 0 ≤ radius) (q : ℝ → ℝ → Prop)
    (q' : ℤ → ℤ → Prop) (hq : ∀ x y : ℤ, q x y ↔ q' x y) :
    quadCounts a ox oy radius q = discEnergy a ox oy radius q' / energy a := by
  unfold quadCounts discEnergy energy
  simp only [Finset.sum_div]
  refine Finset.sum_congr rfl fun i _ => Finset.sum_congr rfl fun j _ => ?_
  rw [hq, cart2pol]
  dsimp only
  rw [Real.sqrt_le_left hr]
  by_cases h : q' (((j : ℕ) : ℤ) - ox) (((i : ℕ) : ℤ) - oy) ∧
      ((((j : ℕ) : ℤ) - ox : ℤ) : ℝ) ^ 2 + ((((i : ℕ) : ℤ) - oy : ℤ) : ℝ) ^ 2 ≤ radius ^ 2
  · rw [sel_pos h, sel_pos h]
  · rw [sel_neg h, sel_neg h, zero_div]

/-- The disc energy as a sum over the plane. -/
theorem discEnergy_finsum (a : Arr2 ℝ) (ox oy : ℤ) (radius : ℝ) (q : ℤ → ℤ → Prop) :
    discEnergy a ox oy radius q = ∑ᶠ p : ℤ × ℤ, sel (q (p.2 - ox) (p.1 - oy) ∧
        ((p.2 - ox : ℤ) : ℝ) ^ 2 + ((p.1 - oy : ℤ) : ℝ) ^ 2 ≤ radius ^ 2) (a.zext p.1 p.2) := by
  unfold discEnergy
  rw [Arr2.sum_eq_finsum a (fun i j v => sel (q (j - ox) (i - oy) ∧
      ((j - ox : ℤ) : ℝ) ^ 2 + ((i - oy : ℤ) : ℝ) ^ 2 ≤ radius ^ 2) v) (by simp)]

theorem energy_finsum (a : Arr2 ℝ) : energy a = ∑ᶠ p : ℤ × ℤ, a.zext p.1 p.2 := by
  unfold energy
  rw [Arr2.sum_eq_finsum a (fun _ _ v => v) (by simp)]

/-- Reflection of the columns about `ox`. -/
def reflX (ox : ℤ) : ℤ × ℤ ≃ ℤ × ℤ := (Equiv.refl ℤ).prodCongr (Equiv.subLeft (2 * ox))
def reflY (oy : ℤ) : ℤ × ℤ ≃ ℤ × ℤ := (Equiv.subLeft (2 * oy)).prodCongr (Equiv.refl ℤ)

theorem discEnergy_mirrorX {a b : Arr2 ℝ} {ox : ℤ} (h : MirroredX a b ox) (oy : ℤ) (radius : ℝ)
    (q : ℤ → ℤ → Prop) :
    discEnergy b ox oy radius q = discEnergy a ox oy radius (fun x y => q (-x) y) := by
  rw [discEnergy_finsum, discEnergy_finsum, ← finsum_comp_equiv (reflX ox)]
  refine finsum_congr fun p => ?_
  show sel (q (2 * ox - p.2 - ox) (p.1 - oy) ∧ ((2 * ox - p.2 - ox : ℤ) : ℝ) ^ 2 + ((p.1 - oy : ℤ) : ℝ) ^ 2
    ≤ radius ^ 2) (b.zext p.1 (2 * ox - p.2)) = _
  rw [h]
  have e : 2 * ox - p.2 - ox = -(p.2 - ox) := by ring
  rw [e]
  push_cast
  rw [neg_sq]

theorem discEnergy_mirrorY {a b : Arr2 ℝ} {oy : ℤ} (h : MirroredY a b oy) (ox : ℤ) (radius : ℝ)
    (q : ℤ → ℤ → Prop) :
    discEnergy b ox oy radius q = discEnergy a ox oy radius (fun x y => q x (-y)) := by
  rw [discEnergy_finsum, discEnergy_finsum, ← finsum_comp_equiv (reflY oy)]
  refine finsum_congr fun p => ?_
  show sel (q (p.2 - ox) (2 * oy - p.1 - oy) ∧ ((p.2 - ox : ℤ) : ℝ) ^ 2 + ((2 * oy - p.1 - oy : ℤ) : ℝ) ^ 2
    ≤ radius ^ 2) (b.zext (2 * oy - p.1) p.2) = _
  rw [h]
  have e : 2 * oy - p.1 - oy = -(p.1 - oy) := by ring
  rw [e]
  push_cast
  rw [neg_sq]

theorem energy_mirrorX {a b : Arr2 ℝ} {ox : ℤ} (h : MirroredX a b ox) : energy b = energy a := by
  rw [energy_finsum, energy_finsum, ← finsum_comp_equiv (reflX ox)]
  exact finsum_congr fun p => h p.1 p.2

theorem energy_mirrorY {a b : Arr2 ℝ} {oy : ℤ} (h : MirroredY a b oy) : energy b = energy a := by
  rw [energy_finsum, energy_finsum, ← finsum_comp_equiv (reflY oy)]
  exact finsum_congr fun p => h p.1 p.2

/-- The balances the code computes, in terms of disc energies. -/
theorem balance_eq (a : Arr2 ℝ) (ox oy : ℤ) (radius : ℝ) (hr : 0 ≤ radius) (hx : 0 ≤ ox) (hy : 0 ≤ oy)
    (hx' : ox < a.nr) (hy' : oy < a.nc) (he : energy a ≠ 0) :
    quadrantEnergyBalance a ox oy radius = .ok (some (
      (discEnergy a ox oy radius (fun x y => x ≥ 0 ∧ y ≥ 0) + discEnergy a ox oy radius (fun x y => x ≥ 0 ∧ y ≤ 0)
        - (discEnergy a ox oy radius (fun x y => x ≤ 0 ∧ y ≥ 0)
          + discEnergy a ox oy radius (fun x y => x ≤ 0 ∧ y ≤ 0))) / energy a,
      (discEnergy a ox oy radius (fun x y => x ≥ 0 ∧ y ≥ 0) + discEnergy a ox oy radius (fun x y => x ≤ 0 ∧ y ≥ 0)
        - (discEnergy a ox oy radius (fun x y => x ≥ 0 ∧ y ≤ 0)
          + discEnergy a ox oy radius (fun x y => x ≤ 0 ∧ y ≤ 0))) / energy a)) := by
  unfold quadrantEnergyBalance
  rw [if_neg (by linarith), if_neg (by omega), if_neg (by omega), if_neg (by omega), if_neg (by omega)]
  simp only
  rw [if_neg (show ¬ ∑ i : Fin a.nr, ∑ j : Fin a.nc, a.val i j = 0 from he)]
  rw [quadCounts_eq a ox oy radius hr (fun x y => x ≥ 0 ∧ y ≥ 0) (fun x y => x ≥ 0 ∧ y ≥ 0) (by intros; simp),
    quadCounts_eq a ox oy radius hr (fun x y => x ≤ 0 ∧ y ≥ 0) (fun x y => x ≤ 0 ∧ y ≥ 0) (by intros; simp),
    quadCounts_eq a ox oy radius hr (fun x y => x ≥ 0 ∧ y ≤ 0) (fun x y => x ≥ 0 ∧ y ≤ 0) (by intros; simp),
    quadCounts_eq a ox oy radius hr (fun x y => x ≤ 0 ∧ y ≤ 0) (fun x y => x ≤ 0 ∧ y ≤ 0) (by intros; simp)]
  congr 3 <;> ring

/-- What a successful call tells about its arguments. -/
theorem balance_ok_inv {a : Arr2 ℝ} {ox oy : ℤ} {radius : ℝ} {d : ℝ × ℝ}
    (ha : quadrantEnergyBalance a ox oy radius = .ok (some d)) :
    0 ≤ radius ∧ 0 ≤ ox ∧ 0 ≤ oy ∧ ox < a.nr ∧ oy < a.nc ∧ energy a ≠ 0 := by
  have hr : 0 ≤ radius := by
    by_contra hn; unfold quadrantEnergyBalance at ha; rw [if_pos (by linarith)] at ha; cases ha
  have hx : 0 ≤ ox := by
    by_contra hn; unfold quadrantEnergyBalance at ha
    rw [if_neg (by linarith), if_pos (by omega)] at ha; cases ha
  have hy : 0 ≤ oy := by
    by_contra hn; unfold quadrantEnergyBalance at ha
    rw [if_neg (by linarith), if_neg (by omega), if_pos (by omega)] at ha; cases ha
  have hx' : ox < a.nr := by
    by_contra hn; unfold quadrantEnergyBalance at ha
    rw [if_neg (by linarith), if_neg (by omega), if_neg (by omega), if_pos hn] at ha; cases ha
  have hy' : oy < a.nc := by
    by_contra hn; unfold quadrantEnergyBalance at ha
    rw [if_neg (by linarith), if_neg (by omega), if_neg (by omega), if_neg (by omega), if_pos hn] at ha
    cases ha
  have he : energy a ≠ 0 := by
    intro h0; unfold quadrantEnergyBalance at ha; unfold energy at h0
    rw [if_neg (by linarith), if_neg (by omega), if_neg (by omega), if_neg (by omega), if_neg (by omega)] at ha
    simp only at ha
    rw [if_pos h0] at ha
    cases ha
  exact ⟨hr, hx, hy, hx', hy', he⟩

/-- **C11.** Mirroring the image left-right about the origin column negates the x balance and keeps the
y balance. -/
theorem C11_mirror_x (a b : Arr2 ℝ) (ox oy : ℤ) (radius : ℝ) (dx dy : ℝ) (h : MirroredX a b ox)
    (hb : ox < b.nr ∧ oy < b.nc)
    (ha : quadrantEnergyBalance a ox oy radius = .ok (some (dx, dy))) :
    quadrantEnergyBalance b ox oy radius = .ok (some (-dx, dy)) := by
  obtain ⟨hr, hx, hy, hx', hy', he⟩ := balance_ok_inv ha
  rw [balance_eq a ox oy radius hr hx hy hx' hy' he] at ha
  rw [balance_eq b ox oy radius hr hx hy hb.1 hb.2 (by rw [energy_mirrorX h]; exact he), energy_mirrorX h]
  simp only [discEnergy_mirrorX h, Left.nonneg_neg_iff, Left.neg_nonpos_iff, ge_iff_le] at ha ⊢
  simp only [Except.ok.injEq, Option.some.injEq, Prod.mk.injEq] at ha ⊢
  rw [← ha.1, ← ha.2]
  constructor <;> ring

/-- **C11.** Mirroring the image up-down about the origin row negates the y balance and keeps the x balance. -/
theorem C11_mirror_y (a b : Arr2 ℝ) (ox oy : ℤ) (radius : ℝ) (dx dy : ℝ) (h : MirroredY a b oy)
    (hb : ox < b.nr ∧ oy < b.nc)
    (ha : quadrantEnergyBalance a ox oy radius = .ok (some (dx, dy))) :
    quadrantEnergyBalance b ox oy radius = .ok (some (dx, -dy)) := by
  obtain ⟨hr, hx, hy, hx', hy', he⟩ := balance_ok_inv ha
  rw [balance_eq a ox oy radius hr hx hy hx' hy' he] at ha
  rw [balance_eq b ox oy radius hr hx hy hb.1 hb.2 (by rw [energy_mirrorY h]; exact he), energy_mirrorY h]
  simp only [discEnergy_mirrorY h, Left.nonneg_neg_iff, Left.neg_nonpos_iff, ge_iff_le] at ha ⊢
  simp only [Except.ok.injEq, Option.some.injEq, Prod.mk.injEq] at ha ⊢
  rw [← ha.1, ← ha.2]
  constructor <;> ring

/-- **C11.** An image that is its own mirror image about the origin column has x balance exactly zero;
likewise for rows. -/
theorem C11_symmetric (a : Arr2 ℝ) (ox oy : ℤ) (radius dx dy : ℝ)
    (ha : quadrantEnergyBalance a ox oy radius = .ok (some (dx, dy))) (hb : ox < a.nr ∧ oy < a.nc) :
    (MirroredX a a ox → dx = 0) ∧ (MirroredY a a oy → dy = 0) := by
  constructor
  · intro h
    have := C11_mirror_x a a ox oy radius dx dy h hb ha
    rw [ha] at this
    simp only [Except.ok.injEq, Option.some.injEq, Prod.mk.injEq] at this
    linarith [this.1]
  · intro h
    have := C11_mirror_y a a ox oy radius dx dy h hb ha
    rw [ha] at this
    simp only [Except.ok.injEq, Option.some.injEq, Prod.mk.injEq] at this
    linarith [this.2]

theorem discEnergy_split (a : Arr2 ℝ) (ox oy : ℤ) (radius : ℝ) (q q1 q2 q3 : ℤ → ℤ → Prop)
    (h : ∀ x y, (q1 x y ∧ ¬ q2 x y ∧ (q x y ∧ ¬ q3 x y)) ∨ (¬ q1 x y ∧ q2 x y ∧ q x y ∧ ¬ q3 x y) ∨
      (q1 x y ∧ q2 x y ∧ q x y ∧ q3 x y) ∨ (¬ q1 x y ∧ ¬ q2 x y ∧ ¬ q x y ∧ ¬ q3 x y)) :
    discEnergy a ox oy radius q1 + discEnergy a ox oy radius q2
      = discEnergy a ox oy radius q + discEnergy a ox oy radius q3 := by
  unfold discEnergy
  rw [← Finset.sum_add_distrib, ← Finset.sum_add_distrib]
  refine Finset.sum_congr rfl fun i _ => ?_
  rw [← Finset.sum_add_distrib, ← Finset.sum_add_distrib]
  refine Finset.sum_congr rfl fun j _ => ?_
  rcases h (((j : ℕ) : ℤ) - ox) (((i : ℕ) : ℤ) - oy) with h | h | h | h <;> simp [h] <;> ring

/-- **C11 (partial).** The balances are the difference of the normalised energies of the two closed half planes
*plus that difference once more on the coordinate axis*: pixels on the axis through the origin count twice.
Full property: without the second term; see `C11_axis_counted_twice` for a counterexample. -/
theorem C11_half_planes_partial (a : Arr2 ℝ) (ox oy : ℤ) (radius : ℝ) (hr : 0 ≤ radius) (hx : 0 ≤ ox)
    (hy : 0 ≤ oy) (hx' : ox < a.nr) (hy' : oy < a.nc) (he : energy a ≠ 0) :
    quadrantEnergyBalance a ox oy radius = .ok (some (
      (discEnergy a ox oy radius (fun x _ => x ≥ 0) - discEnergy a ox oy radius (fun x _ => x ≤ 0)) / energy a
      + (discEnergy a ox oy radius (fun x y => x ≥ 0 ∧ y = 0)
          - discEnergy a ox oy radius (fun x y => x ≤ 0 ∧ y = 0)) / energy a,
      (discEnergy a ox oy radius (fun _ y => y ≥ 0) - discEnergy a ox oy radius (fun _ y => y ≤ 0)) / energy a
      + (discEnergy a ox oy radius (fun x y => x = 0 ∧ y ≥ 0)
          - discEnergy a ox oy radius (fun x y => x = 0 ∧ y ≤ 0)) / energy a)) := by
  rw [balance_eq a ox oy radius hr hx hy hx' hy' he]
  rw [discEnergy_split a ox oy radius (fun x _ => x ≥ 0) (fun x y => x ≥ 0 ∧ y ≥ 0) (fun x y => x ≥ 0 ∧ y ≤ 0)
      (fun x y => x ≥ 0 ∧ y = 0) (by intros; omega),
    discEnergy_split a ox oy radius (fun x _ => x ≤ 0) (fun x y => x ≤ 0 ∧ y ≥ 0) (fun x y => x ≤ 0 ∧ y ≤ 0)
      (fun x y => x ≤ 0 ∧ y = 0) (by intros; omega),
    discEnergy_split a ox oy radius (fun _ y => y ≥ 0) (fun x y => x ≥ 0 ∧ y ≥ 0) (fun x y => x ≤ 0 ∧ y ≥ 0)
      (fun x y => x = 0 ∧ y ≥ 0) (by intros; omega),
    discEnergy_split a ox oy radius (fun _ y => y ≤ 0) (fun x y => x ≥ 0 ∧ y ≤ 0) (fun x y => x ≤ 0 ∧ y ≤ 0)
      (fun x y => x = 0 ∧ y ≤ 0) (by intros; omega)]
  congr 3 <;> ring

/-- A 3 x 3 image with a single bright pixel right of the centre, on the axis. -/
noncomputable def onAxisImage : Arr2 ℝ := Arr2.ofFn 3 3 fun i j => if i = 1 ∧ j = 2 then 1 else 0

/-- **C11 is violated**: all the energy of this image lies in the closed right half plane and none in the left,
so the x balance should be 1; the code returns 2. -/
theorem C11_axis_counted_twice : quadrantEnergyBalance onAxisImage 1 1 1 = .ok (some (2, 0)) := by
  have he : energy onAxisImage = 1 := by
    show ∑ i : Fin 3, ∑ j : Fin 3, (if (i : ℕ) = 1 ∧ (j : ℕ) = 2 then (1 : ℝ) else 0) = 1
    rw [Fin.sum_univ_three]
    simp only [Fin.sum_univ_three]
    norm_num
  have hd : ∀ q : ℤ → ℤ → Prop, discEnergy onAxisImage 1 1 1 q = sel (q 1 0) 1 := by
    intro q
    show ∑ i : Fin 3, ∑ j : Fin 3, sel (q (((j : ℕ) : ℤ) - 1) (((i : ℕ) : ℤ) - 1) ∧
      ((((j : ℕ) : ℤ) - 1 : ℤ) : ℝ) ^ 2 + ((((i : ℕ) : ℤ) - 1 : ℤ) : ℝ) ^ 2 ≤ 1 ^ 2)
      (if (i : ℕ) = 1 ∧ (j : ℕ) = 2 then (1 : ℝ) else 0) = _
    simp [Fin.sum_univ_three]
    norm_num
  rw [balance_eq onAxisImage 1 1 1 (by norm_num) (by norm_num) (by norm_num) (by simp [onAxisImage])
    (by simp [onAxisImage]) (by rw [he]; norm_num), he]
  simp only [hd]
  norm_num

/-- **C11, origins.** What the code accepts: `x_origin` below the number of *rows* and `y_origin` below the
number of *columns*.  Full property: with rows and columns the other way round. -/
theorem C11_origin_checks_partial (a : Arr2 ℝ) (ox oy : ℤ) (radius : ℝ) (hr : 0 ≤ radius) (hx : 0 ≤ ox)
    (hy : 0 ≤ oy) :
    (ox < a.nr ∧ oy < a.nc → ∃ r, quadrantEnergyBalance a ox oy radius = .ok r) ∧
    (¬ (ox < a.nr ∧ oy < a.nc) → quadrantEnergyBalance a ox oy radius = .error .valueError) := by
  unfold quadrantEnergyBalance
  rw [if_neg (by linarith), if_neg (by omega), if_neg (by omega)]
  constructor
  · rintro ⟨h1, h2⟩
    rw [if_neg (by omega), if_neg (by omega)]
    simp only
    split <;> exact ⟨_, rfl⟩
  · intro h
    by_cases h1 : ox < a.nr
    · rw [if_neg (by omega), if_pos (by omega)]
    · rw [if_pos h1]

/-- **C11.** For square images the origin checks are right: exactly the origins inside the image are accepted. -/
theorem C11_origin_checks_square (a : Arr2 ℝ) (hs : a.nr = a.nc) (ox oy : ℤ) (radius : ℝ) (hr : 0 ≤ radius)
    (hx : 0 ≤ ox) (hy : 0 ≤ oy) :
    (∃ r, quadrantEnergyBalance a ox oy radius = .ok r) ↔ a.InB oy ox := by
  obtain ⟨h1, h2⟩ := C11_origin_checks_partial a ox oy radius hr hx hy
  constructor
  · rintro ⟨r, hr'⟩
    by_contra hn
    rw [h2 (by intro h; exact hn (by unfold Arr2.InB; omega))] at hr'
    cases hr'
  · intro h
    unfold Arr2.InB at h
    exact h1 (by omega)

/-- **C11 is violated for non-square images**: a valid origin (column 2 of a 2 x 3 image) is rejected, and an
origin outside the image (column 2 of a 3 x 2 image) is accepted. -/
theorem C11_origin_checks_swapped :
    quadrantEnergyBalance (Arr2.full 2 3 1) 2 0 1 = .error .valueError ∧
    ∃ r, quadrantEnergyBalance (Arr2.full 3 2 1) 2 0 1 = .ok r := by
  refine ⟨(C11_origin_checks_partial _ 2 0 1 (by norm_num) (by norm_num) (by norm_num)).2 (by simp), ?_⟩
  exact (C11_origin_checks_partial _ 2 0 1 (by norm_num) (by norm_num) (by norm_num)).1 (by simp)

/-- Hypotheses of the mirror theorems are met by a non-trivial image: `onAxisImage` and its mirror image. -/
example : MirroredX onAxisImage (Arr2.ofFn 3 3 fun i j => if i = 1 ∧ j = 0 then 1 else 0) 1 := by
  intro i j
  simp only [Arr2.zext, onAxisImage, Arr2.px_ofFn]
  by_cases h : (0 ≤ i ∧ i < (3 : ℕ)) ∧ (0 ≤ j ∧ j < (3 : ℕ))
  · rw [if_pos h, if_pos (by omega)]
    simp only [Option.getD_some]
    by_cases h2 : i.toNat = 1 ∧ j.toNat = 2
    · rw [if_pos h2, if_pos (by omega)]
    · rw [if_neg h2, if_neg (by omega)]
  · rw [if_neg h, if_neg (by omega)]

end Coralign.Props
