import Verif.Model.BadPixels
import Verif.Props.Center
import Verif.Props.Quad
import Verif.Props.NormFactor

/-!
# Property C113: bad pixels

Images in which some pixels are NaN, as `combine` and `crop` deliver them.
-/

namespace Coralign.Props

open Coralign Coralign.Spec

/-! ### Arithmetic with NaN -/

section arith
variable {K : Type}

theorem fl_add_num [AddCommMonoid K] (x y : K) : (Fl.num x : Fl K) + Fl.num y = Fl.num (x + y) := rfl
theorem fl_nan_add [AddCommMonoid K] (x : Fl K) : (Fl.nan : Fl K) + x = Fl.nan := by cases x <;> rfl
theorem fl_add_nan [AddCommMonoid K] (x : Fl K) : x + (Fl.nan : Fl K) = Fl.nan := by cases x <;> rfl
theorem fl_mul_num [Mul K] (x y : K) : (Fl.num x : Fl K) * Fl.num y = Fl.num (x * y) := rfl
theorem fl_nan_mul [Mul K] (x : Fl K) : (Fl.nan : Fl K) * x = Fl.nan := by cases x <;> rfl
theorem fl_mul_nan [Mul K] (x : Fl K) : x * (Fl.nan : Fl K) = Fl.nan := by cases x <;> rfl
theorem fl_zero [AddCommMonoid K] : (0 : Fl K) = Fl.num 0 := rfl
theorem fl_quot_nan [Div K] [Zero K] [DecidableEq K] (x : Fl K) : x.quot Fl.nan = Fl.nan := by cases x <;> rfl
theorem fl_nan_quot [Div K] [Zero K] [DecidableEq K] (x : Fl K) : (Fl.nan : Fl K).quot x = Fl.nan := by cases x <;> rfl

theorem fl_sum_nan [AddCommMonoid K] {ι : Type} [DecidableEq ι] (s : Finset ι) (f : ι → Fl K) :
    ∑ i ∈ s, f i = Fl.nan ↔ ∃ i ∈ s, f i = Fl.nan := by
  induction s using Finset.induction_on with
  | empty => simp [fl_zero]
  | insert a s ha ih =>
    rw [Finset.sum_insert ha]
    constructor
    · intro h
      cases hf : f a with
      | nan => exact ⟨a, Finset.mem_insert_self _ _, hf⟩
      | num x =>
        cases hs : ∑ i ∈ s, f i with
        | nan =>
          obtain ⟨i, hi, h'⟩ := ih.mp hs
          exact ⟨i, Finset.mem_insert_of_mem hi, h'⟩
        | num y => rw [hf, hs, fl_add_num] at h; cases h
    · rintro ⟨i, hi, h⟩
      rcases Finset.mem_insert.mp hi with rfl | hi
      · rw [h, fl_nan_add]
      · rw [ih.mpr ⟨i, hi, h⟩, fl_add_nan]

theorem fl_sum_num [AddCommMonoid K] {ι : Type} [DecidableEq ι] (s : Finset ι) (f : ι → K) :
    ∑ i ∈ s, (Fl.num (f i) : Fl K) = Fl.num (∑ i ∈ s, f i) := by
  induction s using Finset.induction_on with
  | empty => rfl
  | insert a s ha ih => rw [Finset.sum_insert ha, Finset.sum_insert ha, ih, fl_add_num]

end arith

/-! ### `np.argmax` -/

theorem argmaxUptoN_nan (f : ℕ → Fl ℝ) (k : ℕ) (h : ∃ i ≤ k, f i = .nan) :
    argmaxUptoN f k ≤ k ∧ f (argmaxUptoN f k) = .nan ∧ ∀ i < argmaxUptoN f k, f i ≠ .nan := by
  have le : ∀ k, argmaxUptoN f k ≤ k := by
    intro k
    induction k with
    | zero => exact le_rfl
    | succ k ih =>
      unfold argmaxUptoN
      split
      · omega
      · exact le_rfl
      · split <;> omega
  have main : ∀ k, (∃ i ≤ k, f i = .nan) → f (argmaxUptoN f k) = .nan ∧ ∀ i < argmaxUptoN f k, f i ≠ .nan := by
    intro k
    induction k with
    | zero =>
      rintro ⟨i, hi, h⟩
      obtain rfl : i = 0 := by omega
      exact ⟨h, fun j hj => absurd hj (Nat.not_lt_zero j)⟩
    | succ k ih =>
      intro hk
      by_cases hex : ∃ i ≤ k, f i = .nan
      · obtain ⟨h1, h2⟩ := ih hex
        have e : argmaxUptoN f (k + 1) = argmaxUptoN f k := by
          rw [argmaxUptoN]
          simp only [h1]
        rw [e]
        exact ⟨h1, h2⟩
      · have hall : ∀ i ≤ k, f i ≠ .nan := fun i hi h => hex ⟨i, hi, h⟩
        have hlast : f (k + 1) = .nan := by
          obtain ⟨i, hi, h⟩ := hk
          rcases Nat.lt_or_ge i (k + 1) with h' | h'
          · exact absurd h (hall i (by omega))
          · rwa [show k + 1 = i by omega]
        have e : argmaxUptoN f (k + 1) = k + 1 := by
          rw [argmaxUptoN]
          cases hb : f (argmaxUptoN f k) with
          | nan => exact absurd hb (hall _ (le k))
          | num x => simp only [hlast]
        rw [e]
        exact ⟨hlast, fun i hi => hall i (by omega)⟩
  exact ⟨le k, main k h⟩

theorem argmaxUptoN_num (f : ℕ → Fl ℝ) (g : ℕ → ℝ) (k : ℕ) (h : ∀ i ≤ k, f i = .num (g i)) : argmaxUptoN f k = argmaxUpto g k := by
  induction k with
  | zero => rfl
  | succ k ih =>
    have e := ih fun i hi => h i (by omega)
    rw [argmaxUptoN, argmaxUpto, e, h _ ((argmaxUpto_spec g k).1.trans (by omega)), h (k + 1) le_rfl]

/-- On an image of NaN the first pixel is chosen. -/
theorem argmax2N_all (a : Arr2 (Fl ℝ)) (hr : 0 < a.nr) (hc : 0 < a.nc) (h : ∀ i j, a.val i j = .nan) : argmax2N a = (0, 0) := by
  have h0 : (fun p : ℕ => (a.px ((p / a.nc : ℕ) : ℤ) ((p % a.nc : ℕ) : ℤ)).getD (.num 0)) 0 = Fl.nan := by
    simp only [Nat.zero_div, Nat.zero_mod]
    have := Arr2.px_val a ⟨0, hr⟩ ⟨0, hc⟩
    simp only at this
    rw [this, h]
    rfl
  obtain ⟨-, -, h3⟩ := argmaxUptoN_nan (fun p : ℕ => (a.px ((p / a.nc : ℕ) : ℤ) ((p % a.nc : ℕ) : ℤ)).getD (.num 0))
    (a.nr * a.nc - 1) ⟨0, Nat.zero_le _, h0⟩
  unfold argmax2N
  have : argmaxUptoN (fun p : ℕ => (a.px ((p / a.nc : ℕ) : ℤ) ((p % a.nc : ℕ) : ℤ)).getD (.num 0)) (a.nr * a.nc - 1) = 0 := by
    by_contra hn
    exact h3 0 (Nat.pos_of_ne_zero hn) h0
  simp only [this, Nat.zero_div, Nat.zero_mod]

theorem argmax2N_nums (a : Arr2 ℝ) (hr : 0 < a.nr) (hc : 0 < a.nc) : argmax2N a.nums = argmax2 a := by
  unfold argmax2N argmax2
  have hpos : 0 < a.nr * a.nc := Nat.mul_pos hr hc
  have e := argmaxUptoN_num (fun p : ℕ => (a.nums.px ((p / a.nc : ℕ) : ℤ) ((p % a.nc : ℕ) : ℤ)).getD (.num 0))
    (fun p => a.zext ((p / a.nc : ℕ) : ℤ) ((p % a.nc : ℕ) : ℤ)) (a.nr * a.nc - 1) (fun i hi => by
      unfold Arr2.nums Arr2.zext
      simp only [Arr2.px_map]
      have h1 : i / a.nc < a.nr := (Nat.div_lt_iff_lt_mul hc).mpr (by omega)
      have h2 : i % a.nc < a.nc := Nat.mod_lt _ hc
      have h3 : (0 : ℤ) ≤ ((i / a.nc : ℕ) : ℤ) := Int.natCast_nonneg _
      have h4 : ((i / a.nc : ℕ) : ℤ) < a.nr := by exact_mod_cast h1
      have h5 : (0 : ℤ) ≤ ((i % a.nc : ℕ) : ℤ) := Int.natCast_nonneg _
      have h6 : ((i % a.nc : ℕ) : ℤ) < a.nc := by exact_mod_cast h2
      rw [Arr2.px_of_inB a ⟨⟨h3, h4⟩, h5, h6⟩]
      rfl)
  simp only [show a.nums.nr = a.nr from rfl, show a.nums.nc = a.nc from rfl, e]

/-! ### Sums that use the bad pixel -/

/-- **C113.** A NaN pixel anywhere makes both outputs of `center_of_energy` NaN. -/
theorem C113_center {K : Type} [Field K] [DecidableEq K] (a : Arr2 (Fl K)) (h : HasNan a) : centerOfEnergyN a = (.nan, .nan) := by
  obtain ⟨i, j, hij⟩ := h
  have hm : (i, j) ∈ nonzeroPixelsN a := by
    unfold nonzeroPixelsN
    rw [Finset.mem_filter]
    exact ⟨Finset.mem_univ _, by simp only [hij]; exact fun h => by cases h⟩
  have ht : ∑ p ∈ nonzeroPixelsN a, a.val p.1 p.2 = .nan := (fl_sum_nan _ _).mpr ⟨(i, j), hm, hij⟩
  unfold centerOfEnergyN
  simp only [ht, fl_quot_nan, fl_mul_nan]
  rw [(fl_sum_nan _ _).mpr ⟨(i, j), hm, rfl⟩]

/-- Without NaN the model with NaN answers what the model without answers. -/
theorem C113_center_numbers {K : Type} [Field K] [DecidableEq K] (a : Arr2 K) (x y : K) (h : centerOfEnergy a = some (x, y)) :
    centerOfEnergyN a.nums = (.num x, .num y) := by
  have hs : nonzeroPixelsN a.nums = nonzeroPixels a := by
    unfold nonzeroPixelsN nonzeroPixels
    refine Finset.filter_congr fun p _ => ?_
    show (Fl.num (a.val p.1 p.2) ≠ Fl.num 0) ↔ _
    simp
  unfold centerOfEnergyN
  unfold centerOfEnergy at h
  simp only at h ⊢
  rw [hs]
  have hv : ∀ p : Fin a.nr × Fin a.nc, a.nums.val p.1 p.2 = .num (a.val p.1 p.2) := fun _ => rfl
  have ht : ∑ p ∈ nonzeroPixels a, a.nums.val p.1 p.2 = .num (totalEnergy a) := by
    simp only [hv]
    exact fl_sum_num _ _
  by_cases he : nonzeroPixels a = ∅
  · rw [if_pos he] at h
    injection h with h
    injection h with h1 h2
    rw [he, ← h1, ← h2]
    rfl
  · rw [if_neg he] at h
    by_cases h0 : totalEnergy a = 0
    · rw [if_pos h0] at h; cases h
    · rw [if_neg h0] at h
      injection h with h
      injection h with h1 h2
      have hq : ∀ p : Fin a.nr × Fin a.nc, (Fl.num (a.val p.1 p.2)).quot (Fl.num (totalEnergy a)) = Fl.num (a.val p.1 p.2 / totalEnergy a) := by
        intro p
        unfold Fl.quot
        simp only
        rw [if_neg h0]
      have hx : ∑ p ∈ nonzeroPixels a, (Fl.num (((p.2 : ℕ) : K)) : Fl K) * (Fl.num (a.val p.1 p.2)).quot (Fl.num (totalEnergy a)) = .num x := by
        simp only [hq, fl_mul_num]
        rw [fl_sum_num, h1]
      have hy : ∑ p ∈ nonzeroPixels a, (Fl.num (((p.1 : ℕ) : K)) : Fl K) * (Fl.num (a.val p.1 p.2)).quot (Fl.num (totalEnergy a)) = .num y := by
        simp only [hq, fl_mul_num]
        rw [fl_sum_num, h2]
      rw [← hx, ← hy, ← ht]
      rfl

/-- **C113.** A NaN pixel anywhere, even outside the disc, makes both outputs of `quadrant_energy_balance` NaN, as long as the
origin is a pixel of the image. -/
theorem C113_quadrants (a : Arr2 (Fl ℝ)) (h : HasNan a) (ox oy : ℤ) (radius : ℝ) (hr : 0 ≤ radius) (hx : 0 ≤ ox) (hy : 0 ≤ oy)
    (hx' : ox < a.nr) (hy' : oy < a.nc) (hin : oy < a.nr ∧ ox < a.nc) :
    quadrantEnergyBalanceN a ox oy radius = .ok (.nan, .nan) := by
  classical
  obtain ⟨i, j, hij⟩ := h
  have ht : ∑ i : Fin a.nr, ∑ j : Fin a.nc, a.val i j = .nan :=
    (fl_sum_nan _ _).mpr ⟨i, Finset.mem_univ _, (fl_sum_nan _ _).mpr ⟨j, Finset.mem_univ _, hij⟩⟩
  have hcount : ∀ (q : ℝ → ℝ → Prop) (inst : ∀ (i : Fin a.nr) (j : Fin a.nc), Decidable (q ((((j : ℕ) : ℤ) - ox : ℤ)) ((((i : ℕ) : ℤ) - oy : ℤ)) ∧
        (cart2pol ((((j : ℕ) : ℤ) - ox : ℤ)) ((((i : ℕ) : ℤ) - oy : ℤ))).1 ≤ radius)), q 0 0 → (∑ i : Fin a.nr, ∑ j : Fin a.nc,
      if q ((((j : ℕ) : ℤ) - ox : ℤ)) ((((i : ℕ) : ℤ) - oy : ℤ)) ∧
        (cart2pol ((((j : ℕ) : ℤ) - ox : ℤ)) ((((i : ℕ) : ℤ) - oy : ℤ))).1 ≤ radius then (Fl.nan : Fl ℝ) else 0) = .nan := by
    intro q inst hq
    have hi0 : oy.toNat < a.nr := by omega
    have hj0 : ox.toNat < a.nc := by omega
    refine (fl_sum_nan _ _).mpr ⟨⟨oy.toNat, hi0⟩, Finset.mem_univ _, (fl_sum_nan _ _).mpr ⟨⟨ox.toNat, hj0⟩, Finset.mem_univ _, ?_⟩⟩
    have e1 : ((ox.toNat : ℕ) : ℤ) - ox = 0 := by omega
    have e2 : ((oy.toNat : ℕ) : ℤ) - oy = 0 := by omega
    rw [if_pos]
    simp only [e1, e2, Int.cast_zero]
    refine ⟨hq, ?_⟩
    unfold cart2pol
    simpa using hr
  unfold quadrantEnergyBalanceN
  rw [if_neg (by linarith), if_neg (by omega), if_neg (by omega), if_neg (by omega), if_neg (by omega)]
  simp only [ht, fl_quot_nan]
  rw [hcount (fun x y => x ≥ 0 ∧ y ≥ 0) _ ⟨le_rfl, le_rfl⟩, hcount (fun x y => x ≥ 0 ∧ y ≤ 0) _ ⟨le_rfl, le_rfl⟩,
    hcount (fun x y => x ≤ 0 ∧ y ≥ 0) _ ⟨le_rfl, le_rfl⟩, hcount (fun x y => x ≤ 0 ∧ y ≤ 0) _ ⟨le_rfl, le_rfl⟩]
  rfl

/-- **C113.** Without NaN pixels `quadrant_energy_balance` is the function of C11. -/
theorem C113_quadrants_numbers (a : Arr2 ℝ) (ox oy : ℤ) (radius x y : ℝ) (h : quadrantEnergyBalance a ox oy radius = .ok (some (x, y))) :
    quadrantEnergyBalanceN a.nums ox oy radius = .ok (.num x, .num y) := by
  classical
  unfold quadrantEnergyBalance at h
  unfold quadrantEnergyBalanceN
  split_ifs at h with h1 h2 h3 h4 h5
  simp only at h
  by_cases h6 : ∑ i : Fin a.nr, ∑ j : Fin a.nc, a.val i j = 0
  · rw [if_pos h6] at h; cases h
  rw [if_neg h6] at h
  rw [if_neg h1, if_neg h2, if_neg h3, if_neg (c := ¬ ox < (a.nums.nr : ℤ)) (not_not.mpr h4),
    if_neg (c := ¬ oy < (a.nums.nc : ℤ)) (not_not.mpr h5)]
  have ht : ∑ i : Fin a.nr, ∑ j : Fin a.nc, (Fl.num (a.val i j) : Fl ℝ) = .num (∑ i : Fin a.nr, ∑ j : Fin a.nc, a.val i j) := by
    rw [← fl_sum_num]
    exact Finset.sum_congr rfl fun i _ => fl_sum_num _ _
  have hc : ∀ (q : ℝ → ℝ → Prop),
      (∑ i : Fin a.nr, ∑ j : Fin a.nc, if q ((((j : ℕ) : ℤ) - ox : ℤ)) ((((i : ℕ) : ℤ) - oy : ℤ)) ∧
        (cart2pol ((((j : ℕ) : ℤ) - ox : ℤ)) ((((i : ℕ) : ℤ) - oy : ℤ))).1 ≤ radius then
          (Fl.num (a.val i j)).quot (Fl.num (∑ i : Fin a.nr, ∑ j : Fin a.nc, a.val i j)) else 0) = (.num (quadCounts a ox oy radius q) : Fl ℝ) := by
    intro q
    unfold quadCounts
    simp only
    refine Eq.trans (Finset.sum_congr rfl fun i _ => ?_) (fl_sum_num _ _)
    refine Eq.trans (Finset.sum_congr rfl fun j _ => ?_) (fl_sum_num _ _)
    by_cases hq : q ((((j : ℕ) : ℤ) - ox : ℤ)) ((((i : ℕ) : ℤ) - oy : ℤ)) ∧
        (cart2pol ((((j : ℕ) : ℤ) - ox : ℤ)) ((((i : ℕ) : ℤ) - oy : ℤ))).1 ≤ radius
    · rw [if_pos hq, sel_pos hq]
      show (if _ = (0 : ℝ) then Fl.nan else _) = _
      rw [if_neg h6]
    · rw [if_neg hq, sel_neg hq]; rfl
  simp only [Except.ok.injEq, Option.some.injEq, Prod.mk.injEq] at h
  obtain ⟨rfl, rfl⟩ := h
  show Except.ok (_, _) = _
  have e : ∀ q : ℝ → ℝ → Prop, (∑ i : Fin a.nr, ∑ j : Fin a.nc, if q ((((j : ℕ) : ℤ) - ox : ℤ)) ((((i : ℕ) : ℤ) - oy : ℤ)) ∧
        (cart2pol ((((j : ℕ) : ℤ) - ox : ℤ)) ((((i : ℕ) : ℤ) - oy : ℤ))).1 ≤ radius then
          (Fl.num (a.val i j)).quot (∑ i : Fin a.nr, ∑ j : Fin a.nc, (Fl.num (a.val i j) : Fl ℝ)) else 0) = (.num (quadCounts a ox oy radius q) : Fl ℝ) := by
    intro q; rw [ht]; exact hc q
  have e1 := e fun x y => x ≥ 0 ∧ y ≥ 0
  have e2 := e fun x y => x ≤ 0 ∧ y ≥ 0
  have e3 := e fun x y => x ≥ 0 ∧ y ≤ 0
  have e4 := e fun x y => x ≤ 0 ∧ y ≤ 0
  refine congrArg Except.ok (Prod.ext ?_ ?_)
  · refine Eq.trans (congrArg₂ (fun u v : Fl ℝ => u + v.neg) (congrArg₂ (· + ·) e1 e3) (congrArg₂ (· + ·) e2 e4)) ?_
    show Fl.num (_ + -_) = _
    rw [← sub_eq_add_neg]
  · refine Eq.trans (congrArg₂ (fun u v : Fl ℝ => u + v.neg) (congrArg₂ (· + ·) e1 e2) (congrArg₂ (· + ·) e3 e4)) ?_
    show Fl.num (_ + -_) = _
    rw [← sub_eq_add_neg]

/-- **C113.** A NaN entry makes the rms NaN; without one it is the rms of the entries. -/
theorem C113_rms {ι : Type} [Fintype ι] [Nonempty ι] (a : ι → Fl ℝ) :
    ((∃ i, a i = .nan) → rmsN a = .nan) ∧ ∀ v : ι → ℝ, (∀ i, a i = .num (v i)) → rmsN a = .num (rms v) := by
  classical
  constructor
  · rintro ⟨i, hi⟩
    unfold rmsN
    rw [(fl_sum_nan Finset.univ fun i => a i * a i).mpr ⟨i, Finset.mem_univ _, by rw [hi]; rfl⟩]
    rfl
  · intro v hv
    unfold rmsN rms
    simp only [hv, fl_mul_num]
    rw [fl_sum_num]
    unfold Fl.quot Fl.map
    have : (Fintype.card ι : ℝ) ≠ 0 := by exact_mod_cast Fintype.card_ne_zero
    simp only [this, if_false, pow_two]

/-- **C113.** `compute_norm_factor` is NaN when a selected pixel is NaN; NaN pixels outside the mask have no effect. -/
theorem C113_norm {n m : ℕ} (f : Fin n → Fin m → Fl ℝ) (mask : Fin n → Fin m → ℝ) (p : ℝ) (h : NormArgs mask p) :
    ((∃ i j, mask i j = 1 ∧ f i j = .nan) → computeNormFactorN ⟨n, m, f⟩ ⟨n, m, mask⟩ p = .ok .nan) ∧
    ∀ v : Fin n → Fin m → ℝ, (∀ i j, mask i j = 1 → f i j = .num (v i j)) →
      ∃ r, computeNormFactor ⟨n, m, v⟩ ⟨n, m, mask⟩ p = .ok r ∧ computeNormFactorN ⟨n, m, f⟩ ⟨n, m, mask⟩ p = .ok (.num r) := by
  classical
  have hz : ∀ (i : Fin n) (j : Fin m), ((⟨n, m, mask⟩ : Arr2 ℝ).zext ((i : ℕ) : ℤ) ((j : ℕ) : ℤ)) = mask i j := fun i j =>
    Arr2.zext_val (⟨n, m, mask⟩ : Arr2 ℝ) i j
  have open_ : computeNormFactorN ⟨n, m, f⟩ ⟨n, m, mask⟩ p =
      if .nan ∈ ((List.finRange n).flatMap fun i => ((List.finRange m).filter fun j => mask i j = 1).map fun j => f i j) then .ok .nan
      else .ok (.num (percentile (((List.finRange n).flatMap fun i => ((List.finRange m).filter fun j => mask i j = 1).map fun j => f i j).map
        fun v => match v with | .num x => x | .nan => 0) p)) := by
    obtain ⟨h1, ⟨i, j, h2⟩, h3, h4⟩ := h
    unfold computeNormFactorN
    rw [if_neg (by simp), if_neg (by
      rintro ⟨a, b, c, d⟩
      rcases h1 a b with e | e
      · exact c e
      · exact d e), if_neg (by push Not; exact ⟨h3, h4⟩), if_neg (by
        intro hc
        have := hc i j
        rw [show (⟨n, m, mask⟩ : Arr2 ℝ).val i j = mask i j from rfl, h2] at this
        exact one_ne_zero this)]
    simp only [hz]
    rfl
  constructor
  · rintro ⟨i, j, h1, h2⟩
    rw [open_, if_pos]
    simp only [List.mem_flatMap, List.mem_map, List.mem_filter, decide_eq_true_eq]
    exact ⟨i, List.mem_finRange i, j, ⟨List.mem_finRange j, h1⟩, h2⟩
  · intro v hv
    refine ⟨_, norm_eq v mask p h, ?_⟩
    rw [open_, if_neg]
    · congr 3
      unfold selectedValues
      rw [List.map_flatMap]
      congr 1
      funext i
      rw [List.map_map]
      refine List.map_congr_left fun j hj => ?_
      rw [List.mem_filter, decide_eq_true_eq] at hj
      simp only [Function.comp, hv i j hj.2]
    · simp only [List.mem_flatMap, List.mem_map, List.mem_filter, decide_eq_true_eq]
      rintro ⟨i, -, j, ⟨-, h1⟩, h2⟩
      rw [hv i j h1] at h2
      cases h2

/-! ### `psffit` -/

theorem fftN_nan (f : Arr2 ℂ → Arr2 ℂ) (a : Arr2 (Fl ℂ)) (h : HasNan a) : fftN f a = ⟨a.nr, a.nc, fun _ _ => .nan⟩ := by
  unfold fftN
  rw [if_pos h]

theorem fftN_shape (f : Arr2 ℂ → Arr2 ℂ) (hf : ∀ b, (f b).nr = b.nr ∧ (f b).nc = b.nc) (a : Arr2 (Fl ℂ)) :
    (fftN f a).nr = a.nr ∧ (fftN f a).nc = a.nc := by
  unfold fftN
  split
  · exact ⟨rfl, rfl⟩
  · exact hf _

theorem fl_map_nan {K L : Type} (f : K → L) : (Fl.nan : Fl K).map f = .nan := rfl

/-- With a NaN in either image every entry of the product is NaN. -/
theorem product_nan (src tgt : Arr2 (Fl ℝ)) (hr : src.nr = tgt.nr) (hc : src.nc = tgt.nc) (h : HasNan src ∨ HasNan tgt) :
    (imageProductN src tgt).nr = src.nr ∧ (imageProductN src tgt).nc = src.nc ∧ ∀ p q, (imageProductN src tgt).val p q = .nan := by
  have hS := fftN_shape npFft2 (fun _ => ⟨rfl, rfl⟩) (src.map (Fl.map fun x : ℝ => (x : ℂ)))
  have hT := fftN_shape npFft2 (fun _ => ⟨rfl, rfl⟩) (tgt.map (Fl.map fun x : ℝ => (x : ℂ)))
  refine ⟨hS.1, hS.2, fun p q => ?_⟩
  rcases h with ⟨i, j, h⟩ | ⟨i, j, h⟩
  · have hn : HasNan (src.map (Fl.map fun x : ℝ => (x : ℂ))) := ⟨i, j, by show Fl.map _ (src.val i j) = _; rw [h]; rfl⟩
    have : ∀ p q, (fftN npFft2 (src.map (Fl.map fun x : ℝ => (x : ℂ)))).val p q = .nan := by
      rw [fftN_nan _ _ hn]
      intro p q; rfl
    exact (congrArg (· * _) (this p q)).trans (fl_nan_mul _)
  · have hn : HasNan (tgt.map (Fl.map fun x : ℝ => (x : ℂ))) := ⟨i, j, by show Fl.map _ (tgt.val i j) = _; rw [h]; rfl⟩
    unfold imageProductN at p q ⊢
    simp only at p q ⊢
    have hp : (p : ℕ) < tgt.nr := lt_of_lt_of_eq p.isLt (hS.1.trans hr)
    have hq : (q : ℕ) < tgt.nc := lt_of_lt_of_eq q.isLt (hS.2.trans hc)
    rw [fftN_nan _ _ hn, Arr2.px_of_inB _ (by
      show ((0 : ℤ) ≤ _ ∧ _ < ((tgt.nr : ℕ) : ℤ)) ∧ (0 ≤ _ ∧ _ < ((tgt.nc : ℕ) : ℤ))
      omega)]
    simp only [Option.getD_some, fl_map_nan, fl_mul_nan]

theorem tensorPassN_nan (ups : ℕ) (k : ℕ → ℕ → ℂ) (a : Arr2 (Fl ℂ)) (hc : 0 < a.nc) (h : ∀ i j, a.val i j = .nan) (u : Fin ups) (r : Fin a.nr) :
    (tensorPassN ups k a).val u r = .nan := by
  unfold tensorPassN
  refine (fl_sum_nan Finset.univ _).mpr ⟨(⟨0, hc⟩ : Fin a.nc), Finset.mem_univ _, ?_⟩
  rw [h, fl_mul_nan]

/-- The shift that `psffit` reports as soon as a pixel is NaN: half the upsampled region, rounded down, or zero without
upsampling. -/
noncomputable def nanShift (cfg : PsfConfig) : ℝ :=
  if cfg.upsample = 1 then 0 else ((⌈cfg.upsample * cfg.pad⌉ / 2 : ℤ) : ℝ) / cfg.upsample

theorem amplitude_nan (guess tgt : Arr2 (Fl ℝ)) (thresh : ℝ) (h : HasNan tgt) : psfAmplitudeN guess tgt thresh = .nan := by
  unfold psfAmplitudeN amaxN
  rw [if_pos h, fl_mul_nan]
  have hg : ∀ v : Fl ℝ, ¬ v.gt .nan := fun v => by cases v <;> exact id
  simp only [hg, if_false, Finset.sum_const_zero]
  show (if (0 : ℝ) = 0 then Fl.nan else _) = Fl.nan
  rw [if_pos rfl]

/-- **C113 fails for `psffit`.** One NaN pixel, in either image, and the shift is a number that does not depend on the images
at all.  Only the amplitude tells, and only if the NaN is in the target. -/
theorem C113_psffit_fails (shift : ℝ → ℝ → Arr2 (Fl ℝ) → Arr2 (Fl ℝ)) (cfg : PsfConfig) (hk : 0 < cfg.upsample) (hp : 0 < cfg.pad)
    (src tgt : Arr2 (Fl ℝ)) (hr : src.nr = tgt.nr) (hc : src.nc = tgt.nc) (hr0 : src.nr ≠ 0) (hc0 : src.nc ≠ 0)
    (h : HasNan src ∨ HasNan tgt) :
    ∃ amp, psffitN shift cfg src tgt = .ok ((nanShift cfg, nanShift cfg), amp) ∧ (HasNan tgt → amp = .nan) := by
  obtain ⟨p1, p2, p3⟩ := product_nan src tgt hr hc h
  unfold psffitN
  rw [if_neg (by push Not; exact ⟨hr, hc⟩), if_neg (by push Not; exact ⟨hr0, hc0⟩)]
  generalize imageProductN src tgt = prod at p1 p2 p3
  have hpn : HasNan prod := ⟨⟨0, by omega⟩, ⟨0, by omega⟩, p3 _ _⟩
  have m0 : argmax2N ((fftN npIfft2 prod).map (Fl.map fun z : ℂ => ‖z‖)) = (0, 0) := by
    rw [fftN_nan _ _ hpn]
    refine argmax2N_all _ (show 0 < prod.nr by omega) (show 0 < prod.nc by omega) fun i j => rfl
  have u0 : ∀ n, unwrapShift n 0 = 0 := fun n => by unfold unwrapShift; rw [if_neg (by omega)]; rfl
  simp only [m0, u0, Int.cast_zero, bind, Except.bind]
  have hpos : 0 < ⌈cfg.upsample * cfg.pad⌉ := Int.ceil_pos.mpr (mul_pos hk hp)
  by_cases h1 : cfg.upsample = 1
  · rw [if_neg (by simpa using h1)]
    unfold nanShift
    rw [if_pos h1]
    simp only [neg_zero]
    exact ⟨_, rfl, amplitude_nan _ tgt _⟩
  · rw [if_pos h1]
    have hz : npRound ((0 : ℝ)) = 0 := by
      have := npRound_intCast (K := ℝ) 0
      simpa using this
    have e : refineShiftN prod cfg.upsample cfg.pad 0 0 = .ok (-nanShift cfg, -nanShift cfg) := by
      unfold refineShiftN
      simp only [Int.cast_zero, zero_mul, hz, zero_div, sub_zero]
      rw [if_neg (by omega), if_neg (by push Not; exact ⟨hk.ne', by omega, by omega⟩)]
      rw [argmax2N_all]
      · unfold nanShift
        rw [if_neg h1]
        simp only [Nat.cast_zero, zero_sub, zero_add, neg_div]
      · show 0 < ⌈cfg.upsample * cfg.pad⌉.toNat; omega
      · show 0 < ⌈cfg.upsample * cfg.pad⌉.toNat; omega
      · intro i j
        refine congrArg (fun v => Fl.map (fun z : ℂ => ‖z‖) (Fl.map (fun z : ℂ => (starRingEnd ℂ) z /
          ((prod.nr : ℂ) * (prod.nc : ℂ) * (cfg.upsample : ℂ) ^ 2)) v)) (tensorPassN_nan ⌈cfg.upsample * cfg.pad⌉.toNat _
            (tensorPassN ⌈cfg.upsample * cfg.pad⌉.toNat _ (prod.map (Fl.map (starRingEnd ℂ)))) ?_ ?_ i j)
        · show 0 < prod.nr; omega
        · intro i j
          refine tensorPassN_nan _ _ (prod.map (Fl.map (starRingEnd ℂ))) (show 0 < prod.nc by omega) (fun i j => ?_) _ _
          exact congrArg (Fl.map (starRingEnd ℂ)) (p3 i j)
    rw [e]
    simp only [neg_neg]
    exact ⟨_, rfl, amplitude_nan _ tgt _⟩

theorem nums_no_nan {K : Type} (a : Arr2 K) : ¬ HasNan a.nums := by
  rintro ⟨i, j, h⟩
  cases h

theorem fftN_nums (f : Arr2 ℂ → Arr2 ℂ) (a : Arr2 ℂ) : fftN f a.nums = (f a).nums := by
  unfold fftN
  rw [if_neg (nums_no_nan a)]
  rfl

theorem product_nums (src tgt : Arr2 ℝ) : imageProductN src.nums tgt.nums = (imageProduct src tgt).nums := by
  have h1 : src.nums.map (Fl.map fun x : ℝ => (x : ℂ)) = src.toC.nums := rfl
  have h2 : tgt.nums.map (Fl.map fun x : ℝ => (x : ℂ)) = tgt.toC.nums := rfl
  unfold imageProductN
  rw [h1, h2, fftN_nums, fftN_nums]
  unfold imageProduct Arr2.nums
  have e : ∀ (p : Fin src.nr) (q : Fin src.nc), Fl.map (starRingEnd ℂ) ((((npFft2 tgt.toC).map Fl.num).px (p : ℕ) (q : ℕ)).getD (.num 0))
      = Fl.num ((starRingEnd ℂ) (((npFft2 tgt.toC).px (p : ℕ) (q : ℕ)).getD 0)) := by
    intro p q
    rw [Arr2.px_map]
    cases (npFft2 tgt.toC).px (p : ℕ) (q : ℕ) <;> rfl
  exact congrArg (Arr2.mk src.nr src.nc) (funext fun p => funext fun q => congrArg (Fl.num _ * ·) (e p q))

theorem tensorPassN_nums (ups : ℕ) (k : ℕ → ℕ → ℂ) (a : Arr2 ℂ) : tensorPassN ups k a.nums = (tensorPass ups k a).nums := by
  refine congrArg (Arr2.mk ups a.nr) (funext fun u => funext fun r => ?_)
  exact fl_sum_num Finset.univ fun c : Fin a.nc => k u c * a.val r c

theorem refineShiftN_nums (prod : Arr2 ℂ) (kappa pad : ℝ) (s0 s1 : ℤ) :
    refineShiftN prod.nums kappa pad s0 s1 = refineShift prod kappa pad s0 s1 := by
  unfold refineShiftN refineShift computeUpsampledDft
  simp only [show prod.nums.nr = prod.nr from rfl, show prod.nums.nc = prod.nc from rfl,
    show (prod.map (starRingEnd ℂ)).nr = prod.nr from rfl, show (prod.map (starRingEnd ℂ)).nc = prod.nc from rfl]
  by_cases h : ⌈kappa * pad⌉ ≤ 0
  · rw [if_pos h, if_pos h]
  rw [if_neg h, if_neg h]
  by_cases h2 : kappa = 0 ∨ prod.nr = 0 ∨ prod.nc = 0
  · rw [if_pos h2, if_pos h2]
    rfl
  rw [if_neg h2, if_neg h2]
  have e0 : prod.nums.map (Fl.map (starRingEnd ℂ)) = (prod.map (starRingEnd ℂ)).nums := rfl
  rw [e0, tensorPassN_nums, tensorPassN_nums]
  simp only [bind, Except.bind]
  generalize hup : tensorPass _ _ (tensorPass _ _ _) = up
  have hs : up.nr = ⌈kappa * pad⌉.toNat ∧ up.nc = ⌈kappa * pad⌉.toNat := by rw [← hup]; exact ⟨rfl, rfl⟩
  have := argmax2N_nums ((up.map fun z => (starRingEnd ℂ) z / (((prod.nr : ℂ) * prod.nc) * (kappa : ℂ) ^ 2)).map fun z => ‖z‖)
    (show 0 < up.nr by omega) (show 0 < up.nc by omega)
  rw [← this]
  rfl

/-- On images without NaN the model with NaN reports the same shift as the model without. -/
theorem C113_psffit_numbers (T : Shift) (shift : ℝ → ℝ → Arr2 (Fl ℝ) → Arr2 (Fl ℝ)) (cfg : PsfConfig) (src tgt : Arr2 ℝ)
    (s : ℝ × ℝ) (amp : ℝ) (h : psffit T cfg src tgt = .ok (s, amp)) : ∃ amp', psffitN shift cfg src.nums tgt.nums = .ok (s, amp') := by
  unfold psffit at h
  unfold psffitN
  split at h
  · cases h
  next h1 =>
  split at h
  · cases h
  next h2 =>
  push Not at h2
  rw [if_neg (show ¬ (src.nums.nr ≠ tgt.nums.nr ∨ src.nums.nc ≠ tgt.nums.nc) from h1),
    if_neg (show ¬ (src.nums.nr = 0 ∨ src.nums.nc = 0) from not_or.mpr h2)]
  have hm : argmax2N ((fftN npIfft2 (imageProduct src tgt).nums).map (Fl.map fun z : ℂ => ‖z‖))
      = argmax2 ((npIfft2 (imageProduct src tgt)).map fun z => ‖z‖) := by
    rw [fftN_nums]
    exact argmax2N_nums ((npIfft2 (imageProduct src tgt)).map fun z => ‖z‖) (Nat.pos_of_ne_zero h2.1) (Nat.pos_of_ne_zero h2.2)
  simp only [product_nums, refineShiftN_nums, hm, show src.nums.nr = src.nr from rfl, show src.nums.nc = src.nc from rfl]
  simp only [bind, Except.bind] at h ⊢
  split at h
  · next hk =>
    rw [if_pos hk]
    split at h
    · cases h
    · next v hv =>
      injection h with h
      injection h with h3 h4
      rw [← h3]
      exact ⟨_, rfl⟩
  · next hk =>
    rw [if_neg hk]
    injection h with h
    injection h with h3 h4
    rw [← h3]
    exact ⟨_, rfl⟩

/-- **C113 fails for `psffit`.** With the packaged parameters (upsampling by 200, padding 1.5) a target that `combine` has marked
with one bad pixel is always "shifted by 3/4 of a pixel" in both directions. -/
theorem C113_psffit_default (shift : ℝ → ℝ → Arr2 (Fl ℝ) → Arr2 (Fl ℝ)) (thresh : ℝ) (src frame tgt : Arr2 (Fl ℝ)) (bp : Arr2 Bool)
    (hcomb : combine frame bp = .ok tgt) (hbad : ∃ i j, bp.val i j = true) (hr : src.nr = frame.nr) (hc : src.nc = frame.nc) :
    psffitN shift ⟨200, 3 / 2, thresh⟩ src tgt = .ok ((3 / 4, 3 / 4), .nan) := by
  unfold combine at hcomb
  split at hcomb
  · next hs =>
    injection hcomb with hcomb
    obtain ⟨i, j, hij⟩ := hbad
    have hn : HasNan tgt := by
      subst hcomb
      refine ⟨i.cast hs.1, j.cast hs.2, ?_⟩
      simp [hij]
    have hshape : tgt.nr = frame.nr ∧ tgt.nc = frame.nc := by subst hcomb; exact ⟨rfl, rfl⟩
    have hi := i.isLt
    have hj := j.isLt
    obtain ⟨amp, ha, hamp⟩ := C113_psffit_fails shift ⟨200, 3 / 2, thresh⟩ (by norm_num) (by norm_num) src tgt (by omega) (by omega)
      (by omega) (by omega) (Or.inr hn)
    rw [ha, hamp hn]
    have : nanShift ⟨200, 3 / 2, thresh⟩ = 3 / 4 := by
      unfold nanShift
      rw [if_neg (by norm_num)]
      have : ⌈(200 : ℝ) * (3 / 2)⌉ = 300 := by norm_num
      simp only [this]
      norm_num
    rw [this]
  · cases hcomb

/-! ### Coarse pupil search -/

open scoped Classical in
theorem overlapAtN_nan (img : Arr2 (Fl ℝ)) (nBeam : ℝ) (x y : ℤ) (hr : 0 < img.nr) (hc : 0 < img.nc) :
    overlapAtN img nBeam x y = .nan ↔ ∃ i j, img.val i j = .nan ∧
      Real.sqrt (((coordOf img.nc j - x : ℤ) : ℝ) ^ 2 + ((coordOf img.nr i - y : ℤ) : ℝ) ^ 2) ≤ nBeam / 2 := by
  unfold overlapAtN
  rw [if_pos (by omega), if_pos (by omega), fl_sum_nan]
  constructor
  · rintro ⟨i, -, h⟩
    obtain ⟨j, -, h⟩ := (fl_sum_nan _ _).mp h
    split at h
    · next hd => exact ⟨i, j, h, hd⟩
    · cases h
  · rintro ⟨i, j, h, hd⟩
    exact ⟨i, Finset.mem_univ _, (fl_sum_nan _ _).mpr ⟨j, Finset.mem_univ _, by rw [if_pos hd, h]⟩⟩

/-- Specification: the disc of diameter `nBeam` about the offset `(x, y)` from the centre pixel contains a bad pixel. -/
def DiscHasNan (img : Arr2 (Fl ℝ)) (nBeam : ℝ) (x y : ℤ) : Prop :=
  ∃ i j, img.val i j = .nan ∧ (((j : ℕ) : ℝ) - ((img.nc / 2 : ℕ) : ℝ) - x) ^ 2 + (((i : ℕ) : ℝ) - ((img.nr / 2 : ℕ) : ℝ) - y) ^ 2 ≤ (nBeam / 2) ^ 2

theorem overlap_nan_iff (img : Arr2 (Fl ℝ)) (nBeam : ℝ) (hb : 0 < nBeam) (x y : ℤ) (hr : 0 < img.nr) (hc : 0 < img.nc) :
    overlapAtN img nBeam x y = .nan ↔ DiscHasNan img nBeam x y := by
  rw [overlapAtN_nan img nBeam x y hr hc]
  unfold DiscHasNan
  refine exists_congr fun i => exists_congr fun j => and_congr_right fun _ => ?_
  rw [Real.sqrt_le_left (by positivity)]
  have e1 : ((coordOf img.nc j - x : ℤ) : ℝ) = ((j : ℕ) : ℝ) - ((img.nc / 2 : ℕ) : ℝ) - x := by
    unfold coordOf
    rw [Int.cast_sub, Int.cast_add, Int.cast_neg, Int.cast_natCast, Int.cast_natCast]
    ring
  have e2 : ((coordOf img.nr i - y : ℤ) : ℝ) = ((i : ℕ) : ℝ) - ((img.nr / 2 : ℕ) : ℝ) - y := by
    unfold coordOf
    rw [Int.cast_sub, Int.cast_add, Int.cast_neg, Int.cast_natCast, Int.cast_natCast]
    ring
  rw [e1, e2]

/-- **C113 fails for the coarse pupil search.** As soon as the disc about one of the candidates contains a bad pixel, the answer
is a candidate whose disc contains a bad pixel, the first one in the order of the search, wherever the light is. -/
theorem C113_coarse_fails (img : Arr2 (Fl ℝ)) (nBeam : ℝ) (xStart yStart radius step : ℤ) (hb : 0 < nBeam) (hrad : 0 < radius)
    (hstep : 0 < step) (ix iy : ℕ) (hix : -radius + ix * step ≤ radius) (hiy : -radius + iy * step ≤ radius)
    (h : DiscHasNan img nBeam (-radius + ix * step + xStart) (-radius + iy * step + yStart)) :
    ∃ bx by' : ℕ, coarseOnceN img nBeam xStart yStart radius step
        = .ok (-radius + bx * step + xStart, -radius + by' * step + yStart) ∧
      DiscHasNan img nBeam (-radius + bx * step + xStart) (-radius + by' * step + yStart) ∧
      ∀ cx cy : ℕ, -radius + cx * step ≤ radius → -radius + cy * step ≤ radius → (cy < by' ∨ cy = by' ∧ cx < bx) →
        ¬ DiscHasNan img nBeam (-radius + cx * step + xStart) (-radius + cy * step + yStart) := by
  have hr : 0 < img.nr := by obtain ⟨i, -⟩ := h; exact Nat.lt_of_le_of_lt (Nat.zero_le _) i.isLt
  have hc : 0 < img.nc := by obtain ⟨-, j, -⟩ := h; exact Nat.lt_of_le_of_lt (Nat.zero_le _) j.isLt
  have hgrid : ∀ k : ℕ, -radius + k * step ≤ radius ↔ k < gridSize radius step := by
    intro k
    have h0 : 0 ≤ 2 * radius / step := Int.ediv_nonneg (by omega) (by omega)
    have h1 : (k : ℤ) ≤ 2 * radius / step ↔ (k : ℤ) * step ≤ 2 * radius := Int.le_ediv_iff_mul_le hstep
    unfold gridSize
    constructor
    · intro h
      have := h1.mpr (by linarith)
      omega
    · intro h
      have := h1.mp (by omega)
      linarith
  set n := gridSize radius step with hn
  set ov : Arr2 (Fl ℝ) := ⟨n, n, fun iy ix =>
      overlapAtN img nBeam (gridOffset radius step ix + xStart) (gridOffset radius step iy + yStart)⟩ with hov
  have hx := (hgrid ix).mp hix
  have hy := (hgrid iy).mp hiy
  have hnpos : 0 < n := by omega
  set F : ℕ → Fl ℝ := fun p => (ov.px ((p / n : ℕ) : ℤ) ((p % n : ℕ) : ℤ)).getD (.num 0) with hF
  have key : ∀ i j : ℕ, i < n → j < n → F (i * n + j) =
      overlapAtN img nBeam (gridOffset radius step j + xStart) (gridOffset radius step i + yStart) := by
    intro i j hi hj
    have d1 : (i * n + j) / n = i := by rw [mul_comm, Nat.mul_add_div hnpos, Nat.div_eq_of_lt hj, add_zero]
    have d2 : (i * n + j) % n = j := by rw [mul_comm, Nat.mul_add_mod, Nat.mod_eq_of_lt hj]
    simp only [hF, d1, d2]
    have := Arr2.px_val ov ⟨i, hi⟩ ⟨j, hj⟩
    simp only at this
    rw [this]
    rfl
  have hnan : ∀ i j : ℕ, i < n → j < n → (F (i * n + j) = .nan ↔
      DiscHasNan img nBeam (-radius + j * step + xStart) (-radius + i * step + yStart)) := by
    intro i j hi hj
    rw [key i j hi hj, overlap_nan_iff img nBeam hb _ _ hr hc]
    rfl
  have hlt := flat_lt hy hx
  obtain ⟨b1, b2, b3⟩ := argmaxUptoN_nan F (n * n - 1) ⟨iy * n + ix, by omega, (hnan iy ix hy hx).mpr h⟩
  have hdef : argmax2N ov = (argmaxUptoN F (n * n - 1) / n, argmaxUptoN F (n * n - 1) % n) := rfl
  generalize argmaxUptoN F (n * n - 1) = b at b1 b2 b3 hdef
  have hbn : b < n * n := by have := Nat.mul_pos hnpos hnpos; omega
  have hrow : b / n < n := (Nat.div_lt_iff_lt_mul hnpos).mpr hbn
  have hcol : b % n < n := Nat.mod_lt _ hnpos
  have hdm : b / n * n + b % n = b := by rw [mul_comm]; exact Nat.div_add_mod b n
  refine ⟨b % n, b / n, ?_, ?_, ?_⟩
  · unfold coarseOnceN
    rw [if_neg (not_not.mpr hb), if_neg (by omega), if_neg (by omega)]
    have h1 : (argmax2N ov).1 = b / n := by rw [hdef]
    have h2 : (argmax2N ov).2 = b % n := by rw [hdef]
    rw [← h1, ← h2]
    rfl
  · refine (hnan (b / n) (b % n) hrow hcol).mp ?_
    rw [hdm]; exact b2
  · intro cx cy hcx hcy hord hd
    have hcx' := (hgrid cx).mp hcx
    have hcy' := (hgrid cy).mp hcy
    refine b3 (cy * n + cx) ?_ ((hnan cy cx hcy' hcx').mpr hd)
    rcases hord with h | ⟨h, h'⟩
    · have : (cy + 1) * n ≤ b / n * n := Nat.mul_le_mul_right n h
      rw [Nat.add_mul, one_mul] at this
      omega
    · rw [h]; omega

/-- On images without NaN the model with NaN gives the same estimate as the model without. -/
theorem C113_coarse_numbers (img : Arr2 ℝ) (nBeam : ℝ) (xStart yStart radius step : ℤ) (est : ℤ × ℤ) (ov : Arr2 ℝ)
    (h : coarseOnce img nBeam xStart yStart radius step = .ok (est, ov)) : coarseOnceN img.nums nBeam xStart yStart radius step = .ok est := by
  classical
  have ho : ∀ x y, overlapAtN img.nums nBeam x y = .num (overlapAt img nBeam x y) := by
    intro x y
    unfold overlapAtN overlapAt
    show (if x + ((img.nc / 2 : ℕ) : ℤ) ≥ 0 ∨ x + ((img.nc / 2 : ℕ) : ℤ) ≤ (img.nc : ℤ) - 1 then
      if y + ((img.nr / 2 : ℕ) : ℤ) ≥ 0 ∨ y + ((img.nr / 2 : ℕ) : ℤ) ≤ (img.nr : ℤ) - 1 then _ else _ else _) = _
    split
    · split
      · rw [← fl_sum_num]
        refine Finset.sum_congr rfl fun i _ => ?_
        rw [← fl_sum_num]
        refine Finset.sum_congr rfl fun j _ => ?_
        show (if Real.sqrt (((coordOf img.nc j - x : ℤ) : ℝ) ^ 2 + ((coordOf img.nr i - y : ℤ) : ℝ) ^ 2) ≤ nBeam / 2 then _ else _) = _
        split <;> rfl
      · rfl
    · rfl
  unfold coarseOnce at h
  unfold coarseOnceN
  split at h
  · cases h
  next h1 =>
  split at h
  · cases h
  next h2 =>
  split at h
  · cases h
  next h3 =>
  rw [if_neg h1, if_neg h2, if_neg h3]
  simp only [ho]
  injection h with h
  injection h with h4 h5
  have hpos : 0 < gridSize radius step := by
    unfold gridSize
    have : 0 ≤ 2 * radius / step := Int.ediv_nonneg (by omega) (by omega)
    omega
  rw [← h4, ← argmax2N_nums _ hpos hpos]
  rfl

/-! ### Cases -/

/-- A 2 x 2 frame of ones whose last pixel is bad. -/
def badFrame : Arr2 (Fl ℝ) := ⟨2, 2, fun i j => if (i : ℕ) = 1 ∧ (j : ℕ) = 1 then .nan else .num 1⟩

theorem badFrame_nan : HasNan badFrame := ⟨(1 : Fin 2), (1 : Fin 2), rfl⟩

example : centerOfEnergyN badFrame = (.nan, .nan) := C113_center _ badFrame_nan

example : quadrantEnergyBalanceN badFrame 0 0 1 = .ok (.nan, .nan) :=
  C113_quadrants _ badFrame_nan 0 0 1 (by norm_num) le_rfl le_rfl (by simp [badFrame]) (by simp [badFrame]) (by simp [badFrame])

example (shift : ℝ → ℝ → Arr2 (Fl ℝ) → Arr2 (Fl ℝ)) :
    psffitN shift ⟨200, 3 / 2, 1 / 5⟩ ⟨2, 2, fun _ _ => .num 1⟩ badFrame = .ok ((3 / 4, 3 / 4), .nan) := by
  have := C113_psffit_default shift (1 / 5) ⟨2, 2, fun _ _ => .num 1⟩ ⟨2, 2, fun _ _ => .num 1⟩ badFrame
    ⟨2, 2, fun i j => decide ((i : ℕ) = 1 ∧ (j : ℕ) = 1)⟩ (by
      unfold combine badFrame
      rw [dif_pos ⟨rfl, rfl⟩]
      simp) ⟨(1 : Fin 2), (1 : Fin 2), by simp⟩ rfl rfl
  exact this

/-- A bad pixel in the last corner: the search reports the first candidate that covers it. -/
example : ∃ bx by' : ℕ, coarseOnceN badFrame 1 0 0 1 1 = .ok (-1 + bx * 1 + 0, -1 + by' * 1 + 0) := by
  obtain ⟨bx, by', h, -⟩ := C113_coarse_fails badFrame 1 0 0 1 1 (by norm_num) (by norm_num) (by norm_num) 1 1 (by norm_num) (by norm_num)
    ⟨(1 : Fin 2), (1 : Fin 2), rfl, by simp [badFrame]⟩
  exact ⟨bx, by', h⟩

end Coralign.Props
