import Verif.Model.Dmhtoph
import Verif.Props.FitSurf
import Verif.Props.Conjugate
import Verif.Props.Math
import Mathlib.Tactic.FieldSimp

/-!
# Property C62: the DM surface
-/

namespace Coralign.Props

open Coralign Finset

/-! ### Specification -/

/-- The height of the facesheet at `(y, x)` samples of the influence function from actuator `(0, 0)`: every actuator adds
its command times the influence function centred on it. -/
noncomputable def facesheet (dm w : Arr2 ℝ) (P : ℤ) (y x : ℤ) : ℝ :=
  ∑ a : Fin dm.nr, ∑ b : Fin dm.nc, dm.val a b *
    w.zext ((w.nr : ℤ) / 2 + (y - P * (a : ℕ))) ((w.nc : ℤ) / 2 + (x - P * (b : ℕ)))

/-- The position, in actuators from the centre of an `n`-actuator axis, of the point `y` samples from actuator 0. -/
noncomputable def dmPos (n : ℤ) (P : ℤ) (y : ℤ) : ℝ := (y : ℝ) / P - ((n : ℝ) - 1) / 2

/-! ### The convolution -/

theorem sum_spread (n P : ℕ) (hn : 1 ≤ n) (hP : 1 ≤ P) (f : ℕ → ℝ) (g : ℕ → ℝ) (hg : ∀ a, a < n → g (a * P) = f a) :
    ∑ i : Fin ((n - 1) * P + 1), (if (i : ℕ) % P = 0 then g i else 0) = ∑ a : Fin n, f a := by
  classical
  rw [Finset.sum_ite, Finset.sum_const_zero, add_zero]
  refine (Finset.sum_bij' (fun (a : Fin n) _ => (⟨(a : ℕ) * P, by
    have : (a : ℕ) * P ≤ (n - 1) * P := Nat.mul_le_mul_right _ (by omega)
    omega⟩ : Fin ((n - 1) * P + 1))) (fun i _ => ⟨(i : ℕ) / P, by
      have h1 := i.isLt
      have : (i : ℕ) / P ≤ (n - 1) * P / P := Nat.div_le_div_right (by omega)
      rw [Nat.mul_div_cancel _ (show 0 < P by omega)] at this
      omega⟩) ?_ ?_ ?_ ?_ ?_).symm
  · intro a _
    simp only [Finset.mem_filter, Finset.mem_univ, true_and, Nat.mul_mod_left]
  · intro i _; exact Finset.mem_univ _
  · intro a _
    apply Fin.ext
    exact Nat.mul_div_cancel _ (by omega)
  · intro i hi
    apply Fin.ext
    simp only [Finset.mem_filter, Finset.mem_univ, true_and] at hi
    exact Nat.div_mul_cancel (Nat.dvd_of_mod_eq_zero hi)
  · intro a _
    exact (hg a a.isLt).symm

theorem convolve_swap (a w : Arr2 ℝ) (I J : ℤ) :
    ∑ p : Fin w.nr, ∑ q : Fin w.nc, w.val p q * a.zext (I - (p : ℕ)) (J - (q : ℕ)) =
      ∑ i : Fin a.nr, ∑ j : Fin a.nc, a.val i j * w.zext (I - (i : ℕ)) (J - (j : ℕ)) := by
  rw [Arr2.sum_eq_finsum w (fun p q v => v * a.zext (I - p) (J - q)) (by simp),
    Arr2.sum_eq_finsum a (fun p q v => v * w.zext (I - p) (J - q)) (by simp)]
  refine finsum_eq_of_bijective (fun p : ℤ × ℤ => (I - p.1, J - p.2)) ?_ ?_
  · constructor
    · rintro ⟨a, b⟩ ⟨c, d⟩ h
      simp only [Prod.mk.injEq] at h
      exact Prod.ext (by simp only; omega) (by simp only; omega)
    · rintro ⟨a, b⟩
      exact ⟨(I - a, J - b), by simp⟩
  · rintro ⟨p, q⟩
    simp only [sub_sub_cancel]
    ring

/-- The convolved array is the facesheet, everywhere. -/
theorem convolve_facesheet (n P N : ℕ) (hn : 1 ≤ n) (hP : 1 ≤ P) (hN : N % 2 = 1) (d : Fin n → Fin n → ℝ) (v : Fin N → Fin N → ℝ)
    (y x : ℤ) : (fullConvolve (spreadPokes n P ⟨n, n, d⟩) ⟨N, N, v⟩).zext ((N : ℤ) / 2 + y) ((N : ℤ) / 2 + x) =
      facesheet ⟨n, n, d⟩ ⟨N, N, v⟩ P y x := by
  have key : ∀ I J : ℤ, ∑ i : Fin ((n - 1) * P + 1), ∑ j : Fin ((n - 1) * P + 1),
      (spreadPokes n P ⟨n, n, d⟩).val i j * (⟨N, N, v⟩ : Arr2 ℝ).zext (I - (i : ℕ)) (J - (j : ℕ)) =
      ∑ a : Fin n, ∑ b : Fin n, d a b * (⟨N, N, v⟩ : Arr2 ℝ).zext (I - (P : ℤ) * (a : ℕ)) (J - (P : ℤ) * (b : ℕ)) := by
    intro I J
    have inner : ∀ i : ℕ, ∑ j : Fin ((n - 1) * P + 1), (if (j : ℕ) % P = 0 then
        (⟨n, n, d⟩ : Arr2 ℝ).zext ((i : ℕ) : ℤ) (((j : ℕ) / P : ℕ) : ℤ) *
          (⟨N, N, v⟩ : Arr2 ℝ).zext (I - ((i * P : ℕ) : ℤ)) (J - (j : ℕ)) else 0) =
        ∑ b : Fin n, (⟨n, n, d⟩ : Arr2 ℝ).zext (i : ℤ) ((b : ℕ) : ℤ) *
          (⟨N, N, v⟩ : Arr2 ℝ).zext (I - ((i * P : ℕ) : ℤ)) (J - (P : ℤ) * (b : ℕ)) := by
      intro i
      refine sum_spread n P hn hP (fun b => (⟨n, n, d⟩ : Arr2 ℝ).zext (i : ℤ) ((b : ℕ) : ℤ) *
          (⟨N, N, v⟩ : Arr2 ℝ).zext (I - ((i * P : ℕ) : ℤ)) (J - (P : ℤ) * (b : ℕ))) (fun j =>
          (⟨n, n, d⟩ : Arr2 ℝ).zext ((i : ℕ) : ℤ) (((j : ℕ) / P : ℕ) : ℤ) *
          (⟨N, N, v⟩ : Arr2 ℝ).zext (I - ((i * P : ℕ) : ℤ)) (J - (j : ℕ))) ?_
      intro b hb
      simp only [Nat.mul_div_cancel b (show 0 < P by omega)]
      push_cast
      rw [mul_comm (b : ℤ)]
    have outer := sum_spread n P hn hP
      (fun a => ∑ b : Fin n, (⟨n, n, d⟩ : Arr2 ℝ).zext (a : ℤ) ((b : ℕ) : ℤ) *
          (⟨N, N, v⟩ : Arr2 ℝ).zext (I - ((a * P : ℕ) : ℤ)) (J - (P : ℤ) * (b : ℕ)))
      (fun i => ∑ j : Fin ((n - 1) * P + 1), (if (j : ℕ) % P = 0 then
        (⟨n, n, d⟩ : Arr2 ℝ).zext ((i / P : ℕ) : ℤ) (((j : ℕ) / P : ℕ) : ℤ) *
          (⟨N, N, v⟩ : Arr2 ℝ).zext (I - (i : ℤ)) (J - (j : ℕ)) else 0)) (by
        intro a _
        rw [Nat.mul_div_cancel a (show 0 < P by omega)]
        exact inner a)
    refine Eq.trans ?_ (outer.trans ?_)
    · refine Finset.sum_congr rfl fun i _ => ?_
      by_cases hi : (i : ℕ) % P = 0
      · rw [if_pos hi]
        refine Finset.sum_congr rfl fun j _ => ?_
        unfold spreadPokes
        simp only [hi, true_and]
        split <;> simp
      · rw [if_neg hi]
        refine Finset.sum_eq_zero fun j _ => ?_
        unfold spreadPokes
        simp [hi]
    · refine Finset.sum_congr rfl fun a _ => Finset.sum_congr rfl fun b _ => ?_
      have := Arr2.zext_val (⟨n, n, d⟩ : Arr2 ℝ) a b
      rw [this]
      push_cast
      rw [mul_comm ((a : ℕ) : ℤ)]
  unfold facesheet
  by_cases hb : (0 ≤ (N : ℤ) / 2 + y ∧ (N : ℤ) / 2 + y < (((n - 1) * P + 1 + N - 1 : ℕ) : ℤ)) ∧
      (0 ≤ (N : ℤ) / 2 + x ∧ (N : ℤ) / 2 + x < (((n - 1) * P + 1 + N - 1 : ℕ) : ℤ))
  · refine Eq.trans (zext_in hb) ?_
    have h := convolve_swap (spreadPokes n P ⟨n, n, d⟩) ⟨N, N, v⟩ ((N : ℤ) / 2 + y) ((N : ℤ) / 2 + x)
    refine Eq.trans ?_ (h.trans ((key _ _).trans ?_))
    · unfold fullConvolve
      simp only [Int.toNat_of_nonneg hb.1.1, Int.toNat_of_nonneg hb.2.1]
    · refine Finset.sum_congr rfl fun a _ => Finset.sum_congr rfl fun b _ => ?_
      simp only [add_sub_assoc]
  · refine Eq.trans (zext_out hb) (Eq.symm ?_)
    refine Finset.sum_eq_zero fun a _ => Finset.sum_eq_zero fun b _ => ?_
    rw [zext_out, mul_zero]
    intro hc
    apply hb
    simp only at hc
    have ha := a.isLt
    have hb' := b.isLt
    have c1 : (P : ℤ) * (a : ℕ) ≤ P * ((n : ℤ) - 1) := mul_le_mul_of_nonneg_left (by omega) (by omega)
    have c2 : (P : ℤ) * (b : ℕ) ≤ P * ((n : ℤ) - 1) := mul_le_mul_of_nonneg_left (by omega) (by omega)
    have c3 : (0 : ℤ) ≤ P * (a : ℕ) := by positivity
    have c4 : (0 : ℤ) ≤ P * (b : ℕ) := by positivity
    have c5 : (((n - 1) * P + 1 + N - 1 : ℕ) : ℤ) = P * ((n : ℤ) - 1) + N := by
      rw [show (n - 1) * P + 1 + N - 1 = (n - 1) * P + N by omega]
      push_cast [Nat.cast_sub hn]
      ring
    rw [c5]
    omega

/-- Beyond the last actuator's influence function the facesheet does not move. -/
theorem facesheet_far (n P N : ℕ) (hn : 1 ≤ n) (hP : 1 ≤ P) (d : Fin n → Fin n → ℝ) (v : Fin N → Fin N → ℝ)
    (y x : ℤ) (h : y < -((N : ℤ) / 2) ∨ P * ((n : ℤ) - 1) + N < y + (N : ℤ) / 2 + 1 ∨ x < -((N : ℤ) / 2) ∨ P * ((n : ℤ) - 1) + N < x + (N : ℤ) / 2 + 1) :
    facesheet ⟨n, n, d⟩ ⟨N, N, v⟩ P y x = 0 := by
  unfold facesheet
  refine Finset.sum_eq_zero fun a _ => Finset.sum_eq_zero fun b _ => ?_
  rw [zext_out, mul_zero]
  intro hc
  simp only at hc
  have ha := a.isLt
  have hb' := b.isLt
  have c1 : (P : ℤ) * (a : ℕ) ≤ P * ((n : ℤ) - 1) := mul_le_mul_of_nonneg_left (by omega) (by omega)
  have c2 : (P : ℤ) * (b : ℕ) ≤ P * ((n : ℤ) - 1) := mul_le_mul_of_nonneg_left (by omega) (by omega)
  have c3 : (0 : ℤ) ≤ P * (a : ℕ) := by positivity
  have c4 : (0 : ℤ) ≤ P * (b : ℕ) := by positivity
  omega

/-! ### The camera grid -/

theorem camera_zext (S : Spline) (m : ℕ) (hm : 1 ≤ m) (f : Fin m → Fin m → ℝ) (P : ℝ) (hP : 0 < P) (M : ℤ) (cx cy : ℝ)
    (k l I J : ℤ) (hk : 0 ≤ M / 2 + k ∧ M / 2 + k < M) (hl : 0 ≤ M / 2 + l ∧ M / 2 + l < M)
    (hI : (k : ℝ) / cy = ((I : ℝ) - ((m : ℝ) - 1) / 2) / P) (hJ : (l : ℝ) / cx = ((J : ℝ) - ((m : ℝ) - 1) / 2) / P) :
    (cameraGrid S ⟨m, m, f⟩ P M cx cy).zext (M / 2 + k) (M / 2 + l) = (⟨m, m, f⟩ : Arr2 ℝ).zext I J := by
  have hb : (0 ≤ M / 2 + k ∧ M / 2 + k < M.toNat) ∧ (0 ≤ M / 2 + l ∧ M / 2 + l < M.toNat) := by omega
  refine Eq.trans (zext_in hb) ?_
  have e1 : (((M / 2 + k).toNat : ℕ) : ℤ) - M / 2 = k := by omega
  have e2 : (((M / 2 + l).toNat : ℕ) : ℤ) - M / 2 = l := by omega
  unfold cameraGrid
  simp only [e1, e2, hI, hJ]
  have rng : ∀ A : ℤ, (infCoord m P 0 ≤ ((A : ℝ) - ((m : ℝ) - 1) / 2) / P ∧ ((A : ℝ) - ((m : ℝ) - 1) / 2) / P ≤ infCoord m P (m - 1)) ↔
      0 ≤ A ∧ A < m := by
    intro A
    unfold infCoord
    rw [div_le_div_iff_of_pos_right hP, div_le_div_iff_of_pos_right hP]
    push_cast [Nat.cast_sub hm]
    constructor
    · rintro ⟨h1, h2⟩
      have a1 : (0 : ℝ) ≤ A := by linarith
      have a2 : (A : ℝ) < (m : ℝ) := by linarith
      exact ⟨by exact_mod_cast a1, by exact_mod_cast a2⟩
    · rintro ⟨h1, h2⟩
      have a1 : (0 : ℝ) ≤ A := by exact_mod_cast h1
      have a2 : (A : ℝ) ≤ (m : ℝ) - 1 := by
        have : A ≤ (m : ℤ) - 1 := by omega
        exact_mod_cast this
      constructor <;> linarith
  by_cases hin : (0 ≤ I ∧ I < m) ∧ (0 ≤ J ∧ J < m)
  · rw [if_pos ⟨(rng J).mpr hin.2, (rng I).mpr hin.1⟩]
    refine Eq.trans ?_ (Eq.symm (zext_in hin))
    have h1 : ((I : ℝ) - ((m : ℝ) - 1) / 2) / P = infCoord m P I.toNat := by
      unfold infCoord
      have : ((I.toNat : ℕ) : ℝ) = I := by exact_mod_cast Int.toNat_of_nonneg hin.1.1
      rw [this]
    have h2 : ((J : ℝ) - ((m : ℝ) - 1) / 2) / P = infCoord m P J.toNat := by
      unfold infCoord
      have : ((J.toNat : ℕ) : ℝ) = J := by exact_mod_cast Int.toNat_of_nonneg hin.2.1
      rw [this]
    rw [h1, h2]
    exact S.interpolates _ _ ⟨m, m, f⟩ ⟨I.toNat, by simp only; omega⟩ ⟨J.toNat, by simp only; omega⟩ (infCoord_strictMono m P hP)
      (infCoord_strictMono m P hP)
  · refine Eq.trans ?_ (Eq.symm (zext_out hin))
    rw [if_neg]
    rintro ⟨h1, h2⟩
    exact hin ⟨(rng I).mp h2, (rng J).mp h1⟩

theorem fliplr_zext (a : Arr2 ℝ) (i j : ℤ) : a.fliplr.zext i j = a.zext i ((a.nc : ℤ) - 1 - j) := by
  by_cases hb : (0 ≤ i ∧ i < a.nr) ∧ (0 ≤ j ∧ j < a.nc)
  · refine Eq.trans (zext_in (a := a.fliplr) hb) (Eq.trans ?_ (Eq.symm (zext_in (a := a) (by omega))))
    unfold Arr2.fliplr
    simp only
    congr 1
    apply Fin.ext
    simp only [Fin.val_rev]
    omega
  · refine Eq.trans (zext_out (a := a.fliplr) hb) (Eq.symm (zext_out (by omega)))

/-! ### When the function returns -/

/-- The arguments that `dmhtoph` accepts. -/
structure DmhArgs (nrow ncol : ℤ) (dm : Arr2 ℝ) (n : ℤ) (w : Arr2 ℝ) (P : ℤ) (cx cy : ℝ) : Prop where
  rows : 0 < nrow
  cols : 0 < ncol
  nact : 0 < n
  samples : 0 < P
  posX : 0 < cx
  posY : 0 < cy
  smaller : (w.nr : ℤ) < n * P ∧ (w.nc : ℤ) < n * P
  shape : (dm.nr : ℤ) = n ∧ (dm.nc : ℤ) = n
  sampled : cx ≤ P ∧ cy ≤ P
  square : w.nr = w.nc
  odd : w.nr % 2 = 1
  /-- Enough samples for a cubic spline. -/
  enough : 4 ≤ (n - 1) * P + w.nr

theorem conv_size (n P : ℤ) (hn : 0 < n) (hP : 0 < P) (dm w : Arr2 ℝ) :
    ((fullConvolve (spreadPokes n.toNat P.toNat dm) w).nr : ℤ) = (n - 1) * P + w.nr := by
  obtain ⟨n, rfl⟩ := Int.eq_ofNat_of_zero_le hn.le
  obtain ⟨P, rfl⟩ := Int.eq_ofNat_of_zero_le hP.le
  unfold fullConvolve spreadPokes
  simp only [Int.toNat_natCast]
  rw [show (n - 1) * P + 1 + w.nr - 1 = (n - 1) * P + w.nr by omega]
  push_cast [Nat.cast_sub (show 1 ≤ n by omega)]
  ring

theorem dmh_eq (S : Spline) (R : Rotate) (T : Shift) (nrow ncol : ℤ) (dm : Arr2 ℝ) (n : ℤ) (w : Arr2 ℝ) (P : ℤ)
    (cx cy dx dy th : ℝ) (flipx : Bool) (h : DmhArgs nrow ncol dm n w P cx cy) :
    dmhtoph S R T nrow ncol dm n w P cx cy dx dy th flipx =
      padCrop (T.run dy dx (R.run (-th)
        (if flipx = true then
          (cameraGrid S (fullConvolve (spreadPokes n.toNat P.toNat dm) w) P (workSize n w.nr P cx cy) cx cy).fliplr
        else cameraGrid S (fullConvolve (spreadPokes n.toNat P.toNat dm) w) P (workSize n w.nr P cx cy) cx cy))) [nrow, ncol] 0 := by
  have hs := conv_size n P h.nact h.samples dm w
  have := h.enough
  unfold dmhtoph
  rw [if_neg (by push Not; exact ⟨h.rows, h.cols, h.nact, h.samples, h.posX, h.posY⟩),
    if_neg (by push Not; exact h.smaller), if_neg (by push Not; exact h.shape), if_neg (by push Not; exact h.sampled),
    if_neg (not_not.mpr h.square), if_neg (not_not.mpr h.odd)]
  simp only
  rw [if_neg (by omega)]

theorem dmh_args {S : Spline} {R : Rotate} {T : Shift} {nrow ncol : ℤ} {dm : Arr2 ℝ} {n : ℤ} {w : Arr2 ℝ} {P : ℤ}
    {cx cy dx dy th : ℝ} {flipx : Bool} {out : Arr2 ℝ}
    (h : dmhtoph S R T nrow ncol dm n w P cx cy dx dy th flipx = .ok out) : DmhArgs nrow ncol dm n w P cx cy := by
  unfold dmhtoph at h
  by_cases c1 : nrow ≤ 0 ∨ ncol ≤ 0 ∨ n ≤ 0 ∨ P ≤ 0 ∨ cx ≤ 0 ∨ cy ≤ 0
  · rw [if_pos c1] at h; cases h
  rw [if_neg c1] at h
  by_cases c2 : n * P ≤ w.nr ∨ n * P ≤ w.nc
  · rw [if_pos c2] at h; cases h
  rw [if_neg c2] at h
  by_cases c3 : (dm.nr : ℤ) ≠ n ∨ (dm.nc : ℤ) ≠ n
  · rw [if_pos c3] at h; cases h
  rw [if_neg c3] at h
  by_cases c4 : (P : ℝ) < cx ∨ (P : ℝ) < cy
  · rw [if_pos c4] at h; cases h
  rw [if_neg c4] at h
  by_cases c5 : w.nr ≠ w.nc
  · rw [if_pos c5] at h; cases h
  rw [if_neg c5] at h
  by_cases c6 : w.nr % 2 ≠ 1
  · rw [if_pos c6] at h; cases h
  rw [if_neg c6] at h
  simp only at h
  push Not at c1 c2 c3 c4 c5 c6
  obtain ⟨a1, a2, a3, a4, a5, a6⟩ := c1
  have hs := conv_size n P a3 a4 dm w
  by_cases c7 : (fullConvolve (spreadPokes n.toNat P.toNat dm) w).nr < 4
  · rw [if_pos c7] at h; cases h
  exact ⟨a1, a2, a3, a4, a5, a6, c2, c3, c4, c5, c6, by omega⟩

/-- **C62.** `dmhtoph` returns exactly for the arguments described by `DmhArgs`, whatever the commands and the registration, and
then the surface has exactly the requested shape. -/
theorem C62_shape (S : Spline) (R : Rotate) (T : Shift) (nrow ncol : ℤ) (dm : Arr2 ℝ) (n : ℤ) (w : Arr2 ℝ) (P : ℤ)
    (cx cy dx dy th : ℝ) (flipx : Bool) :
    ((∃ out, dmhtoph S R T nrow ncol dm n w P cx cy dx dy th flipx = .ok out) ↔ DmhArgs nrow ncol dm n w P cx cy) ∧
    ∀ out, dmhtoph S R T nrow ncol dm n w P cx cy dx dy th flipx = .ok out → (out.nr : ℤ) = nrow ∧ (out.nc : ℤ) = ncol := by
  refine ⟨⟨fun ⟨out, h⟩ => dmh_args h, fun h => ?_⟩, fun out h => ?_⟩
  · rw [dmh_eq S R T nrow ncol dm n w P cx cy dx dy th flipx h]
    obtain ⟨o, ho, -⟩ := C01_pad_crop_registered (T.run dy dx (R.run (-th)
        (if flipx = true then
          (cameraGrid S (fullConvolve (spreadPokes n.toNat P.toNat dm) w) P (workSize n w.nr P cx cy) cx cy).fliplr
        else cameraGrid S (fullConvolve (spreadPokes n.toNat P.toNat dm) w) P (workSize n w.nr P cx cy) cx cy))) nrow ncol 0 h.rows h.cols
    exact ⟨o, ho⟩
  · rw [dmh_eq S R T nrow ncol dm n w P cx cy dx dy th flipx (dmh_args h)] at h
    obtain ⟨h1, h2, -⟩ := crop_at h
    exact ⟨h1, h2⟩

/-! ### Superposition -/

/-- `X` is the combination `a Y + b Z`, pixel by pixel. -/
def Combines (a b : ℝ) (X Y Z : Arr2 ℝ) : Prop :=
  (X.nr = Y.nr ∧ X.nc = Y.nc) ∧ (Z.nr = Y.nr ∧ Z.nc = Y.nc) ∧ ∀ i j, X.zext i j = a * Y.zext i j + b * Z.zext i j

theorem Combines.val {a b : ℝ} {n m : ℕ} {f g h : Fin n → Fin m → ℝ} (hc : Combines a b ⟨n, m, f⟩ ⟨n, m, g⟩ ⟨n, m, h⟩) :
    f = fun i j => a * g i j + b * h i j := by
  funext i j
  have := hc.2.2 (i : ℕ) (j : ℕ)
  have e1 := Arr2.zext_val (⟨n, m, f⟩ : Arr2 ℝ) i j
  have e2 := Arr2.zext_val (⟨n, m, g⟩ : Arr2 ℝ) i j
  have e3 := Arr2.zext_val (⟨n, m, h⟩ : Arr2 ℝ) i j
  rw [e1, e2, e3] at this
  exact this

theorem combines_mk (a b : ℝ) (n m : ℕ) (g h : Fin n → Fin m → ℝ) :
    Combines a b ⟨n, m, fun i j => a * g i j + b * h i j⟩ ⟨n, m, g⟩ ⟨n, m, h⟩ := by
  refine ⟨⟨rfl, rfl⟩, ⟨rfl, rfl⟩, fun i j => ?_⟩
  by_cases hb : (0 ≤ i ∧ i < n) ∧ (0 ≤ j ∧ j < m)
  · exact (zext_in (a := ⟨n, m, fun i j => a * g i j + b * h i j⟩) hb).trans
      (congrArg₂ (fun p q => a * p + b * q) (zext_in (a := ⟨n, m, g⟩) hb).symm (zext_in (a := ⟨n, m, h⟩) hb).symm)
  · rw [zext_out (a := ⟨n, m, fun i j => a * g i j + b * h i j⟩) hb, zext_out (a := ⟨n, m, g⟩) hb, zext_out (a := ⟨n, m, h⟩) hb]
    simp

theorem Combines.elim {a b : ℝ} {X Y Z : Arr2 ℝ} (h : Combines a b X Y Z) :
    ∃ (n m : ℕ) (g k : Fin n → Fin m → ℝ), Y = ⟨n, m, g⟩ ∧ Z = ⟨n, m, k⟩ ∧ X = ⟨n, m, fun i j => a * g i j + b * k i j⟩ := by
  obtain ⟨n, m, f⟩ := X
  obtain ⟨n1, m1, g⟩ := Y
  obtain ⟨n2, m2, k⟩ := Z
  obtain ⟨⟨h1, h2⟩, ⟨h3, h4⟩, h5⟩ := h
  simp only at h1 h2 h3 h4
  subst h1 h2 h3 h4
  have hv := Combines.val (a := a) (b := b) (f := f) (g := g) (h := k) ⟨⟨rfl, rfl⟩, ⟨rfl, rfl⟩, h5⟩
  exact ⟨_, _, g, k, rfl, rfl, by rw [← hv]⟩

theorem Combines.rotate {a b : ℝ} {X Y Z : Arr2 ℝ} (R : Rotate) (th : ℝ) (h : Combines a b X Y Z) :
    Combines a b (R.run th X) (R.run th Y) (R.run th Z) := by
  obtain ⟨n, m, g, k, rfl, rfl, rfl⟩ := h.elim
  refine ⟨?_, ?_, fun i j => R.linear th n m g k a b i j⟩
  · rw [R.nr, R.nr, R.nc, R.nc]; exact ⟨rfl, rfl⟩
  · rw [R.nr, R.nr, R.nc, R.nc]; exact ⟨rfl, rfl⟩

theorem Combines.shift {a b : ℝ} {X Y Z : Arr2 ℝ} (T : Shift) (dy dx : ℝ) (h : Combines a b X Y Z) :
    Combines a b (T.run dy dx X) (T.run dy dx Y) (T.run dy dx Z) := by
  obtain ⟨n, m, g, k, rfl, rfl, rfl⟩ := h.elim
  refine ⟨?_, ?_, fun i j => T.linear dy dx n m g k a b i j⟩
  · rw [T.nr, T.nr, T.nc, T.nc]; exact ⟨rfl, rfl⟩
  · rw [T.nr, T.nr, T.nc, T.nc]; exact ⟨rfl, rfl⟩

theorem Combines.flip {a b : ℝ} {X Y Z : Arr2 ℝ} (h : Combines a b X Y Z) : Combines a b X.fliplr Y.fliplr Z.fliplr := by
  refine ⟨h.1, h.2.1, fun i j => ?_⟩
  rw [fliplr_zext, fliplr_zext, fliplr_zext, h.1.2, h.2.1.2]
  exact h.2.2 _ _

theorem Combines.camera {a b : ℝ} {X Y Z : Arr2 ℝ} (S : Spline) (P : ℝ) (M : ℤ) (cx cy : ℝ) (h : Combines a b X Y Z) :
    Combines a b (cameraGrid S X P M cx cy) (cameraGrid S Y P M cx cy) (cameraGrid S Z P M cx cy) := by
  obtain ⟨n, m, g, k, rfl, rfl, rfl⟩ := h.elim
  have : cameraGrid S ⟨n, m, fun i j => a * g i j + b * k i j⟩ P M cx cy =
      ⟨M.toNat, M.toNat, fun i j => a * (cameraGrid S ⟨n, m, g⟩ P M cx cy).val i j + b * (cameraGrid S ⟨n, m, k⟩ P M cx cy).val i j⟩ := by
    unfold cameraGrid
    congr
    funext i j
    simp only
    split
    · exact S.linear _ _ n m g k a b _ _
    · simp
  rw [this]
  exact combines_mk a b M.toNat M.toNat (cameraGrid S ⟨n, m, g⟩ P M cx cy).val (cameraGrid S ⟨n, m, k⟩ P M cx cy).val

theorem Combines.convolve {a b : ℝ} {X Y Z : Arr2 ℝ} (w : Arr2 ℝ) (h : Combines a b X Y Z) :
    Combines a b (fullConvolve X w) (fullConvolve Y w) (fullConvolve Z w) := by
  obtain ⟨n, m, g, k, rfl, rfl, rfl⟩ := h.elim
  have : fullConvolve ⟨n, m, fun i j => a * g i j + b * k i j⟩ w =
      ⟨n + w.nr - 1, m + w.nc - 1, fun i j => a * (fullConvolve ⟨n, m, g⟩ w).val i j + b * (fullConvolve ⟨n, m, k⟩ w).val i j⟩ := by
    unfold fullConvolve
    congr
    funext i j
    simp only [Finset.mul_sum, ← Finset.sum_add_distrib]
    refine Finset.sum_congr rfl fun p _ => Finset.sum_congr rfl fun q _ => ?_
    rw [h.2.2]
    ring
  rw [this]
  exact combines_mk a b _ _ (fullConvolve ⟨n, m, g⟩ w).val (fullConvolve ⟨n, m, k⟩ w).val

theorem Combines.spread {a b : ℝ} {X Y Z : Arr2 ℝ} (n P : ℕ) (h : Combines a b X Y Z) :
    Combines a b (spreadPokes n P X) (spreadPokes n P Y) (spreadPokes n P Z) := by
  have : spreadPokes n P X =
      ⟨(n - 1) * P + 1, (n - 1) * P + 1, fun i j => a * (spreadPokes n P Y).val i j + b * (spreadPokes n P Z).val i j⟩ := by
    unfold spreadPokes
    congr
    funext i j
    simp only
    split
    · exact h.2.2 _ _
    · simp
  rw [this]
  exact combines_mk a b _ _ (spreadPokes n P Y).val (spreadPokes n P Z).val

theorem Combines.crop {a b : ℝ} {X Y Z : Arr2 ℝ} (h : Combines a b X Y Z) (r c : ℤ) {x y z : Arr2 ℝ}
    (hx : padCrop X [r, c] 0 = .ok x) (hy : padCrop Y [r, c] 0 = .ok y) (hz : padCrop Z [r, c] 0 = .ok z) : Combines a b x y z := by
  obtain ⟨x1, x2, x3⟩ := crop_at hx
  obtain ⟨y1, y2, y3⟩ := crop_at hy
  obtain ⟨z1, z2, z3⟩ := crop_at hz
  refine ⟨⟨by omega, by omega⟩, ⟨by omega, by omega⟩, fun i j => ?_⟩
  by_cases hb : (0 ≤ i ∧ i < x.nr) ∧ (0 ≤ j ∧ j < x.nc)
  · have hre : Reaches r c (i - r / 2) (j - c / 2) := by unfold Reaches; omega
    have e1 := x3 _ _ hre
    have e2 := y3 _ _ hre
    have e3 := z3 _ _ hre
    unfold Arr2.centered at e1 e2 e3
    rw [x1, x2, show r / 2 + (i - r / 2) = i by omega, show c / 2 + (j - c / 2) = j by omega] at e1
    rw [y1, y2, show r / 2 + (i - r / 2) = i by omega, show c / 2 + (j - c / 2) = j by omega] at e2
    rw [z1, z2, show r / 2 + (i - r / 2) = i by omega, show c / 2 + (j - c / 2) = j by omega] at e3
    unfold Arr2.zext
    rw [e1, e2, e3]
    simp only [Option.getD_some]
    have := h.2.2 ((Y.nr : ℤ) / 2 + (i - r / 2)) ((Y.nc : ℤ) / 2 + (j - c / 2))
    rw [h.1.1, h.1.2, h.2.1.1, h.2.1.2]
    exact this
  · rw [zext_out hb, zext_out (by omega), zext_out (by omega)]; simp

/-- **C62.** The surface is linear in the commands: for the same registration, a combination of commands makes the same
combination of surfaces, pixel by pixel. -/
theorem C62_linear (S : Spline) (R : Rotate) (T : Shift) (nrow ncol : ℤ) (n : ℕ) (f g : Fin n → Fin n → ℝ) (a b : ℝ)
    (w : Arr2 ℝ) (P : ℤ) (cx cy dx dy th : ℝ) (flipx : Bool) (o1 o2 : Arr2 ℝ)
    (h1 : dmhtoph S R T nrow ncol ⟨n, n, f⟩ n w P cx cy dx dy th flipx = .ok o1)
    (h2 : dmhtoph S R T nrow ncol ⟨n, n, g⟩ n w P cx cy dx dy th flipx = .ok o2) :
    ∃ o, dmhtoph S R T nrow ncol ⟨n, n, fun i j => a * f i j + b * g i j⟩ n w P cx cy dx dy th flipx = .ok o ∧
      ∀ i j x y, o1.px i j = some x → o2.px i j = some y → o.px i j = some (a * x + b * y) := by
  have A1 := dmh_args h1
  have A2 := dmh_args h2
  have A : DmhArgs nrow ncol ⟨n, n, fun i j => a * f i j + b * g i j⟩ n w P cx cy := ⟨A1.rows, A1.cols, A1.nact, A1.samples, A1.posX,
    A1.posY, A1.smaller, ⟨rfl, rfl⟩, A1.sampled, A1.square, A1.odd, A1.enough⟩
  obtain ⟨o, ho⟩ := (C62_shape S R T nrow ncol ⟨n, n, fun i j => a * f i j + b * g i j⟩ n w P cx cy dx dy th flipx).1.mpr A
  refine ⟨o, ho, ?_⟩
  rw [dmh_eq S R T nrow ncol _ n w P cx cy dx dy th flipx A] at ho
  rw [dmh_eq S R T nrow ncol _ n w P cx cy dx dy th flipx A1] at h1
  rw [dmh_eq S R T nrow ncol _ n w P cx cy dx dy th flipx A2] at h2
  have hc := (((combines_mk a b n n f g).spread (n : ℤ).toNat P.toNat).convolve w).camera S P (workSize n w.nr P cx cy) cx cy
  have hfin : Combines a b o o1 o2 := by
    cases flipx with
    | true =>
      simp only [if_true] at ho h1 h2
      exact ((hc.flip.rotate R (-th)).shift T dy dx).crop nrow ncol ho h1 h2
    | false =>
      simp only [Bool.false_eq_true, if_false] at ho h1 h2
      exact ((hc.rotate R (-th)).shift T dy dx).crop nrow ncol ho h1 h2
  intro i j x y hx hy
  have hb : (0 ≤ i ∧ i < o1.nr) ∧ (0 ≤ j ∧ j < o1.nc) := (Arr2.px_isSome o1 i j).mp (by rw [hx]; rfl)
  have hb' : (0 ≤ i ∧ i < o.nr) ∧ (0 ≤ j ∧ j < o.nc) := by rw [hfin.1.1, hfin.1.2]; exact hb
  have hz := hfin.2.2 i j
  unfold Arr2.zext at hz
  rw [hx, hy] at hz
  obtain ⟨v, hv⟩ := Option.isSome_iff_exists.mp ((Arr2.px_isSome o i j).mpr hb')
  rw [hv] at hz ⊢
  exact congrArg some hz

/-! ### What the surface is -/

/-- Coordinates: the grid point `(N/2 + y)` of the convolved array is at `dmPos`. -/
theorem dmPos_eq (n P N : ℕ) (hP : 1 ≤ P) (hn : 1 ≤ n) (hN : N % 2 = 1) (y : ℤ) :
    dmPos n P y = ((((N : ℤ) / 2 + y : ℤ) : ℝ) - ((((n - 1) * P + 1 + N - 1 : ℕ) : ℝ) - 1) / 2) / ((P : ℤ) : ℝ) := by
  obtain ⟨c, rfl⟩ : ∃ c, N = 2 * c + 1 := ⟨N / 2, by omega⟩
  have hc : (((2 * c + 1 : ℕ)) : ℤ) / 2 = c := by omega
  rw [hc, show (n - 1) * P + 1 + (2 * c + 1) - 1 = (n - 1) * P + (2 * c + 1) by omega]
  unfold dmPos
  push_cast [Nat.cast_sub hn]
  have : (P : ℝ) ≠ 0 := by positivity
  field_simp
  ring

/-- The working array covers everything that moves. -/
theorem far_of_outside (n P N : ℕ) (hP : 1 ≤ P) (hn : 1 ≤ n) (hN : N % 2 = 1) (c1 c2 : ℝ) (hc : 0 < c1) (hc2 : 0 < c2) (k y : ℤ)
    (hk : ¬ (0 ≤ workSize n N P c1 c2 / 2 + k ∧ workSize n N P c1 c2 / 2 + k < workSize n N P c1 c2)) (c : ℝ) (hcc : c = c1 ∨ c = c2)
    (h : (k : ℝ) / c = dmPos n P y) : y < -((N : ℤ) / 2) ∨ P * ((n : ℤ) - 1) + N < y + (N : ℤ) / 2 + 1 := by
  obtain ⟨⟨hodd, hge⟩, -⟩ := C08_ceil_odd (Real.sqrt 2 * (((n : ℤ) : ℝ) + N / ((P : ℤ) : ℝ)) * max c1 c2)
  change (workSize n N P c1 c2) % 2 = 1 at hodd
  change _ ≤ ((workSize n N P c1 c2 : ℤ) : ℝ) at hge
  generalize workSize n N P c1 c2 = M at hk hodd hge
  have hc0 : 0 < c := by rcases hcc with rfl | rfl <;> assumption
  have hmax : c ≤ max c1 c2 := by
    rcases hcc with rfl | rfl
    · exact le_max_left _ _
    · exact le_max_right _ _
  have hP0 : (0 : ℝ) < P := by exact_mod_cast hP
  have hn0 : (1 : ℝ) ≤ n := by exact_mod_cast hn
  have hs : (1 : ℝ) ≤ Real.sqrt 2 := by rw [Real.one_le_sqrt]; norm_num
  have hbig : ((n : ℝ) + N / P) * c ≤ M := by
    refine le_trans ?_ hge
    have h0 : (0 : ℝ) ≤ (n : ℝ) + N / P := by positivity
    have : 1 * ((n : ℝ) + N / P) * c ≤ Real.sqrt 2 * ((n : ℝ) + N / P) * max c1 c2 :=
      mul_le_mul (mul_le_mul_of_nonneg_right hs h0) hmax hc0.le (by positivity)
    push_cast
    rwa [one_mul] at this
  have hM : (0 : ℤ) < M := by
    have : (0 : ℝ) < M := lt_of_lt_of_le (by positivity) hbig
    exact_mod_cast this
  have hk2 : M + 1 ≤ 2 * k ∨ 2 * k ≤ -M - 1 := by omega
  unfold dmPos at h
  rw [div_eq_iff hc0.ne'] at h
  have hy : (y : ℝ) = P * ((k : ℝ) / c + ((n : ℝ) - 1) / 2) := by
    rw [h]; push_cast; field_simp; ring
  have hN2 : ((N : ℤ) / 2 : ℤ) * 2 + 1 = N := by omega
  rcases hk2 with hk2 | hk2
  · right
    have hkr : ((M : ℝ) + 1) / 2 ≤ k := by
      have : ((M + 1 : ℤ) : ℝ) ≤ ((2 * k : ℤ) : ℝ) := by exact_mod_cast hk2
      push_cast at this
      linarith
    have h1 : ((n : ℝ) + N / P) / 2 < (k : ℝ) / c := by
      rw [lt_div_iff₀ hc0]; linarith
    have h2 : P * (((n : ℝ) + N / P) / 2 + ((n : ℝ) - 1) / 2) < y := by
      rw [hy]; exact mul_lt_mul_of_pos_left (by linarith) hP0
    have h3 : P * (((n : ℝ) + N / P) / 2 + ((n : ℝ) - 1) / 2) = P * (n - 1) + P / 2 + N / 2 := by field_simp; ring
    rw [h3] at h2
    have h4 : ((2 * (P * ((n : ℤ) - 1)) + N : ℤ) : ℝ) < ((2 * y : ℤ) : ℝ) := by push_cast; linarith
    have h5 := (Int.cast_lt (R := ℝ)).mp h4
    omega
  · left
    have hkr : (k : ℝ) ≤ -((M : ℝ) + 1) / 2 := by
      have : ((2 * k : ℤ) : ℝ) ≤ ((-M - 1 : ℤ) : ℝ) := by exact_mod_cast hk2
      push_cast at this
      linarith
    have h1 : (k : ℝ) / c < -(((n : ℝ) + N / P) / 2) := by
      rw [div_lt_iff₀ hc0]; linarith
    have h2 : (y : ℝ) < P * (-(((n : ℝ) + N / P) / 2) + ((n : ℝ) - 1) / 2) := by
      rw [hy]; exact mul_lt_mul_of_pos_left (by linarith) hP0
    have h3 : P * (-(((n : ℝ) + N / P) / 2) + ((n : ℝ) - 1) / 2) = - (P : ℝ) / 2 - N / 2 := by field_simp; ring
    rw [h3] at h2
    have h4 : ((2 * y : ℤ) : ℝ) < ((-(N : ℤ) : ℤ) : ℝ) := by push_cast; linarith
    have h5 := (Int.cast_lt (R := ℝ)).mp h4
    omega

/-- The camera grid, extended by zeros, is the facesheet. -/
theorem camera_facesheet (S : Spline) (n P N : ℕ) (hP : 1 ≤ P) (hn : 1 ≤ n) (hN : N % 2 = 1) (cx cy : ℝ) (hx : 0 < cx) (hy : 0 < cy)
    (d : Fin n → Fin n → ℝ) (v : Fin N → Fin N → ℝ) (k l y x : ℤ) (h1 : (k : ℝ) / cy = dmPos n P y) (h2 : (l : ℝ) / cx = dmPos n P x) :
    (cameraGrid S (fullConvolve (spreadPokes n P ⟨n, n, d⟩) ⟨N, N, v⟩) ((P : ℤ) : ℝ) (workSize n N P cx cy) cx cy).zext
      (workSize n N P cx cy / 2 + k) (workSize n N P cx cy / 2 + l) = facesheet ⟨n, n, d⟩ ⟨N, N, v⟩ P y x := by
  have f1 := fun hk => far_of_outside n P N hP hn hN cx cy hx hy k y hk cy (Or.inr rfl) h1
  have f2 := fun hl => far_of_outside n P N hP hn hN cx cy hx hy l x hl cx (Or.inl rfl) h2
  by_cases hk : 0 ≤ workSize n N P cx cy / 2 + k ∧ workSize n N P cx cy / 2 + k < workSize n N P cx cy
  · by_cases hl : 0 ≤ workSize n N P cx cy / 2 + l ∧ workSize n N P cx cy / 2 + l < workSize n N P cx cy
    · rw [← convolve_facesheet n P N hn hP hN]
      have hPr : (0 : ℝ) < ((P : ℤ) : ℝ) := by exact_mod_cast hP
      exact camera_zext S ((n - 1) * P + 1 + N - 1) (by omega) (fullConvolve (spreadPokes n P ⟨n, n, d⟩) ⟨N, N, v⟩).val _ hPr
        (workSize n N P cx cy) cx cy k l _ _ hk hl (h1.trans (dmPos_eq n P N hP hn hN y)) (h2.trans (dmPos_eq n P N hP hn hN x))
    · rw [facesheet_far n P N hn hP d v y x (Or.inr (Or.inr (f2 hl)))]
      apply zext_out
      intro hb
      apply hl
      have := hb.2
      unfold cameraGrid at this
      simp only at this
      omega
  · have hf : facesheet ⟨n, n, d⟩ ⟨N, N, v⟩ P y x = 0 := by
      apply facesheet_far n P N hn hP
      rcases f1 hk with h | h
      · exact Or.inl h
      · exact Or.inr (Or.inl h)
    rw [hf]
    apply zext_out
    intro hb
    apply hk
    have := hb.1
    unfold cameraGrid at this
    simp only at this
    omega

theorem facesheet_at (S : Spline) (R : Rotate) (T : Shift) (nrow ncol : ℤ) (dm : Arr2 ℝ) (n : ℤ) (w : Arr2 ℝ) (P : ℤ)
    (cx cy : ℝ) (dx dy : ℤ) (flipx : Bool) (out : Arr2 ℝ)
    (hok : dmhtoph S R T nrow ncol dm n w P cx cy dx dy 0 flipx = .ok out) (k l y x : ℤ) (hkl : Reaches nrow ncol k l)
    (bk : 0 ≤ workSize n w.nr P cx cy / 2 + k ∧ workSize n w.nr P cx cy / 2 + k < workSize n w.nr P cx cy)
    (bl : 0 ≤ workSize n w.nr P cx cy / 2 + l ∧ workSize n w.nr P cx cy / 2 + l < workSize n w.nr P cx cy)
    (hy : ((k : ℝ) - dy) / cy = dmPos n P y) (hx : (if flipx = true then -((l : ℝ) - dx) else (l : ℝ) - dx) / cx = dmPos n P x) :
    out.centered k l = some (facesheet dm w P y x) := by
  have A := dmh_args hok
  rw [dmh_eq S R T nrow ncol dm n w P cx cy dx dy 0 flipx A, neg_zero, R.zeroAngle] at hok
  obtain ⟨a1, a2, a3, a4, a5, a6, -, a8, -, a10, a11, -⟩ := A
  obtain ⟨n, rfl⟩ := Int.eq_ofNat_of_zero_le a3.le
  obtain ⟨P, rfl⟩ := Int.eq_ofNat_of_zero_le a4.le
  obtain ⟨n1, n2, d⟩ := dm
  obtain ⟨N, N', v⟩ := w
  simp only at a8 a10 a11 bk bl
  obtain ⟨b1, b2⟩ := a8
  have b1' : n1 = n := by exact_mod_cast b1
  have b2' : n2 = n := by exact_mod_cast b2
  subst b1' b2' a10
  simp only [Int.toNat_natCast] at hok
  have hcam := fun k' l' h1 h2 => camera_facesheet S n2 P N (by omega) (by omega) a11 cx cy a5 a6 d v k' l' y x h1 h2
  obtain ⟨⟨hodd, hge⟩, -⟩ := C08_ceil_odd (Real.sqrt 2 * (((n2 : ℤ) : ℝ) + N / ((P : ℤ) : ℝ)) * max cx cy)
  change (workSize n2 N P cx cy) % 2 = 1 at hodd
  change _ ≤ ((workSize n2 N P cx cy : ℤ) : ℝ) at hge
  have hnr : ∀ M, (cameraGrid S (fullConvolve (spreadPokes n2 P ⟨n2, n2, d⟩) ⟨N, N, v⟩) ((P : ℤ) : ℝ) M cx cy).nr = M.toNat := fun _ => rfl
  have hnc : ∀ M, (cameraGrid S (fullConvolve (spreadPokes n2 P ⟨n2, n2, d⟩) ⟨N, N, v⟩) ((P : ℤ) : ℝ) M cx cy).nc = M.toNat := fun _ => rfl
  have hnr := hnr (workSize n2 N P cx cy)
  have hnc := hnc (workSize n2 N P cx cy)
  generalize cameraGrid S (fullConvolve (spreadPokes n2 P ⟨n2, n2, d⟩) ⟨N, N, v⟩) ((P : ℤ) : ℝ) (workSize n2 N P cx cy) cx cy = g
    at hok hcam hnr hnc
  generalize workSize n2 N P cx cy = M at *
  obtain ⟨o1, o2, o3⟩ := crop_at hok
  have o3 := o3 k l hkl
  rw [o3]
  congr 1
  have hy' : ((k - dy : ℤ) : ℝ) / cy = dmPos (n2 : ℤ) (P : ℤ) y := by push_cast; exact hy
  cases flipx with
  | false =>
    simp only [Bool.false_eq_true, if_false] at hok hx ⊢
    have hx' : ((l - dx : ℤ) : ℝ) / cx = dmPos (n2 : ℤ) (P : ℤ) x := by push_cast; exact hx
    have hM : ((M.toNat : ℕ) : ℤ) = M := by omega
    unfold Arr2.centered
    rw [T.nr, T.nc, hnr, hnc, hM, T.whole dy dx g _ _ (by rw [hnr, hnc, hM]; exact ⟨bk, bl⟩), Option.getD_some,
      ← hcam (k - dy) (l - dx) hy' hx', ← add_sub_assoc, ← add_sub_assoc]
    rfl
  | true =>
    simp only [if_true] at hok hx ⊢
    have hx' : ((-(l - dx) : ℤ) : ℝ) / cx = dmPos (n2 : ℤ) (P : ℤ) x := by push_cast; exact hx
    have hM : ((M.toNat : ℕ) : ℤ) = M := by omega
    have hfr : g.fliplr.nr = M.toNat := hnr
    have hfc : g.fliplr.nc = M.toNat := hnc
    unfold Arr2.centered
    rw [T.nr, T.nc, hfr, hfc, hM, T.whole dy dx g.fliplr _ _ (by rw [hfr, hfc, hM]; exact ⟨bk, bl⟩), Option.getD_some,
      ← hcam (k - dy) (-(l - dx)) hy' hx', ← add_sub_assoc]
    refine (fliplr_zext g _ _).trans ?_
    rw [hnc, hM]
    congr 1
    omega

/-- **C62.** What the surface is.  With no rotation and a translation by whole pixels, look at an output pixel `(k, l)` from the
centre, within the extent `√2 (n + N/P) max(cx, cy)` that the function works on.  If, seen from the shifted centre and with the
column direction reversed for a flipped mirror, it lies `(y, x)` samples of the influence function from actuator `(0, 0)`, then
its value is the height of the facesheet there: the sum over all actuators of the command times the influence function. -/
theorem C62_facesheet (S : Spline) (R : Rotate) (T : Shift) (nrow ncol : ℤ) (dm : Arr2 ℝ) (n : ℤ) (w : Arr2 ℝ) (P : ℤ)
    (cx cy : ℝ) (dx dy : ℤ) (flipx : Bool) (out : Arr2 ℝ)
    (hok : dmhtoph S R T nrow ncol dm n w P cx cy dx dy 0 flipx = .ok out) (k l y x : ℤ) (hkl : Reaches nrow ncol k l)
    (hk : 2 * |(k : ℝ)| ≤ Real.sqrt 2 * (n + w.nr / P) * max cx cy) (hl : 2 * |(l : ℝ)| ≤ Real.sqrt 2 * (n + w.nr / P) * max cx cy)
    (hy : ((k : ℝ) - dy) / cy = dmPos n P y) (hx : (if flipx = true then -((l : ℝ) - dx) else (l : ℝ) - dx) / cx = dmPos n P x) :
    out.centered k l = some (facesheet dm w P y x) := by
  obtain ⟨⟨hodd, hge⟩, -⟩ := C08_ceil_odd (Real.sqrt 2 * ((n : ℝ) + w.nr / (P : ℝ)) * max cx cy)
  change (workSize n w.nr P cx cy) % 2 = 1 at hodd
  change _ ≤ ((workSize n w.nr P cx cy : ℤ) : ℝ) at hge
  have bnd : ∀ z : ℤ, 2 * |(z : ℝ)| ≤ Real.sqrt 2 * ((n : ℝ) + w.nr / (P : ℝ)) * max cx cy →
      0 ≤ workSize n w.nr P cx cy / 2 + z ∧ workSize n w.nr P cx cy / 2 + z < workSize n w.nr P cx cy := by
    intro z hz
    have : ((2 * |z| : ℤ) : ℝ) ≤ workSize n w.nr P cx cy := by push_cast; exact hz.trans hge
    have : 2 * |z| ≤ workSize n w.nr P cx cy := by exact_mod_cast this
    have := le_abs_self z
    have := neg_le_abs z
    omega
  exact facesheet_at S R T nrow ncol dm n w P cx cy dx dy flipx out hok k l y x hkl (bnd k hk) (bnd l hl) hy hx

theorem outside_zero (S : Spline) (R : Rotate) (T : Shift) (nrow ncol : ℤ) (dm : Arr2 ℝ) (n : ℤ) (w : Arr2 ℝ) (P : ℤ)
    (cx cy dx dy th : ℝ) (flipx : Bool) (out : Arr2 ℝ) (hok : dmhtoph S R T nrow ncol dm n w P cx cy dx dy th flipx = .ok out) (k l : ℤ)
    (hkl : Reaches nrow ncol k l) (hfar : workSize n w.nr P cx cy < 2 * |k| ∨ workSize n w.nr P cx cy < 2 * |l|) :
    out.centered k l = some 0 := by
  have A := dmh_args hok
  rw [dmh_eq S R T nrow ncol dm n w P cx cy dx dy th flipx A] at hok
  obtain ⟨⟨hodd, -⟩, -⟩ := C08_ceil_odd (Real.sqrt 2 * ((n : ℝ) + w.nr / (P : ℝ)) * max cx cy)
  change (workSize n w.nr P cx cy) % 2 = 1 at hodd
  obtain ⟨o1, o2, o3⟩ := crop_at hok
  rw [o3 k l hkl]
  congr 1
  have hsz : ∀ g : Arr2 ℝ, g.nr = (workSize n w.nr P cx cy).toNat → g.nc = (workSize n w.nr P cx cy).toNat →
      g.centered k l = none := by
    intro g h1 h2
    unfold Arr2.centered
    apply Arr2.px_of_not_inB
    rw [h1, h2]
    have := le_abs_self k
    have := le_abs_self l
    intro hb
    rcases hfar with h | h
    · rcases abs_choice k with e | e <;> omega
    · rcases abs_choice l with e | e <;> omega
  rw [hsz]
  · rfl
  · rw [T.nr, R.nr]; split <;> rfl
  · rw [T.nc, R.nc]; split <;> rfl

/-- **C62.** Outside the extent the function works on, the surface is zero, also where a translated facesheet would reach. -/
theorem C62_outside (S : Spline) (R : Rotate) (T : Shift) (nrow ncol : ℤ) (dm : Arr2 ℝ) (n : ℤ) (w : Arr2 ℝ) (P : ℤ)
    (cx cy dx dy th : ℝ) (flipx : Bool) (out : Arr2 ℝ) (hok : dmhtoph S R T nrow ncol dm n w P cx cy dx dy th flipx = .ok out) (k l : ℤ)
    (hkl : Reaches nrow ncol k l) 
    (hfar : Real.sqrt 2 * (n + w.nr / P) * max cx cy + 2 ≤ 2 * |(k : ℝ)| ∨ Real.sqrt 2 * (n + w.nr / P) * max cx cy + 2 ≤ 2 * |(l : ℝ)|) :
    out.centered k l = some 0 := by
  have hlt : ((workSize n w.nr P cx cy : ℤ) : ℝ) < Real.sqrt 2 * (n + w.nr / P) * max cx cy + 2 := by
    have h1 := Int.ceil_lt_add_one (Real.sqrt 2 * ((n : ℝ) + w.nr / (P : ℝ)) * max cx cy)
    unfold workSize ceilOdd
    simp only
    split
    · push_cast; linarith
    · linarith
  refine outside_zero S R T nrow ncol dm n w P cx cy dx dy th flipx out hok k l hkl ?_
  rcases hfar with h | h
  · left
    have : ((workSize n w.nr P cx cy : ℤ) : ℝ) < ((2 * |k| : ℤ) : ℝ) := by push_cast; linarith
    exact_mod_cast this
  · right
    have : ((workSize n w.nr P cx cy : ℤ) : ℝ) < ((2 * |l| : ℤ) : ℝ) := by push_cast; linarith
    exact_mod_cast this

/-- **C62.** The centred case needs no bound on the position: the working array covers everything that moves. -/
theorem C62_facesheet_centred (S : Spline) (R : Rotate) (T : Shift) (nrow ncol : ℤ) (dm : Arr2 ℝ) (n : ℤ) (w : Arr2 ℝ) (P : ℤ)
    (cx cy : ℝ) (out : Arr2 ℝ) (hok : dmhtoph S R T nrow ncol dm n w P cx cy 0 0 0 false = .ok out) (k l y x : ℤ)
    (hkl : Reaches nrow ncol k l) (hy : (k : ℝ) / cy = dmPos n P y) (hx : (l : ℝ) / cx = dmPos n P x) :
    out.centered k l = some (facesheet dm w P y x) := by
  have hok' : dmhtoph S R T nrow ncol dm n w P cx cy ((0 : ℤ) : ℝ) ((0 : ℤ) : ℝ) 0 false = .ok out := by simpa using hok
  by_cases hfar : workSize n w.nr P cx cy < 2 * |k| ∨ workSize n w.nr P cx cy < 2 * |l|
  · rw [outside_zero S R T nrow ncol dm n w P cx cy 0 0 0 false out hok k l hkl hfar]
    obtain ⟨a1, a2, a3, a4, a5, a6, -, a8, -, a10, a11, -⟩ := dmh_args hok
    obtain ⟨n, rfl⟩ := Int.eq_ofNat_of_zero_le a3.le
    obtain ⟨P, rfl⟩ := Int.eq_ofNat_of_zero_le a4.le
    obtain ⟨n1, n2, d⟩ := dm
    obtain ⟨N, N', v⟩ := w
    simp only at a8 a10 a11 hfar
    obtain ⟨b1, b2⟩ := a8
    have b1' : n1 = n := by exact_mod_cast b1
    have b2' : n2 = n := by exact_mod_cast b2
    subst b1' b2' a10
    congr 1
    symm
    apply facesheet_far n2 P N (by omega) (by omega)
    rcases hfar with h | h
    · have := far_of_outside n2 P N (by omega) (by omega) a11 cx cy a5 a6 k y
        (by rcases abs_choice k with e | e <;> omega) cy (Or.inr rfl) hy
      rcases this with h | h
      · exact Or.inl h
      · exact Or.inr (Or.inl h)
    · have := far_of_outside n2 P N (by omega) (by omega) a11 cx cy a5 a6 l x
        (by rcases abs_choice l with e | e <;> omega) cx (Or.inl rfl) hx
      exact Or.inr (Or.inr this)
  · obtain ⟨⟨hodd, hge⟩, -⟩ := C08_ceil_odd (Real.sqrt 2 * ((n : ℝ) + w.nr / (P : ℝ)) * max cx cy)
    change (workSize n w.nr P cx cy) % 2 = 1 at hodd
    push Not at hfar
    have b : ∀ z : ℤ, 2 * |z| ≤ workSize n w.nr P cx cy →
        0 ≤ workSize n w.nr P cx cy / 2 + z ∧ workSize n w.nr P cx cy / 2 + z < workSize n w.nr P cx cy := by
      intro z hz
      have := le_abs_self z
      have := neg_le_abs z
      omega
    exact facesheet_at S R T nrow ncol dm n w P cx cy 0 0 false out hok' k l y x hkl (b k hfar.1) (b l hfar.2)
      (by rw [Int.cast_zero, sub_zero]; exact hy) (by simpa using hx)

/-- **C62.** A single poke of height `h` moves the facesheet by `h` times the influence function centred on that actuator. -/
theorem C62_single_poke (S : Spline) (R : Rotate) (T : Shift) (nrow ncol : ℤ) (n : ℕ) (a0 b0 : Fin n) (h : ℝ) (w : Arr2 ℝ) (P : ℤ)
    (cx cy : ℝ) (out : Arr2 ℝ)
    (hok : dmhtoph S R T nrow ncol ⟨n, n, fun i j => if i = a0 ∧ j = b0 then h else 0⟩ n w P cx cy 0 0 0 false = .ok out) (k l y x : ℤ)
    (hkl : Reaches nrow ncol k l) (hy : (k : ℝ) / cy = dmPos n P (P * (a0 : ℕ) + y)) (hx : (l : ℝ) / cx = dmPos n P (P * (b0 : ℕ) + x)) :
    out.centered k l = some (h * (w.centered y x).getD 0) := by
  rw [C62_facesheet_centred S R T nrow ncol _ n w P cx cy out hok k l _ _ hkl hy hx]
  congr 1
  unfold facesheet
  simp only
  rw [Finset.sum_eq_single a0, Finset.sum_eq_single b0]
  · simp only [and_self, if_true, add_sub_cancel_left]
    rfl
  · intro b _ hb
    rw [if_neg (fun hc => hb hc.2), zero_mul]
  · intro hc; exact absurd (Finset.mem_univ _) hc
  · intro a _ ha
    refine Finset.sum_eq_zero fun b _ => ?_
    rw [if_neg (fun hc => ha hc.1), zero_mul]
  · intro hc; exact absurd (Finset.mem_univ _) hc

/-- Specification: the influence function is normalised so that neighbouring copies of it, one actuator apart, add up to 1
everywhere. -/
def Normalised (w : Arr2 ℝ) (P : ℤ) : Prop :=
  ∀ y x : ℤ, ∑ᶠ p : ℤ × ℤ, w.zext ((w.nr : ℤ) / 2 + (y - P * p.1)) ((w.nc : ℤ) / 2 + (x - P * p.2)) = 1

/-- **C62.** With a normalised influence function, moving all actuators by `h` moves the facesheet by exactly `h` wherever it is
surrounded by actuators, that is at least half an influence function inside the outermost ones. -/
theorem C62_piston (S : Spline) (R : Rotate) (T : Shift) (nrow ncol : ℤ) (n : ℕ) (h : ℝ) (w : Arr2 ℝ) (P : ℤ) (hw : Normalised w P)
    (cx cy : ℝ) (out : Arr2 ℝ) (hok : dmhtoph S R T nrow ncol (Arr2.full n n h) n w P cx cy 0 0 0 false = .ok out) (k l y x : ℤ)
    (hkl : Reaches nrow ncol k l) (hy : (k : ℝ) / cy = dmPos n P y) (hx : (l : ℝ) / cx = dmPos n P x)
    (iy : (w.nr : ℤ) / 2 ≤ y ∧ y + (w.nr : ℤ) / 2 ≤ P * ((n : ℤ) - 1)) (ix : (w.nr : ℤ) / 2 ≤ x ∧ x + (w.nr : ℤ) / 2 ≤ P * ((n : ℤ) - 1)) :
    out.centered k l = some h := by
  rw [C62_facesheet_centred S R T nrow ncol _ n w P cx cy out hok k l y x hkl hy hx]
  congr 1
  obtain ⟨-, -, a3, a4, -, -, -, -, -, a10, a11, -⟩ := dmh_args hok
  have hsum : ∑ᶠ p : ℤ × ℤ, w.zext ((w.nr : ℤ) / 2 + (y - P * p.1)) ((w.nc : ℤ) / 2 + (x - P * p.2)) =
      ∑ᶠ p : ℤ × ℤ, (fun (p q : ℤ) (v : ℝ) => v * w.zext ((w.nr : ℤ) / 2 + (y - P * p)) ((w.nc : ℤ) / 2 + (x - P * q))) p.1 p.2
        ((Arr2.full n n (1 : ℝ)).zext p.1 p.2) := by
    refine finsum_congr fun p => ?_
    simp only
    by_cases hz : w.zext ((w.nr : ℤ) / 2 + (y - P * p.1)) ((w.nc : ℤ) / 2 + (x - P * p.2)) = 0
    · rw [hz, mul_zero]
    · obtain ⟨⟨c1, c2⟩, c3, c4⟩ := Arr2.zext_ne_zero w hz
      rw [← a10] at c3 c4
      have rng : ∀ q z : ℤ, (w.nr : ℤ) / 2 ≤ z → z + (w.nr : ℤ) / 2 ≤ P * ((n : ℤ) - 1) → 0 ≤ (w.nr : ℤ) / 2 + (z - P * q) →
          (w.nr : ℤ) / 2 + (z - P * q) < w.nr → 0 ≤ q ∧ q < n := by
        intro q z z1 z2 z3 z4
        constructor
        · by_contra hc
          have : P * q ≤ P * (-1) := mul_le_mul_of_nonneg_left (by omega) a4.le
          omega
        · by_contra hc
          have : P * (n : ℤ) ≤ P * q := mul_le_mul_of_nonneg_left (by omega) a4.le
          rw [mul_sub, mul_one] at z2
          omega
      have r1 := rng _ _ iy.1 iy.2 c1 c2
      have r2 := rng _ _ ix.1 ix.2 c3 c4
      have : (Arr2.full n n (1 : ℝ)).zext p.1 p.2 = 1 := (zext_in (a := Arr2.full n n (1 : ℝ)) ⟨r1, r2⟩).trans rfl
      rw [this, one_mul]
  have h1 := hw y x
  rw [hsum, ← Arr2.sum_eq_finsum (Arr2.full n n (1 : ℝ)) (fun (p q : ℤ) (v : ℝ) =>
    v * w.zext ((w.nr : ℤ) / 2 + (y - P * p)) ((w.nc : ℤ) / 2 + (x - P * q))) (by simp)] at h1
  have h2 : facesheet (Arr2.full n n h) w P y x = h * ∑ i : Fin (Arr2.full n n (1 : ℝ)).nr, ∑ j : Fin (Arr2.full n n (1 : ℝ)).nc,
      (Arr2.full n n (1 : ℝ)).val i j * w.zext ((w.nr : ℤ) / 2 + (y - P * ((i : ℕ) : ℤ))) ((w.nc : ℤ) / 2 + (x - P * ((j : ℕ) : ℤ))) := by
    unfold facesheet Arr2.full
    simp only [one_mul, Finset.mul_sum]
  rw [h2, h1, mul_one]

/-- The arguments of the theorems exist: a 4 × 4 mirror with a 3 × 3 influence function, two samples per actuator, seen with one
pixel per actuator on a 9 × 7 camera. -/
example (dm : Arr2 ℝ) (h : dm.nr = 4 ∧ dm.nc = 4) (v : Fin 3 → Fin 3 → ℝ) : DmhArgs 9 7 dm 4 ⟨3, 3, v⟩ 2 1 1 where
  rows := by norm_num
  cols := by norm_num
  nact := by norm_num
  samples := by norm_num
  posX := by norm_num
  posY := by norm_num
  smaller := by norm_num
  shape := by omega
  sampled := by norm_num
  square := rfl
  odd := by norm_num
  enough := by norm_num

/-- With five actuators and an odd size, camera pixel `(1, -2)` is on actuator `(3, 0)`. -/
example : ((1 : ℤ) : ℝ) / 1 = dmPos 5 2 (2 * 3 + 0) ∧ ((-2 : ℤ) : ℝ) / 1 = dmPos 5 2 (2 * 0 + 0) := by
  constructor <;> norm_num [dmPos]

/-- A pyramid reaching over two actuators' width. -/
noncomputable def pyramid : Arr2 ℝ :=
  ⟨3, 3, fun i j => (if (i : ℕ) = 1 then 1 else 1 / 2) * (if (j : ℕ) = 1 then 1 else 1 / 2)⟩

/-- It is normalised. -/
example : Normalised pyramid 2 := by
  classical
  have hz : ∀ i j : ℤ, pyramid.zext i j =
      (if i = 1 then 1 else if i = 0 ∨ i = 2 then 1 / 2 else 0) * (if j = 1 then 1 else if j = 0 ∨ j = 2 then 1 / 2 else 0) := by
    intro i j
    by_cases hb : (0 ≤ i ∧ i < (3 : ℕ)) ∧ (0 ≤ j ∧ j < (3 : ℕ))
    · refine (zext_in (a := pyramid) hb).trans ?_
      have h1 : i = 0 ∨ i = 1 ∨ i = 2 := by omega
      have h2 : j = 0 ∨ j = 1 ∨ j = 2 := by omega
      rcases h1 with rfl | rfl | rfl <;> rcases h2 with rfl | rfl | rfl <;> simp [pyramid]
    · rw [zext_out (a := pyramid) hb]
      by_cases hi : 0 ≤ i ∧ i < (3 : ℕ)
      · have : ¬ (0 ≤ j ∧ j < (3 : ℕ)) := fun hj => hb ⟨hi, hj⟩
        rw [if_neg (c := j = 1) (by omega), if_neg (c := j = 0 ∨ j = 2) (by omega), mul_zero]
      · rw [if_neg (c := i = 1) (by omega), if_neg (c := i = 0 ∨ i = 2) (by omega), zero_mul]
  intro y x
  have c1 : ((pyramid.nr : ℕ) : ℤ) / 2 = 1 := rfl
  have c2 : ((pyramid.nc : ℕ) : ℤ) / 2 = 1 := rfl
  rw [c1, c2, finsum_eq_sum_of_support_subset (s := ({y / 2, y / 2 + 1} : Finset ℤ) ×ˢ ({x / 2, x / 2 + 1} : Finset ℤ))]
  · rw [Finset.sum_product, Finset.sum_pair (by omega), Finset.sum_pair (by omega), Finset.sum_pair (by omega)]
    simp only [hz]
    rcases Int.emod_two_eq_zero_or_one y with hy | hy <;> rcases Int.emod_two_eq_zero_or_one x with hx | hx
    · rw [show 1 + (y - 2 * (y / 2)) = 1 by omega, show 1 + (x - 2 * (x / 2)) = 1 by omega,
        show 1 + (y - 2 * (y / 2 + 1)) = -1 by omega, show 1 + (x - 2 * (x / 2 + 1)) = -1 by omega]; norm_num
    · rw [show 1 + (y - 2 * (y / 2)) = 1 by omega, show 1 + (x - 2 * (x / 2)) = 2 by omega,
        show 1 + (y - 2 * (y / 2 + 1)) = -1 by omega, show 1 + (x - 2 * (x / 2 + 1)) = 0 by omega]; norm_num
    · rw [show 1 + (y - 2 * (y / 2)) = 2 by omega, show 1 + (x - 2 * (x / 2)) = 1 by omega,
        show 1 + (y - 2 * (y / 2 + 1)) = 0 by omega, show 1 + (x - 2 * (x / 2 + 1)) = -1 by omega]; norm_num
    · rw [show 1 + (y - 2 * (y / 2)) = 2 by omega, show 1 + (x - 2 * (x / 2)) = 2 by omega,
        show 1 + (y - 2 * (y / 2 + 1)) = 0 by omega, show 1 + (x - 2 * (x / 2 + 1)) = 0 by omega]; norm_num
  · rintro ⟨p, q⟩ hne
    have := Arr2.zext_ne_zero pyramid hne
    have n1 : pyramid.nr = 3 := rfl
    have n2 : pyramid.nc = 3 := rfl
    simp only [n1, n2] at this
    simp only [Finset.coe_product, Finset.coe_insert, Finset.coe_singleton, Set.mem_prod, Set.mem_insert_iff, Set.mem_singleton_iff]
    omega

end Coralign.Props
