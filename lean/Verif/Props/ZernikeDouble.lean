import Verif.Lemmas.ZernikeDouble
import Verif.Base.DoubleEval
import Verif.Spec.ZernikeDouble
import Verif.Props.Zernike

/-!
# C107: the Zernike polynomials in double precision
-/

namespace Coralign.Props

open Spec Finset

/-! ### The coefficients -/

theorem rel_of_close {g f : ℝ} (hf : 0 < f) (h : |g - f| ≤ f / 2 ^ 50) : ∃ r, Rel 16 r ∧ g = f * r := by
  refine ⟨g / f, ?_, by field_simp⟩
  have hb : |g / f - 1| ≤ 1 / 2 ^ 50 := by
    rw [show g / f - 1 = (g - f) / f by field_simp, abs_div, abs_of_pos hf, div_le_iff₀ hf]
    linarith
  rw [abs_le] at hb
  have hp : (1 - roundoff) ^ 16 ≤ 1 - 1 / 2 ^ 50 := by rw [roundoff_eq]; norm_num
  have hp0 : (0 : ℝ) ≤ (1 - roundoff) ^ 16 := by rw [roundoff_eq]; norm_num
  have hr0 : 0 ≤ g / f := by linarith [hb.1, (by norm_num : (1 : ℝ) / 2 ^ 50 ≤ 1)]
  refine ⟨by linarith [hb.1], ?_⟩
  refine (mul_le_mul_of_nonneg_left hp hr0).trans ?_
  refine (mul_le_mul_of_nonneg_right (show g / f ≤ 1 + 1 / 2 ^ 50 by linarith [hb.2]) (by norm_num)).trans ?_
  norm_num

theorem coef_close (P : ZernRoutines) (n m k : ℕ) (h : ValidMode n m) (hk : k ≤ (n - m) / 2) (hn : n ≤ 150) (hg : GammaClose P.gamma) :
    |zernCoefD P n m k - radialCoef n m k| ≤ |radialCoef n m k| * ((3 * n + 104) / 2 ^ 53) := by
  have hmn := h.1
  obtain ⟨c2, hc2⟩ := h.2
  have gam : ∀ a : ℕ, a ≤ 150 → ∃ r, Rel 16 r ∧ P.gamma (a + 1) = (a.factorial : ℝ) * r := fun a ha =>
    rel_of_close (by exact_mod_cast Nat.factorial_pos a) (hg a ha)
  have gam17 : ∀ a : ℕ, a ≤ 150 → ∃ r, Rel 17 r ∧ double (P.gamma (a + 1)) = (a.factorial : ℝ) * r := fun a ha =>
    ((⟨two_neg_le 1000 (fact_one_le a), factorial_le a ha, gam a ha⟩ : Appr 16 1000 _ _).doubleN le_rfl (by norm_num)).near
  have A := upD_appr _ (n - (n - m) / 2) 17 (gam17 _ (by omega)) ((n - m) / 2 - k) (by omega) (by norm_num)
  have B0 := upD_appr 1 0 0 ⟨1, rel_one, by simp⟩ k (by omega) (by norm_num)
  have B1 := upD_appr _ m 16 (gam _ (by omega)) ((n - m) / 2 - k) (by omega) (by norm_num)
  have B2 := upD_appr _ 0 16 (gam 0 (by omega)) ((n - m) / 2 - k) (by omega) (by norm_num)
  rw [show n - (n - m) / 2 + ((n - m) / 2 - k) = n - k by omega] at A
  rw [Nat.zero_add] at B0 B2
  rw [show m + ((n - m) / 2 - k) = (n + m) / 2 - k by omega] at B1
  rw [Nat.zero_add] at B2
  obtain ⟨d3, d2⟩ := multinomial_dvd n m k h hk
  have f2 : (k.factorial * ((n + m) / 2 - k).factorial : ℕ) ≤ (n - k).factorial := Nat.le_of_dvd (Nat.factorial_pos _) d2
  have f3 : (k.factorial * ((n + m) / 2 - k).factorial * ((n - m) / 2 - k).factorial : ℕ) ≤ (n - k).factorial := Nat.le_of_dvd (Nat.factorial_pos _) d3
  have p2 : 1 ≤ k.factorial * ((n + m) / 2 - k).factorial := Nat.succ_le_of_lt (by positivity)
  have p3 : 1 ≤ k.factorial * ((n + m) / 2 - k).factorial * ((n - m) / 2 - k).factorial := Nat.succ_le_of_lt (by positivity)
  obtain ⟨rA, hrA, eA⟩ := A.near
  obtain ⟨r0, hr0, e0⟩ := B0.near
  obtain ⟨r1, hr1, e1⟩ := B1.near
  obtain ⟨r2, hr2, e2⟩ := B2.near
  have C1 : Appr (k + (16 + ((n - m) / 2 - k))) 1000 (upD 1 0 k * upD (P.gamma (m + 1)) m ((n - m) / 2 - k))
      ((k.factorial : ℝ) * ((n + m) / 2 - k).factorial) := by
    refine ⟨two_neg_le _ (by exact_mod_cast p2), ?_, r0 * r1, hr0.mul hr1, by rw [e0, e1]; ring⟩
    exact le_trans (by exact_mod_cast f2) (factorial_le (n - k) (by omega))
  have C1' := C1.doubleN le_rfl (by omega)
  obtain ⟨s1, hs1, es1⟩ := C1'.near
  have C2 : Appr (k + (16 + ((n - m) / 2 - k)) + 1 + (16 + ((n - m) / 2 - k))) 1000
      (double (upD 1 0 k * upD (P.gamma (m + 1)) m ((n - m) / 2 - k)) * upD (P.gamma 1) 0 ((n - m) / 2 - k))
      ((k.factorial : ℝ) * ((n + m) / 2 - k).factorial * ((n - m) / 2 - k).factorial) := by
    refine ⟨two_neg_le _ (by exact_mod_cast p3), ?_, s1 * r2, hs1.mul hr2, by rw [es1, e2]; ring⟩
    exact le_trans (by exact_mod_cast f3) (factorial_le (n - k) (by omega))
  have C2' := C2.doubleN le_rfl (by omega)
  obtain ⟨s2, hs2, es2⟩ := C2'.near
  obtain ⟨c, hc1, hc2', hcc⟩ := coefAbs_nat n m k h hk
  have C3 : Appr (17 + ((n - m) / 2 - k) + (k + (16 + ((n - m) / 2 - k)) + 1 + (16 + ((n - m) / 2 - k)) + 1)) 1000
      (upD (double (P.gamma (n - (n - m) / 2 + 1))) (n - (n - m) / 2) ((n - m) / 2 - k) /
        double (double (upD 1 0 k * upD (P.gamma (m + 1)) m ((n - m) / 2 - k)) * upD (P.gamma 1) 0 ((n - m) / 2 - k)))
      (coefAbs n m k) := by
    refine ⟨?_, ?_, rA / s2, hrA.div hs2, ?_⟩
    · rw [hcc]; exact two_neg_le _ (by exact_mod_cast hc1)
    · rw [hcc]; exact le_trans (by exact_mod_cast hc2') (factorial_le (n - k) (by omega))
    · rw [eA, es2]
      unfold coefAbs
      rw [mul_div_mul_comm]
  have C3' := C3.doubleN le_rfl (by omega)
  obtain ⟨ρ, hρ, eρ⟩ := C3'.near
  have hb := hρ.leN (by omega)
  have hpos : 0 < coefAbs n m k := by rw [hcc]; exact_mod_cast hc1
  rw [zernCoefD_eq P n m k h hk, radialCoef_sign, eρ, ← mul_sub, abs_mul, abs_mul, abs_pow, abs_neg, abs_one, one_pow, one_mul, one_mul,
    show coefAbs n m k * ρ - coefAbs n m k = coefAbs n m k * (ρ - 1) by ring, abs_mul]
  refine mul_le_mul_of_nonneg_left (hb.trans ?_) (abs_nonneg _)
  have hN : 2 * (17 + ((n - m) / 2 - k) + (k + (16 + ((n - m) / 2 - k)) + 1 + (16 + ((n - m) / 2 - k)) + 1) + 1) ≤ 3 * n + 104 := by omega
  have hN' : 2 * (((17 + ((n - m) / 2 - k) + (k + (16 + ((n - m) / 2 - k)) + 1 + (16 + ((n - m) / 2 - k)) + 1) + 1 : ℕ)) : ℝ) ≤ 3 * n + 104 := by
    exact_mod_cast hN
  have e : ∀ y : ℝ, y / 2 ^ 52 = (2 * y) / 2 ^ 53 := by intro y; norm_num; ring
  rw [e]
  exact div_le_div_of_nonneg_right hN' (by norm_num)

/-! ### Powers and sums -/

theorem rpowD_nonneg (r : ℝ) (h0 : 0 ≤ r) (i : ℕ) : 0 ≤ rpowD r i := by
  induction i with
  | zero => exact zero_le_one
  | succ i ih => exact double_nonneg (mul_nonneg ih h0)

theorem rpowD_le (r : ℝ) (h0 : 0 ≤ r) (h1 : r ≤ 1) (i : ℕ) : rpowD r i ≤ 1 := by
  induction i with
  | zero => exact le_refl _
  | succ i ih =>
    rw [rpowD]
    exact (double_mono (mul_le_one₀ ih h0 h1)).trans double_one.le

theorem step_error (x : ℝ) (b : ℝ) (h1 : 1 ≤ b) (h : |x| ≤ b) : |double x - x| ≤ 2 * b / 2 ^ 53 := by
  have he := double_error x
  have hu := underflow_le'
  have h0 := roundoff_pos
  have e : 2 * b / 2 ^ 53 = 2 * b * roundoff := by rw [roundoff_eq]; norm_num; ring
  have hr : roundoff ≤ 1 := by rw [roundoff_eq]; norm_num
  rw [e]
  have : roundoff * roundoff ≤ roundoff * b := mul_le_mul_of_nonneg_left (hr.trans h1) h0.le
  have h2 : roundoff * |x| ≤ roundoff * b := mul_le_mul_of_nonneg_left h h0.le
  nlinarith

theorem rpowD_close (r : ℝ) (h0 : 0 ≤ r) (h1 : r ≤ 1) (i : ℕ) : |rpowD r i - r ^ i| ≤ 2 * i / 2 ^ 53 := by
  induction i with
  | zero => simp [rpowD]
  | succ i ih =>
    have hb : |rpowD r i * r| ≤ 1 := by
      rw [abs_of_nonneg (mul_nonneg (rpowD_nonneg r h0 i) h0)]
      exact mul_le_one₀ (rpowD_le r h0 h1 i) h0 h1
    have s := step_error _ 1 le_rfl hb
    have h2 : |rpowD r i * r - r ^ (i + 1)| ≤ 2 * i / 2 ^ 53 := by
      rw [pow_succ, ← sub_mul, abs_mul, abs_of_nonneg h0]
      exact (mul_le_of_le_one_right (abs_nonneg _) h1).trans ih
    rw [rpowD]
    push_cast
    have e : 2 * ((i : ℝ) + 1) / 2 ^ 53 = 2 * 1 / 2 ^ 53 + 2 * i / 2 ^ 53 := by ring
    rw [e]
    refine le_trans ?_ (add_le_add s h2)
    exact abs_sub_le _ _ _

theorem term_close (P : ZernRoutines) (n m k : ℕ) (h : ValidMode n m) (hk : k ≤ (n - m) / 2) (hn : n ≤ 150) (hg : GammaClose P.gamma) (r : ℝ)
    (h0 : 0 ≤ r) (h1 : r ≤ 1) : |double (zernCoefD P n m k * rpowD r (n - 2 * k)) - radialCoef n m k * r ^ (n - 2 * k)| ≤
      |radialCoef n m k| * ((5 * n + 108) / 2 ^ 53) := by
  have hc := coef_close P n m k h hk hn hg
  have hp := rpowD_close r h0 h1 (n - 2 * k)
  have hp1 := rpowD_le r h0 h1 (n - 2 * k)
  have hp0 := rpowD_nonneg r h0 (n - 2 * k)
  obtain ⟨c, hc1, -, hcc⟩ := coefAbs_nat n m k h hk
  have ha : |radialCoef n m k| = c := by
    rw [radialCoef_sign, abs_mul, abs_pow, abs_neg, abs_one, one_pow, one_mul, hcc, abs_of_nonneg (Nat.cast_nonneg c)]
  have hc1' : (1 : ℝ) ≤ c := by exact_mod_cast hc1
  rw [ha] at hc ⊢
  have hnr : (n : ℝ) ≤ 150 := by exact_mod_cast hn
  have hn0 : (0 : ℝ) ≤ n := Nat.cast_nonneg n
  have hi : ((n - 2 * k : ℕ) : ℝ) ≤ n := by exact_mod_cast Nat.sub_le n (2 * k)
  have hsm : (3 * (n : ℝ) + 104) / 2 ^ 53 ≤ 1 := by norm_num; linarith
  have hcD : |zernCoefD P n m k| ≤ 2 * c := by
    have t := abs_sub_abs_le_abs_sub (zernCoefD P n m k) (radialCoef n m k)
    rw [ha] at t
    nlinarith
  have hx : |zernCoefD P n m k * rpowD r (n - 2 * k)| ≤ 2 * c := by
    rw [abs_mul, abs_of_nonneg hp0]
    exact (mul_le_of_le_one_right (abs_nonneg _) hp1).trans hcD
  have s := step_error _ (2 * c) (by linarith) hx
  have t2 : |zernCoefD P n m k * rpowD r (n - 2 * k) - radialCoef n m k * r ^ (n - 2 * k)| ≤ c * ((3 * n + 104) / 2 ^ 53) + c * (2 * n / 2 ^ 53) := by
    rw [show zernCoefD P n m k * rpowD r (n - 2 * k) - radialCoef n m k * r ^ (n - 2 * k) =
      (zernCoefD P n m k - radialCoef n m k) * rpowD r (n - 2 * k) + radialCoef n m k * (rpowD r (n - 2 * k) - r ^ (n - 2 * k)) by ring]
    refine (abs_add_le _ _).trans (add_le_add ?_ ?_)
    · rw [abs_mul, abs_of_nonneg hp0]
      exact (mul_le_of_le_one_right (abs_nonneg _) hp1).trans hc
    · rw [abs_mul, ha]
      refine mul_le_mul_of_nonneg_left (hp.trans ?_) (by linarith)
      exact div_le_div_of_nonneg_right (by linarith) (by norm_num)
  have e : (c : ℝ) * ((5 * n + 108) / 2 ^ 53) = 2 * (2 * c) / 2 ^ 53 + (c * ((3 * n + 104) / 2 ^ 53) + c * (2 * n / 2 ^ 53)) := by ring
  rw [e]
  exact (abs_sub_le _ _ _).trans (add_le_add s t2)

theorem coefSum_one (n m : ℕ) (h : ValidMode n m) : 1 ≤ coefSum n m := by
  have : |radial n m 1| ≤ coefSum n m := by
    unfold radial coefSum
    simp only [one_pow, mul_one]
    exact abs_sum_le_sum_abs _ _
  rwa [radial_one n m h, abs_one] at this

theorem roundedSum_close (T A : ℝ) (hT : 1 ≤ T) (hA : A ≤ 1) (N : ℕ) (hN : N ≤ 1000) (t c x : ℕ → ℝ)
    (hc : ∀ k < N, |t k - x k| ≤ c k * A) (hx : ∀ k < N, |x k| ≤ c k) (hs : ∑ k ∈ range N, c k ≤ T) :
    |(List.range N).foldl (fun a k => double (a + t k)) 0 - ∑ k ∈ range N, x k| ≤ (∑ k ∈ range N, c k) * A + N * (6 * T / 2 ^ 53) := by
  have hc0 : ∀ k < N, 0 ≤ c k := fun k hk => (abs_nonneg _).trans (hx k hk)
  suffices H : ∀ M, M ≤ N → |(List.range M).foldl (fun a k => double (a + t k)) 0 - ∑ k ∈ range M, x k| ≤
      (∑ k ∈ range M, c k) * A + M * (6 * T / 2 ^ 53) from H N le_rfl
  intro M
  induction M with
  | zero => intro _; simp
  | succ M ih =>
    intro hM
    have IH := ih (by omega)
    rw [List.range_succ, List.foldl_append]
    simp only [List.foldl_cons, List.foldl_nil]
    set S := (List.range M).foldl (fun a k => double (a + t k)) 0
    rw [sum_range_succ, sum_range_succ]
    set X := ∑ k ∈ range M, x k
    set C := ∑ k ∈ range M, c k with hC
    have hCT : C + c M ≤ T := by
      rw [hC, ← sum_range_succ]
      refine le_trans (sum_le_sum_of_subset_of_nonneg (range_mono hM) ?_) hs
      intro i hi _
      exact hc0 i (mem_range.mp hi)
    have hXC : |X| ≤ C := (abs_sum_le_sum_abs _ _).trans (sum_le_sum fun k hk => hx k (by have := mem_range.mp hk; omega))
    have hxM := hx M (by omega)
    have hcM := hc M (by omega)
    have hc0M := hc0 M (by omega)
    have hC0 : 0 ≤ C := (abs_nonneg _).trans hXC
    have e1 : |S + t M - (X + x M)| ≤ (C + c M) * A + M * (6 * T / 2 ^ 53) := by
      rw [show S + t M - (X + x M) = (S - X) + (t M - x M) by ring]
      refine (abs_add_le _ _).trans ?_
      linarith
    have hMr : (M : ℝ) ≤ 1000 := by exact_mod_cast (by omega : M ≤ 1000)
    have hM0 : (0 : ℝ) ≤ M := Nat.cast_nonneg M
    have hw : (M : ℝ) * (6 * T / 2 ^ 53) ≤ T := by
      have : (M : ℝ) * (6 * T / 2 ^ 53) = T * (M * (6 / 2 ^ 53)) := by ring
      rw [this]
      refine mul_le_of_le_one_right (by linarith) ?_
      norm_num
      linarith
    have hCA : (C + c M) * A ≤ T := (mul_le_of_le_one_right (by linarith) hA).trans hCT
    have hb : |S + t M| ≤ 3 * T := by
      have := abs_sub_abs_le_abs_sub (S + t M) (X + x M)
      have h3 : |X + x M| ≤ T := (abs_add_le _ _).trans (by linarith)
      linarith
    have s := step_error _ (3 * T) (by linarith) hb
    have e2 : (C + c M) * A + ((M + 1 : ℕ) : ℝ) * (6 * T / 2 ^ 53) = 2 * (3 * T) / 2 ^ 53 + ((C + c M) * A + M * (6 * T / 2 ^ 53)) := by
      push_cast; ring
    rw [e2]
    exact (abs_sub_le _ _ _).trans (add_le_add s e1)

/-- **C107.** The computed radial polynomial of a mode is within `(8 n + 114) · 2⁻⁵³` times the sum of the moduli of its coefficients of the true one, for
every mode of radial order up to 150 and every radius up to one, if `gamma` is right to four units in the last place. -/
theorem C107_radial (P : ZernRoutines) (n m : ℕ) (h : ValidMode n m) (hn : n ≤ 150) (hg : GammaClose P.gamma) (r : ℝ) (h0 : 0 ≤ r) (h1 : r ≤ 1) :
    |zernRpD P n m r - radial n m r| ≤ (8 * n + 114) / 2 ^ 53 * coefSum n m := by
  have hT := coefSum_one n m h
  have hnr : (n : ℝ) ≤ 150 := by exact_mod_cast hn
  have hn0 : (0 : ℝ) ≤ n := Nat.cast_nonneg n
  have := roundedSum_close (coefSum n m) ((5 * n + 108) / 2 ^ 53) hT (by norm_num; linarith) ((n - m) / 2 + 1) (by omega)
    (fun k => double (zernCoefD P n m k * rpowD r (n - 2 * k))) (fun k => |radialCoef n m k|) (fun k => radialCoef n m k * r ^ (n - 2 * k))
    (fun k hk => term_close P n m k h (by omega) hn hg r h0 h1)
    (fun k hk => by
      rw [abs_mul, abs_of_nonneg (pow_nonneg h0 _)]
      exact mul_le_of_le_one_right (abs_nonneg _) (pow_le_one₀ h0 h1)) le_rfl
  refine this.trans ?_
  have hN : (((n - m) / 2 + 1 : ℕ) : ℝ) * 6 ≤ 3 * n + 6 := by exact_mod_cast (by omega : ((n - m) / 2 + 1) * 6 ≤ 3 * n + 6)
  have e : coefSum n m * ((5 * n + 108) / 2 ^ 53) + (((n - m) / 2 + 1 : ℕ) : ℝ) * (6 * coefSum n m / 2 ^ 53) =
      ((5 * n + 108) + (((n - m) / 2 + 1 : ℕ) : ℝ) * 6) / 2 ^ 53 * coefSum n m := by ring
  change coefSum n m * ((5 * n + 108) / 2 ^ 53) + (((n - m) / 2 + 1 : ℕ) : ℝ) * (6 * coefSum n m / 2 ^ 53) ≤ _
  rw [e]
  refine mul_le_mul_of_nonneg_right (div_le_div_of_nonneg_right ?_ (by norm_num)) (by linarith)
  linarith

/-! ### The sampled modes -/

theorem radial_lipschitz (n m : ℕ) (r s d : ℝ) (r0 : 0 ≤ r) (r1 : r ≤ 1) (s0 : 0 ≤ s) (s1 : s ≤ 1) (h : |r - s| ≤ d) :
    |radial n m r - radial n m s| ≤ n * d * coefSum n m := by
  have hp : ∀ i : ℕ, |r ^ i - s ^ i| ≤ i * d := by
    intro i
    induction i with
    | zero => simp
    | succ i ih =>
      rw [show r ^ (i + 1) - s ^ (i + 1) = (r ^ i - s ^ i) * r + s ^ i * (r - s) by ring]
      refine (abs_add_le _ _).trans ?_
      rw [abs_mul, abs_mul, abs_of_nonneg r0, abs_of_nonneg (pow_nonneg s0 i)]
      push_cast
      have a1 := (mul_le_of_le_one_right (abs_nonneg (r ^ i - s ^ i)) r1).trans ih
      have a2 := (mul_le_of_le_one_left (abs_nonneg (r - s)) (pow_le_one₀ (n := i) s0 s1)).trans h
      linarith
  have hd : 0 ≤ d := (abs_nonneg _).trans h
  unfold radial coefSum
  rw [← sum_sub_distrib, mul_sum]
  refine (abs_sum_le_sum_abs _ _).trans (sum_le_sum fun k _ => ?_)
  rw [← mul_sub, abs_mul, mul_comm]
  refine mul_le_mul_of_nonneg_right ((hp _).trans ?_) (abs_nonneg _)
  exact mul_le_mul_of_nonneg_right (by exact_mod_cast Nat.sub_le n (2 * k)) hd

theorem abs_radial_le (n m : ℕ) (r : ℝ) (r0 : 0 ≤ r) (r1 : r ≤ 1) : |radial n m r| ≤ coefSum n m := by
  unfold radial coefSum
  refine (abs_sum_le_sum_abs _ _).trans (sum_le_sum fun k _ => ?_)
  rw [abs_mul, abs_of_nonneg (pow_nonneg r0 _)]
  exact mul_le_of_le_one_right (abs_nonneg _) (pow_le_one₀ r0 r1)

/-- The angular factor: one, cosine or sine. -/
noncomputable def angleFactor (m : ℕ) (sine : Bool) (θ : ℝ) : ℝ := if m = 0 then 1 else if sine then Real.sin (m * θ) else Real.cos (m * θ)

theorem abs_angleFactor (m : ℕ) (s : Bool) (θ : ℝ) : |angleFactor m s θ| ≤ 1 := by
  unfold angleFactor
  split_ifs
  · simp
  · exact Real.abs_sin_le_one _
  · exact Real.abs_cos_le_one _

theorem sincos_close (P : ZernRoutines) (hP : RoutinesClose P) (x y : ℝ) (m s : ℕ) (hs : s < 2) :
    |sincosD P (P.arctan2 y x) m s - angleFactor m (s = 1) (Complex.arg ⟨x, y⟩)| ≤ (13 * m + 2) / 2 ^ 53 := by
  unfold sincosD angleFactor
  by_cases hm : m = 0
  · rw [if_pos hm, if_pos hm, sub_self, abs_zero]
    positivity
  rw [if_neg hm, if_neg hm]
  have m1 : (1 : ℝ) ≤ m := by exact_mod_cast Nat.one_le_iff_ne_zero.mpr hm
  have ha := hP.arctan2 x y
  have hpi := Complex.abs_arg_le_pi ⟨x, y⟩
  have p4 := Real.pi_lt_d2
  set th := P.arctan2 y x
  set a := Complex.arg ⟨x, y⟩
  have hth : |th| ≤ 4 := by
    have := abs_sub_abs_le_abs_sub th a
    have e : (1 : ℝ) / 2 ^ 50 ≤ 1 / 2 := by norm_num
    linarith
  have hz : |double (m * th) - m * a| ≤ 13 * m / 2 ^ 53 := by
    have he := double_error (m * th)
    have hu := underflow_le'
    have h0 := roundoff_pos
    have hr : roundoff ≤ 1 := by rw [roundoff_eq]; norm_num
    have h1 : |(m : ℝ) * th - m * a| ≤ m * (1 / 2 ^ 50) := by
      rw [← mul_sub, abs_mul, abs_of_nonneg (by linarith : (0 : ℝ) ≤ m)]
      exact mul_le_mul_of_nonneg_left ha (by linarith)
    have h2 : |(m : ℝ) * th| ≤ 4 * m := by
      rw [abs_mul, abs_of_nonneg (by linarith : (0 : ℝ) ≤ m)]
      nlinarith
    have h3 : roundoff * |(m : ℝ) * th| ≤ roundoff * (4 * m) := mul_le_mul_of_nonneg_left h2 h0.le
    have h4 : roundoff * roundoff ≤ roundoff * m := mul_le_mul_of_nonneg_left (hr.trans m1) h0.le
    have e : 13 * (m : ℝ) / 2 ^ 53 = roundoff * (4 * m) + roundoff * m + m * (1 / 2 ^ 50) := by rw [roundoff_eq]; norm_num; ring
    rw [e]
    refine (abs_sub_le _ (m * th) _).trans ?_
    linarith
  have e : (13 * (m : ℝ) + 2) / 2 ^ 53 = 1 / 2 ^ 52 + 13 * m / 2 ^ 53 := by norm_num; ring
  rw [e]
  interval_cases s
  · rw [if_pos rfl]
    simp only [zero_ne_one, decide_false, Bool.false_eq_true, if_false]
    refine (abs_sub_le _ (Real.cos (double (m * th))) _).trans (add_le_add (hP.cos _) (le_trans ?_ hz))
    exact Real.abs_cos_sub_cos_le _ _
  · rw [if_neg one_ne_zero]
    simp only [decide_true, if_true]
    refine (abs_sub_le _ (Real.sin (double (m * th))) _).trans (add_le_add (hP.sin _) (le_trans ?_ hz))
    exact Real.abs_sin_sub_sin_le _ _

theorem zernike_factors (n m : ℕ) (s : Bool) (r θ : ℝ) : zernike n m s r θ = nollNorm n m * (radial n m r * angleFactor m s θ) := by
  unfold zernike nollNorm angleFactor
  by_cases hm : m = 0
  · subst hm; simp
  · rw [if_neg hm, if_neg hm, if_neg hm, mul_assoc]

theorem nollNorm_one (n m : ℕ) : 1 ≤ nollNorm n m := by
  have hn0 : (0 : ℝ) ≤ n := Nat.cast_nonneg n
  unfold nollNorm
  split_ifs <;> rw [Real.one_le_sqrt] <;> linarith

theorem radius_close (P : ZernRoutines) (hP : RoutinesClose P) (prad x y : ℝ) (hp : 0 < prad) (hin : x ^ 2 + y ^ 2 ≤ prad ^ 2) (hh : P.hypot x y ≤ prad) :
    0 ≤ double (P.hypot x y / prad) ∧ double (P.hypot x y / prad) ≤ 1 ∧ 0 ≤ Real.sqrt (x ^ 2 + y ^ 2) / prad ∧ Real.sqrt (x ^ 2 + y ^ 2) / prad ≤ 1 ∧
    |double (P.hypot x y / prad) - Real.sqrt (x ^ 2 + y ^ 2) / prad| ≤ 4 / 2 ^ 53 := by
  have hc := hP.hypot x y
  set d := Real.sqrt (x ^ 2 + y ^ 2) with hd
  have d0 : 0 ≤ d := Real.sqrt_nonneg _
  have dp : d ≤ prad := by rw [hd]; exact Real.sqrt_le_iff.mpr ⟨hp.le, hin⟩
  have h0 : 0 ≤ P.hypot x y := by
    rw [abs_le] at hc
    have : d / 2 ^ 52 ≤ d := div_le_self d0 (by norm_num)
    linarith [hc.1]
  have q0 : 0 ≤ P.hypot x y / prad := div_nonneg h0 hp.le
  have q1 : P.hypot x y / prad ≤ 1 := (div_le_one hp).mpr hh
  refine ⟨double_nonneg q0, (double_mono q1).trans double_one.le, div_nonneg d0 hp.le, (div_le_one hp).mpr dp, ?_⟩
  have s := step_error (P.hypot x y / prad) 1 le_rfl (by rw [abs_of_nonneg q0]; exact q1)
  have t : |P.hypot x y / prad - d / prad| ≤ 1 / 2 ^ 52 := by
    rw [← sub_div, abs_div, abs_of_pos hp, div_le_iff₀ hp]
    refine hc.trans ?_
    rw [div_mul_eq_mul_div, one_mul]
    exact div_le_div_of_nonneg_right dp (by norm_num)
  have e : (4 : ℝ) / 2 ^ 53 = 2 * 1 / 2 ^ 53 + 1 / 2 ^ 52 := by norm_num
  rw [e]
  exact (abs_sub_le _ _ _).trans (add_le_add s t)

theorem prod_close (T a b R' R S' S : ℝ) (hT : 1 ≤ T) (hR : |R| ≤ T) (hS : |S| ≤ 1) (hRd : |R' - R| ≤ T * a) (hSd : |S' - S| ≤ b) (hb : b ≤ 1)
    (hab : 2 * a + b + 4 / 2 ^ 53 ≤ 1) : |double (R' * S') - R * S| ≤ T * (2 * a + b + 4 / 2 ^ 53) ∧ |double (R' * S')| ≤ 2 * T := by
  have hS' : |S'| ≤ 2 := by
    have := abs_sub_abs_le_abs_sub S' S
    linarith
  have h1 : |R' * S' - R * S| ≤ T * (2 * a + b) := by
    rw [show R' * S' - R * S = (R' - R) * S' + R * (S' - S) by ring]
    refine (abs_add_le _ _).trans ?_
    rw [abs_mul, abs_mul]
    have a1 := mul_le_mul hRd hS' (abs_nonneg _) ((abs_nonneg _).trans hRd)
    have a2 := mul_le_mul hR hSd (abs_nonneg _) (by linarith)
    linarith
  have hRS : |R * S| ≤ T := by
    rw [abs_mul]
    exact (mul_le_of_le_one_right (abs_nonneg _) hS).trans hR
  have h2 : |R' * S'| ≤ 2 * T := by
    have := abs_sub_abs_le_abs_sub (R' * S') (R * S)
    have : T * (2 * a + b) ≤ T := mul_le_of_le_one_right (by linarith) (by linarith [(by positivity : (0 : ℝ) ≤ 4 / 2 ^ 53)])
    linarith
  have s := step_error _ (2 * T) (by linarith) h2
  have key : |double (R' * S') - R * S| ≤ T * (2 * a + b + 4 / 2 ^ 53) := by
    have e : T * (2 * a + b + 4 / 2 ^ 53) = 2 * (2 * T) / 2 ^ 53 + T * (2 * a + b) := by ring
    rw [e]
    exact (abs_sub_le _ _ _).trans (add_le_add s h1)
  refine ⟨key, ?_⟩
  have := abs_sub_abs_le_abs_sub (double (R' * S')) (R * S)
  have : T * (2 * a + b + 4 / 2 ^ 53) ≤ T := mul_le_of_le_one_right (by linarith) hab
  linarith

theorem scaled_close (T c g V' V : ℝ) (hT : 1 ≤ T) (hc : 1 ≤ c) (hV' : |V'| ≤ 2 * T) (hV : |V' - V| ≤ T * g) :
    |double (double c * V') - c * V| ≤ T * c * (g + 12 / 2 ^ 53) := by
  have s := step_error c c hc (by rw [abs_of_pos (by linarith)])
  have h2 : |double c| ≤ 2 * c := by
    have := abs_sub_abs_le_abs_sub (double c) c
    rw [abs_of_pos (by linarith : 0 < c)] at this
    have e : 2 * c / 2 ^ 53 ≤ c := by
      rw [div_le_iff₀ (by norm_num)]
      norm_num
      linarith
    linarith
  have h3 : |double c * V'| ≤ 4 * (c * T) := by
    rw [abs_mul]
    have := mul_le_mul h2 hV' (abs_nonneg _) (by linarith)
    linarith
  have hcT : 1 ≤ c * T := one_le_mul_of_one_le_of_one_le hc hT
  have t := step_error _ (4 * (c * T)) (by linarith) h3
  have h4 : |double c * V' - c * V| ≤ 2 * c / 2 ^ 53 * (2 * T) + c * (T * g) := by
    rw [show double c * V' - c * V = (double c - c) * V' + c * (V' - V) by ring]
    refine (abs_add_le _ _).trans (add_le_add ?_ ?_)
    · rw [abs_mul]
      exact mul_le_mul s hV' (abs_nonneg _) (by positivity)
    · rw [abs_mul, abs_of_pos (by linarith : 0 < c)]
      exact mul_le_mul_of_nonneg_left hV (by linarith)
  have e : T * c * (g + 12 / 2 ^ 53) = 2 * (4 * (c * T)) / 2 ^ 53 + (2 * c / 2 ^ 53 * (2 * T) + c * (T * g)) := by ring
  rw [e]
  exact (abs_sub_le _ _ _).trans (add_le_add t h4)

theorem mode_factors (j : ℕ) (prad x y : ℝ) : mode j prad x y = nollNorm (nollRow j) (nollFreq j) *
    (radial (nollRow j) (nollFreq j) (Real.sqrt (x ^ 2 + y ^ 2) / prad) * angleFactor (nollFreq j) (j % 2 = 1) (Complex.arg ⟨x, y⟩)) := by
  unfold mode
  rw [zernike_factors]

theorem nollRow_valid (j : ℕ) (hj : 1 ≤ j) : ValidMode (nollRow j) (nollFreq j) := by
  obtain ⟨n, m, h1, h2, h3, -⟩ := C21_valid j hj
  obtain ⟨t1, t2⟩ := C21_table j hj
  have e1 : nollRow j = n := by rw [h1] at t1; exact_mod_cast t1.symm
  have e2 : nollFreq j = m := by rw [h2] at t2; exact_mod_cast t2.symm
  rw [e1, e2]
  exact h3

/-- **C107.** Every sample of every mode of radial order `n ≤ 150` (Noll index up to 11476) inside the pupil is within `(37 n + 246) · 2⁻⁵³` times Noll's
normalisation times the sum of the moduli of the radial coefficients of the true value, if the routines of numpy and scipy are right to a few units in the last
place. -/
theorem C107_sample_partial (P : ZernRoutines) (hP : RoutinesClose P) (j : ℕ) (hj : 1 ≤ j) (hn : nollRow j ≤ 150) (prad x y : ℝ) (hp : 0 < prad)
    (hin : x ^ 2 + y ^ 2 ≤ prad ^ 2) (hh : P.hypot x y ≤ prad) :
    |zernSampleD P j prad x y - mode j prad x y| ≤
      (37 * nollRow j + 246) / 2 ^ 53 * (nollNorm (nollRow j) (nollFreq j) * coefSum (nollRow j) (nollFreq j)) := by
  have hv := nollRow_valid j hj
  obtain ⟨t1, t2⟩ := C21_table j hj
  rw [mode_factors j]
  obtain ⟨a0, a1, b0, b1, hd⟩ := radius_close P hP prad x y hp hin hh
  unfold zernSampleD
  simp only [t1, t2, Int.toNat_natCast]
  have e2 : ((j : ℤ) % 2).toNat = j % 2 := by omega
  rw [e2]
  set n := nollRow j
  set m := nollFreq j
  have hmn : (m : ℝ) ≤ n := by exact_mod_cast hv.1
  have hnr : (n : ℝ) ≤ 150 := by exact_mod_cast hn
  have hn0 : (0 : ℝ) ≤ n := Nat.cast_nonneg n
  have hT := coefSum_one n m hv
  have hs := sincos_close P hP x y m (j % 2) (Nat.mod_lt _ (by norm_num))
  have hR : |zernRpD P n m (double (P.hypot x y / prad)) - radial n m (Real.sqrt (x ^ 2 + y ^ 2) / prad)| ≤ coefSum n m * ((12 * n + 114) / 2 ^ 53) := by
    have r1 := C107_radial P n m hv hn hP.gamma _ a0 a1
    have r2 := radial_lipschitz n m _ _ _ a0 a1 b0 b1 hd
    have e : coefSum n m * ((12 * n + 114) / 2 ^ 53) = (8 * n + 114) / 2 ^ 53 * coefSum n m + n * (4 / 2 ^ 53) * coefSum n m := by ring
    rw [e]
    exact (abs_sub_le _ _ _).trans (add_le_add r1 r2)
  have hs' : |sincosD P (P.arctan2 y x) m (j % 2) - angleFactor m (j % 2 = 1) (Complex.arg ⟨x, y⟩)| ≤ (13 * n + 2) / 2 ^ 53 :=
    hs.trans (div_le_div_of_nonneg_right (by linarith) (by norm_num))
  obtain ⟨p1, p2⟩ := prod_close (coefSum n m) ((12 * n + 114) / 2 ^ 53) ((13 * n + 2) / 2 ^ 53) _ _ _ _ hT (abs_radial_le n m _ b0 b1) (abs_angleFactor _ _ _) hR hs'
    (by norm_num; linarith) (by norm_num; linarith)
  have hnc : (if m ≠ 0 then double (Real.sqrt (2 * ((n : ℝ) + 1))) else double (Real.sqrt ((n : ℝ) + 1))) = double (nollNorm n m) := by
    unfold nollNorm
    by_cases hm : m = 0
    · rw [if_neg (not_not.mpr hm), if_pos hm]
    · rw [if_pos hm, if_neg hm]
  rw [hnc]
  refine (scaled_close (coefSum n m) (nollNorm n m) _ _ _ hT (nollNorm_one n m) p2 p1).trans (le_of_eq ?_)
  ring

/-! ### The low orders -/

/-- The sum of the moduli of the coefficients, evaluated. -/
def coefSumN (n m : ℕ) : ℕ :=
  ((List.range ((n - m) / 2 + 1)).map fun k => (n - k).factorial / (k.factorial * ((n + m) / 2 - k).factorial * ((n - m) / 2 - k).factorial)).sum

theorem coefSum_eq (n m : ℕ) (h : ValidMode n m) : coefSum n m = coefSumN n m := by
  unfold coefSum coefSumN
  rw [← List.sum_toFinset _ (List.nodup_range), List.toFinset_range, Nat.cast_sum]
  refine sum_congr rfl fun k hk => ?_
  have hk' : k ≤ (n - m) / 2 := by have := mem_range.mp hk; omega
  obtain ⟨c, -, -, hcc⟩ := coefAbs_nat n m k h hk'
  rw [radialCoef_sign, abs_mul, abs_pow, abs_neg, abs_one, one_pow, one_mul, hcc, abs_of_nonneg (Nat.cast_nonneg c)]
  unfold coefAbs at hcc
  obtain ⟨q, hq⟩ := (multinomial_dvd n m k h hk').1
  have hpos : 0 < k.factorial * ((n + m) / 2 - k).factorial * ((n - m) / 2 - k).factorial := by positivity
  have hpos' : (0 : ℝ) < (k.factorial : ℝ) * ((n + m) / 2 - k).factorial * ((n - m) / 2 - k).factorial := by exact_mod_cast hpos
  rw [div_eq_iff hpos'.ne'] at hcc
  have hcc' : (n - k).factorial = c * (k.factorial * ((n + m) / 2 - k).factorial * ((n - m) / 2 - k).factorial) := by exact_mod_cast hcc
  rw [hcc', Nat.mul_div_cancel _ hpos]

theorem coefSumN_18 : ∀ n ≤ 18, ∀ m ≤ n, (n - m) % 2 = 0 → coefSumN n m ≤ 1462563 := by decide +kernel

theorem coefSumN_7 : ∀ n ≤ 7, ∀ m ≤ n, (n - m) % 2 = 0 → coefSumN n m ≤ 129 := by decide +kernel

theorem nollNorm_le (n m N : ℕ) (h : n ≤ N) : nollNorm n m ≤ Real.sqrt (2 * (N + 1)) := by
  have hn0 : (0 : ℝ) ≤ n := Nat.cast_nonneg n
  have hN : (n : ℝ) ≤ N := by exact_mod_cast h
  unfold nollNorm
  split_ifs <;> apply Real.sqrt_le_sqrt <;> linarith

theorem nollRow_le (j d : ℕ) (hj : 1 ≤ j) (hd : j ≤ (d + 1) * (d + 2) / 2) : nollRow j ≤ d := by
  obtain ⟨n, t, h1, h2, rfl⟩ := noll_position j hj
  rw [nollRow_eq n t h1 h2]
  by_contra hc
  push Not at hc
  have : (d + 1) * (d + 2) / 2 ≤ n * (n + 1) / 2 := Nat.div_le_div_right (Nat.mul_le_mul (by omega) (by omega))
  omega

/-- **C107.** Every sample of the first 36 modes is right to `3e-11`, and of the first 190 modes to `1e-6`. -/
theorem C107_low_orders_partial (P : ZernRoutines) (hP : RoutinesClose P) (j : ℕ) (hj : 1 ≤ j) (prad x y : ℝ) (hp : 0 < prad)
    (hin : x ^ 2 + y ^ 2 ≤ prad ^ 2) (hh : P.hypot x y ≤ prad) :
    (j ≤ 36 → |zernSampleD P j prad x y - mode j prad x y| ≤ 3 / 10 ^ 11) ∧
    (j ≤ 190 → |zernSampleD P j prad x y - mode j prad x y| ≤ 1 / 10 ^ 6) := by
  have hv := nollRow_valid j hj
  have low : ∀ N B : ℕ, ∀ s : ℝ, nollRow j ≤ N → N ≤ 150 → (∀ n ≤ N, ∀ m ≤ n, (n - m) % 2 = 0 → coefSumN n m ≤ B) → Real.sqrt (2 * (N + 1)) ≤ s →
      |zernSampleD P j prad x y - mode j prad x y| ≤ (37 * N + 246) / 2 ^ 53 * (s * B) := by
    intro N B s h1 h2 h3 h4
    refine (C107_sample_partial P hP j hj (h1.trans h2) prad x y hp hin hh).trans ?_
    have hc : coefSum (nollRow j) (nollFreq j) ≤ B := by rw [coefSum_eq _ _ hv]; exact_mod_cast h3 _ h1 _ hv.1 (Nat.even_iff.mp hv.2)
    have c0 := coefSum_one _ _ hv
    have n0 := nollNorm_one (nollRow j) (nollFreq j)
    have n1 := (nollNorm_le (nollRow j) (nollFreq j) N h1).trans h4
    have hr : (nollRow j : ℝ) ≤ N := by exact_mod_cast h1
    refine mul_le_mul (div_le_div_of_nonneg_right (by linarith) (by norm_num)) (mul_le_mul n1 hc (by linarith) (by linarith)) ?_ (by positivity)
    exact mul_nonneg (by linarith) (by linarith)
  constructor
  · intro h
    refine (low 7 129 4 (nollRow_le j 7 hj (by omega)) (by norm_num) coefSumN_7 ?_).trans (by norm_num)
    rw [Real.sqrt_le_left (by norm_num)]
    norm_num
  · intro h
    refine (low 18 1462563 (31 / 5) (nollRow_le j 18 hj (by omega)) (by norm_num) coefSumN_18 ?_).trans (by norm_num)
    rw [Real.sqrt_le_left (by norm_num)]
    norm_num

/-! ### Exact coefficients -/

theorem upD_exact (b t : ℕ) (h : (b + t).factorial ≤ 2 ^ 53) : upD (b.factorial : ℝ) b t = ((b + t).factorial : ℝ) := by
  induction t with
  | zero => rfl
  | succ t ih =>
    have h1 : (b + t).factorial ≤ 2 ^ 53 := (Nat.factorial_le (by omega)).trans h
    rw [upD, ih h1, ← Nat.cast_mul, show (b + t).factorial * (b + t + 1) = (b + (t + 1)).factorial by
      rw [show b + (t + 1) = b + t + 1 by ring, Nat.factorial_succ]; ring, double_nat _ h]

theorem fact_18 (a : ℕ) (h : a ≤ 18) : a.factorial ≤ 2 ^ 53 := (Nat.factorial_le h).trans (by decide +kernel)

/-- The coefficients of the first 190 modes have no rounding errors at all. -/
theorem coef_exact (P : ZernRoutines) (n m k : ℕ) (h : ValidMode n m) (hk : k ≤ (n - m) / 2) (hn : n ≤ 18) (hg : GammaExact 18 P.gamma) :
    zernCoefD P n m k = radialCoef n m k := by
  have hmn := h.1
  obtain ⟨c2, hc2⟩ := h.2
  obtain ⟨d3, d2⟩ := multinomial_dvd n m k h hk
  have f2 := (Nat.le_of_dvd (Nat.factorial_pos _) d2).trans (fact_18 (n - k) (by omega))
  have f3 := (Nat.le_of_dvd (Nat.factorial_pos _) d3).trans (fact_18 (n - k) (by omega))
  obtain ⟨c, hc1, hc3, hcc⟩ := coefAbs_nat n m k h hk
  have g0 : P.gamma 1 = ((0 : ℕ).factorial : ℝ) := hg 0 (by omega)
  rw [zernCoefD_eq P n m k h hk, radialCoef_sign, hg (n - (n - m) / 2) (by omega), hg m (by omega), g0, double_nat _ (fact_18 _ (by omega)),
    upD_exact _ _ (fact_18 _ (by omega)), upD_exact _ _ (fact_18 _ (by omega)), upD_exact _ _ (fact_18 _ (by omega)),
    show (1 : ℝ) = ((0 : ℕ).factorial : ℝ) by simp, upD_exact _ _ (fact_18 _ (by omega)), Nat.zero_add, Nat.zero_add,
    show n - (n - m) / 2 + ((n - m) / 2 - k) = n - k by omega, show m + ((n - m) / 2 - k) = (n + m) / 2 - k by omega,
    ← Nat.cast_mul, double_nat _ f2, ← Nat.cast_mul, double_nat _ f3]
  congr 1
  have e : ((n - k).factorial : ℝ) / ((k.factorial * ((n + m) / 2 - k).factorial * ((n - m) / 2 - k).factorial : ℕ) : ℝ) = coefAbs n m k := by
    unfold coefAbs
    push_cast
    rfl
  rw [e, hcc, double_nat _ (hc3.trans (fact_18 _ (by omega)))]

theorem rpowD_one (i : ℕ) : rpowD 1 i = 1 := by
  induction i with
  | zero => rfl
  | succ i ih => rw [rpowD, ih, mul_one, double_one]

/-- **C107.** Up to radial order 18 the coefficients are exact and so is the radial polynomial at the rim, which is one. -/
theorem C107_exact (P : ZernRoutines) (n m : ℕ) (h : ValidMode n m) (hn : n ≤ 18) (hg : GammaExact 18 P.gamma) :
    (∀ k, k ≤ (n - m) / 2 → zernCoefD P n m k = radialCoef n m k) ∧ zernRpD P n m 1 = 1 := by
  refine ⟨fun k hk => coef_exact P n m k h hk hn hg, ?_⟩
  have hT : coefSum n m ≤ 2 ^ 53 := by
    rw [coefSum_eq n m h]
    exact_mod_cast (coefSumN_18 n hn m h.1 (Nat.even_iff.mp h.2)).trans (by norm_num)
  unfold zernRpD
  suffices H : ∀ M, M ≤ (n - m) / 2 + 1 → ∃ z : ℤ, (List.range M).foldl (fun rp k => double (rp + double (zernCoefD P n m k * rpowD 1 (n - 2 * k)))) 0 = z ∧
      (z : ℝ) = ∑ k ∈ range M, radialCoef n m k by
    obtain ⟨z, h1, h2⟩ := H _ le_rfl
    rw [h1, h2]
    have := radial_one n m h
    unfold radial at this
    simpa using this
  intro M
  induction M with
  | zero => intro _; exact ⟨0, by simp, by simp⟩
  | succ M ih =>
    intro hM
    obtain ⟨z, h1, h2⟩ := ih (by omega)
    obtain ⟨c, hc1, hc3, hcc⟩ := coefAbs_nat n m M h (by omega)
    have hr : radialCoef n m M = (((-1) ^ M * (c : ℤ) : ℤ) : ℝ) := by rw [radialCoef_sign, hcc]; push_cast; rfl
    refine ⟨z + (-1) ^ M * c, ?_, by rw [sum_range_succ, ← h2, hr]; push_cast; ring⟩
    rw [List.range_succ, List.foldl_append]
    simp only [List.foldl_cons, List.foldl_nil]
    have hcb : |(-1 : ℤ) ^ M * c| ≤ 2 ^ 53 := by
      rw [abs_mul, abs_pow, abs_neg, abs_one, one_pow, one_mul, Nat.abs_cast]
      exact_mod_cast hc3.trans (fact_18 _ (by omega))
    rw [h1, rpowD_one, mul_one, coef_exact P n m M h (by omega) hn hg, hr, double_int _ hcb, ← Int.cast_add, double_int]
    have hb : |((z + (-1) ^ M * (c : ℤ) : ℤ) : ℝ)| ≤ coefSum n m := by
      rw [Int.cast_add, h2, ← hr, ← sum_range_succ]
      refine (abs_sum_le_sum_abs _ _).trans ?_
      exact sum_le_sum_of_subset_of_nonneg (range_mono hM) fun _ _ _ => abs_nonneg _
    have := hb.trans hT
    rw [← Int.cast_abs] at this
    exact_mod_cast this

/-! ### High orders -/

/-- The recurrence on rational numbers, evaluated. -/
def upQ (g : ℚ) (b : ℕ) : ℕ → ℚ
  | 0 => g
  | t + 1 => roundQ (upQ g b t * ((b + t + 1 : ℕ) : ℚ))

theorem upQ_cast (g : ℚ) (b t : ℕ) : ((upQ g b t : ℚ) : ℝ) = upD g b t := by
  induction t with
  | zero => rfl
  | succ t ih => rw [upQ, upD, roundQ_cast, ← ih]; push_cast; rfl

/-- The value at the rim of the computed radial polynomial of order 44 and frequency 0, evaluated. -/
def rim44 : ℚ :=
  (List.range 23).foldl (fun rp k => roundQ (rp + (-1) ^ k * roundQ (upQ ((22 : ℕ).factorial : ℚ) 22 (22 - k) /
    roundQ (roundQ (upQ 1 0 k * upQ 1 0 (22 - k)) * upQ 1 0 (22 - k))))) 0

theorem rim44_gt : 114 / 100 < rim44 := by decide +kernel

theorem rim44_lt : rim44 < 115 / 100 := by decide +kernel

theorem round_22 : roundQ ((22 : ℕ).factorial : ℚ) = ((22 : ℕ).factorial : ℚ) := by decide +kernel

theorem valid44 : ValidMode 44 0 := ⟨by norm_num, 22, rfl⟩

theorem rim44_eq (P : ZernRoutines) (hg : GammaExact 22 P.gamma) : zernRpD P 44 0 1 = (rim44 : ℝ) := by
  have r22 : double ((22 : ℕ).factorial : ℝ) = ((22 : ℕ).factorial : ℝ) := by
    have := roundQ_cast ((22 : ℕ).factorial : ℚ)
    rw [round_22] at this
    exact_mod_cast this.symm
  have g0 : P.gamma 1 = 1 := by simpa using hg 0 (by omega)
  have hcoef : ∀ k, k ≤ 22 → zernCoefD P 44 0 k = (((-1) ^ k * roundQ (upQ ((22 : ℕ).factorial : ℚ) 22 (22 - k) /
    roundQ (roundQ (upQ 1 0 k * upQ 1 0 (22 - k)) * upQ 1 0 (22 - k))) : ℚ) : ℝ) := by
    intro k hk
    have h := zernCoefD_eq P 44 0 k valid44 hk
    rw [show (44 - 0) / 2 = 22 from rfl, show 44 - 22 = 22 from rfl, hg 22 le_rfl, r22, Nat.zero_add, g0] at h
    rw [h]
    push_cast
    rw [roundQ_cast]
    push_cast
    rw [roundQ_cast]
    push_cast
    rw [roundQ_cast]
    push_cast
    rw [upQ_cast, upQ_cast, upQ_cast]
    push_cast
    rfl
  have hround : ∀ k, k ≤ 22 → double (zernCoefD P 44 0 k) = zernCoefD P 44 0 k := by
    intro k hk
    rw [zernCoefD_eq P 44 0 k valid44 hk, double_sign, double_double]
  unfold zernRpD rim44
  suffices H : ∀ M, M ≤ 23 → (List.range M).foldl (fun rp k => double (rp + double (zernCoefD P 44 0 k * rpowD 1 (44 - 2 * k)))) 0 =
      (((List.range M).foldl (fun rp k => roundQ (rp + (-1) ^ k * roundQ (upQ ((22 : ℕ).factorial : ℚ) 22 (22 - k) /
    roundQ (roundQ (upQ 1 0 k * upQ 1 0 (22 - k)) * upQ 1 0 (22 - k))))) 0 : ℚ) : ℝ) from H 23 le_rfl
  intro M
  induction M with
  | zero => intro _; simp
  | succ M ih =>
    intro hM
    rw [List.range_succ, List.foldl_append, List.foldl_append]
    simp only [List.foldl_cons, List.foldl_nil]
    rw [ih (by omega), rpowD_one, mul_one, hround M (by omega), hcoef M (by omega), roundQ_cast, Rat.cast_add]

/-- **C107 fails at high orders.** The radial polynomial of order 44 and frequency 0 is one at the rim of the pupil; the code computes a number between 1.14 and
1.15, even though every factorial it starts from is exact.  So mode 991 is off by more than `0.9` at the edge of the pupil. -/
theorem C107_high_orders_fail (P : ZernRoutines) (hg : GammaExact 22 P.gamma) :
    radial 44 0 1 = 1 ∧ 114 / 100 < zernRpD P 44 0 1 ∧ zernRpD P 44 0 1 < 115 / 100 ∧
    (P.hypot 1 0 = 1 → mode 991 1 1 0 + 9 / 10 < zernSampleD P 991 1 1 0) := by
  have e := rim44_eq P hg
  have g1 : (114 / 100 : ℝ) < zernRpD P 44 0 1 := by
    rw [e]
    have : ((114 / 100 : ℚ) : ℝ) < (rim44 : ℝ) := by exact_mod_cast rim44_gt
    norm_num at this ⊢
    exact this
  have g2 : zernRpD P 44 0 1 < (115 / 100 : ℝ) := by
    rw [e]
    have : (rim44 : ℝ) < ((115 / 100 : ℚ) : ℝ) := by exact_mod_cast rim44_lt
    norm_num at this ⊢
    exact this
  refine ⟨radial_one 44 0 valid44, g1, g2, fun hh => ?_⟩
  obtain ⟨t1, t2⟩ := C21_table 991 (by norm_num)
  have hr : nollRow 991 = 44 := nollRow_eq 44 1 (by norm_num) (by norm_num)
  have hf : nollFreq 991 = 0 := by unfold nollFreq; rw [hr]; rfl
  rw [hr] at t1
  rw [hf] at t2
  have hm : mode 991 1 1 0 = Real.sqrt 45 := by
    rw [mode_factors, hr, hf]
    unfold nollNorm angleFactor
    rw [if_pos rfl, if_pos rfl]
    norm_num
    rw [radial_one 44 0 valid44]
  rw [hm]
  unfold zernSampleD
  simp only [Nat.cast_ofNat] at t1 t2
  simp only [t1, t2, hh]
  norm_num
  unfold sincosD
  rw [if_pos rfl, mul_one, double_one, show (44 : ℤ).toNat = 44 from rfl, show ((44 : ℕ) : ℝ) + 1 = 45 by norm_num]
  have hd : double (zernRpD P 44 0 1) = zernRpD P 44 0 1 := by
    unfold zernRpD
    rw [show (44 - 0) / 2 + 1 = 22 + 1 from rfl, List.range_succ, List.foldl_append]
    simp only [List.foldl_cons, List.foldl_nil]
    rw [double_double]
  rw [hd]
  have s1 : (67 / 10 : ℝ) ≤ Real.sqrt 45 := Real.le_sqrt_of_sq_le (by norm_num)
  have s2 : Real.sqrt 45 ≤ 671 / 100 := by rw [Real.sqrt_le_left (by norm_num)]; norm_num
  have q := step_error (Real.sqrt 45) (Real.sqrt 45) (by linarith) (by rw [abs_of_pos (by linarith)])
  rw [abs_le] at q
  have q3 : 2 * Real.sqrt 45 / 2 ^ 53 ≤ 1 / 1000 := by rw [div_le_iff₀ (by norm_num)]; norm_num; linarith
  set w := double (Real.sqrt 45)
  set z := zernRpD P 44 0 1
  have hw : w ≤ 7 := by linarith [q.2]
  have hw0 : 0 ≤ w := by linarith [q.1]
  have hz : w * z ≤ 7 * 2 := mul_le_mul hw (by linarith) (by linarith) (by norm_num)
  have p := step_error (w * z) 14 (by norm_num) (by rw [abs_of_nonneg (mul_nonneg hw0 (by linarith))]; linarith)
  rw [abs_le] at p
  have p3 : (2 : ℝ) * 14 / 2 ^ 53 ≤ 1 / 1000 := by norm_num
  have h1 : w * (114 / 100) ≤ w * z := mul_le_mul_of_nonneg_left g1.le hw0
  linarith [p.1, q.1]

/-! ### The hypotheses can be met -/

/-- Routines without errors. -/
noncomputable def trueRoutines : ZernRoutines :=
  { gamma := fun k => ((k - 1).factorial : ℝ)
    hypot := fun x y => Real.sqrt (x ^ 2 + y ^ 2)
    arctan2 := fun y x => Complex.arg ⟨x, y⟩
    cos := Real.cos
    sin := Real.sin }

theorem trueRoutines_close : RoutinesClose trueRoutines where
  gamma k _ := by simp [trueRoutines]; positivity
  hypot x y := by simp only [trueRoutines, sub_self, abs_zero]; positivity
  arctan2 x y := by simp [trueRoutines]
  cos t := by simp [trueRoutines]
  sin t := by simp [trueRoutines]

theorem trueRoutines_exact (N : ℕ) : GammaExact N trueRoutines.gamma := fun k _ => by simp [trueRoutines]

/-- Astigmatism, mode 6, at `(0.3, 0.4)` in a pupil of radius 1. -/
example : |zernSampleD trueRoutines 6 1 (3 / 10) (4 / 10) - mode 6 1 (3 / 10) (4 / 10)| ≤ 3 / 10 ^ 11 := by
  refine (C107_low_orders_partial trueRoutines trueRoutines_close 6 (by norm_num) 1 (3 / 10) (4 / 10) one_pos (by norm_num) ?_).1 (by norm_num)
  change Real.sqrt _ ≤ 1
  rw [Real.sqrt_le_left (by norm_num)]
  norm_num

/-- Spherical aberration: `6 r⁴ - 6 r² + 1`, with these coefficients exactly. -/
example : zernCoefD trueRoutines 4 0 0 = 6 ∧ zernCoefD trueRoutines 4 0 1 = -6 ∧ zernCoefD trueRoutines 4 0 2 = 1 := by
  have h := (C107_exact trueRoutines 4 0 ⟨by norm_num, 2, rfl⟩ (by norm_num) (trueRoutines_exact 18)).1
  refine ⟨(h 0 (by norm_num)).trans ?_, (h 1 (by norm_num)).trans ?_, (h 2 (by norm_num)).trans ?_⟩ <;> norm_num [radialCoef, Nat.factorial]

example : zernRpD trueRoutines 18 2 1 = 1 := (C107_exact trueRoutines 18 2 ⟨by norm_num, 8, rfl⟩ (by norm_num) (trueRoutines_exact 18)).2

example : |zernRpD trueRoutines 30 4 (1 / 3) - radial 30 4 (1 / 3)| ≤ (8 * (30 : ℕ) + 114) / 2 ^ 53 * coefSum 30 4 :=
  C107_radial trueRoutines 30 4 ⟨by norm_num, 13, rfl⟩ (by norm_num) trueRoutines_close.gamma _ (by norm_num) (by norm_num)

example : 114 / 100 < zernRpD trueRoutines 44 0 1 := (C107_high_orders_fail trueRoutines (trueRoutines_exact 22)).2.1

end Coralign.Props
