import Verif.Model.ZernikeDouble
import Verif.Lemmas.Zernike
import Verif.Lemmas.ShapesDouble
import Verif.Base.DoubleProd

/-!
# Lemmas on the Zernike polynomials in double precision
-/

namespace Coralign

open Spec Finset

/-! ### Many roundings -/

theorem Rel.leN {n : ℕ} {r : ℝ} (h : Rel n r) (hn : n ≤ 1000000) : |r - 1| ≤ n / 2 ^ 52 := by
  have hu := roundoff_le
  have hu0 := roundoff_pos
  have n0 : (0 : ℝ) ≤ n := Nat.cast_nonneg n
  have nb : (n : ℝ) ≤ 1000000 := by exact_mod_cast hn
  have hb : 1 - n * roundoff ≤ (1 - roundoff) ^ n := by
    have := one_add_mul_le_pow (show (-2 : ℝ) ≤ -roundoff by linarith [roundoff_le, (by norm_num : (1 : ℝ) / 2 ^ 53 ≤ 2)]) n
    have e : (1 + -roundoff) ^ n = (1 - roundoff) ^ n := by ring_nf
    linarith
  have hnu : n * roundoff ≤ n / 2 ^ 53 := by
    rw [roundoff_eq]
    apply le_of_eq
    norm_num
    ring
  have hsm : (n : ℝ) / 2 ^ 53 ≤ 1 / 2 := by
    norm_num
    linarith
  have e2 : (n : ℝ) / 2 ^ 52 = 2 * (n / 2 ^ 53) := by norm_num; ring
  rw [e2]
  set a := (n : ℝ) / 2 ^ 53
  have a0 : 0 ≤ a := div_nonneg n0 (by norm_num)
  rw [abs_le]
  constructor
  · linarith [h.1]
  · have h2 := (mul_le_mul_of_nonneg_left (show 1 - a ≤ (1 - roundoff) ^ n by linarith) h.pos.le).trans h.2
    by_contra hc
    push Not at hc
    have : (1 + 2 * a) * (1 - a) < r * (1 - a) := mul_lt_mul_of_pos_right (by linarith) (by linarith)
    nlinarith

theorem Appr.doubleN {n k : ℕ} {xD x : ℝ} (h : Appr n k xD x) (hk : k ≤ 1000) (hn : n ≤ 1000000) : Appr (n + 1) k (Coralign.double xD) x := by
  obtain ⟨r, hr, rfl⟩ := h.near
  have hb := hr.leN hn
  have nb : (n : ℝ) ≤ 1000000 := by exact_mod_cast hn
  have hsm : (n : ℝ) / 2 ^ 52 ≤ 1 / 2 := by norm_num; linarith
  have h1 : (1 / 2 : ℝ) ≤ r := by rw [abs_le] at hb; linarith [hb.1]
  have h2 : r ≤ 2 := by rw [abs_le] at hb; linarith [hb.2]
  have hs : SizeIn (-(k + 1 : ℤ)) (k + 1) (x * r) := by
    right
    rw [abs_of_pos (mul_pos h.pos hr.pos)]
    constructor
    · rw [show -(k + 1 : ℤ) = -(k : ℤ) + -1 by ring, two_zpow_add]
      refine mul_le_mul h.lo ?_ (two_zpow_pos _).le h.pos.le
      rw [zpow_neg_one]; linarith
    · rw [two_zpow_add, zpow_one]
      exact mul_le_mul h.hi h2 hr.pos.le (two_zpow_pos _).le
  obtain ⟨δ, hδ, e⟩ := hs.rel (by omega)
  exact ⟨h.lo, h.hi, r * (1 + δ), hr.mul (rel_step hδ), by rw [e]; ring⟩

/-! ### The recurrence -/

/-- A product built up factor by factor, each product rounded. -/
noncomputable def upD (g : ℝ) (b : ℕ) : ℕ → ℝ
  | 0 => g
  | t + 1 => double (upD g b t * ((b + t + 1 : ℕ) : ℝ))

theorem double_sign (k : ℕ) (x : ℝ) : double ((-1) ^ k * x) = (-1) ^ k * double x := by
  rcases neg_one_pow_eq_or ℝ k with h | h <;> rw [h]
  · rw [one_mul, one_mul]
  · rw [neg_one_mul, neg_one_mul, double_neg]

/-- Invariant of the rounded recurrence after `t` passes. -/
structure ZernInvD (P : ZernRoutines) (n m t : ℕ) (w : ZernWork) : Prop where
  num : ∀ k, (n - m) / 2 - t ≤ k → k ≤ (n - m) / 2 →
    w.rnum k = (-1) ^ k * upD (double (P.gamma (n - (n - m) / 2 + 1))) (n - (n - m) / 2) ((n - m) / 2 - k)
  d0 : ∀ k, k ≤ t → w.d0 k = upD 1 0 k
  d1 : ∀ k, (n - m) / 2 - t ≤ k → k ≤ (n - m) / 2 → w.d1 k = upD (P.gamma ((n + m) / 2 - (n - m) / 2 + 1)) ((n + m) / 2 - (n - m) / 2) ((n - m) / 2 - k)
  d2 : ∀ k, (n - m) / 2 - t ≤ k → k ≤ (n - m) / 2 → w.d2 k = upD (P.gamma ((n - m) / 2 - (n - m) / 2 + 1)) ((n - m) / 2 - (n - m) / 2) ((n - m) / 2 - k)

theorem zernInitD_inv (P : ZernRoutines) (n m : ℕ) : ZernInvD P n m 0 (zernInitD P n m) := by
  unfold zernInitD
  constructor
  · intro k h1 h2
    have : k = (n - m) / 2 := by omega
    subst this
    simp only [Function.update_self]
    rw [mul_comm, double_sign, Nat.sub_self, upD]
  · intro k hk
    have : k = 0 := by omega
    subst this
    simp [upD]
  · intro k h1 h2
    have : k = (n - m) / 2 := by omega
    subst this
    simp only [Function.update_self]
    rw [Nat.sub_self ((n - m) / 2), upD]
  · intro k h1 h2
    have : k = (n - m) / 2 := by omega
    subst this
    simp only [Function.update_self]
    rw [Nat.sub_self ((n - m) / 2), upD]

theorem upD_next (g : ℝ) (a K k : ℕ) (hk : k < K) (hK : K ≤ a) :
    double (upD g (a - K) (K - (k + 1)) * ((a : ℝ) - (k : ℝ))) = upD g (a - K) (K - k) := by
  rw [show K - k = (K - (k + 1)) + 1 by omega, upD]
  congr 2
  have : a - K + (K - (k + 1)) + 1 + k = a := by omega
  have h : ((a - K + (K - (k + 1)) + 1 : ℕ) : ℝ) + k = a := by exact_mod_cast this
  linarith

theorem zernStepD_inv (P : ZernRoutines) (n m t : ℕ) (h : ValidMode n m) (ht : t < (n - m) / 2) (w : ZernWork) (hw : ZernInvD P n m t w) :
    ZernInvD P n m (t + 1) (zernStepD n m w (t + 1)) := by
  obtain ⟨hmn, he⟩ := h
  unfold zernStepD
  constructor
  · intro k h1 h2
    simp only
    by_cases hkk : k = (n - m) / 2 - (t + 1)
    · rw [← hkk, Function.update_self, hw.num _ (by omega) (by omega)]
      rw [pow_succ, ← upD_next _ n ((n - m) / 2) k (by omega) (by omega), ← double_sign]
      congr 1
      ring
    · rw [Function.update_of_ne hkk]
      exact hw.num k (by omega) h2
  · intro k h1
    simp only
    by_cases hkk : k = t + 1
    · subst hkk
      rw [Function.update_self, Nat.add_sub_cancel, hw.d0 t le_rfl, upD, Nat.zero_add]
    · rw [Function.update_of_ne hkk]
      exact hw.d0 k (by omega)
  · intro k h1 h2
    simp only
    by_cases hkk : k = (n - m) / 2 - (t + 1)
    · rw [← hkk, Function.update_self, hw.d1 _ (by omega) (by omega)]
      exact upD_next _ _ _ _ (by omega) (by omega)
    · rw [Function.update_of_ne hkk]
      exact hw.d1 k (by omega) h2
  · intro k h1 h2
    simp only
    by_cases hkk : k = (n - m) / 2 - (t + 1)
    · rw [← hkk, Function.update_self, hw.d2 _ (by omega) (by omega)]
      exact upD_next _ _ _ _ (by omega) (by omega)
    · rw [Function.update_of_ne hkk]
      exact hw.d2 k (by omega) h2

theorem zernWorkD_inv (P : ZernRoutines) (n m : ℕ) (h : ValidMode n m) : ZernInvD P n m ((n - m) / 2) (zernWorkD P n m) := by
  unfold zernWorkD
  suffices H : ∀ t, t ≤ (n - m) / 2 → ZernInvD P n m t ((List.range' 1 t).foldl (zernStepD n m) (zernInitD P n m)) from H _ le_rfl
  intro t
  induction t with
  | zero => intro _; exact zernInitD_inv P n m
  | succ t ih =>
    intro ht
    rw [List.range'_concat, List.foldl_append]
    simp only [List.foldl_cons, List.foldl_nil, one_mul]
    rw [Nat.add_comm 1 t]
    exact zernStepD_inv P n m t h (by omega) _ (ih (by omega))

/-- The computed coefficient, without the arrays. -/
theorem zernCoefD_eq (P : ZernRoutines) (n m k : ℕ) (h : ValidMode n m) (hk : k ≤ (n - m) / 2) :
    zernCoefD P n m k = (-1) ^ k * double (upD (double (P.gamma (n - (n - m) / 2 + 1))) (n - (n - m) / 2) ((n - m) / 2 - k) /
      double (double (upD 1 0 k * upD (P.gamma (m + 1)) m ((n - m) / 2 - k)) * upD (P.gamma 1) 0 ((n - m) / 2 - k))) := by
  have hw := zernWorkD_inv P n m h
  obtain ⟨hmn, he⟩ := h
  obtain ⟨c, hc⟩ := he
  unfold zernCoefD
  rw [hw.num k (by omega) hk, hw.d0 k hk, hw.d1 k (by omega) hk, hw.d2 k (by omega) hk, mul_div_assoc, double_sign,
    show (n + m) / 2 - (n - m) / 2 = m by omega, Nat.sub_self]

/-! ### Sizes -/

theorem factorial_le (a : ℕ) (ha : a ≤ 150) : (a.factorial : ℝ) ≤ (2 : ℝ) ^ ((1000 : ℕ) : ℤ) := by
  have h1 : a.factorial ≤ (150 : ℕ).factorial := Nat.factorial_le ha
  have h2 : (150 : ℕ).factorial ≤ 2 ^ 1000 := by decide +kernel
  rw [zpow_natCast]
  exact_mod_cast h1.trans h2

theorem two_neg_le (k : ℕ) {x : ℝ} (hx : 1 ≤ x) : (2 : ℝ) ^ (-(k : ℤ)) ≤ x := by
  refine le_trans ?_ hx
  rw [zpow_neg, zpow_natCast]
  exact inv_le_one_of_one_le₀ (one_le_pow₀ (by norm_num))

theorem fact_one_le (a : ℕ) : (1 : ℝ) ≤ (a.factorial : ℝ) := by exact_mod_cast Nat.succ_le_of_lt (Nat.factorial_pos a)

theorem upD_appr (g : ℝ) (b c : ℕ) (hg : ∃ r, Rel c r ∧ g = (b.factorial : ℝ) * r) (t : ℕ) (hbt : b + t ≤ 150) (hc : c ≤ 1000) :
    Appr (c + t) 1000 (upD g b t) ((b + t).factorial : ℝ) := by
  induction t with
  | zero => exact ⟨two_neg_le _ (fact_one_le _), factorial_le _ (by omega), hg⟩
  | succ t ih =>
    have h := ih (by omega)
    obtain ⟨r, hr, e⟩ := h.near
    have : Appr (c + t) 1000 (upD g b t * ((b + t + 1 : ℕ) : ℝ)) ((b + (t + 1)).factorial : ℝ) := by
      refine ⟨two_neg_le _ (fact_one_le _), factorial_le _ hbt, r, hr, ?_⟩
      rw [e, show b + (t + 1) = b + t + 1 by ring, Nat.factorial_succ]
      push_cast
      ring
    exact this.doubleN (le_refl _) (by omega)

theorem multinomial_dvd (n m k : ℕ) (h : ValidMode n m) (hk : k ≤ (n - m) / 2) :
    k.factorial * ((n + m) / 2 - k).factorial * ((n - m) / 2 - k).factorial ∣ (n - k).factorial ∧
    k.factorial * ((n + m) / 2 - k).factorial ∣ (n - k).factorial := by
  obtain ⟨hmn, c, hc⟩ := h
  have e : n - k = k + ((n + m) / 2 - k) + ((n - m) / 2 - k) := by omega
  have h1 := Nat.factorial_mul_factorial_dvd_factorial_add k ((n + m) / 2 - k)
  have h2 := Nat.factorial_mul_factorial_dvd_factorial_add (k + ((n + m) / 2 - k)) ((n - m) / 2 - k)
  rw [← e] at h2
  have h3 := (Nat.mul_dvd_mul h1 (dvd_refl ((n - m) / 2 - k).factorial)).trans h2
  exact ⟨h3, (Dvd.intro _ rfl).trans h3⟩

/-- The modulus of a coefficient. -/
noncomputable def coefAbs (n m k : ℕ) : ℝ := ((n - k).factorial : ℝ) / (k.factorial * ((n + m) / 2 - k).factorial * ((n - m) / 2 - k).factorial)

theorem radialCoef_sign (n m k : ℕ) : radialCoef n m k = (-1) ^ k * coefAbs n m k := by
  unfold radialCoef coefAbs
  rw [mul_div_assoc]

theorem coefAbs_nat (n m k : ℕ) (h : ValidMode n m) (hk : k ≤ (n - m) / 2) :
    ∃ c : ℕ, 1 ≤ c ∧ c ≤ (n - k).factorial ∧ coefAbs n m k = c := by
  obtain ⟨c, hc⟩ := (multinomial_dvd n m k h hk).1
  have hpos : 0 < k.factorial * ((n + m) / 2 - k).factorial * ((n - m) / 2 - k).factorial := by positivity
  have hne : 0 < c := by
    rcases Nat.eq_zero_or_pos c with rfl | h0
    · have := Nat.factorial_pos (n - k); omega
    · exact h0
  refine ⟨c, hne, ?_, ?_⟩
  · rw [hc]; exact Nat.le_mul_of_pos_left c hpos
  · unfold coefAbs
    rw [hc]
    push_cast
    rw [mul_div_cancel_left₀]
    exact_mod_cast hpos.ne'

end Coralign
