import Verif.Base.DoubleRel

/-!
# Chains of products and quotients in double precision

`Rel n r`: the factor `r` is the effect of `n` roundings.  `Appr n k xD x`: the positive number `x` lies between `2 ^ -k` and `2 ^ k`, and `xD` is
`x` after `n` roundings.
-/

namespace Coralign

/-- The factor `r` is within `n` roundings of 1, in either direction. -/
def Rel (n : ℕ) (r : ℝ) : Prop := (1 - roundoff) ^ n ≤ r ∧ r * (1 - roundoff) ^ n ≤ 1

theorem one_sub_roundoff_pos : 0 < 1 - roundoff := by rw [roundoff_eq]; norm_num

theorem Rel.pos {n : ℕ} {r : ℝ} (h : Rel n r) : 0 < r := (pow_pos one_sub_roundoff_pos n).trans_le h.1

theorem rel_one : Rel 0 1 := by unfold Rel; simp

theorem Rel.mul {n m : ℕ} {r s : ℝ} (h : Rel n r) (g : Rel m s) : Rel (n + m) (r * s) := by
  have hn := pow_pos one_sub_roundoff_pos n
  have hm := pow_pos one_sub_roundoff_pos m
  refine ⟨?_, ?_⟩
  · rw [pow_add]
    exact mul_le_mul h.1 g.1 hm.le h.pos.le
  · rw [pow_add, show r * s * ((1 - roundoff) ^ n * (1 - roundoff) ^ m) = (r * (1 - roundoff) ^ n) * (s * (1 - roundoff) ^ m) by ring]
    exact mul_le_one₀ h.2 (mul_pos g.pos hm).le g.2

theorem Rel.inv {n : ℕ} {r : ℝ} (h : Rel n r) : Rel n r⁻¹ := by
  have hr := h.pos
  refine ⟨?_, ?_⟩
  · rw [le_inv_comm₀ (pow_pos one_sub_roundoff_pos n) hr, ← one_div, le_div_iff₀ (pow_pos one_sub_roundoff_pos n)]
    exact h.2
  · rw [inv_mul_le_iff₀ hr, mul_one]
    exact h.1

theorem Rel.div {n m : ℕ} {r s : ℝ} (h : Rel n r) (g : Rel m s) : Rel (n + m) (r / s) := by
  rw [div_eq_mul_inv]
  exact h.mul g.inv

theorem rel_step {δ : ℝ} (h : |δ| ≤ roundoff) : Rel 1 (1 + δ) := by
  rw [abs_le] at h
  have h0 : 0 < roundoff := two_zpow_pos _
  refine ⟨by rw [pow_one]; linarith, ?_⟩
  rw [pow_one]
  have := mul_le_mul_of_nonneg_right (show 1 + δ ≤ 1 + roundoff by linarith) one_sub_roundoff_pos.le
  nlinarith [mul_pos h0 h0]

theorem Rel.mono {n m : ℕ} {r : ℝ} (h : Rel n r) (hnm : n ≤ m) : Rel m r := by
  have h0 : 0 < roundoff := two_zpow_pos _
  have hp : (1 - roundoff) ^ m ≤ (1 - roundoff) ^ n := pow_le_pow_of_le_one one_sub_roundoff_pos.le (by linarith) hnm
  exact ⟨hp.trans h.1, (mul_le_mul_of_nonneg_left hp h.pos.le).trans h.2⟩

/-- Up to seven roundings change a number by less than one part in `2 ^ 50`. -/
theorem Rel.le {n : ℕ} {r : ℝ} (h : Rel n r) (hn : n ≤ 7) : |r - 1| ≤ 1 / 2 ^ 50 := by
  have h7 := h.mono hn
  have e : (1 - 7 / 2 ^ 53 : ℝ) ≤ (1 - roundoff) ^ 7 := by rw [roundoff_eq]; norm_num
  rw [abs_le]
  constructor
  · have := h7.1
    norm_num at e ⊢
    linarith
  · have h2 := h7.2
    have := mul_le_mul_of_nonneg_left e h7.pos.le
    have h3 : r * (1 - 7 / 2 ^ 53) ≤ 1 := this.trans h2
    norm_num at h3 ⊢
    linarith

/-- Up to fifteen roundings change a number by less than one part in `2 ^ 49`. -/
theorem Rel.le15 {n : ℕ} {r : ℝ} (h : Rel n r) (hn : n ≤ 15) : |r - 1| ≤ 1 / 2 ^ 49 := by
  have h7 := h.mono hn
  have e : (1 - 15 / 2 ^ 53 : ℝ) ≤ (1 - roundoff) ^ 15 := by rw [roundoff_eq]; norm_num
  rw [abs_le]
  constructor
  · have := h7.1
    norm_num at e ⊢
    linarith
  · have h2 := h7.2
    have := mul_le_mul_of_nonneg_left e h7.pos.le
    have h3 : r * (1 - 15 / 2 ^ 53) ≤ 1 := this.trans h2
    norm_num at h3 ⊢
    linarith

/-- `xD` is the positive number `x`, between `2 ^ -k` and `2 ^ k`, after `n` roundings. -/
structure Appr (n k : ℕ) (xD x : ℝ) : Prop where
  lo : (2 : ℝ) ^ (-(k : ℤ)) ≤ x
  hi : x ≤ (2 : ℝ) ^ (k : ℤ)
  near : ∃ r, Rel n r ∧ xD = x * r

theorem Appr.pos {n k : ℕ} {xD x : ℝ} (h : Appr n k xD x) : 0 < x := (two_zpow_pos _).trans_le h.lo

theorem Appr.posD {n k : ℕ} {xD x : ℝ} (h : Appr n k xD x) : 0 < xD := by
  obtain ⟨r, hr, rfl⟩ := h.near
  exact mul_pos h.pos hr.pos

theorem appr_self {k : ℕ} {x : ℝ} (h1 : (2 : ℝ) ^ (-(k : ℤ)) ≤ x) (h2 : x ≤ (2 : ℝ) ^ (k : ℤ)) : Appr 0 k x x :=
  ⟨h1, h2, 1, rel_one, by ring⟩

theorem Appr.mul {n k m l : ℕ} {xD x yD y : ℝ} (h : Appr n k xD x) (g : Appr m l yD y) : Appr (n + m) (k + l) (xD * yD) (x * y) := by
  obtain ⟨r, hr, rfl⟩ := h.near
  obtain ⟨s, hs, rfl⟩ := g.near
  refine ⟨?_, ?_, r * s, hr.mul hs, by ring⟩
  · rw [show (-((k + l : ℕ) : ℤ)) = -(k : ℤ) + -(l : ℤ) by push_cast; ring, two_zpow_add]
    exact mul_le_mul h.lo g.lo (two_zpow_pos _).le h.pos.le
  · rw [show (((k + l : ℕ) : ℤ)) = (k : ℤ) + (l : ℤ) by push_cast; ring, two_zpow_add]
    exact mul_le_mul h.hi g.hi g.pos.le (two_zpow_pos _).le

theorem Appr.inv {n k : ℕ} {xD x : ℝ} (h : Appr n k xD x) : Appr n k xD⁻¹ x⁻¹ := by
  obtain ⟨r, hr, rfl⟩ := h.near
  refine ⟨?_, ?_, r⁻¹, hr.inv, by rw [mul_inv]⟩
  · rw [zpow_neg]
    exact inv_anti₀ h.pos h.hi
  · have := inv_anti₀ (two_zpow_pos _) h.lo
    rwa [zpow_neg, inv_inv] at this

theorem Appr.div {n k m l : ℕ} {xD x yD y : ℝ} (h : Appr n k xD x) (g : Appr m l yD y) : Appr (n + m) (k + l) (xD / yD) (x / y) := by
  rw [div_eq_mul_inv, div_eq_mul_inv]
  exact h.mul g.inv

theorem Appr.mono {n k m l : ℕ} {xD x : ℝ} (h : Appr n k xD x) (hn : n ≤ m) (hk : k ≤ l) : Appr m l xD x := by
  obtain ⟨r, hr, e⟩ := h.near
  exact ⟨(two_zpow_mono (by omega)).trans h.lo, h.hi.trans (two_zpow_mono (by omega)), r, hr.mono hn, e⟩

theorem Appr.close {n k : ℕ} {xD x : ℝ} (h : Appr n k xD x) (hn : n ≤ 7) : |xD - x| ≤ x / 2 ^ 50 := by
  obtain ⟨r, hr, rfl⟩ := h.near
  have := hr.le hn
  rw [show x * r - x = x * (r - 1) by ring, abs_mul, abs_of_pos h.pos, div_eq_mul_one_div]
  exact mul_le_mul_of_nonneg_left this h.pos.le

/-- One more rounding. -/
theorem Appr.double {n k : ℕ} {xD x : ℝ} (h : Appr n k xD x) (hk : k ≤ 1000) (hn : n ≤ 15) : Appr (n + 1) k (double xD) x := by
  obtain ⟨r, hr, rfl⟩ := h.near
  have hb := hr.le15 hn
  have h1 : (1 / 2 : ℝ) ≤ r := by rw [abs_le] at hb; norm_num at hb ⊢; linarith [hb.1]
  have h2 : r ≤ 2 := by rw [abs_le] at hb; norm_num at hb ⊢; linarith [hb.2]
  have hs : SizeIn (-(k + 1 : ℤ)) (k + 1) (x * r) := by
    right
    rw [abs_of_pos (mul_pos h.pos hr.pos)]
    constructor
    · rw [show -(k + 1 : ℤ) = -(k : ℤ) + -1 by ring, two_zpow_add]
      refine mul_le_mul h.lo ?_ (two_zpow_pos _).le h.pos.le
      rw [zpow_neg_one]; linarith
    · rw [two_zpow_add, zpow_one]
      exact mul_le_mul h.hi h2 hr.pos.le (two_zpow_pos _).le
  obtain ⟨δ, hδ, e⟩ := hs.rel (by omega)
  exact ⟨h.lo, h.hi, r * (1 + δ), hr.mul (rel_step hδ), by rw [e]; ring⟩

end Coralign
