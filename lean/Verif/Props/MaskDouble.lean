import Verif.Model.MaskDouble
import Verif.Props.MaskGenWhole
import Verif.Props.DoubleDyadic
import Verif.Props.HlcDouble

/-!
# Property C106: rounding and the downsampling of masks
-/

namespace Coralign.Props

open Coralign Coralign.Spec

/-! ### Specification -/

/-- The reciprocal of the double nearest to `1 / k` rounds to `k` again. -/
def RecipExact (k : ℕ) : Prop := double (1 / double (1 / (k : ℝ))) = k

/-! ### Lemmas -/

theorem recip_appr (k : ℕ) (hk : 1 ≤ k) (hk' : k ≤ 2 ^ 20) : Appr 1 20 (double (1 / (k : ℝ))) (1 / k) := by
  have h1 : (1 : ℝ) ≤ k := by exact_mod_cast hk
  have h2 : (k : ℝ) ≤ 2 ^ 20 := by exact_mod_cast hk'
  refine (appr_self (k := 20) ?_ ?_).double (by norm_num) (by norm_num)
  · rw [zpow_neg, ← one_div]
    exact one_div_le_one_div_of_le (by linarith) (by exact_mod_cast h2)
  · refine le_trans (?_ : (1 : ℝ) / k ≤ 1) (one_le_zpow₀ (by norm_num) (by norm_num))
    rw [div_le_one (by linarith)]
    exact h1

theorem recip_pos (k : ℕ) (hk : 1 ≤ k) (hk' : k ≤ 2 ^ 20) : 0 < double (1 / (k : ℝ)) := (recip_appr k hk hk').posD

theorem recip_le (k : ℕ) (hk : 1 ≤ k) : double (1 / (k : ℝ)) ≤ 1 := by
  have h1 : (1 : ℝ) ≤ k := by exact_mod_cast hk
  have := double_mono (show 1 / (k : ℝ) ≤ 1 by rw [div_le_one (by linarith)]; exact h1)
  rwa [double_one] at this

/-- The diameter of the window is the whole factor, nearly. -/
theorem diam_close (k : ℕ) (hk : 1 ≤ k) (hk' : k ≤ 2 ^ 20) : |double (1 / double (1 / (k : ℝ))) - k| ≤ (k : ℝ) / 2 ^ 50 := by
  have h := (((appr_self (k := 0) (x := 1) (by norm_num) (by norm_num)).div (recip_appr k hk hk')).double (by norm_num) (by norm_num)).close (by norm_num)
  rwa [one_div_one_div] at h

/-- Halving is exact away from the underflow threshold. -/
theorem double_halved {x : ℝ} (h : (2 : ℝ) ^ (-1000 : ℤ) ≤ x) : double (x / 2) = double x / 2 := by
  have hx : 0 < x := (two_zpow_pos _).trans_le h
  have hlog : Int.log 2 (x / 2) = Int.log 2 x - 1 := by
    have l1 := two_log_le hx
    have l2 := lt_two_log x
    have e1 : (2 : ℝ) ^ (Int.log 2 x - 1) ≤ x / 2 := by
      rw [show Int.log 2 x - 1 = Int.log 2 x + (-1) by ring, two_zpow_add, zpow_neg_one]
      linarith
    have e2 : x / 2 < (2 : ℝ) ^ (Int.log 2 x - 1 + 1) := by
      rw [two_zpow_add, zpow_one] at l2
      rw [sub_add_cancel]
      linarith
    have k1 := (Int.zpow_le_iff_le_log (b := 2) (by norm_num) (by linarith : (0 : ℝ) < x / 2) (x := Int.log 2 x - 1)).mp (by exact_mod_cast e1)
    have k2 := (Int.lt_zpow_iff_log_lt (b := 2) (by norm_num) (x := Int.log 2 x - 1 + 1) (by linarith : (0 : ℝ) < x / 2)).mp (by exact_mod_cast e2)
    omega
  have hbig : (-1000 : ℤ) ≤ Int.log 2 x := (Int.zpow_le_iff_le_log (b := 2) (by norm_num) hx (x := (-1000 : ℤ))).mp (by exact_mod_cast h)
  have hu : ulp (x / 2) = ulp x / 2 := by
    unfold ulp
    rw [abs_of_pos hx, abs_of_pos (by linarith : (0 : ℝ) < x / 2), hlog, max_eq_left (by omega), max_eq_left (by omega),
      show Int.log 2 x - 1 - 52 = Int.log 2 x - 52 + (-1) by ring, two_zpow_add, zpow_neg_one]
    ring
  unfold double
  rw [hu, show x / 2 / (ulp x / 2) = x / ulp x by field_simp]
  ring

/-- The window of a whole factor is the disc of that diameter, if the factor is odd or its reciprocal is exact. -/
theorem discWindowD_eq (n : ℕ) (hn : n % 2 = 1) (hn' : n ≤ 2 ^ 20) (k : ℕ) (hk : 1 ≤ k) (hk' : k ≤ 2 ^ 20) (h : k % 2 = 1 ∨ RecipExact k) :
    discWindowD n (double (1 / double (1 / (k : ℝ)))) = discWindow n k := by
  unfold discWindowD discWindow
  congr 1
  funext i j
  have hi := i.isLt
  have hj := j.isLt
  rw [maskAxis_odd n hn, maskAxis_odd n hn]
  set x : ℤ := ((j : ℕ) : ℤ) - (n : ℤ) / 2 with hx
  set y : ℤ := ((i : ℕ) : ℤ) - (n : ℤ) / 2 with hy
  have bx : |x| ≤ 2 ^ 20 := by rw [abs_le]; omega
  have by' : |y| ≤ 2 ^ 20 := by rw [abs_le]; omega
  have hiff : rhoD (x : ℝ) (y : ℝ) ≤ double (double (1 / double (1 / (k : ℝ))) / 2) ↔ Real.sqrt ((x : ℝ) ^ 2 + (y : ℝ) ^ 2) ≤ (k : ℝ) / 2 := by
    have hs := sqrt_disc k x y (by omega)
    push_cast at hs
    rw [hs]
    rcases h with h | h
    · -- the rim of a disc of odd diameter passes through no pixel
      set q : ℤ := y ^ 2 + x ^ 2 with hq
      have hodd : 4 * q ≠ (k : ℤ) ^ 2 := by
        obtain ⟨c, hc⟩ : ∃ c : ℤ, (k : ℤ) = 2 * c + 1 := ⟨(k : ℤ) / 2, by omega⟩
        rw [hc]
        intro hcon
        have : 4 * q = 4 * (c ^ 2 + c) + 1 := by rw [hcon]; ring
        omega
      have hd := diam_close k hk hk'
      have hd2 := double_error (double (1 / double (1 / (k : ℝ))) / 2)
      have he := rhoD_error (x : ℝ) (y : ℝ)
      set D := double (double (1 / double (1 / (k : ℝ))) / 2) with hD
      set d := double (1 / double (1 / (k : ℝ))) with hd0
      have k1 : (1 : ℝ) ≤ k := by exact_mod_cast hk
      have k2 : (k : ℝ) ≤ 1048576 := by exact_mod_cast hk'
      have hq0 : (0 : ℝ) ≤ (q : ℝ) := by rw [hq]; push_cast; positivity
      have hsq : (x : ℝ) ^ 2 + (y : ℝ) ^ 2 = q := by rw [hq]; push_cast; ring
      rw [hsq] at he
      set s := Real.sqrt (q : ℝ) with hs0
      have s0 : 0 ≤ s := Real.sqrt_nonneg _
      have ss : s * s = q := Real.mul_self_sqrt hq0
      have sb : s ≤ 2 ^ 21 := by
        have b1 : |(x : ℝ)| ≤ 2 ^ 20 := by exact_mod_cast bx
        have b2 : |(y : ℝ)| ≤ 2 ^ 20 := by exact_mod_cast by'
        have := sqrt_le_abs_add (x : ℝ) (y : ℝ)
        rw [hsq] at this
        linarith
      have hu := roundoff_le
      have hu0 := roundoff_pos
      have hr := rootUnderflow_le
      have hr0 := rootUnderflow_pos
      have hη := underflow_le'
      have hη0 := underflow_pos
      have huu : roundoff * roundoff ≤ 1 / 2 ^ 100 := by
        have := mul_le_mul hu hu hu0.le (by norm_num)
        norm_num at this ⊢
        linarith
      -- both errors are far below one part in `k`
      have E1 : |rhoD (x : ℝ) (y : ℝ) - s| ≤ 1 / 2 ^ 28 := by
        refine he.trans ?_
        have : 5 * roundoff * s ≤ 5 * (1 / 2 ^ 53) * 2 ^ 21 := by
          have := mul_le_mul hu sb s0 (by norm_num)
          nlinarith
        norm_num at this huu hr ⊢
        linarith
      have E2 : |D - k / 2| ≤ 1 / 2 ^ 28 := by
        have dabs : |d / 2| ≤ 2 ^ 20 := by
          rw [abs_le] at hd ⊢
          have : (k : ℝ) / 2 ^ 50 ≤ 1 := by norm_num; linarith
          norm_num
          constructor <;> linarith [hd.1, hd.2]
        have h1 : |D - d / 2| ≤ 1 / 2 ^ 30 := by
          refine hd2.trans ?_
          have := mul_le_mul hu dabs (abs_nonneg _) (by norm_num)
          norm_num at this huu hη ⊢
          linarith
        rw [abs_le] at h1 hd ⊢
        have : (k : ℝ) / 2 ^ 50 ≤ 1 / 2 ^ 30 := by norm_num; linarith
        norm_num at this h1 hd ⊢
        constructor <;> linarith [h1.1, h1.2, hd.1, hd.2]
      rw [abs_le] at E1 E2
      constructor
      · intro hle
        by_contra hc
        have hc1 : (k : ℤ) ^ 2 + 1 ≤ 4 * q := by omega
        have hc2 : (k : ℝ) ^ 2 + 1 ≤ 4 * (q : ℝ) := by exact_mod_cast hc1
        have gap : (k : ℝ) / 2 + 1 / 2 ^ 24 ≤ s := by
          by_contra hcon
          push Not at hcon
          have : s * s < ((k : ℝ) / 2 + 1 / 2 ^ 24) * ((k : ℝ) / 2 + 1 / 2 ^ 24) := mul_self_lt_mul_self s0 hcon
          rw [ss] at this
          norm_num at this
          nlinarith
        norm_num at gap E1 E2
        linarith [E1.1, E1.2, E2.1, E2.2]
      · intro hle
        have hc1 : 4 * q + 1 ≤ (k : ℤ) ^ 2 := by omega
        have hc2 : 4 * (q : ℝ) + 1 ≤ (k : ℝ) ^ 2 := by exact_mod_cast hc1
        have gap : s + 1 / 2 ^ 24 ≤ (k : ℝ) / 2 := by
          by_contra hcon
          push Not at hcon
          have : ((k : ℝ) / 2 - 1 / 2 ^ 24) * ((k : ℝ) / 2 - 1 / 2 ^ 24) < s * s :=
            mul_self_lt_mul_self (by norm_num; linarith) (by linarith)
          rw [ss] at this
          norm_num at this
          nlinarith
        norm_num at gap E1 E2
        linarith [E1.1, E1.2, E2.1, E2.2]
    · unfold RecipExact at h
      have e2 := double_half k (by rw [abs_of_nonneg (by omega)]; norm_num; omega)
      push_cast at e2
      rw [h, e2]
      have := rhoD_le_iff (2 * x) (2 * y) k 1 (by norm_num) (by rw [abs_mul]; norm_num; omega) (by rw [abs_mul]; norm_num; omega) (by omega) (by omega)
      push_cast at this
      rw [pow_one, mul_div_cancel_left₀ _ (two_ne_zero), mul_div_cancel_left₀ _ (two_ne_zero)] at this
      rw [this]
      constructor <;> intro h <;> nlinarith
  by_cases hc : Real.sqrt ((x : ℝ) ^ 2 + (y : ℝ) ^ 2) ≤ (k : ℝ) / 2
  · rw [if_pos hc, if_pos (hiff.mpr hc)]
  · rw [if_neg hc, if_neg (fun h => hc (hiff.mp h))]

/-- The array built by the last lines of the function, in double precision. -/
noncomputable def resampledD (S : ClampSpline) (A : Arr2 ℝ) (N nOut : ℕ) (dxOut xo yo : ℝ) : Arr2 ℝ :=
  ⟨nOut + 1, nOut + 1, fun i j => if (i : ℕ) = 0 ∨ (j : ℕ) = 0 then 0 else
    S.eval (maskAxis N) (maskAxis N) A (maskPosD nOut ((i : ℕ) - 1) yo dxOut) (maskPosD nOut ((j : ℕ) - 1) xo dxOut)⟩

theorem rsdD_ok (S : ClampSpline) (R : Rotate) (a : Arr2 ℝ) (rot mag xo yo padFac : ℝ) (flipx : Bool) (h1 : 0 < mag) (h2 : mag ≤ 1)
    (h3 : 1 ≤ padFac) (N : ℕ) (h4 : 4 ≤ N) (hN : (N : ℤ) = maskSideD a padFac) :
    rotateShiftDownsampleD S R a rot mag xo yo padFac flipx =
      .ok (resampledD S (if rot = 0 then smoothMask (normWindow (discWindowD N (double (1 / mag)))) ⟨N, N, prepared a N flipx⟩
        else R.run (-rot) (smoothMask (normWindow (discWindowD N (double (1 / mag)))) ⟨N, N, prepared a N flipx⟩)) N
        (maskOutD N mag xo yo).toNat (double (1 / mag)) xo yo) := by
  have hm : (if flipx = true then (embed a N N 0).fliplr else embed a N N 0) = ⟨N, N, prepared a N flipx⟩ := by
    cases flipx with
    | false => simp only [Bool.false_eq_true, if_false]; unfold prepared; simp only [Bool.false_eq_true, if_false]; rfl
    | true => simp only [if_true]; unfold prepared; simp only [if_true]; rfl
  unfold rotateShiftDownsampleD
  rw [if_neg (by push Not; exact ⟨h1, h2, h3⟩)]
  simp only
  rw [← hN, padCrop_eq a N N 0 (by omega) (by omega)]
  simp only [bind, Except.bind, Int.toNat_natCast]
  rw [hm]
  rw [if_neg (by simp only; omega)]
  rfl

/-- The computed sum is the exact one to one part in a million millions. -/
theorem sum_close {P p w : ℝ} (P0 : 0 ≤ P) (hp0 : 0 ≤ p) (hp : p ≤ 2 ^ 41) (hP : |P - p| ≤ p / 2 ^ 49 + 1 / 2 ^ 60) (hw0 : 0 ≤ w) (hw : w ≤ 2 ^ 41) :
    |double (double (P + 2) + double w) - (p + 2 + w)| ≤ (p + 2 + w) / 2 ^ 48 := by
  have hu := roundoff_le
  have hu0 := roundoff_pos
  have hη := underflow_le'
  have hη0 := underflow_pos
  have huu : roundoff * roundoff ≤ 1 / 2 ^ 100 := by
    have := mul_le_mul hu hu hu0.le (by norm_num)
    norm_num at this ⊢
    linarith
  have e1 := double_error (P + 2)
  have e2 := double_error w
  have e3 := double_error (double (P + 2) + double w)
  set A := double (P + 2) with hA
  set W := double w with hW
  have hP' := abs_le.mp hP
  have A0 : 0 ≤ A := double_nonneg (by linarith)
  have W0 : 0 ≤ W := double_nonneg hw0
  rw [abs_of_nonneg (by linarith : 0 ≤ P + 2)] at e1
  rw [abs_of_nonneg hw0] at e2
  rw [abs_of_nonneg (by linarith : 0 ≤ A + W)] at e3
  rw [abs_le] at e1 e2 e3 ⊢
  have m1 : roundoff * (P + 2) ≤ 1 / 2 ^ 53 * (P + 2) := mul_le_mul_of_nonneg_right hu (by linarith)
  have m2 : roundoff * w ≤ 1 / 2 ^ 53 * w := mul_le_mul_of_nonneg_right hu hw0
  have m3 : roundoff * (A + W) ≤ 1 / 2 ^ 53 * (A + W) := mul_le_mul_of_nonneg_right hu (by linarith)
  norm_num at m1 m2 m3 hP' huu ⊢
  constructor <;> linarith [e1.1, e1.2, e2.1, e2.2, e3.1, e3.2, hP'.1, hP'.2]

theorem out_size (N k : ℕ) (hN : N ≤ 2 ^ 20) (hk : 1 ≤ k) (hk' : k ≤ 2 ^ 20) (xo yo : ℤ) (hx : |xo| ≤ 2 ^ 20) (hy : |yo| ≤ 2 ^ 20)
    (h : k = 1 ∨ ¬ k ∣ N) : maskOutD N (double (1 / (k : ℝ))) xo yo = ceilOdd ((N : ℝ) * (1 / k) + 2 + 2 * max |(xo : ℝ)| |(yo : ℝ)|) := by
  unfold maskOutD
  obtain ⟨M, hM, hM0, hMb⟩ : ∃ M : ℤ, max |(xo : ℝ)| |(yo : ℝ)| = M ∧ 0 ≤ M ∧ M ≤ 2 ^ 20 :=
    ⟨max |xo| |yo|, by push_cast; rfl, le_max_of_le_left (abs_nonneg _), max_le hx hy⟩
  rw [hM]
  have k1 : (1 : ℝ) ≤ k := by exact_mod_cast hk
  have n1 : (N : ℝ) ≤ 1048576 := by exact_mod_cast hN
  have n0 : (0 : ℝ) ≤ N := Nat.cast_nonneg N
  have M0 : (0 : ℝ) ≤ M := by exact_mod_cast hM0
  have M1 : (M : ℝ) ≤ 1048576 := by exact_mod_cast hMb
  rcases h with rfl | h
  · rw [show (1 / ((1 : ℕ) : ℝ)) = 1 by norm_num, double_one, mul_one, double_nat N (by omega)]
    have e1 := double_int (N + 2 : ℤ) (by rw [abs_of_nonneg (by omega)]; norm_num; omega)
    have e2 := double_int (2 * M : ℤ) (by rw [abs_of_nonneg (by omega)]; norm_num; omega)
    have e3 := double_int (N + 2 + 2 * M : ℤ) (by rw [abs_of_nonneg (by omega)]; norm_num; omega)
    push_cast at e1 e2 e3
    rw [e1, e2, e3]
  · set S : ℝ := (N : ℝ) * (1 / k) + 2 + 2 * M with hS
    have hN0 : 1 ≤ N := by
      by_contra hc
      obtain rfl : N = 0 := by omega
      exact h (dvd_zero k)
    have hN1 : (1 : ℝ) ≤ N := by exact_mod_cast hN0
    have hP : |double ((N : ℝ) * double (1 / (k : ℝ))) - (N : ℝ) * (1 / k)| ≤ (N : ℝ) * (1 / k) / 2 ^ 49 + 1 / 2 ^ 60 := by
      have ha : Appr 0 20 (N : ℝ) N := appr_self (by
        refine le_trans ?_ hN1
        exact zpow_le_one_of_nonpos₀ (by norm_num) (by norm_num)) (by
        refine n1.trans ?_
        norm_num)
      have := ((ha.mul (recip_appr k hk hk')).double (by norm_num) (by norm_num)).close (by norm_num)
      refine this.trans ?_
      have : 0 ≤ (N : ℝ) * (1 / k) := by positivity
      have := div_le_div_of_nonneg_left this (show (0 : ℝ) < 2 ^ 49 by norm_num) (show (2 : ℝ) ^ 49 ≤ 2 ^ 50 by norm_num)
      have : (0 : ℝ) ≤ 1 / 2 ^ 60 := by norm_num
      linarith
    have hle : (N : ℝ) * (1 / k) ≤ 1048576 := by
      rw [mul_one_div, div_le_iff₀ (by linarith)]
      nlinarith
    have hclose := sum_close (p := (N : ℝ) * (1 / k)) (w := 2 * M) (double_nonneg (mul_nonneg n0 (recip_pos k hk hk').le)) (by positivity) (hle.trans (by norm_num)) hP (by linarith) (by norm_num; linarith)
    rw [← hS] at hclose
    set SD := double (double (double ((N : ℝ) * double (1 / (k : ℝ))) + 2) + double (2 * M)) with hSD
    -- the exact sum is at least `1 / k` away from whole numbers
    have hsmall : |SD - S| < 1 / k := by
      refine lt_of_le_of_lt hclose ?_
      have k2 : (k : ℝ) ≤ 1048576 := by exact_mod_cast hk'
      rw [div_lt_div_iff₀ (by norm_num) (by linarith), one_mul]
      have : S ≤ 4194304 := by rw [hS]; linarith
      have : S * k ≤ 4194304 * 1048576 := mul_le_mul this k2 (by linarith) (by norm_num)
      norm_num at this ⊢
      linarith
    have hceil : ⌈SD⌉ = ⌈S⌉ := by
      have hkS : ∀ z : ℤ, S < z → S + 1 / k ≤ z := by
        intro z hz
        have e : (k : ℝ) * S = ((N + 2 * k + 2 * M * k : ℤ) : ℝ) := by rw [hS]; push_cast; field_simp
        have : (k : ℝ) * S < k * z := mul_lt_mul_of_pos_left hz (by linarith)
        rw [e] at this
        have this' : (N + 2 * k + 2 * M * k : ℤ) < k * z := by exact_mod_cast this
        have this'' : ((N + 2 * k + 2 * M * k : ℤ) : ℝ) + 1 ≤ k * z := by exact_mod_cast this'
        rw [← e] at this''
        rw [← sub_nonneg] at this'' ⊢
        have : (k : ℝ) * (z - (S + 1 / k)) = k * z - (k * S + 1) := by field_simp
        rw [← this] at this''
        exact nonneg_of_mul_nonneg_right (by linarith) (by linarith : (0 : ℝ) < k)
      have hkS' : ∀ z : ℤ, (z : ℝ) ≤ S → z + 1 / k ≤ S := by
        intro z hz
        have e : (k : ℝ) * S = ((N + 2 * k + 2 * M * k : ℤ) : ℝ) := by rw [hS]; push_cast; field_simp
        have hne : (z : ℝ) ≠ S := by
          intro hcon
          rw [← hcon] at e
          have e' : (k : ℤ) * z = N + 2 * k + 2 * M * k := by exact_mod_cast e
          refine h (Int.natCast_dvd_natCast.mp ⟨z - 2 - 2 * M, ?_⟩)
          linarith
        have : (k : ℝ) * z < k * S := mul_lt_mul_of_pos_left (lt_of_le_of_ne hz hne) (by linarith)
        rw [e] at this
        have this' : (k : ℤ) * z < (N + 2 * k + 2 * M * k : ℤ) := by exact_mod_cast this
        have this'' : (k : ℝ) * z + 1 ≤ ((N + 2 * k + 2 * M * k : ℤ) : ℝ) := by exact_mod_cast this'
        rw [← e] at this''
        rw [← sub_nonneg] at this'' ⊢
        have : (k : ℝ) * (S - (z + 1 / k)) = k * S - (k * z + 1) := by field_simp
        rw [← this] at this''
        exact nonneg_of_mul_nonneg_right (by linarith) (by linarith : (0 : ℝ) < k)
      rw [abs_lt] at hsmall
      apply le_antisymm
      · rw [Int.ceil_le]
        rcases (Int.le_ceil S).lt_or_eq with h1 | h1
        · have := hkS _ h1
          linarith
        · have := hkS' ⌈S⌉ h1.ge
          have : (0 : ℝ) < 1 / k := by positivity
          linarith
      · rw [Int.ceil_le]
        by_contra hc
        push Not at hc
        have := hkS' _ hc.le
        have := Int.le_ceil SD
        linarith
    unfold ceilOdd
    rw [hceil]

theorem pos_exact (n j k : ℕ) (hn : n % 2 = 1) (hn' : n ≤ 2 ^ 23) (hj : j < n) (hk : k ≤ 2 ^ 20) (off : ℤ) (ho : |off| ≤ 2 ^ 20) :
    maskPosD n j off k = (maskAxis n j - off) * k := by
  unfold maskPosD
  rw [maskAxis_odd n hn]
  have h := abs_le.mp ho
  have b : |((j : ℤ) - (n : ℤ) / 2 - off)| ≤ 2 ^ 24 := by rw [abs_le]; omega
  have e1 := double_int ((j : ℤ) - (n : ℤ) / 2 - off) (b.trans (by norm_num))
  have e2 := double_int (((j : ℤ) - (n : ℤ) / 2 - off) * k) (by
    rw [abs_mul, abs_of_nonneg (by omega : (0 : ℤ) ≤ k)]
    have := mul_le_mul b (show (k : ℤ) ≤ 2 ^ 20 by exact_mod_cast hk) (by omega) (by norm_num)
    exact this.trans (by norm_num))
  push_cast at e1 e2 ⊢
  rw [e1, e2]

/-! ### Theorems -/

/-- **C106 (partial).** Downsampling by a whole factor `k`, given as the double nearest to `1 / k`, with whole offsets: the array returned is exactly
the one that exact arithmetic with `1 / k` gives, of the same size and with the same values, for any rotation, if the padded side is computed without
rounding (as with `padFac = 1`) and is not a multiple of `k` (it is odd, so this is no restriction for even `k`), and if the reciprocal of the double
nearest to `1 / k` is `k`.  Missing: factors such as 98, for which it is not, where pixels on the rim of the window are lost (`C106_rim_lost`), and
sides that are multiples of `k`, where the array may be two pixels larger (`C106_larger`). -/
theorem C106_whole_factor_partial (S : ClampSpline) (R : Rotate) (a : Arr2 ℝ) (rot : ℝ) (k : ℕ) (hk : 1 ≤ k) (hk' : k ≤ 2 ^ 20) (xo yo : ℤ)
    (hx : |xo| ≤ 2 ^ 20) (hy : |yo| ≤ 2 ^ 20) (padFac : ℝ) (flipx : Bool) (hargs : MaskArgs a (1 / k) padFac)
    (hside : IsDouble (padFac * (max a.nr a.nc : ℕ))) (N : ℕ) (hN : IsLeast {n : ℤ | n % 2 = 1 ∧ padFac * (max a.nr a.nc : ℕ) ≤ n} N)
    (hN' : N ≤ 2 ^ 20) (hdvd : k = 1 ∨ ¬ k ∣ N) (hrec : RecipExact k) :
    rotateShiftDownsampleD S R a rot (double (1 / (k : ℝ))) xo yo padFac flipx = rotateShiftDownsample S R a rot (1 / k) xo yo padFac flipx := by
  have hNc : (N : ℤ) = ceilOdd (padFac * (max a.nr a.nc : ℕ)) := hN.unique (C08_ceil_odd _)
  have h4 := (side_facts (padFac * (max a.nr a.nc : ℕ))).2.2.mpr hargs.enough
  have hodd := (side_facts (padFac * (max a.nr a.nc : ℕ))).1
  rw [← hNc] at h4 hodd
  have hsideD : (N : ℤ) = maskSideD a padFac := by
    unfold maskSideD
    rw [show double (padFac * (max a.nr a.nc : ℕ)) = padFac * (max a.nr a.nc : ℕ) from hside, hNc]
  rw [rsdD_ok S R a rot _ xo yo padFac flipx (recip_pos k hk hk') (recip_le k hk) hargs.pad N (by omega) hsideD,
    rsd_ok S R a rot (1 / k) xo yo padFac flipx hargs N hNc, out_size N k hN' hk hk' xo yo hx hy hdvd,
    discWindowD_eq N (by omega) hN' k hk hk' (Or.inr hrec), show double (1 / double (1 / (k : ℝ))) = k from hrec, one_div_one_div]
  congr 1
  set A := (if rot = 0 then smoothMask (normWindow (discWindow N k)) ⟨N, N, prepared a N flipx⟩
    else R.run (-rot) (smoothMask (normWindow (discWindow N k)) ⟨N, N, prepared a N flipx⟩)) with hA
  obtain ⟨g1, g2, -⟩ := side_facts ((N : ℝ) * (1 / k) + 2 + 2 * max |(xo : ℝ)| |(yo : ℝ)|)
  have hub : ceilOdd ((N : ℝ) * (1 / k) + 2 + 2 * max |(xo : ℝ)| |(yo : ℝ)|) ≤ 2 ^ 23 := by
    have k1 : (1 : ℝ) ≤ k := by exact_mod_cast hk
    have n1 : (N : ℝ) ≤ 1048576 := by exact_mod_cast hN'
    have n0 : (0 : ℝ) ≤ N := Nat.cast_nonneg N
    have hle : (N : ℝ) * (1 / k) ≤ 1048576 := by
      rw [mul_one_div, div_le_iff₀ (by linarith)]
      nlinarith
    have hm : max |(xo : ℝ)| |(yo : ℝ)| ≤ 1048576 := max_le (by exact_mod_cast hx) (by exact_mod_cast hy)
    have := (C08_ceil_odd ((N : ℝ) * (1 / k) + 2 + 2 * max |(xo : ℝ)| |(yo : ℝ)|)).2
      (show (8388607 : ℤ) ∈ {n : ℤ | n % 2 = 1 ∧ (N : ℝ) * (1 / k) + 2 + 2 * max |(xo : ℝ)| |(yo : ℝ)| ≤ n} from ⟨by norm_num, by push_cast; linarith⟩)
    omega
  have hlo : 0 ≤ ceilOdd ((N : ℝ) * (1 / k) + 2 + 2 * max |(xo : ℝ)| |(yo : ℝ)|) := by
    have : 0 ≤ max |(xo : ℝ)| |(yo : ℝ)| := le_max_of_le_left (abs_nonneg _)
    have : (0 : ℝ) ≤ (ceilOdd ((N : ℝ) * (1 / k) + 2 + 2 * max |(xo : ℝ)| |(yo : ℝ)|) : ℤ) := le_trans (by positivity) g2
    exact_mod_cast this
  generalize ceilOdd ((N : ℝ) * (1 / k) + 2 + 2 * max |(xo : ℝ)| |(yo : ℝ)|) = Z at g1 hub hlo
  obtain ⟨M, rfl⟩ := Int.eq_ofNat_of_zero_le hlo
  rw [Int.toNat_natCast]
  unfold resampledD resampled
  congr 1
  funext i j
  by_cases h0 : (i : ℕ) = 0 ∨ (j : ℕ) = 0
  · rw [if_pos h0, if_pos h0]
  · rw [if_neg h0, if_neg h0]
    have hi := i.isLt
    have hj := j.isLt
    rw [pos_exact M ((i : ℕ) - 1) k (by omega) (by omega) (by omega) hk' yo hy, pos_exact M ((j : ℕ) - 1) k (by omega) (by omega) (by omega) hk' xo hx,
      one_div_one_div]

/-! ### Sizes -/

theorem sideD_facts (a : Arr2 ℝ) (padFac : ℝ) (hp : 1 ≤ padFac) : maskSideD a padFac % 2 = 1 ∧ 0 < maskSideD a padFac ∧
    double (padFac * (max a.nr a.nc : ℕ)) ≤ maskSideD a padFac := by
  obtain ⟨h1, h2, -⟩ := side_facts (double (padFac * (max a.nr a.nc : ℕ)))
  refine ⟨h1, ?_, h2⟩
  have h0 : (0 : ℝ) ≤ double (padFac * (max a.nr a.nc : ℕ)) := double_nonneg (by positivity)
  have : (0 : ℝ) ≤ (maskSideD a padFac : ℤ) := h0.trans h2
  have : 0 ≤ maskSideD a padFac := by exact_mod_cast this
  unfold maskSideD at *
  omega

theorem rsdD_inv (S : ClampSpline) (R : Rotate) (a : Arr2 ℝ) (rot mag xo yo padFac : ℝ) (flipx : Bool) (o : Arr2 ℝ)
    (ho : rotateShiftDownsampleD S R a rot mag xo yo padFac flipx = .ok o) : 0 < mag ∧ mag ≤ 1 ∧ 1 ≤ padFac ∧ 4 ≤ maskSideD a padFac := by
  unfold rotateShiftDownsampleD at ho
  by_cases hb : mag ≤ 0 ∨ 1 < mag ∨ padFac < 1
  · rw [if_pos hb] at ho
    cases ho
  · rw [if_neg hb] at ho
    push Not at hb
    refine ⟨hb.1, hb.2.1, hb.2.2, ?_⟩
    by_contra hc
    obtain ⟨-, h2, -⟩ := sideD_facts a padFac hb.2.2
    simp only at ho
    rw [padCrop_eq a _ _ 0 h2 h2] at ho
    simp only [bind, Except.bind] at ho
    rw [if_pos] at ho
    · cases ho
    · have : (if flipx = true then (embed a (maskSideD a padFac).toNat (maskSideD a padFac).toNat 0).fliplr
        else embed a (maskSideD a padFac).toNat (maskSideD a padFac).toNat 0).nr = (maskSideD a padFac).toNat := by cases flipx <;> rfl
      rw [this]
      omega

theorem outD_facts (N : ℕ) (mag xo yo : ℝ) (h0 : 0 < mag) (h1 : mag ≤ 1) (hN : (N : ℝ) ≤ 2 ^ 40 + 2) (hx : |xo| ≤ 2 ^ 40) (hy : |yo| ≤ 2 ^ 40) :
    maskOutD N mag xo yo % 2 = 1 ∧ (N : ℝ) * mag + 2 * max |xo| |yo| + 1.9 ≤ maskOutD N mag xo yo := by
  obtain ⟨g1, g2, -⟩ := side_facts (double (double (double ((N : ℝ) * mag) + 2) + double (2 * max |xo| |yo|)))
  refine ⟨g1, ?_⟩
  have hm : max |xo| |yo| ≤ 2 ^ 40 := max_le hx hy
  have hm0 : 0 ≤ max |xo| |yo| := le_max_of_le_left (abs_nonneg _)
  have n0 : (0 : ℝ) ≤ N := Nat.cast_nonneg N
  have p0 : 0 ≤ (N : ℝ) * mag := mul_nonneg n0 h0.le
  have pb : (N : ℝ) * mag ≤ 2 ^ 40 + 2 := by nlinarith
  have hP : |double ((N : ℝ) * mag) - (N : ℝ) * mag| ≤ (N : ℝ) * mag / 2 ^ 49 + 1 / 2 ^ 60 := by
    refine (double_error _).trans ?_
    rw [abs_of_nonneg p0]
    have hu := mul_le_mul_of_nonneg_right roundoff_le p0
    have hη := underflow_le'
    have huu : roundoff * roundoff ≤ 1 / 2 ^ 100 := by
      have := mul_le_mul roundoff_le roundoff_le roundoff_pos.le (by norm_num)
      norm_num at this ⊢
      linarith
    norm_num at hu huu ⊢
    linarith
  have hc := sum_close (p := (N : ℝ) * mag) (w := 2 * max |xo| |yo|) (double_nonneg p0) p0 (pb.trans (by norm_num)) hP (by linarith)
    (by
      generalize max |xo| |yo| = w at hm
      norm_num at hm ⊢
      linarith)
  have hb : ((N : ℝ) * mag + 2 + 2 * max |xo| |yo|) / 2 ^ 48 ≤ 0.1 := by
    rw [div_le_iff₀ (by norm_num)]
    generalize max |xo| |yo| = w at hm
    norm_num at hm pb ⊢
    linarith
  have := (abs_le.mp hc).1
  have g2' : double (double (double ((N : ℝ) * mag) + 2) + double (2 * max |xo| |yo|)) ≤ (maskOutD N mag xo yo : ℤ) := g2
  linarith

/-- **C106.** Whatever the rounding, the output is square and even-sized, and more than two pixels larger than the padded mask times the magnification
plus twice the larger offset, so that the offset mask is not cut off; its first row and column are zero. -/
theorem C106_contains (S : ClampSpline) (R : Rotate) (a : Arr2 ℝ) (rot mag xo yo padFac : ℝ) (flipx : Bool) (hx : |xo| ≤ 2 ^ 40) (hy : |yo| ≤ 2 ^ 40)
    (hb : padFac * (max a.nr a.nc : ℕ) ≤ 2 ^ 40) (o : Arr2 ℝ) (ho : rotateShiftDownsampleD S R a rot mag xo yo padFac flipx = .ok o) :
    o.nr = o.nc ∧ o.nr % 2 = 0 ∧ padFac * (max a.nr a.nc : ℕ) * mag + 2 * max |xo| |yo| + 2 < o.nr ∧
    ∀ k : ℕ, k < o.nr → o.px 0 k = some 0 ∧ o.px k 0 = some 0 := by
  obtain ⟨h1, h2, h3, h4⟩ := rsdD_inv S R a rot mag xo yo padFac flipx o ho
  obtain ⟨s1, s2, s3⟩ := sideD_facts a padFac h3
  obtain ⟨N, hN⟩ := Int.eq_ofNat_of_zero_le s2.le
  rw [rsdD_ok S R a rot mag xo yo padFac flipx h1 h2 h3 N (by omega) hN.symm] at ho
  obtain rfl := Except.ok.inj ho
  have hq0 : (0 : ℝ) ≤ padFac * (max a.nr a.nc : ℕ) := by positivity
  have he := double_error (padFac * (max a.nr a.nc : ℕ))
  have hu := mul_le_mul roundoff_le hb hq0 (by norm_num)
  have hη := underflow_le'
  have huu : roundoff * roundoff ≤ 1 / 2 ^ 100 := by
    have := mul_le_mul roundoff_le roundoff_le roundoff_pos.le (by norm_num)
    norm_num at this ⊢
    linarith
  rw [abs_of_nonneg hq0, abs_le] at he
  have hNub : (N : ℝ) ≤ 2 ^ 40 + 2 := by
    have h := (C08_ceil_odd (double (padFac * (max a.nr a.nc : ℕ)))).2
      (show (2 ^ 40 + 1 : ℤ) ∈ {n : ℤ | n % 2 = 1 ∧ double (padFac * (max a.nr a.nc : ℕ)) ≤ n} from ⟨by norm_num, by
        have h2 := he.2
        generalize double (padFac * ((max a.nr a.nc : ℕ) : ℝ)) = D at h2 ⊢
        generalize padFac * ((max a.nr a.nc : ℕ) : ℝ) = q at h2 hu hb ⊢
        push_cast
        norm_num at hu huu hb h2 ⊢
        linarith⟩)
    have h' : (N : ℤ) ≤ 2 ^ 40 + 1 := by rw [← hN]; exact h
    have h'' : (N : ℝ) ≤ 2 ^ 40 + 1 := by exact_mod_cast h'
    linarith
  obtain ⟨g1, g2⟩ := outD_facts N mag xo yo h1 h2 hNub hx hy
  have hpos : 0 ≤ maskOutD N mag xo yo := by
    have : 0 ≤ max |xo| |yo| := le_max_of_le_left (abs_nonneg _)
    have : (0 : ℝ) ≤ (maskOutD N mag xo yo : ℤ) := le_trans (by positivity) g2
    exact_mod_cast this
  obtain ⟨M, hM⟩ := Int.eq_ofNat_of_zero_le hpos
  rw [hM] at g1 g2
  rw [hM, Int.toNat_natCast]
  refine ⟨rfl, ?_, ?_, fun k hk => ?_⟩
  · show (M + 1) % 2 = 0
    omega
  · show _ < ((M + 1 : ℕ) : ℝ)
    rw [hN] at s3
    push_cast at g2 s3 ⊢
    have hq : padFac * (max a.nr a.nc : ℕ) - 0.1 ≤ N := by
      push_cast
      norm_num at hu huu ⊢
      push_cast at he
      linarith [he.1]
    push_cast at hq
    have := mul_le_mul_of_nonneg_right hq h1.le
    rw [sub_mul] at this
    linarith
  · have hk' : k < M + 1 := hk
    set A := (if rot = 0 then smoothMask (normWindow (discWindowD N (double (1 / mag)))) ⟨N, N, prepared a N flipx⟩
        else R.run (-rot) (smoothMask (normWindow (discWindowD N (double (1 / mag)))) ⟨N, N, prepared a N flipx⟩)) with hA
    constructor
    · have e := Arr2.px_of_inB (resampledD S A N M (double (1 / mag)) xo yo) (i := 0) (j := (k : ℤ)) (by
          show (0 ≤ (0 : ℤ) ∧ (0 : ℤ) < ((M + 1 : ℕ) : ℤ)) ∧ (0 ≤ (k : ℤ) ∧ (k : ℤ) < ((M + 1 : ℕ) : ℤ))
          omega)
      rw [e]
      unfold resampledD
      simp
    · have e := Arr2.px_of_inB (resampledD S A N M (double (1 / mag)) xo yo) (i := (k : ℤ)) (j := 0) (by
          show (0 ≤ (k : ℤ) ∧ (k : ℤ) < ((M + 1 : ℕ) : ℤ)) ∧ (0 ≤ (0 : ℤ) ∧ (0 : ℤ) < ((M + 1 : ℕ) : ℤ))
          omega)
      rw [e]
      unfold resampledD
      simp

/-! ### Reciprocals -/

/-- A factor whose reciprocal, computed twice, is exact. -/
theorem recip_of_bits (k e m f : ℕ) (hk : 1 ≤ k) (hm : 2 ^ 52 < m) (hm' : m < 2 ^ 53) (he : e ≤ 1074) (hf : f ≤ 1074)
    (h1 : 2 * |(m * k : ℤ) - 2 ^ e| < k) (h2 : 2 ^ 52 < k * 2 ^ f) (h3 : k * 2 ^ f < 2 ^ 53) (h4 : 2 ^ (f + 1) * |(m * k : ℤ) - 2 ^ e| < m) :
    RecipExact k := by
  have k1 : (1 : ℝ) ≤ k := by exact_mod_cast hk
  have k0 : (0 : ℝ) < k := by linarith
  have m0 : (0 : ℝ) < m := by
    have : 0 < m := lt_trans (by norm_num) hm
    exact_mod_cast this
  have e0 : (0 : ℝ) < 2 ^ e := by positivity
  have f0 : (0 : ℝ) < 2 ^ f := by positivity
  have h1' : 2 * |(m : ℝ) * k - 2 ^ e| < k := by exact_mod_cast h1
  have h4' : (2 : ℝ) ^ (f + 1) * |(m : ℝ) * k - 2 ^ e| < m := by exact_mod_cast h4
  have ep : (2 : ℝ) ^ (-(e : ℤ)) = 1 / 2 ^ e := by rw [zpow_neg, zpow_natCast, one_div]
  have fp : (2 : ℝ) ^ (-(f : ℤ)) = 1 / 2 ^ f := by rw [zpow_neg, zpow_natCast, one_div]
  have d1 : double (1 / (k : ℝ)) = m / 2 ^ e := by
    rw [double_eq_of_near (m : ℤ) (-(e : ℤ)) (by exact_mod_cast hm) (by exact_mod_cast hm') (by omega), ep]
    · push_cast; ring
    · rw [ep]
      have e1 : 1 / (k : ℝ) - ((m : ℤ) : ℝ) * (1 / 2 ^ e) = -(((m : ℝ) * k - 2 ^ e) / (k * 2 ^ e)) := by
        push_cast
        field_simp
        ring
      rw [e1, abs_neg, abs_div, abs_of_pos (mul_pos k0 e0), div_lt_iff₀ (mul_pos k0 e0)]
      field_simp
      linarith
  unfold RecipExact
  rw [d1, double_eq_of_near (k * 2 ^ f : ℤ) (-(f : ℤ)) (by exact_mod_cast h2) (by exact_mod_cast h3) (by omega), fp]
  · push_cast
    field_simp
  · rw [fp]
    have e1 : 1 / ((m : ℝ) / 2 ^ e) - ((k * 2 ^ f : ℤ) : ℝ) * (1 / 2 ^ f) = -(((m : ℝ) * k - 2 ^ e) / m) := by
      push_cast
      field_simp
      ring
    rw [e1, abs_neg, abs_div, abs_of_pos m0, div_lt_iff₀ m0]
    rw [pow_succ] at h4'
    rw [div_div, div_mul_eq_mul_div, lt_div_iff₀ (by positivity), one_mul]
    linarith

theorem recip_pow (j : ℕ) (hj : j ≤ 1000) : RecipExact (2 ^ j) := by
  unfold RecipExact
  have e := double_two_zpow (-(j : ℤ)) (by omega)
  have e' := double_two_zpow (j : ℤ) (by omega)
  rw [zpow_neg, zpow_natCast, ← one_div] at e
  rw [zpow_natCast] at e'
  push_cast
  rw [e, one_div_one_div, e']

/-- The bits of the reciprocal of a factor that is not a power of two. -/
def recipBits (k : ℕ) : ℕ × ℕ × ℕ :=
  let l := Nat.log2 k
  (53 + l, (2 * 2 ^ (53 + l) + k) / (2 * k), 52 - l)

/-- The reciprocal of the double nearest to `1 / k` is `k` for every factor up to 97 but 49 and 93. -/
theorem recip_small (k : ℕ) (hk : 1 ≤ k) (hk' : k ≤ 97) (h49 : k ≠ 49) (h93 : k ≠ 93) : RecipExact k := by
  have hall : ∀ k ∈ Finset.Icc 1 97, k ≠ 49 → k ≠ 93 → k ∈ [1, 2, 4, 8, 16, 32, 64] ∨
      (2 ^ 52 < (recipBits k).2.1 ∧ (recipBits k).2.1 < 2 ^ 53 ∧ (recipBits k).1 ≤ 1074 ∧ (recipBits k).2.2 ≤ 1074 ∧
        2 * |((recipBits k).2.1 * k : ℤ) - 2 ^ (recipBits k).1| < k ∧ 2 ^ 52 < k * 2 ^ (recipBits k).2.2 ∧ k * 2 ^ (recipBits k).2.2 < 2 ^ 53 ∧
        2 ^ ((recipBits k).2.2 + 1) * |((recipBits k).2.1 * k : ℤ) - 2 ^ (recipBits k).1| < (recipBits k).2.1) := by
    decide +kernel
  rcases hall k (Finset.mem_Icc.mpr ⟨hk, hk'⟩) h49 h93 with h | ⟨h1, h2, h3, h4, h5, h6, h7, h8⟩
  · simp only [List.mem_cons, List.not_mem_nil, or_false] at h
    rcases h with rfl | rfl | rfl | rfl | rfl | rfl | rfl
    · exact recip_pow 0 (by norm_num)
    · exact recip_pow 1 (by norm_num)
    · exact recip_pow 2 (by norm_num)
    · exact recip_pow 3 (by norm_num)
    · exact recip_pow 4 (by norm_num)
    · exact recip_pow 5 (by norm_num)
    · exact recip_pow 6 (by norm_num)
  · exact recip_of_bits k _ _ _ hk h1 h2 h3 h4 h5 h6 h7 h8

/-- Downsampling by a whole factor onto any odd output array that is large enough: `C60_downsample_whole` for the last lines alone. -/
theorem resampled_whole (S : ClampSpline) (a : Arr2 ℝ) (k : ℕ) (hk : 0 < k) (xo yo : ℤ) (flipx : Bool)
    (H : ℤ) (hH0 : 0 ≤ H) (hH : ∀ x y, (H < |x| ∨ H < |y|) → maskAt a flipx x y = 0) (N M : ℕ) (hodd : N % 2 = 1) (hMo : M % 2 = 1)
    (hNm : 2 * H + 2 * k ≤ N) (hby : (N : ℤ) + 2 * (k * |yo|) < k * M + k) (hbx : (N : ℤ) + 2 * (k * |xo|) < k * M + k) (u v : ℤ) :
    at0 (resampled S (smoothMask (normWindow (discWindow N (1 / (1 / k)))) ⟨N, N, prepared a N flipx⟩) N M (1 / k) xo yo) u v =
      discMean k (maskAt a flipx) (k * (u - yo)) (k * (v - xo)) := by
  have hkR : (0 : ℝ) < k := by exact_mod_cast hk
  unfold at0
  by_cases hin : Reaches M M u v
  · rw [resampled_px S _ N M hMo (1 / k) xo yo u v hin, Option.getD_some]
    rw [S.clamps, show ((u : ℝ) - yo) * (1 / (1 / k)) = ((k * (u - yo) : ℤ) : ℝ) by rw [one_div_one_div]; push_cast; ring,
      show ((v : ℝ) - xo) * (1 / (1 / k)) = ((k * (v - xo) : ℤ) : ℝ) by rw [one_div_one_div]; push_cast; ring]
    have c1 := clamp_axis N hodd (k * (u - yo))
    have c2 := clamp_axis N hodd (k * (v - xo))
    have e : S.eval (maskAxis N) (maskAxis N) (smoothMask (normWindow (discWindow N (1 / (1 / k)))) ⟨N, N, prepared a N flipx⟩)
        (clampTo (maskAxis N 0) (maskAxis N (N - 1)) ((k * (u - yo) : ℤ) : ℝ)) (clampTo (maskAxis N 0) (maskAxis N (N - 1)) ((k * (v - xo) : ℤ) : ℝ)) =
        discMean k (maskAt a flipx) (max (-((N : ℤ) / 2)) (min ((N : ℤ) / 2) (k * (u - yo)))) (max (-((N : ℤ) / 2)) (min ((N : ℤ) / 2) (k * (v - xo)))) := by
      rw [c1, c2]
      generalize hp : max (-((N : ℤ) / 2)) (min ((N : ℤ) / 2) ((k : ℤ) * (u - yo))) = p
      generalize hq : max (-((N : ℤ) / 2)) (min ((N : ℤ) / 2) ((k : ℤ) * (v - xo))) = q
      have hp1 : -((N : ℤ) / 2) ≤ p ∧ p ≤ (N : ℤ) / 2 := by
        rw [← hp]
        exact ⟨le_max_left _ _, max_le (by omega) (min_le_left _ _)⟩
      have hq1 : -((N : ℤ) / 2) ≤ q ∧ q ≤ (N : ℤ) / 2 := by
        rw [← hq]
        exact ⟨le_max_left _ _, max_le (by omega) (min_le_left _ _)⟩
      have hint := S.interpolates (maskAxis N) (maskAxis N) (smoothMask (normWindow (discWindow N (1 / (1 / k)))) ⟨N, N, prepared a N flipx⟩)
        (⟨((N : ℤ) / 2 + p).toNat, by omega⟩ : Fin N) (⟨((N : ℤ) / 2 + q).toNat, by omega⟩ : Fin N)
        (maskAxis_strictMono N) (maskAxis_strictMono N)
      refine hint.trans ?_
      have hsm : (smoothMask (normWindow (discWindow N ((k : ℤ) : ℝ))) ⟨N, N, prepared a N flipx⟩).zext ((N : ℤ) / 2 + p) ((N : ℤ) / 2 + q) =
          discMean k (maskAt a flipx) p q := by
        by_cases hb : |p| + (k : ℤ) / 2 ≤ (N : ℤ) / 2 ∧ |q| + (k : ℤ) / 2 ≤ (N : ℤ) / 2
        · rw [smooth_disc N hodd k (by omega) (prepared a N flipx) p q hb.1 hb.2]
          unfold discMean
          congr 1
          refine Finset.sum_congr rfl fun d hd => ?_
          obtain ⟨d1, d2⟩ := disc_half k d (by omega) hd
          refine prepared_at a N hodd flipx _ _ ?_
          rw [abs_le] at d1 d2
          have u3 := abs_le.mp (show |p| ≤ (N : ℤ) / 2 - (k : ℤ) / 2 by omega)
          have v3 := abs_le.mp (show |q| ≤ (N : ℤ) / 2 - (k : ℤ) / 2 by omega)
          unfold Reaches
          omega
        · rw [not_and_or, not_le, not_le] at hb
          rw [smooth_border N hodd k (by omega) (prepared a N flipx) H ⟨by omega, by omega⟩ (fun x y hxy hfar => by
            rw [prepared_at a N hodd flipx x y hxy]
            exact hH x y hfar) p q (abs_le.mpr hp1) (abs_le.mpr hq1) hb, discMean_far (maskAt a flipx) H k (by omega) hH p q (by
              rcases hb with hb | hb
              · left; omega
              · right; omega)]
      have hz := zext_in (a := smoothMask (normWindow (discWindow N ((k : ℤ) : ℝ))) ⟨N, N, prepared a N flipx⟩) (i := (N : ℤ) / 2 + p)
        (j := (N : ℤ) / 2 + q) (by
          show (0 ≤ (N : ℤ) / 2 + p ∧ (N : ℤ) / 2 + p < (N : ℤ)) ∧ (0 ≤ (N : ℤ) / 2 + q ∧ (N : ℤ) / 2 + q < (N : ℤ))
          omega)
      refine Eq.trans ?_ (hz.symm.trans hsm)
      rw [one_div_one_div]
      rfl
    refine Eq.trans e ?_
    by_cases hc : |(k : ℤ) * (u - yo)| ≤ (N : ℤ) / 2 ∧ |(k : ℤ) * (v - xo)| ≤ (N : ℤ) / 2
    · obtain ⟨a1, a2⟩ := abs_le.mp hc.1
      obtain ⟨b1, b2⟩ := abs_le.mp hc.2
      rw [min_eq_right a2, max_eq_right a1, min_eq_right b2, max_eq_right b1]
    · have hcl : ∀ z : ℤ, (N : ℤ) / 2 < |z| → |max (-((N : ℤ) / 2)) (min ((N : ℤ) / 2) z)| = (N : ℤ) / 2 := by
        intro z hz
        rcases lt_abs.mp hz with h' | h'
        · rw [min_eq_left h'.le, max_eq_right (by omega), abs_of_nonneg (by omega)]
        · rw [min_eq_right (by omega), max_eq_left (by omega), abs_neg, abs_of_nonneg (by omega)]
      rw [not_and_or, not_le, not_le] at hc
      rw [discMean_far (maskAt a flipx) H k (by omega) hH (k * (u - yo)) (k * (v - xo)) (by omega)]
      refine discMean_far (maskAt a flipx) H k (by omega) hH _ _ ?_
      rcases hc with hc | hc
      · left; rw [hcl _ hc]; omega
      · right; rw [hcl _ hc]; omega
  · have hedge : (M : ℤ) + 1 ≤ 2 * |u| ∨ (M : ℤ) + 1 ≤ 2 * |v| := by
      unfold Reaches at hin
      rcases abs_cases u with ⟨hu, _⟩ | ⟨hu, _⟩ <;> rcases abs_cases v with ⟨hv, _⟩ | ⟨hv, _⟩ <;> rw [hu, hv] <;> omega
    have far : ∀ w off : ℤ, (N : ℤ) + 2 * (k * |off|) < k * M + k → (M : ℤ) + 1 ≤ 2 * |w| → (N : ℤ) / 2 < |(k : ℤ) * (w - off)| := by
      intro w off hb h5
      have h6 : |w| - |off| ≤ |w - off| := abs_sub_abs_le_abs_sub w off
      rw [abs_mul, abs_of_nonneg (show (0 : ℤ) ≤ k by omega)]
      have h7 := mul_le_mul_of_nonneg_left h6 (show (0 : ℤ) ≤ k by omega)
      have h8 := mul_le_mul_of_nonneg_left h5 (show (0 : ℤ) ≤ k by omega)
      have h9 : (k : ℤ) * (|w| - |off|) = k * |w| - k * |off| := by ring
      have h10 : (k : ℤ) * (2 * |w|) = 2 * (k * |w|) := by ring
      have h11 : (k : ℤ) * (M + 1) = k * M + k := by ring
      omega
    rw [discMean_far (maskAt a flipx) H k (by omega) hH (k * (u - yo)) (k * (v - xo)) (by
      rcases hedge with h | h
      · left; have := far u yo hby h; omega
      · right; have := far v xo hbx h; omega)]
    by_cases hR' : (0 ≤ ((M + 1 : ℕ) : ℤ) / 2 + u ∧ ((M + 1 : ℕ) : ℤ) / 2 + u < ((M + 1 : ℕ) : ℤ)) ∧
      (0 ≤ ((M + 1 : ℕ) : ℤ) / 2 + v ∧ ((M + 1 : ℕ) : ℤ) / 2 + v < ((M + 1 : ℕ) : ℤ))
    · have e := Arr2.px_of_inB (resampled S (smoothMask (normWindow (discWindow N (1 / (1 / k)))) ⟨N, N, prepared a N flipx⟩) N M (1 / k) xo yo)
        (i := ((M + 1 : ℕ) : ℤ) / 2 + u) (j := ((M + 1 : ℕ) : ℤ) / 2 + v) hR'
      refine (congrArg (fun o : Option ℝ => o.getD 0) e).trans ?_
      show (if (((M + 1 : ℕ) : ℤ) / 2 + u).toNat = 0 ∨ (((M + 1 : ℕ) : ℤ) / 2 + v).toNat = 0 then (0 : ℝ) else _) = _
      rw [if_pos (by unfold Reaches at hin; omega)]
    · have e := Arr2.px_of_not_inB (resampled S (smoothMask (normWindow (discWindow N (1 / (1 / k)))) ⟨N, N, prepared a N flipx⟩) N M (1 / k) xo yo)
        (i := ((M + 1 : ℕ) : ℤ) / 2 + u) (j := ((M + 1 : ℕ) : ℤ) / 2 + v) hR'
      exact (congrArg (fun o : Option ℝ => o.getD 0) e).trans rfl

/-- **C106.** Downsampling by a whole factor whose reciprocal is exact, with whole offsets and no rotation, in double precision: the output, read as
zero outside its array, is everywhere the mean of the mask over the disc of one output pixel, as in exact arithmetic.  At most the margin of zeros
is wider. -/
theorem C106_downsample_partial (S : ClampSpline) (R : Rotate) (a : Arr2 ℝ) (k : ℕ) (hk : 1 ≤ k) (hk' : k ≤ 2 ^ 20) (xo yo : ℤ)
    (hx : |xo| ≤ 2 ^ 20) (hy : |yo| ≤ 2 ^ 20) (padFac : ℝ) (flipx : Bool) (hb : padFac * (max a.nr a.nc : ℕ) ≤ 2 ^ 19)
    (H : ℤ) (hH0 : 0 ≤ H) (hH : ∀ x y, (H < |x| ∨ H < |y|) → maskAt a flipx x y = 0)
    (hmargin : ((2 * H + 2 * k : ℤ) : ℝ) ≤ padFac * (max a.nr a.nc : ℕ)) (hrec : RecipExact k) (o : Arr2 ℝ)
    (ho : rotateShiftDownsampleD S R a 0 (double (1 / (k : ℝ))) xo yo padFac flipx = .ok o) (u v : ℤ) :
    at0 o u v = discMean k (maskAt a flipx) (k * (u - yo)) (k * (v - xo)) := by
  obtain ⟨h1, h2, h3, h4⟩ := rsdD_inv S R a 0 _ xo yo padFac flipx o ho
  obtain ⟨s1, s2, s3⟩ := sideD_facts a padFac h3
  obtain ⟨N, hN⟩ := Int.eq_ofNat_of_zero_le s2.le
  have hd : double (1 / double (1 / (k : ℝ))) = k := hrec
  rw [rsdD_ok S R a 0 _ xo yo padFac flipx h1 h2 h3 N (by omega) hN.symm, if_pos rfl] at ho
  obtain rfl := Except.ok.inj ho
  have hNub : N ≤ 2 ^ 20 := by
    have hD : double (padFac * (max a.nr a.nc : ℕ)) ≤ ((2 ^ 19 : ℤ) : ℝ) := by
      have := double_mono (hb.trans (show (2 : ℝ) ^ 19 ≤ ((2 ^ 19 : ℤ) : ℝ) by norm_num))
      rwa [double_int (2 ^ 19) (by norm_num)] at this
    have h := (C08_ceil_odd (double (padFac * (max a.nr a.nc : ℕ)))).2
      (show (2 ^ 19 + 1 : ℤ) ∈ {n : ℤ | n % 2 = 1 ∧ double (padFac * (max a.nr a.nc : ℕ)) ≤ n} from ⟨by norm_num, hD.trans (by norm_num)⟩)
    have h' : (N : ℤ) ≤ 2 ^ 19 + 1 := by rw [← hN]; exact h
    omega
  have hodd : N % 2 = 1 := by omega
  have hNm : 2 * H + 2 * k ≤ N := by
    have e := double_mono hmargin
    by_cases hbig : |2 * H + 2 * (k : ℤ)| ≤ 2 ^ 53
    · rw [double_int _ hbig] at e
      have := e.trans s3
      rw [hN] at this
      exact_mod_cast this
    · exfalso
      apply hbig
      have := hmargin.trans hb
      have : 2 * H + 2 * (k : ℤ) ≤ 2 ^ 19 := by exact_mod_cast this
      rw [abs_of_nonneg (by omega)]
      exact this.trans (by norm_num)
  have xr : |(xo : ℝ)| ≤ 1048576 := by exact_mod_cast hx
  have yr : |(yo : ℝ)| ≤ 1048576 := by exact_mod_cast hy
  have nr : (N : ℝ) ≤ 1048576 := by exact_mod_cast hNub
  obtain ⟨g1, g2⟩ := outD_facts N (double (1 / (k : ℝ))) xo yo h1 h2 (by norm_num; linarith) (by norm_num; linarith) (by norm_num; linarith)
  have hub : maskOutD N (double (1 / (k : ℝ))) xo yo ≤ 2 ^ 23 - 1 := by
    have up : ∀ {x : ℝ} (z : ℤ), |z| ≤ 2 ^ 53 → x ≤ z → double x ≤ z := by
      intro x z hz hxz
      have := double_mono hxz
      rwa [double_int z hz] at this
    have n0 : (0 : ℝ) ≤ N := Nat.cast_nonneg N
    have b1 := up 1048576 (by norm_num) (show (N : ℝ) * double (1 / (k : ℝ)) ≤ (1048576 : ℤ) by push_cast; nlinarith)
    have b2 := up 2097152 (by norm_num) (show double ((N : ℝ) * double (1 / (k : ℝ))) + 2 ≤ (2097152 : ℤ) by push_cast at b1 ⊢; linarith)
    have b3 := up 2097152 (by norm_num) (show 2 * max |(xo : ℝ)| |(yo : ℝ)| ≤ (2097152 : ℤ) by
      have : max |(xo : ℝ)| |(yo : ℝ)| ≤ 1048576 := max_le xr yr
      push_cast
      linarith)
    have b4 := up 4194304 (by norm_num) (show double (double ((N : ℝ) * double (1 / (k : ℝ))) + 2) + double (2 * max |(xo : ℝ)| |(yo : ℝ)|) ≤ (4194304 : ℤ) by
      push_cast at b2 b3 ⊢
      linarith)
    have := (C08_ceil_odd (double (double (double ((N : ℝ) * double (1 / (k : ℝ))) + 2) + double (2 * max |(xo : ℝ)| |(yo : ℝ)|)))).2
      (show (8388607 : ℤ) ∈ {n : ℤ | n % 2 = 1 ∧ double (double (double ((N : ℝ) * double (1 / (k : ℝ))) + 2) + double (2 * max |(xo : ℝ)| |(yo : ℝ)|)) ≤ n}
        from ⟨by norm_num, b4.trans (by norm_num)⟩)
    unfold maskOutD
    omega
  have hpos : 0 ≤ maskOutD N (double (1 / (k : ℝ))) xo yo := by
    have : 0 ≤ max |(xo : ℝ)| |(yo : ℝ)| := le_max_of_le_left (abs_nonneg _)
    have : (0 : ℝ) ≤ (maskOutD N (double (1 / (k : ℝ))) xo yo : ℤ) := le_trans (by positivity) g2
    exact_mod_cast this
  obtain ⟨M, hM⟩ := Int.eq_ofNat_of_zero_le hpos
  rw [hM] at g1 g2 hub ⊢
  rw [Int.toNat_natCast]
  have k1 : (1 : ℝ) ≤ k := by exact_mod_cast hk
  have k2 : (k : ℝ) ≤ 1048576 := by exact_mod_cast hk'
  have hbig : ∀ off : ℤ, |(off : ℝ)| ≤ max |(xo : ℝ)| |(yo : ℝ)| → (N : ℤ) + 2 * (k * |off|) < k * M + k := by
    intro off hoff
    have hc := (recip_appr k hk hk').close (by norm_num)
    have hm : (N : ℝ) * (1 / k) - 0.1 ≤ N * double (1 / (k : ℝ)) := by
      have := (abs_le.mp hc).1
      have n0 : (0 : ℝ) ≤ N := Nat.cast_nonneg N
      have := mul_le_mul_of_nonneg_left this n0
      have q : (N : ℝ) * (1 / k / 2 ^ 50) ≤ 0.1 := by
        have : 1 / (k : ℝ) ≤ 1 := by rw [div_le_one (by linarith)]; exact k1
        have i0 : 0 ≤ 1 / (k : ℝ) := by positivity
        have : (N : ℝ) * (1 / k) ≤ 1048576 * 1 := mul_le_mul nr this i0 (by norm_num)
        rw [← mul_div_assoc, div_le_iff₀ (by norm_num)]
        norm_num at this ⊢
        linarith
      rw [mul_sub, mul_neg] at this
      linarith
    have h5 : (N : ℝ) * (1 / k) + 1 + 2 * |(off : ℝ)| ≤ M := by push_cast at g2; linarith
    have h6 : (N : ℝ) + k + 2 * (k * |(off : ℝ)|) ≤ k * M := by
      have := mul_le_mul_of_nonneg_left h5 (by linarith : (0 : ℝ) ≤ k)
      have e : (k : ℝ) * (N * (1 / k) + 1 + 2 * |(off : ℝ)|) = N + k + 2 * (k * |(off : ℝ)|) := by field_simp
      linarith
    have h7 : (N : ℤ) + k + 2 * (k * |off|) ≤ k * M := by exact_mod_cast h6
    omega
  have hres : resampledD S (smoothMask (normWindow (discWindowD N (double (1 / double (1 / (k : ℝ)))))) ⟨N, N, prepared a N flipx⟩) N M
      (double (1 / double (1 / (k : ℝ)))) xo yo =
      resampled S (smoothMask (normWindow (discWindow N (1 / (1 / k)))) ⟨N, N, prepared a N flipx⟩) N M (1 / k) xo yo := by
    rw [discWindowD_eq N hodd hNub k hk hk' (Or.inr hrec), hd, one_div_one_div]
    unfold resampledD resampled
    congr 1
    funext i j
    have hi := i.isLt
    have hj := j.isLt
    by_cases hz : (i : ℕ) = 0 ∨ (j : ℕ) = 0
    · rw [if_pos hz, if_pos hz]
    · rw [if_neg hz, if_neg hz, pos_exact M _ k (by omega) (by omega) (by omega) hk' yo hy, pos_exact M _ k (by omega) (by omega) (by omega) hk' xo hx,
        one_div_one_div]
  rw [hres]
  exact resampled_whole S a k (by omega) xo yo flipx H hH0 hH N M hodd (by omega) hNm (hbig yo (le_max_right _ _)) (hbig xo (le_max_left _ _)) u v

/-! ### What rounding changes -/

/-- The mask of side `k + 1` with one bright pixel, half a factor below its centre. -/
noncomputable def rimMask (k : ℕ) : Arr2 ℝ := ⟨k + 1, k + 1, fun i j => if (i : ℕ) = k ∧ (j : ℕ) = k / 2 then 1 else 0⟩

theorem rimMask_at (k : ℕ) (hk : k % 2 = 0) (p q : ℤ) : maskAt (rimMask k) false p q = if p = (k : ℤ) / 2 ∧ q = 0 then 1 else 0 := by
  unfold maskAt
  simp only [Bool.false_eq_true, if_false]
  by_cases h : Reaches (k + 1) (k + 1) p q
  · unfold Reaches at h
    unfold Arr2.centered
    rw [Arr2.px_of_inB (rimMask k) (by
      show (0 ≤ ((k + 1 : ℕ) : ℤ) / 2 + p ∧ ((k + 1 : ℕ) : ℤ) / 2 + p < ((k + 1 : ℕ) : ℤ)) ∧ (0 ≤ ((k + 1 : ℕ) : ℤ) / 2 + q ∧ ((k + 1 : ℕ) : ℤ) / 2 + q < ((k + 1 : ℕ) : ℤ))
      omega), Option.getD_some]
    show (if (((k + 1 : ℕ) : ℤ) / 2 + p).toNat = k ∧ (((k + 1 : ℕ) : ℤ) / 2 + q).toNat = k / 2 then (1 : ℝ) else 0) = _
    by_cases hc : p = (k : ℤ) / 2 ∧ q = 0
    · rw [if_pos hc, if_pos (by omega)]
    · rw [if_neg hc, if_neg (by omega)]
  · rw [centered_eq_none (rimMask k) h, Option.getD_none, if_neg]
    unfold Reaches at h
    omega

/-- **C106.** What rounding changes: an even factor `k` whose reciprocal, computed twice, comes out below `k` loses the four rim pixels of its
disc.  A bright pixel there contributes to the mean, but not to the computed one. -/
theorem C106_rim_lost (S : ClampSpline) (R : Rotate) (k : ℕ) (hk4 : 4 ≤ k) (hk' : k ≤ 2 ^ 20) (heven : k % 2 = 0)
    (hrec : double (1 / double (1 / (k : ℝ))) < k) :
    ∃ oD o, rotateShiftDownsampleD S R (rimMask k) 0 (double (1 / (k : ℝ))) 0 0 1 false = .ok oD ∧
      rotateShiftDownsample S R (rimMask k) 0 (1 / k) 0 0 1 false = .ok o ∧
      oD.centered 0 0 = some 0 ∧ o.centered 0 0 = some (1 / ((discOffsets k).card : ℝ)) ∧ 0 < (discOffsets k).card := by
  have hk1 : 1 ≤ k := by omega
  have k0 : (0 : ℝ) < k := by exact_mod_cast hk1
  have hmax : max (rimMask k).nr (rimMask k).nc = k + 1 := max_self _
  have hin : (-((k : ℤ) / 2), (0 : ℤ)) ∈ discOffsets k := by
    rw [mem_disc k _ (by omega)]
    obtain ⟨c, hc⟩ : ∃ c : ℤ, (k : ℤ) = 2 * c := ⟨(k : ℤ) / 2, by omega⟩
    simp only
    rw [hc, Int.mul_ediv_cancel_left _ (by norm_num)]
    nlinarith
  have hcard : 0 < (discOffsets k).card := Finset.card_pos.mpr ⟨_, hin⟩
  have hargs : MaskArgs (rimMask k) (1 / k) 1 := ⟨by positivity, by rw [div_le_one k0]; exact_mod_cast hk1, le_refl _, by
    rw [hmax, one_mul]
    exact_mod_cast (by omega : 3 < k + 1)⟩
  have hleast : IsLeast {n : ℤ | n % 2 = 1 ∧ (1 : ℝ) * (max (rimMask k).nr (rimMask k).nc : ℕ) ≤ n} ((k + 1 : ℕ) : ℤ) := by
    rw [hmax, one_mul]
    refine ⟨⟨by omega, by push_cast; exact le_refl _⟩, fun n hn => ?_⟩
    exact_mod_cast hn.2
  obtain ⟨o, ho⟩ := (C60_accepts S R (rimMask k) 0 (1 / k) 0 0 1 false).mpr hargs
  have hE := C60_downsample S R (rimMask k) k (by omega) 0 0 1 false _ hleast o (by push_cast; exact ho) 0 0 (by simp; omega) (by simp; omega)
  have hsideD : ((k + 1 : ℕ) : ℤ) = maskSideD (rimMask k) 1 := by
    unfold maskSideD
    rw [hmax, one_mul]
    have e := double_nat (k + 1) (by omega)
    rw [e]
    have := hleast.unique (C08_ceil_odd _)
    rwa [hmax, one_mul] at this
  refine ⟨_, o, rsdD_ok S R (rimMask k) 0 _ 0 0 1 false (recip_pos k hk1 hk') (recip_le k hk1) (le_refl _) (k + 1) (by omega) hsideD, ho, ?_, ?_, hcard⟩
  · rw [if_pos rfl]
    obtain ⟨g1, g2⟩ := outD_facts (k + 1) (double (1 / (k : ℝ))) 0 0 (recip_pos k hk1 hk') (recip_le k hk1) (by
      have : ((k + 1 : ℕ) : ℝ) ≤ 1048577 := by exact_mod_cast (by omega : k + 1 ≤ 1048577)
      norm_num
      push_cast at this
      linarith) (by norm_num) (by norm_num)
    have hpos : 0 < maskOutD (k + 1) (double (1 / (k : ℝ))) 0 0 := by
      have : (0 : ℝ) < (maskOutD (k + 1) (double (1 / (k : ℝ))) 0 0 : ℤ) := by
        refine lt_of_lt_of_le ?_ g2
        have := recip_pos k hk1 hk'
        have h0 : (0 : ℝ) ≤ ((k + 1 : ℕ) : ℝ) * double (1 / (k : ℝ)) := by positivity
        simp only [abs_zero, max_self, mul_zero, add_zero]
        linarith
      exact_mod_cast this
    obtain ⟨M, hM⟩ := Int.eq_ofNat_of_zero_le hpos.le
    rw [hM] at g1 hpos ⊢
    rw [Int.toNat_natCast]
    set d := double (1 / double (1 / (k : ℝ))) with hd
    set A := smoothMask (normWindow (discWindowD (k + 1) d)) ⟨k + 1, k + 1, prepared (rimMask k) (k + 1) false⟩ with hA
    have hp : ∀ r : ℝ, r = double (double (0 - 0) * d) → r = maskAxis (k + 1) (k / 2) := by
      rintro r rfl
      rw [sub_zero, double_zero, zero_mul, double_zero, maskAxis_odd (k + 1) (by omega)]
      have : (((k / 2 : ℕ) : ℤ) - ((k + 1 : ℕ) : ℤ) / 2 : ℤ) = 0 := by omega
      rw [this]
      norm_num
    have hx : maskAxis M (M / 2) = 0 := by
      rw [maskAxis_odd M (by omega)]
      have : (((M / 2 : ℕ) : ℤ) - (M : ℤ) / 2 : ℤ) = 0 := by omega
      rw [this]
      norm_num
    have e : (resampledD S A (k + 1) M d 0 0).centered 0 0 = some (S.eval (maskAxis (k + 1)) (maskAxis (k + 1)) A (maskPosD M (M / 2) 0 d) (maskPosD M (M / 2) 0 d)) := by
      unfold Arr2.centered
      have e := Arr2.px_of_inB (resampledD S A (k + 1) M d 0 0) (i := ((M + 1 : ℕ) : ℤ) / 2 + 0) (j := ((M + 1 : ℕ) : ℤ) / 2 + 0) (by
        show (0 ≤ ((M + 1 : ℕ) : ℤ) / 2 + 0 ∧ ((M + 1 : ℕ) : ℤ) / 2 + 0 < ((M + 1 : ℕ) : ℤ)) ∧
          (0 ≤ ((M + 1 : ℕ) : ℤ) / 2 + 0 ∧ ((M + 1 : ℕ) : ℤ) / 2 + 0 < ((M + 1 : ℕ) : ℤ))
        omega)
      refine e.trans ?_
      congr 1
      show (if (((M + 1 : ℕ) : ℤ) / 2 + 0).toNat = 0 ∨ (((M + 1 : ℕ) : ℤ) / 2 + 0).toNat = 0 then (0 : ℝ) else _) = _
      rw [if_neg (by omega)]
      have : (((M + 1 : ℕ) : ℤ) / 2 + 0).toNat - 1 = M / 2 := by omega
      rw [this]
    rw [e]
    congr 1
    have hpos' : maskPosD M (M / 2) 0 d = maskAxis (k + 1) (k / 2) := hp _ (by unfold maskPosD; rw [hx])
    rw [hpos']
    have hint := S.interpolates (maskAxis (k + 1)) (maskAxis (k + 1)) A (⟨k / 2, by omega⟩ : Fin (k + 1)) (⟨k / 2, by omega⟩ : Fin (k + 1))
      (maskAxis_strictMono _) (maskAxis_strictMono _)
    refine hint.trans ?_
    refine (smooth_val (k + 1) (by omega) (fun i j => (discWindowD (k + 1) d).val i j / ∑ i : Fin (k + 1), ∑ j : Fin (k + 1), (discWindowD (k + 1) d).val i j)
      (prepared (rimMask k) (k + 1) false) ⟨k / 2, by omega⟩ ⟨k / 2, by omega⟩).trans ?_
    refine Finset.sum_eq_zero fun i _ => Finset.sum_eq_zero fun j _ => ?_
    have hi := i.isLt
    have hj := j.isLt
    have e1 := cIdx_at (k + 1) (by omega) ⟨k / 2, by omega⟩ i (by simp only; omega) (by simp only; omega)
    have e2 := cIdx_at (k + 1) (by omega) ⟨k / 2, by omega⟩ j (by simp only; omega) (by simp only; omega)
    simp only at e1 e2
    have hv : prepared (rimMask k) (k + 1) false (cIdx (k + 1) ⟨k / 2, by omega⟩ i) (cIdx (k + 1) ⟨k / 2, by omega⟩ j) =
        if (i : ℕ) = 0 ∧ (j : ℕ) = k / 2 then 1 else 0 := by
      have z := Arr2.zext_val (⟨k + 1, k + 1, prepared (rimMask k) (k + 1) false⟩ : Arr2 ℝ) (cIdx (k + 1) ⟨k / 2, by omega⟩ i) (cIdx (k + 1) ⟨k / 2, by omega⟩ j)
      refine z.symm.trans ?_
      have hl1 := (cIdx (k + 1) ⟨k / 2, by omega⟩ i).isLt
      have hl2 := (cIdx (k + 1) ⟨k / 2, by omega⟩ j).isLt
      have p := prepared_at (rimMask k) (k + 1) (by omega) false ((((cIdx (k + 1) ⟨k / 2, by omega⟩ i : Fin (k + 1)) : ℕ) : ℤ) - ((k + 1 : ℕ) : ℤ) / 2)
        ((((cIdx (k + 1) ⟨k / 2, by omega⟩ j : Fin (k + 1)) : ℕ) : ℤ) - ((k + 1 : ℕ) : ℤ) / 2) (by unfold Reaches; omega)
      rw [add_sub_cancel, add_sub_cancel] at p
      rw [p, rimMask_at k heven, e1, e2]
      by_cases hc : (i : ℕ) = 0 ∧ (j : ℕ) = k / 2
      · rw [if_pos hc, if_pos (by omega)]
      · rw [if_neg hc, if_neg (by omega)]
    rw [hv]
    by_cases hc : (i : ℕ) = 0 ∧ (j : ℕ) = k / 2
    · have hw : (discWindowD (k + 1) d).val i j = 0 := by
        show (if rhoD (maskAxis (k + 1) j) (maskAxis (k + 1) i) ≤ double (d / 2) then (1 : ℝ) else 0) = 0
        rw [hc.1, hc.2, maskAxis_odd (k + 1) (by omega), maskAxis_odd (k + 1) (by omega)]
        obtain ⟨c, hc'⟩ : ∃ c : ℕ, k = 2 * c := ⟨k / 2, by omega⟩
        have a1 : (((k / 2 : ℕ) : ℤ) - ((k + 1 : ℕ) : ℤ) / 2 : ℤ) = 0 := by omega
        have a2 : (((0 : ℕ) : ℤ) - ((k + 1 : ℕ) : ℤ) / 2 : ℤ) = -c := by omega
        rw [a1, a2, if_neg]
        have d1 : (1 : ℝ) / 2 ≤ d := by
          have := (abs_le.mp (diam_close k hk1 hk')).1
          have k1 : (1 : ℝ) ≤ k := by exact_mod_cast hk1
          have k2 : (k : ℝ) / 2 ^ 50 ≤ k / 2 := div_le_div_of_nonneg_left k0.le (by norm_num) (by norm_num)
          linarith
        rw [double_halved (le_trans (zpow_le_zpow_right₀ (a := (2 : ℝ)) one_le_two (by norm_num : (-1000 : ℤ) ≤ -1)) (by rw [zpow_neg_one]; linarith)), hd, double_double,
          not_le]
        have hr : rhoD ((0 : ℤ) : ℝ) ((-c : ℤ) : ℝ) = c := by
          unfold rhoD
          have q0 := double_int 0 (by norm_num)
          have q1 := double_int (c * c) (by
            rw [abs_of_nonneg (by positivity)]
            have : (c : ℤ) ≤ 2 ^ 19 := by omega
            nlinarith)
          have q2 := double_nat c (by omega)
          push_cast at q0 q1 ⊢
          simp only [neg_mul, mul_neg, neg_neg, mul_zero, zero_mul, even_two, Even.neg_pow, neg_sq, sq, q0, q1, zero_add]
          rw [Real.sqrt_mul_self (by positivity), q2]
        rw [hr]
        have : (k : ℝ) = 2 * c := by exact_mod_cast hc'
        linarith
      rw [hw, zero_div, zero_mul]
    · rw [if_neg hc, mul_zero]
  · rw [hE]
    congr 1
    unfold discMean
    congr 1
    have e : ∀ d ∈ discOffsets k, d ≠ (-((k : ℤ) / 2), (0 : ℤ)) → maskAt (rimMask k) false ((k : ℤ) * (0 - 0) - d.1) ((k : ℤ) * (0 - 0) - d.2) = 0 := by
      rintro ⟨x, y⟩ _ hne
      rw [rimMask_at k heven, if_neg]
      simp only [sub_zero, mul_zero, zero_sub, ne_eq, Prod.mk.injEq] at hne ⊢
      omega
    rw [Finset.sum_eq_single_of_mem _ hin e, rimMask_at k heven, if_pos]
    simp

theorem recip_186 : double (1 / double (1 / ((186 : ℕ) : ℝ))) < ((186 : ℕ) : ℝ) := by
  have h1 : double (1 / ((186 : ℕ) : ℝ)) = ((6198502712940038 : ℤ) : ℝ) * 2 ^ (-60 : ℤ) := by
    refine double_eq_of_near 6198502712940038 (-60) (by norm_num) (by norm_num) (by norm_num) ?_
    rw [abs_lt]
    constructor <;> norm_num
  have h2 : double (1 / (((6198502712940038 : ℤ) : ℝ) * 2 ^ (-60 : ℤ))) = ((6544293208522751 : ℤ) : ℝ) * 2 ^ (-45 : ℤ) := by
    refine double_eq_of_near 6544293208522751 (-45) (by norm_num) (by norm_num) (by norm_num) ?_
    rw [abs_lt]
    constructor <;> norm_num
  rw [h1, h2]
  norm_num

/-- The smallest such factor is 186. -/
example (S : ClampSpline) (R : Rotate) : ∃ oD o, rotateShiftDownsampleD S R (rimMask 186) 0 (double (1 / ((186 : ℕ) : ℝ))) 0 0 1 false = .ok oD ∧
    rotateShiftDownsample S R (rimMask 186) 0 (1 / (186 : ℕ)) 0 0 1 false = .ok o ∧ oD.centered 0 0 = some 0 ∧
    o.centered 0 0 = some (1 / ((discOffsets (186 : ℕ)).card : ℝ)) ∧ 0 < (discOffsets (186 : ℕ)).card :=
  C106_rim_lost S R 186 (by norm_num) (by norm_num) (by norm_num) recip_186

/-- **C106.** A mask of 525 x 525 pixels downsampled by 105: the quotient 5 is computed as a little more, and the output is two pixels larger than it
needs to be. -/
theorem C106_larger (S : ClampSpline) (R : Rotate) (a : Arr2 ℝ) (hr : a.nr = 525) (hc : a.nc = 525) (rot : ℝ) (flipx : Bool) :
    ∃ oD o, rotateShiftDownsampleD S R a rot (double (1 / ((105 : ℕ) : ℝ))) 0 0 1 flipx = .ok oD ∧
      rotateShiftDownsample S R a rot (1 / (105 : ℕ)) 0 0 1 flipx = .ok o ∧ oD.nr = 10 ∧ o.nr = 8 := by
  have hmax : max a.nr a.nc = 525 := by rw [hr, hc]; rfl
  have h1 : double (1 / ((105 : ℕ) : ℝ)) = ((5490102402889748 : ℤ) : ℝ) * 2 ^ (-59 : ℤ) := by
    refine double_eq_of_near 5490102402889748 (-59) (by norm_num) (by norm_num) (by norm_num) ?_
    rw [abs_lt]
    constructor <;> norm_num
  have h2 : double (((525 : ℕ) : ℝ) * (((5490102402889748 : ℤ) : ℝ) * 2 ^ (-59 : ℤ))) = ((5629499534213121 : ℤ) : ℝ) * 2 ^ (-50 : ℤ) := by
    refine double_eq_of_near 5629499534213121 (-50) (by norm_num) (by norm_num) (by norm_num) ?_
    rw [abs_lt]
    constructor <;> norm_num
  have h3 : double (((5629499534213121 : ℤ) : ℝ) * 2 ^ (-50 : ℤ) + 2) = ((7881299347898369 : ℤ) : ℝ) * 2 ^ (-50 : ℤ) := by
    refine double_eq_of_near 7881299347898369 (-50) (by norm_num) (by norm_num) (by norm_num) ?_
    rw [abs_lt]
    constructor <;> norm_num
  have h4 : double (((7881299347898369 : ℤ) : ℝ) * 2 ^ (-50 : ℤ) + 0) = ((7881299347898369 : ℤ) : ℝ) * 2 ^ (-50 : ℤ) := by
    refine double_eq_of_near 7881299347898369 (-50) (by norm_num) (by norm_num) (by norm_num) ?_
    rw [abs_lt]
    constructor <;> norm_num
  have s1 : ceilOdd ((1 : ℝ) * (max a.nr a.nc : ℕ)) = 525 := by
    refine (C08_ceil_odd _).unique ⟨⟨by norm_num, by rw [hmax]; norm_num⟩, fun n hn => ?_⟩
    have := hn.2
    rw [hmax, one_mul] at this
    exact_mod_cast this
  have sD : maskSideD a 1 = 525 := by
    unfold maskSideD
    have e := double_nat 525 (by norm_num)
    rw [hmax, one_mul] at s1 ⊢
    rw [e, s1]
  have m : MaskArgs a (1 / (105 : ℕ)) 1 := ⟨by norm_num, by norm_num, le_refl _, by rw [hmax]; norm_num⟩
  refine ⟨_, _, rsdD_ok S R a rot _ 0 0 1 flipx (recip_pos 105 (by norm_num) (by norm_num)) (recip_le 105 (by norm_num)) (le_refl _) 525 (by norm_num) sD.symm,
    rsd_ok S R a rot _ 0 0 1 flipx m 525 s1.symm, ?_, ?_⟩
  · show (maskOutD 525 _ 0 0).toNat + 1 = 10
    have : maskOutD 525 (double (1 / ((105 : ℕ) : ℝ))) 0 0 = 9 := by
      unfold maskOutD
      rw [h1, h2, h3, abs_zero, max_self, mul_zero, double_zero, h4]
      refine (C08_ceil_odd _).unique ⟨⟨by norm_num, by norm_num⟩, fun n hn => ?_⟩
      obtain ⟨n1, n2⟩ := hn
      have : (7 : ℝ) < n := lt_of_lt_of_le (by norm_num) n2
      have : 7 < n := by exact_mod_cast this
      omega
    rw [this]
    rfl
  · show (ceilOdd (((525 : ℕ) : ℝ) * (1 / (105 : ℕ)) + 2 + 2 * max |(0 : ℝ)| |(0 : ℝ)|)).toNat + 1 = 8
    have : ceilOdd (((525 : ℕ) : ℝ) * (1 / (105 : ℕ)) + 2 + 2 * max |(0 : ℝ)| |(0 : ℝ)|) = 7 := by
      refine (C08_ceil_odd _).unique ⟨⟨by norm_num, by norm_num⟩, fun n hn => ?_⟩
      have := hn.2
      norm_num at this
      exact_mod_cast this
    rw [this]
    rfl

/-! ### Examples -/

/-- A mask of 31 x 31 pixels halved without padding: the hypotheses of `C106_whole_factor_partial` hold. -/
example (S : ClampSpline) (R : Rotate) (a : Arr2 ℝ) (hr : a.nr = 31) (hc : a.nc = 31) (rot : ℝ) :
    rotateShiftDownsampleD S R a rot (double (1 / ((2 : ℕ) : ℝ))) 3 (-1) 1 false = rotateShiftDownsample S R a rot (1 / (2 : ℕ)) 3 (-1) 1 false := by
  have hmax : max a.nr a.nc = 31 := by rw [hr, hc]; rfl
  have h := C106_whole_factor_partial S R a rot 2 (by norm_num) (by norm_num) 3 (-1) (by norm_num) (by norm_num) 1 false
    ⟨by norm_num, by norm_num, le_refl _, by rw [hmax]; norm_num⟩
    (by rw [hmax, one_mul]; exact double_nat 31 (by norm_num)) 31
    (by
      rw [hmax, one_mul]
      exact ⟨⟨by norm_num, by norm_num⟩, fun n hn => by exact_mod_cast hn.2⟩)
    (by norm_num) (Or.inr (by decide)) (recip_small 2 (by norm_num) (by norm_num) (by norm_num) (by norm_num))
  push_cast at h ⊢
  exact h

/-- The same mask thirded with a margin of a quarter, offset by whole pixels: the hypotheses of `C106_downsample_partial` and `C106_contains` hold. -/
example (S : ClampSpline) (R : Rotate) (a : Arr2 ℝ) (hr : a.nr = 31) (hc : a.nc = 31) :
    ∃ o, rotateShiftDownsampleD S R a 0 (double (1 / ((3 : ℕ) : ℝ))) ((7 : ℤ) : ℝ) ((-2 : ℤ) : ℝ) (5 / 4) true = .ok o ∧
      o.nr % 2 = 0 ∧ 28 < (o.nr : ℝ) ∧ ∀ u v, at0 o u v = discMean (3 : ℕ) (maskAt a true) ((3 : ℕ) * (u - (-2))) ((3 : ℕ) * (v - 7)) := by
  have hmax : max a.nr a.nc = 31 := by rw [hr, hc]; rfl
  have hmaxz : (max a.nr a.nc : ℤ) = 31 := by rw [hr, hc]; rfl
  have hs : maskSideD a (5 / 4) = 39 := by
    unfold maskSideD
    have e := double_frac 155 2 (by norm_num) (by norm_num)
    rw [hmax, show (5 / 4 : ℝ) * ((31 : ℕ) : ℝ) = ((155 : ℤ) : ℝ) / 2 ^ 2 by norm_num, e]
    refine (C08_ceil_odd _).unique ⟨⟨by norm_num, by norm_num⟩, fun n hn => ?_⟩
    have : (38 : ℝ) < n := lt_of_lt_of_le (by norm_num) hn.2
    have : 38 < n := by exact_mod_cast this
    omega
  have ho := rsdD_ok S R a 0 (double (1 / ((3 : ℕ) : ℝ))) ((7 : ℤ) : ℝ) ((-2 : ℤ) : ℝ) (5 / 4) true (recip_pos 3 (by norm_num) (by norm_num)) (recip_le 3 (by norm_num))
    (by norm_num) 39 (by norm_num) hs.symm
  refine ⟨_, ho, ?_⟩
  obtain ⟨-, c2, c3, -⟩ := C106_contains S R a 0 _ _ _ (5 / 4) true (by norm_num) (by norm_num) (by rw [hmax]; norm_num) _ ho
  refine ⟨c2, ?_, fun u v => ?_⟩
  · refine lt_of_le_of_lt ?_ c3
    have h3 := (abs_le.mp ((recip_appr 3 (by norm_num) (by norm_num)).close (by norm_num))).1
    have : |((-2 : ℤ) : ℝ)| = 2 := by norm_num
    rw [hmax, this, show |((7 : ℤ) : ℝ)| = 7 by norm_num, max_eq_left (by norm_num)]
    norm_num at h3 ⊢
    linarith
  · exact C106_downsample_partial S R a 3 (by norm_num) (by norm_num) 7 (-2) (by norm_num) (by norm_num) (5 / 4) true (by rw [hmax]; norm_num) 15 (by norm_num)
      (fun x y hxy => maskAt_outside a true x y (by rw [hmaxz]; exact hxy)) (by rw [hmax]; norm_num)
      (recip_small 3 (by norm_num) (by norm_num) (by norm_num) (by norm_num)) _ ho u v

end Coralign.Props
