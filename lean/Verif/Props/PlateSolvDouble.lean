import Verif.Spec.PlateSolvDouble
import Verif.Props.PlateSolv
import Verif.Base.DoubleRel

/-!
# C101: the plate scale search in double precision
-/

namespace Coralign.Props

open Coralign Coralign.Spec

/-- Rounding a number of at most `B` costs at most `B / 2^52`. -/
theorem double_within {x B : ℝ} (hx : |x| ≤ B) (hB : (2 : ℝ) ^ (-900 : ℤ) ≤ B) : |double x - x| ≤ B / 2 ^ 52 := by
  have h := double_error x
  rw [roundoff_eq] at h
  have h1 : underflow ≤ 1 / 2 ^ 53 * (2 : ℝ) ^ (-900 : ℤ) := by
    unfold underflow
    calc (2 : ℝ) ^ (-1075 : ℤ) ≤ (2 : ℝ) ^ (-953 : ℤ) := two_zpow_mono (by norm_num)
      _ = (2 : ℝ) ^ (-53 : ℤ) * (2 : ℝ) ^ (-900 : ℤ) := by rw [← two_zpow_add]; norm_num
      _ = _ := by congr 1; norm_num
  have h2 : 1 / 2 ^ 53 * |x| ≤ 1 / 2 ^ 53 * B := mul_le_mul_of_nonneg_left hx (by positivity)
  have h3 : 1 / 2 ^ 53 * (2 : ℝ) ^ (-900 : ℤ) ≤ 1 / 2 ^ 53 * B := mul_le_mul_of_nonneg_left hB (by positivity)
  calc |double x - x| ≤ 1 / 2 ^ 53 * B + 1 / 2 ^ 53 * B := by linarith
    _ = B / 2 ^ 52 := by ring

/-- The points `np.arange` fills in, in double precision. -/
theorem arangeValue_close {a s P : ℝ} (hP : (2 : ℝ) ^ (-900 : ℤ) ≤ P) (ha : 0 ≤ a) (ha' : a ≤ 2 * P) (hs : 0 ≤ s) (hs' : s ≤ P) (k : ℕ) (hk : (k : ℝ) ≤ 2 ^ 45)
    (hks : k * s ≤ 3 * P) : |arangeValue a s k - (a + k * s)| ≤ (5 * k + 11) * (P / 2 ^ 52) := by
  obtain ⟨u, hu⟩ : ∃ u, u = P / 2 ^ 52 := ⟨_, rfl⟩
  have hPu : P = 2 ^ 52 * u := by rw [hu]; ring
  have hP0 : 0 < P := lt_of_lt_of_le (two_zpow_pos _) hP
  have hu0 : 0 < u := by rw [hu]; positivity
  have hsize : ∀ c : ℝ, 1 ≤ c → (2 : ℝ) ^ (-900 : ℤ) ≤ c * P := fun c hc => hP.trans (by nlinarith)
  have hk0 : (0 : ℝ) ≤ k := Nat.cast_nonneg k
  rw [← hu]
  have ht : |double (a + s) - (a + s)| ≤ 3 * u := by
    have := double_within (x := a + s) (B := 3 * P) (by rw [abs_of_nonneg (by linarith)]; linarith) (hsize 3 (by norm_num))
    rw [hu]; linarith
  unfold arangeValue
  by_cases h0 : k = 0
  · subst h0
    simp only [if_pos]
    norm_num
    linarith
  rw [if_neg h0]
  have h1k : (1 : ℝ) ≤ k := by exact_mod_cast Nat.one_le_iff_ne_zero.mpr h0
  by_cases h1 : k = 1
  · subst h1
    simp only [if_pos, Nat.cast_one, one_mul]
    linarith
  simp only [if_neg h1]
  obtain ⟨t, hte⟩ : ∃ t, t = double (a + s) := ⟨_, rfl⟩
  rw [← hte] at ht ⊢
  obtain ⟨ht1, ht2⟩ := abs_le.mp ht
  have hd : |double (t - a) - (t - a)| ≤ 2 * u := by
    have := double_within (x := t - a) (B := 2 * P) (by rw [abs_le]; constructor <;> linarith) (hsize 2 (by norm_num))
    rw [hu]; linarith
  obtain ⟨d, hde⟩ : ∃ d, d = double (t - a) := ⟨_, rfl⟩
  rw [← hde] at hd ⊢
  obtain ⟨hd1, hd2⟩ := abs_le.mp hd
  have hds : |k * d - k * s| ≤ k * (5 * u) := by
    rw [← mul_sub, abs_mul, abs_of_nonneg hk0]
    exact mul_le_mul_of_nonneg_left (abs_le.mpr ⟨by linarith, by linarith⟩) hk0
  obtain ⟨hds1, hds2⟩ := abs_le.mp hds
  have hku : k * (5 * u) ≤ P := by
    calc k * (5 * u) ≤ 2 ^ 45 * (5 * u) := mul_le_mul_of_nonneg_right hk (by linarith)
      _ ≤ P := by rw [hPu]; nlinarith
  have hks0 : 0 ≤ k * s := mul_nonneg hk0 hs
  have hm : |double (k * d) - k * d| ≤ 4 * u := by
    have := double_within (x := k * d) (B := 4 * P) (by rw [abs_le]; constructor <;> linarith) (hsize 4 (by norm_num))
    rw [hu]; linarith
  obtain ⟨m, hme⟩ : ∃ m, m = double (k * d) := ⟨_, rfl⟩
  rw [← hme] at hm ⊢
  obtain ⟨hm1, hm2⟩ := abs_le.mp hm
  have hf : |double (a + m) - (a + m)| ≤ 7 * u := by
    have := double_within (x := a + m) (B := 7 * P) (by rw [abs_le]; constructor <;> linarith) (hsize 7 (by norm_num))
    rw [hu]; linarith
  obtain ⟨hf1, hf2⟩ := abs_le.mp hf
  rw [abs_le]
  constructor <;> linarith

/-- The points of `np.arange` are not below its first, if that is a double. -/
theorem arangeValue_ge {a s : ℝ} (ha : double a = a) (hs : 0 ≤ s) (k : ℕ) : a ≤ arangeValue a s k := by
  unfold arangeValue
  split_ifs with h0 h1
  · exact le_rfl
  · rw [← ha]
    simp only [ha]
    calc a = double a := ha.symm
      _ ≤ _ := double_mono (by linarith)
  · have ht : a ≤ double (a + s) := by
      calc a = double a := ha.symm
        _ ≤ _ := double_mono (by linarith)
    have hd : 0 ≤ double (k * double (double (a + s) - a)) := double_nonneg (mul_nonneg (Nat.cast_nonneg k) (double_nonneg (by linarith)))
    calc a = double a := ha.symm
      _ ≤ _ := double_mono (by linarith)

/-- The number of points. -/
theorem arangeD_ok (e : PyExc) (a b s : ℝ) (hs : s ≠ 0) : ∃ l, arangeD e a b s = .ok l ∧ l.length = ⌈double (double (b - a) / s)⌉.toNat ∧
    ∀ k (h : k < l.length), l[k] = arangeValue a s k :=
  ⟨_, by unfold arangeD; rw [if_neg hs], by simp, fun k h => by simp⟩

theorem fairSearch_size {pg w step : ℝ} {N : ℕ} (h : FairSearch pg w step N) : (2 : ℝ) ^ (-900 : ℤ) ≤ pg / 2 ^ 20 := by
  have : (2 : ℝ) ^ (-900 : ℤ) ≤ (2 : ℝ) ^ (-60 : ℤ) := two_zpow_mono (by norm_num)
  have e : (2 : ℝ) ^ (-60 : ℤ) = 1 / 2 ^ 40 / 2 ^ 20 := by norm_num
  have := h.pgLo
  have h3 : 1 / 2 ^ 40 / 2 ^ 20 ≤ pg / 2 ^ 20 := div_le_div_of_nonneg_right this (by positivity)
  exact ‹(2 : ℝ) ^ (-900 : ℤ) ≤ _›.trans (e.le.trans h3)

set_option maxHeartbeats 1000000 in
/-- The plate scales tried. -/
theorem scalesD {pg w step : ℝ} {N : ℕ} (h : FairSearch pg w step N) :
    ∃ pix, arangeD .zeroDivisionError (double (pg - double (pg * w))) (double (pg + double (pg * w))) (double (double (pg * w) / double (N / 2))) = .ok pix ∧
      NearScales pg w N pix ∧ ∀ p ∈ pix, double p = p := by
  have hsz := fairSearch_size h
  obtain ⟨hp1, hp2, hw1, hw2, hn1, hn2, -, -⟩ := h
  have hN4 : (4 : ℝ) ≤ N := by exact_mod_cast hn1
  have hN16 : (N : ℝ) ≤ 2 ^ 16 := by exact_mod_cast hn2
  have hP0 : 0 < pg := lt_of_lt_of_le (by positivity) hp1
  have hN0 : (0 : ℝ) < N := by linarith
  obtain ⟨u, hu⟩ : ∃ u, u = pg / 2 ^ 52 := ⟨_, rfl⟩
  have hPu : pg = 2 ^ 52 * u := by rw [hu]; ring
  have hu0 : 0 < u := by rw [hu]; positivity
  have hsize : ∀ c : ℝ, 1 ≤ c → (2 : ℝ) ^ (-900 : ℤ) ≤ c * pg := fun c hc => hsz.trans (by nlinarith)
  have hw0 : 0 < w := lt_of_lt_of_le (by norm_num) hw1
  have hpw0 : 0 < pg * w := mul_pos hP0 hw0
  have hpw : pg * w ≤ pg * (1 - 1 / 2 ^ 8) := mul_le_mul_of_nonneg_left hw2 hP0.le
  have hpw' : pg * (1 / 2 ^ 10) ≤ pg * w := mul_le_mul_of_nonneg_left hw1 hP0.le
  -- half the width
  have e1 : |double (pg * w) - pg * w| ≤ u := by
    have := double_within (x := pg * w) (B := 1 * pg) (by rw [abs_of_pos hpw0]; linarith) (hsize 1 le_rfl)
    rw [hu]; linarith
  obtain ⟨wid, hwid⟩ : ∃ wid, wid = double (pg * w) := ⟨_, rfl⟩
  rw [← hwid] at e1 ⊢
  obtain ⟨e11, e12⟩ := abs_le.mp e1
  have hwid0 : 0 ≤ wid := by rw [hwid]; exact double_nonneg hpw0.le
  -- start
  have e2 : |double (pg - wid) - (pg - wid)| ≤ u := by
    have := double_within (x := pg - wid) (B := 1 * pg) (by rw [abs_le]; constructor <;> linarith) (hsize 1 le_rfl)
    rw [hu]; linarith
  obtain ⟨a, ha⟩ : ∃ a, a = double (pg - wid) := ⟨_, rfl⟩
  have haa : double a = a := by rw [ha, double_double]
  rw [← ha] at e2 ⊢
  obtain ⟨e21, e22⟩ := abs_le.mp e2
  -- stop
  have e3 : |double (pg + wid) - (pg + wid)| ≤ 3 * u := by
    have := double_within (x := pg + wid) (B := 3 * pg) (by rw [abs_le]; constructor <;> linarith) (hsize 3 (by norm_num))
    rw [hu]; linarith
  obtain ⟨b, hb⟩ : ∃ b, b = double (pg + wid) := ⟨_, rfl⟩
  rw [← hb] at e3 ⊢
  obtain ⟨e31, e32⟩ := abs_le.mp e3
  -- step
  have ehalf : double ((N : ℝ) / 2) = N / 2 := by
    have := double_of_bits (N : ℤ) (-1) (by rw [abs_of_nonneg (by positivity)]; exact lt_of_le_of_lt (by exact_mod_cast hn2) (by norm_num : (2 : ℤ) ^ 16 < 2 ^ 53)) (by norm_num)
    rw [Int.cast_natCast, zpow_neg_one] at this
    rwa [div_eq_mul_inv]
  rw [ehalf]
  have e4 : |double (wid / (N / 2)) - wid / (N / 2)| ≤ 4 * u / N := by
    have := double_within (x := wid / (N / 2)) (B := 4 / N * pg) (by
      rw [abs_of_nonneg (by positivity), div_le_iff₀ (by positivity), show 4 / (N : ℝ) * pg * (N / 2) = 2 * pg by field_simp; norm_num]
      linarith) (hsz.trans (by
        rw [div_mul_eq_mul_div, div_le_div_iff₀ (by positivity) hN0]
        nlinarith))
    rw [hu]
    calc _ ≤ _ := this
      _ = _ := by ring
  obtain ⟨s, hs⟩ : ∃ s, s = double (wid / (N / 2)) := ⟨_, rfl⟩
  rw [← hs] at e4 ⊢
  have eNs : |N * s - 2 * wid| ≤ 4 * u := by
    have : N * s - 2 * wid = N * (s - wid / (N / 2)) := by field_simp
    rw [this, abs_mul, abs_of_pos hN0]
    calc (N : ℝ) * |s - wid / (N / 2)| ≤ N * (4 * u / N) := mul_le_mul_of_nonneg_left e4 hN0.le
      _ = _ := by field_simp
  obtain ⟨e41, e42⟩ := abs_le.mp eNs
  have hNs : pg * w ≤ N * s := by linarith
  have hspos : 0 < s := by
    by_contra hc
    push Not at hc
    nlinarith
  -- number
  have e5 : |double (b - a) - (b - a)| ≤ 3 * u := by
    have := double_within (x := b - a) (B := 3 * pg) (by rw [abs_le]; constructor <;> linarith) (hsize 3 (by norm_num))
    rw [hu]; linarith
  obtain ⟨pix, hpix, hlen, hval⟩ := arangeD_ok .zeroDivisionError a b s hspos.ne'
  obtain ⟨v, hv⟩ : ∃ v, v = double (b - a) := ⟨_, rfl⟩
  rw [← hv] at e5 hlen
  obtain ⟨e51, e52⟩ := abs_le.mp e5
  have hq : |v / s - N| ≤ 1 / 8 := by
    rw [div_sub' hspos.ne', abs_div, abs_of_pos hspos, div_le_iff₀ hspos]
    have h1 : |v - s * N| ≤ 15 * u := by rw [abs_le]; constructor <;> linarith
    have h2 : 15 * u ≤ 1 / 8 * s := by
      by_contra hc
      push Not at hc
      have h4 : (1 / 8 * s) * N < 15 * u * N := mul_lt_mul_of_pos_right hc hN0
      have h5 : 15 * u * N ≤ 15 * u * 2 ^ 16 := mul_le_mul_of_nonneg_left hN16 (by linarith)
      linarith
    linarith
  obtain ⟨hq1, hq2⟩ := abs_le.mp hq
  have hD : |double (v / s) - v / s| ≤ 1 / 8 := by
    have := double_within (x := v / s) (B := 2 ^ 17) (by rw [abs_le]; constructor <;> linarith) (by
      calc (2 : ℝ) ^ (-900 : ℤ) ≤ (2 : ℝ) ^ (17 : ℤ) := two_zpow_mono (by norm_num)
        _ = _ := by norm_num)
    linarith
  obtain ⟨hD1, hD2⟩ := abs_le.mp hD
  have hlenN : pix.length = N ∨ pix.length = N + 1 := by
    have h1 : ((N : ℤ) - 1) < ⌈double (v / s)⌉ := by
      rw [Int.lt_ceil]
      push_cast
      linarith
    have h2 : ⌈double (v / s)⌉ ≤ (N : ℤ) + 1 := by
      rw [Int.ceil_le]
      push_cast
      linarith
    omega
  refine ⟨pix, hpix, ⟨hlenN, fun k hk => ?_⟩, fun p hp => ?_⟩
  · have hkN : (k : ℝ) ≤ N := by
      have : k ≤ N := by omega
      exact_mod_cast this
    have hk0 : (0 : ℝ) ≤ k := Nat.cast_nonneg k
    have hks : k * s ≤ N * s := mul_le_mul_of_nonneg_right hkN hspos.le
    have hsP : s ≤ pg := by nlinarith
    have hclose := arangeValue_close (a := a) (s := s) (P := pg) (by linarith [hsize 1 le_rfl]) (by linarith) (by linarith) hspos.le hsP k (by linarith) (by linarith)
    rw [hval]
    rw [← hu] at hclose ⊢
    have e6 : |k * s - k * (2 * pg * w / N)| ≤ 6 * u := by
      have : k * s - k * (2 * pg * w / N) = k / N * (N * s - 2 * (pg * w)) := by field_simp
      rw [this, abs_mul, abs_of_nonneg (by positivity)]
      have h1 : (k : ℝ) / N ≤ 1 := (div_le_one hN0).mpr hkN
      have h2 : |N * s - 2 * (pg * w)| ≤ 6 * u := by rw [abs_le]; constructor <;> linarith
      calc (k : ℝ) / N * |N * s - 2 * (pg * w)| ≤ 1 * (6 * u) := mul_le_mul h1 h2 (abs_nonneg _) zero_le_one
        _ = _ := one_mul _
    obtain ⟨e61, e62⟩ := abs_le.mp e6
    obtain ⟨c1, c2⟩ := abs_le.mp hclose
    rw [abs_le]
    constructor <;> linarith
  · obtain ⟨k, hk, rfl⟩ := List.getElem_of_mem hp
    rw [hval]
    unfold arangeValue
    split_ifs with h0 h1
    · exact haa
    · exact double_double _
    · exact double_double _

/-- The interpolation grid, for ends near those of the plate scales. -/
theorem gridD {pg lo hi step : ℝ} (hsz : (2 : ℝ) ^ (-900 : ℤ) ≤ pg) (hs1 : pg / 2 ^ 40 ≤ step) (hs2 : step ≤ pg) (hlo : double lo = lo) (hlo0 : 0 ≤ lo)
    (hlo1 : lo ≤ 2 * pg) (hd : lo < hi) (hd' : hi - lo ≤ 5 / 2 * pg) :
    ∃ xs, arangeD .valueError lo hi step = .ok xs ∧ hi ≤ lo + xs.length * step + 7 * (pg / 2 ^ 52) ∧
      ∀ j (h : j < xs.length), |xs[j] - (lo + j * step)| ≤ (5 * j + 11) * (pg / 2 ^ 52) ∧ lo ≤ xs[j] ∧ j * step < hi - lo + 7 * (pg / 2 ^ 52) := by
  have hP0 : 0 < pg := lt_of_lt_of_le (two_zpow_pos _) hsz
  have hst : 0 < step := lt_of_lt_of_le (by positivity) hs1
  obtain ⟨xs, hxs, hlen, hval⟩ := arangeD_ok .valueError lo hi step hst.ne'
  obtain ⟨u, hu⟩ : ∃ u, u = pg / 2 ^ 52 := ⟨_, rfl⟩
  have hPu : pg = 2 ^ 52 * u := by rw [hu]; ring
  have hu0 : 0 < u := by rw [hu]; positivity
  have e1 : |double (hi - lo) - (hi - lo)| ≤ 3 * u := by
    have := double_within (x := hi - lo) (B := 3 * pg) (by rw [abs_of_pos (by linarith)]; linarith) (hsz.trans (by linarith))
    rw [hu]; linarith
  have hv0 : 0 ≤ double (hi - lo) := double_nonneg (by linarith)
  obtain ⟨v, hv⟩ : ∃ v, v = double (hi - lo) := ⟨_, rfl⟩
  rw [← hv] at e1 hlen hv0
  obtain ⟨e11, e12⟩ := abs_le.mp e1
  have e2 : |double (v / step) - v / step| ≤ 4 * u / step := by
    have := double_within (x := v / step) (B := 4 * pg / step) (by
      rw [abs_of_nonneg (by positivity)]
      exact div_le_div_of_nonneg_right (by linarith) hst.le) (by
        rw [le_div_iff₀ hst]
        have h1 : (2 : ℝ) ^ (-900 : ℤ) ≤ 1 := by
          calc (2 : ℝ) ^ (-900 : ℤ) ≤ (2 : ℝ) ^ (0 : ℤ) := two_zpow_mono (by norm_num)
            _ = 1 := zpow_zero _
        calc (2 : ℝ) ^ (-900 : ℤ) * step ≤ 1 * step := mul_le_mul_of_nonneg_right h1 hst.le
          _ ≤ 4 * pg := by linarith)
    rw [hu]
    calc _ ≤ _ := this
      _ = _ := by ring
  obtain ⟨D, hDe⟩ : ∃ D, D = double (v / step) := ⟨_, rfl⟩
  rw [← hDe] at e2 hlen
  have e3 : |D * step - v| ≤ 4 * u := by
    have : D * step - v = (D - v / step) * step := by field_simp
    rw [this, abs_mul, abs_of_pos hst]
    calc |D - v / step| * step ≤ 4 * u / step * step := mul_le_mul_of_nonneg_right e2 hst.le
      _ = _ := by field_simp
  obtain ⟨e31, e32⟩ := abs_le.mp e3
  rw [← hu]
  refine ⟨xs, hxs, ?_, fun j hj => ?_⟩
  · have h1 : D ≤ (xs.length : ℝ) := by
      have h2 : ⌈D⌉ ≤ (xs.length : ℤ) := by rw [hlen]; exact Int.self_le_toNat _
      have h3 : D ≤ (⌈D⌉ : ℝ) := Int.le_ceil D
      have h4 : ((⌈D⌉ : ℤ) : ℝ) ≤ ((xs.length : ℤ) : ℝ) := by exact_mod_cast h2
      calc D ≤ _ := h3
        _ ≤ _ := h4
        _ = _ := by norm_cast
    have := mul_le_mul_of_nonneg_right h1 hst.le
    linarith
  · have hjD : (j : ℝ) < D := by
      rw [hlen, Int.lt_toNat, Int.lt_ceil] at hj
      exact_mod_cast hj
    have hjs : j * step < D * step := mul_lt_mul_of_pos_right hjD hst
    have hb : j * step < hi - lo + 7 * u := by linarith
    have hj45 : (j : ℝ) ≤ 2 ^ 45 := by
      by_contra hc
      push Not at hc
      have h1 : 2 ^ 45 * (pg / 2 ^ 40) ≤ j * step := mul_le_mul hc.le hs1 (by positivity) (Nat.cast_nonneg j)
      have h2 : (2 : ℝ) ^ 45 * (pg / 2 ^ 40) = 32 * pg := by ring
      linarith
    have hclose := arangeValue_close (a := lo) (s := step) (P := pg) hsz hlo0 hlo1 hst.le hs2 j hj45 (by linarith)
    rw [← hu] at hclose
    rw [hval]
    exact ⟨hclose, arangeValue_ge hlo hst.le j, hb⟩

/-- The plate scales, their ends, and the interpolation grid. -/
theorem planD {pg w step : ℝ} {N : ℕ} (h : FairSearch pg w step N) :
    ∃ pix lo hi xs, arangeD .zeroDivisionError (double (pg - double (pg * w))) (double (pg + double (pg * w))) (double (double (pg * w) / double (N / 2))) = .ok pix ∧
      NearScales pg w N pix ∧ 4 ≤ pix.length ∧ pix.Nodup ∧ (∀ p ∈ pix, 0 < p) ∧ pix.min? = some lo ∧ pix.max? = some hi ∧ arangeD .valueError lo hi step = .ok xs ∧
      xs ≠ [] ∧ hi ≤ lo + xs.length * step + 7 * (pg / 2 ^ 52) ∧ (∀ j (h : j < xs.length), |xs[j] - (lo + j * step)| ≤ (5 * j + 11) * (pg / 2 ^ 52) ∧ lo ≤ xs[j]) ∧
      (ClearOfEnd pg w step N → ∀ x ∈ xs, x ≤ hi) := by
  obtain ⟨pix, hpix, hnear, hdbl⟩ := scalesD h
  have hsz := fairSearch_size h
  obtain ⟨hp1, hp2, hw1, hw2, hn1, hn2, hs1, hs2⟩ := h
  have hN4 : (4 : ℝ) ≤ N := by exact_mod_cast hn1
  have hN16 : (N : ℝ) ≤ 2 ^ 16 := by exact_mod_cast hn2
  have hP0 : 0 < pg := lt_of_lt_of_le (by positivity) hp1
  have hN0 : (0 : ℝ) < N := by linarith
  obtain ⟨u, hu⟩ : ∃ u, u = pg / 2 ^ 52 := ⟨_, rfl⟩
  have hPu : pg = 2 ^ 52 * u := by rw [hu]; ring
  have hu0 : 0 < u := by rw [hu]; positivity
  have hsz' : (2 : ℝ) ^ (-900 : ℤ) ≤ pg := hsz.trans (div_le_self hP0.le (by norm_num))
  have hw0 : 0 < w := lt_of_lt_of_le (by norm_num) hw1
  have hpw : pg * w ≤ pg * (1 - 1 / 2 ^ 8) := mul_le_mul_of_nonneg_left hw2 hP0.le
  have hpw' : pg * (1 / 2 ^ 10) ≤ pg * w := mul_le_mul_of_nonneg_left hw1 hP0.le
  obtain ⟨q, hq⟩ : ∃ q, q = 2 * pg * w / N := ⟨_, rfl⟩
  have hNq : N * q = 2 * (pg * w) := by rw [hq]; field_simp
  have hq0 : 0 < q := by rw [hq]; positivity
  obtain ⟨hlen, hk⟩ := hnear
  have h4 : 4 ≤ pix.length := by omega
  rw [← hq, ← hu] at hk
  have hNu : 5 * N * u + 19 * u ≤ 2 ^ 20 * u := by nlinarith
  have hbound : ∀ k (hk' : k < pix.length), |pix[k] - (pg * (1 - w) + k * q)| ≤ 5 * N * u + 19 * u := by
    intro k hk'
    have h1 : (k : ℝ) ≤ N := by
      have : k ≤ N := by omega
      exact_mod_cast this
    calc _ ≤ _ := hk k hk'
      _ ≤ _ := by nlinarith
  have hpos : ∀ p ∈ pix, 0 < p := by
    intro p hp
    obtain ⟨k, hk', rfl⟩ := List.getElem_of_mem hp
    obtain ⟨h1, h2⟩ := abs_le.mp (hbound k hk')
    have : (0 : ℝ) ≤ k * q := mul_nonneg (Nat.cast_nonneg k) hq0.le
    linarith
  have hqu : 2 ^ 22 * u < q := by
    by_contra hc
    push Not at hc
    have h1 : N * q ≤ N * (2 ^ 22 * u) := mul_le_mul_of_nonneg_left hc hN0.le
    have h2 : N * (2 ^ 22 * u) ≤ 2 ^ 16 * (2 ^ 22 * u) := mul_le_mul_of_nonneg_right hN16 (by positivity)
    linarith
  have hstrict : ∀ i j (hi : i < pix.length) (hj : j < pix.length), i < j → pix[i] < pix[j] := by
    intro i j hi hj hij
    obtain ⟨h1, h2⟩ := abs_le.mp (hbound i hi)
    obtain ⟨h3, h4⟩ := abs_le.mp (hbound j hj)
    have h5 : (i : ℝ) + 1 ≤ j := by exact_mod_cast hij
    have h6 : (i + 1) * q ≤ j * q := mul_le_mul_of_nonneg_right h5 hq0.le
    linarith
  have hnodup : pix.Nodup := by
    refine (List.pairwise_iff_getElem.mpr fun i j hi hj hij => (hstrict i j hi hj hij).ne : pix.Pairwise (· ≠ ·))
  have hmin : pix.min? = some pix[0] := by
    rw [List.min?_eq_some_iff]
    refine ⟨List.getElem_mem _, fun b hb => ?_⟩
    obtain ⟨j, hj, rfl⟩ := List.getElem_of_mem hb
    rcases Nat.eq_zero_or_pos j with rfl | hj0
    · exact le_rfl
    · exact (hstrict 0 j _ hj hj0).le
  have hmax : pix.max? = some pix[pix.length - 1] := by
    rw [List.max?_eq_some_iff]
    refine ⟨List.getElem_mem _, fun b hb => ?_⟩
    obtain ⟨j, hj, rfl⟩ := List.getElem_of_mem hb
    rcases Nat.lt_or_ge j (pix.length - 1) with hj0 | hj0
    · exact (hstrict j _ hj _ hj0).le
    · have : j = pix.length - 1 := by omega
      subst this
      exact le_rfl
  have hlo := abs_le.mp (hbound 0 (by omega))
  have hhi := abs_le.mp (hbound (pix.length - 1) (by omega))
  rw [Nat.cast_zero, zero_mul, add_zero] at hlo
  rw [Nat.cast_sub (by omega), Nat.cast_one] at hhi
  obtain ⟨lo, hloe⟩ : ∃ lo, lo = pix[0] := ⟨_, rfl⟩
  obtain ⟨hi, hhie⟩ : ∃ hi, hi = pix[pix.length - 1] := ⟨_, rfl⟩
  have hlod : double lo = lo := hloe ▸ hdbl _ (List.getElem_mem _)
  rw [← hloe] at hmin hlo
  rw [← hhie] at hmax hhi
  obtain ⟨T, hT⟩ : ∃ T, T = pix.length := ⟨_, rfl⟩
  rw [← hT] at hhi
  have hTN : (T : ℝ) ≤ N + 1 := by
    have : T ≤ N + 1 := by omega
    exact_mod_cast this
  have hTN' : (N : ℝ) ≤ T := by
    have : N ≤ T := by omega
    exact_mod_cast this
  have hL1 : ((T : ℝ) - 1) * q ≤ 2 * (pg * w) := by
    rw [← hNq]
    exact mul_le_mul_of_nonneg_right (by linarith) hq0.le
  have hL2 : pg * w ≤ ((T : ℝ) - 1) * q := by
    have : ((N : ℝ) - 1) * q ≤ ((T : ℝ) - 1) * q := mul_le_mul_of_nonneg_right (by linarith) hq0.le
    nlinarith
  obtain ⟨L, hL⟩ : ∃ L, L = ((T : ℝ) - 1) * q := ⟨_, rfl⟩
  rw [← hL] at hhi hL1 hL2
  obtain ⟨xs, hxs, hend, hxj⟩ := gridD (pg := pg) (lo := lo) (hi := hi) (step := step) hsz' hs1 hs2 hlod (by linarith) (by linarith) (by linarith) (by linarith)
  rw [← hu] at hend hxj ⊢
  refine ⟨pix, lo, hi, xs, hpix, ⟨hlen, by rw [← hq, ← hu]; exact hk⟩, h4, hnodup, hpos, hmin, hmax, hxs, ?_, hend, fun j hj => ⟨(hxj j hj).1, (hxj j hj).2.1⟩, fun hclear x hx => ?_⟩
  · rintro rfl
    rw [List.length_nil, Nat.cast_zero, zero_mul] at hend
    linarith
  · obtain ⟨j, hj, rfl⟩ := List.getElem_of_mem hx
    obtain ⟨h1, -, h3⟩ := hxj j hj
    have hc := hclear T (by omega) j
    rw [← hq, ← hu, ← hL] at hc
    obtain ⟨-, h1⟩ := abs_le.mp h1
    have hju : 0 ≤ (j : ℝ) * u := mul_nonneg (Nat.cast_nonneg j) hu0.le
    have hNu' : 0 ≤ (N : ℝ) * u := mul_nonneg hN0.le hu0.le
    rcases lt_abs.mp hc with h5 | h5 <;> linarith [hlo.2, hhi.1, hlo.1, hhi.2]

/-- **C101.** What the search returns in double precision, if it does not raise `ValueError`. -/
theorem C101_outcome (I : Interp1d) (img guess : Arr2 ℝ) (pg w pct step : ℝ) (N : ℕ) (h : PlateArgs img guess pg w N pct step) (hf : FairSearch pg w step N) :
    platesolvD I img guess pg ⟨some w, some N, some pct, some step⟩ = .error .valueError ∨
      ∃ best pix resid, platesolvD I img guess pg ⟨some w, some N, some pct, some step⟩ = .ok (best, pix, resid) ∧
        NearScales pg w N pix ∧ resid.length = pix.length ∧
        (∀ k (h1 : k < pix.length) (h2 : k < resid.length), ∀ r, Misfit img guess pg pct pix[k] r ↔ r = resid[k]) ∧
        (none ∈ resid → best = []) ∧
        ∀ ys, resid = ys.map some → ∃ lo hi xs, pix.min? = some lo ∧ pix.max? = some hi ∧ NearGrid pg lo hi step xs ∧ LowestIn xs (I.eval pix ys) best := by
  classical
  obtain ⟨pix, lo, hi, xs, hpix, hnear, h4, hnodup, hpos, hmin, hmax, hxs, hne, hend, hxj, -⟩ := planD hf
  have hn : (0 : ℝ) < N := by linarith [h.trials]
  obtain ⟨ref, href, -⟩ := trial_eq guess pg pg h.pixels.1 h.pixels.2 h.scale h.scale
  have hres : ∀ p, 0 < p → ∃ r, plateResidual img guess ref ((max guess.nr guess.nc : ℕ) : ℝ) pct p = .ok r ∧ ∀ r', Misfit img guess pg pct p r' ↔ r' = r :=
    fun p hp => residual_eq img guess pg w N pct step p h hp ref href
  choose! m hm using hres
  have hmap : pix.mapM (fun p => plateResidual img guess ref ((max guess.nr guess.nc : ℕ) : ℝ) pct p) = .ok (pix.map m) := mapM_ok _ _ _ fun p hp => (hm p (hpos p hp)).1
  have heq : platesolvD I img guess pg ⟨some w, some N, some pct, some step⟩ = if ∃ x ∈ xs, x < lo ∨ hi < x then .error .valueError else match (pix.map m).mapM id with
      | none => .ok ([], pix, pix.map m)
      | some ys => .ok (xs.filter fun x => I.eval pix ys x = ((xs.map (I.eval pix ys)).min?).getD 0, pix, pix.map m) := by
    unfold platesolvD
    rw [if_neg (not_le.mpr h.scale), if_neg (by push Not; exact ⟨h.rows, h.cols⟩)]
    simp only
    rw [if_neg hn.ne', hpix, res_ok_bind, href, res_ok_bind, hmap, res_ok_bind, hmin, hmax]
    simp only
    rw [hxs, res_ok_bind, if_neg (by push Not; exact ⟨h4, hnodup⟩), if_neg hne]
    rfl
  by_cases hbad : ∃ x ∈ xs, x < lo ∨ hi < x
  · left
    rw [heq, if_pos hbad]
  right
  rw [if_neg hbad] at heq
  push Not at hbad
  have hmis : ∀ k (h1 : k < pix.length) (h2 : k < (pix.map m).length), ∀ r, Misfit img guess pg pct pix[k] r ↔ r = (pix.map m)[k] := by
    intro k h1 h2 r
    rw [List.getElem_map]
    exact (hm _ (hpos _ (List.getElem_mem _))).2 r
  cases hid : (pix.map m).mapM id with
  | none =>
    refine ⟨[], pix, pix.map m, by rw [heq, hid], hnear, by simp, hmis, fun _ => rfl, fun ys hys => ?_⟩
    have := (mapM_id (pix.map m)).2.mp hid
    rw [hys] at this
    simp at this
  | some ys =>
    refine ⟨_, pix, pix.map m, by rw [heq, hid], hnear, by simp, hmis, fun hnone => ?_, fun ys' hys => ?_⟩
    · have := (mapM_id (pix.map m)).2.mpr hnone
      rw [hid] at this
      cases this
    · have h' := (mapM_id (pix.map m)).1 ys' |>.mpr hys
      rw [hid] at h'
      obtain rfl := Option.some.inj h'
      refine ⟨lo, hi, xs, hmin, hmax, ⟨fun j hj => ⟨(hxj j hj).1, hbad _ (List.getElem_mem hj)⟩, hend⟩, ?_⟩
      cases hlow : (xs.map (I.eval pix ys)).min? with
      | none =>
        rw [List.min?_eq_none_iff, List.map_eq_nil_iff] at hlow
        exact absurd hlow hne
      | some low =>
        obtain ⟨hl1, hl2⟩ := List.min?_eq_some_iff.mp hlow
        obtain ⟨x0, hx0, hx0v⟩ := List.mem_map.mp hl1
        have hle : ∀ x' ∈ xs, low ≤ I.eval pix ys x' := fun x' hx' => hl2 _ (List.mem_map.mpr ⟨x', hx', rfl⟩)
        simp only [Option.getD_some]
        refine ⟨?_, List.filter_sublist, ?_⟩
        · intro h0
          have : x0 ∈ xs.filter fun x => decide (I.eval pix ys x = low) := List.mem_filter.mpr ⟨hx0, decide_eq_true hx0v⟩
          rw [h0] at this
          cases this
        · intro x
          rw [List.mem_filter]
          constructor
          · rintro ⟨h1, h2⟩
            refine ⟨h1, fun x' hx' => ?_⟩
            rw [of_decide_eq_true h2]
            exact hle x' hx'
          · rintro ⟨h1, h2⟩
            refine ⟨h1, decide_eq_true (le_antisymm ?_ (hle x h1))⟩
            rw [← hx0v]
            exact h2 x0 hx0

/-- **C101.** The part of acceptance which holds: if no point of the interpolation grid comes within rounding of the last plate scale, the call
returns.  Missing: grids with a point there, see `C101_fails`. -/
theorem C101_accepts_partial (I : Interp1d) (img guess : Arr2 ℝ) (pg w pct step : ℝ) (N : ℕ) (h : PlateArgs img guess pg w N pct step) (hf : FairSearch pg w step N)
    (hc : ClearOfEnd pg w step N) : ∃ best pix resid, platesolvD I img guess pg ⟨some w, some N, some pct, some step⟩ = .ok (best, pix, resid) := by
  classical
  obtain ⟨pix, lo, hi, xs, hpix, hnear, h4, hnodup, hpos, hmin, hmax, hxs, hne, -, hxj, hle⟩ := planD hf
  have hn : (0 : ℝ) < N := by linarith [h.trials]
  obtain ⟨ref, href, -⟩ := trial_eq guess pg pg h.pixels.1 h.pixels.2 h.scale h.scale
  have hres : ∀ p, 0 < p → ∃ r, plateResidual img guess ref ((max guess.nr guess.nc : ℕ) : ℝ) pct p = .ok r :=
    fun p hp => (residual_eq img guess pg w N pct step p h hp ref href).imp fun _ h => h.1
  choose! m hm using hres
  have hmap : pix.mapM (fun p => plateResidual img guess ref ((max guess.nr guess.nc : ℕ) : ℝ) pct p) = .ok (pix.map m) := mapM_ok _ _ _ fun p hp => hm p (hpos p hp)
  have hbad : ¬ ∃ x ∈ xs, x < lo ∨ hi < x := by
    rintro ⟨x, hx, h1 | h1⟩
    · obtain ⟨j, hj, rfl⟩ := List.getElem_of_mem hx
      exact absurd (hxj j hj).2 (not_le.mpr h1)
    · exact absurd (hle hc x hx) (not_le.mpr h1)
  unfold platesolvD
  rw [if_neg (not_le.mpr h.scale), if_neg (by push Not; exact ⟨h.rows, h.cols⟩)]
  simp only
  rw [if_neg hn.ne', hpix, res_ok_bind, href, res_ok_bind, hmap, res_ok_bind, hmin, hmax]
  simp only
  rw [hxs, res_ok_bind, if_neg (by push Not; exact ⟨h4, hnodup⟩), if_neg hbad, if_neg hne]
  cases (pix.map m).mapM id with
  | none => exact ⟨_, _, _, rfl⟩
  | some ys => exact ⟨_, _, _, rfl⟩

end Coralign.Props
