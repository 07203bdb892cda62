import Verif.Props.Double

/-!
# C98: binary fractions

Where all arguments are binary fractions of moderate size, no operation of `circle` is rounded at all.
-/

namespace Coralign.Props

open Coralign Coralign.Spec Finset

theorem double_frac (m : ℤ) (e : ℕ) (hm : |m| < 2 ^ 53) (he : e ≤ 1074) : double ((m : ℝ) / 2 ^ e) = (m : ℝ) / 2 ^ e := by
  have := double_of_bits m (-(e : ℤ)) hm (by omega)
  rw [zpow_neg, zpow_natCast, ← div_eq_mul_inv] at this
  exact this

/-- The comparison of a distance with a radius is exact on a grid of binary fractions. -/
theorem rhoD_le_iff (m n r : ℤ) (e : ℕ) (he : e ≤ 500) (hm : |m| ≤ 2 ^ 25) (hn : |n| ≤ 2 ^ 25) (hr0 : 0 ≤ r) (hr : r ≤ 2 ^ 25) :
    rhoD ((m : ℝ) / 2 ^ e) ((n : ℝ) / 2 ^ e) ≤ (r : ℝ) / 2 ^ e ↔ m ^ 2 + n ^ 2 ≤ r ^ 2 := by
  have hp : (0 : ℝ) < 2 ^ e := by positivity
  have hmm : m ^ 2 ≤ 2 ^ 50 := by rw [← sq_abs]; exact (pow_le_pow_left₀ (abs_nonneg m) hm 2).trans (by norm_num)
  have hnn : n ^ 2 ≤ 2 ^ 50 := by rw [← sq_abs]; exact (pow_le_pow_left₀ (abs_nonneg n) hn 2).trans (by norm_num)
  have hm0 := sq_nonneg m
  have hn0 := sq_nonneg n
  have sq : ∀ k : ℤ, 0 ≤ k ^ 2 → k ^ 2 ≤ 2 ^ 50 → double ((k : ℝ) / 2 ^ e * ((k : ℝ) / 2 ^ e)) = ((k ^ 2 : ℤ) : ℝ) / 2 ^ (2 * e) := by
    intro k h0 hk
    rw [← double_frac (k ^ 2) (2 * e) (by rw [abs_of_nonneg h0]; linarith) (by omega)]
    congr 1
    push_cast
    rw [two_mul, pow_add]
    field_simp
  unfold rhoD
  rw [sq m hm0 hmm, sq n hn0 hnn, ← add_div]
  have es : double ((((m ^ 2 : ℤ) : ℝ) + ((n ^ 2 : ℤ) : ℝ)) / 2 ^ (2 * e)) = ((m ^ 2 + n ^ 2 : ℤ) : ℝ) / 2 ^ (2 * e) := by
    have := double_frac (m ^ 2 + n ^ 2) (2 * e) (by rw [abs_of_nonneg (by positivity)]; linarith) (by omega)
    rw [← this]
    congr 1
    push_cast
    ring
  rw [es]
  generalize m ^ 2 + n ^ 2 = Q at *
  have hsq : Real.sqrt ((Q : ℝ) / 2 ^ (2 * e)) = Real.sqrt Q / 2 ^ e := by
    rw [Real.sqrt_div' _ (by positivity), show (2 : ℝ) ^ (2 * e) = (2 ^ e) ^ 2 by rw [mul_comm, pow_mul], Real.sqrt_sq hp.le]
  rw [hsq]
  have hr0' : (0 : ℝ) ≤ r := by exact_mod_cast hr0
  constructor
  · intro h
    by_contra hQ
    have h1 : r ^ 2 + 1 ≤ Q := by omega
    have h2 : (r : ℝ) + 1 / 2 ^ 27 ≤ Real.sqrt Q := by
      refine Real.le_sqrt_of_sq_le ?_
      have h3 : ((r ^ 2 + 1 : ℤ) : ℝ) ≤ Q := by exact_mod_cast h1
      push_cast at h3
      have h4 : (r : ℝ) ≤ 2 ^ 25 := by exact_mod_cast hr
      have h5 : (r : ℝ) * (1 / 2 ^ 27) ≤ 1 / 4 := by
        calc _ ≤ (2 : ℝ) ^ 25 * (1 / 2 ^ 27) := mul_le_mul_of_nonneg_right h4 (by positivity)
          _ = _ := by norm_num
      have e1 : ((r : ℝ) + 1 / 2 ^ 27) ^ 2 = r ^ 2 + 2 * (r * (1 / 2 ^ 27)) + (1 / 2 ^ 27) ^ 2 := by ring
      have e2 : ((1 : ℝ) / 2 ^ 27) ^ 2 ≤ 1 / 2 := by norm_num
      rw [e1]
      linarith
    have h3 : ((r * 2 ^ 27 + 1 : ℤ) : ℝ) / 2 ^ (27 + e) ≤ Real.sqrt Q / 2 ^ e := by
      rw [pow_add, ← div_div]
      refine div_le_div_of_nonneg_right (le_of_eq_of_le ?_ h2) hp.le
      push_cast
      field_simp
      norm_num
    have h4 := double_mono h3
    rw [double_frac _ _ (by rw [abs_of_nonneg (by positivity)]; linarith) (by omega)] at h4
    have h5 : (r : ℝ) / 2 ^ e < ((r * 2 ^ 27 + 1 : ℤ) : ℝ) / 2 ^ (27 + e) := by
      rw [pow_add, ← div_div]
      refine div_lt_div_of_pos_right ?_ hp
      push_cast
      rw [lt_div_iff₀ (by positivity)]
      linarith
    linarith
  · intro h
    rw [← double_frac r e (by rw [abs_of_nonneg hr0]; linarith) (by omega)]
    refine double_mono (div_le_div_of_nonneg_right ?_ hp.le)
    refine Real.sqrt_le_iff.mpr ⟨hr0', ?_⟩
    exact_mod_cast h

theorem subAxisD_frac (p s : ℕ) (hs : s < 2 ^ p) (hp : p ≤ 25) : subAxisD (2 ^ p) s = ((2 * s + 1 - 2 ^ p : ℤ) : ℝ) / 2 ^ (p + 1) := by
  have h50 : 2 ^ p ≤ 2 ^ 50 := Nat.pow_le_pow_right (by norm_num) (by omega)
  rw [subAxisD_eq _ s hs h50]
  have e1 : double (1 / ((2 ^ p : ℕ) : ℝ)) = 1 / 2 ^ p := by
    have := double_frac 1 p (by norm_num) (by omega)
    push_cast at this ⊢
    exact this
  have hb : (2 : ℤ) ^ p ≤ 2 ^ 25 := pow_le_pow_right₀ (by norm_num) hp
  have hs' : (s : ℤ) < 2 ^ p := by exact_mod_cast hs
  rw [e1, ← double_frac (2 * s + 1 - 2 ^ p) (p + 1) (by rw [abs_lt]; constructor <;> omega) (by omega)]
  congr 1
  push_cast
  rw [pow_succ]
  field_simp
  ring

/-- The coordinate of a sub-pixel is exact on a grid of binary fractions. -/
theorem coord_exact (n k p e s : ℕ) (a : ℤ) (hk : k < n) (hs : s < 2 ^ p) (hpe : p + 1 ≤ e) (he : e ≤ 24) (hB : (n : ℤ) * 2 ^ e + |a| ≤ 2 ^ 25) :
    ∃ M : ℤ, |M| ≤ 2 ^ 25 ∧ double (subAxisD (2 ^ p) s + double ((k : ℝ) - ((n / 2 : ℕ) : ℝ) - (a : ℝ) / 2 ^ e)) = (M : ℝ) / 2 ^ e ∧
      (k : ℝ) - ((n / 2 : ℕ) : ℝ) - (a : ℝ) / 2 ^ e + (((s : ℝ) + 1 / 2) / ((2 ^ p : ℕ) : ℝ) - 1 / 2) = (M : ℝ) / 2 ^ e := by
  obtain ⟨q, rfl⟩ : ∃ q, e = p + 1 + q := ⟨e - (p + 1), by omega⟩
  have hs' : (s : ℤ) + 1 ≤ 2 ^ p := by exact_mod_cast hs
  have hs0 : (0 : ℤ) ≤ s := by positivity
  have hE : (0 : ℤ) < 2 ^ (p + 1 + q) := by positivity
  have hq : (0 : ℤ) < 2 ^ q := by positivity
  have hE2 : (2 : ℤ) ^ (p + 1 + q) = 2 * (2 ^ p * 2 ^ q) := by rw [pow_add, pow_succ]; ring
  have hw : |(2 * (s : ℤ) + 1 - 2 ^ p) * 2 ^ q| * 2 ≤ 2 ^ (p + 1 + q) := by
    have : |2 * (s : ℤ) + 1 - 2 ^ p| ≤ 2 ^ p := by rw [abs_le]; constructor <;> linarith
    rw [abs_mul, abs_of_pos hq, hE2]
    nlinarith
  have hz : |(k : ℤ) - ((n / 2 : ℕ) : ℤ)| * 2 ≤ n := by
    rcases abs_cases ((k : ℤ) - ((n / 2 : ℕ) : ℤ)) with ⟨h, _⟩ | ⟨h, _⟩ <;> rw [h] <;> omega
  generalize n / 2 = c at *
  have hn1 : (1 : ℤ) ≤ n := by omega
  have hz' : |((k : ℤ) - (c : ℤ)) * 2 ^ (p + 1 + q)| * 2 ≤ n * 2 ^ (p + 1 + q) := by
    rw [abs_mul, abs_of_pos hE]
    nlinarith
  have hM1 : |((k : ℤ) - (c : ℤ)) * 2 ^ (p + 1 + q) - a| ≤ 2 ^ 25 := by
    have := abs_sub (((k : ℤ) - (c : ℤ)) * 2 ^ (p + 1 + q)) a
    have := abs_nonneg (((k : ℤ) - (c : ℤ)) * 2 ^ (p + 1 + q))
    linarith
  have hM2 : |((k : ℤ) - (c : ℤ)) * 2 ^ (p + 1 + q) - a + (2 * (s : ℤ) + 1 - 2 ^ p) * 2 ^ q| ≤ 2 ^ 25 := by
    have h1 := abs_sub (((k : ℤ) - (c : ℤ)) * 2 ^ (p + 1 + q)) a
    have h2 := abs_add_le (((k : ℤ) - (c : ℤ)) * 2 ^ (p + 1 + q) - a) ((2 * (s : ℤ) + 1 - 2 ^ p) * 2 ^ q)
    have h3 : (2 : ℤ) ^ (p + 1 + q) ≤ n * 2 ^ (p + 1 + q) := by nlinarith
    linarith
  have e1 : (k : ℝ) - (c : ℝ) - (a : ℝ) / 2 ^ (p + 1 + q) =
      ((((k : ℤ) - (c : ℤ)) * 2 ^ (p + 1 + q) - a : ℤ) : ℝ) / 2 ^ (p + 1 + q) := by
    push_cast
    field_simp
  have e2 : ((2 * s + 1 - 2 ^ p : ℤ) : ℝ) / 2 ^ (p + 1) = (((2 * (s : ℤ) + 1 - 2 ^ p) * 2 ^ q : ℤ) : ℝ) / 2 ^ (p + 1 + q) := by
    push_cast
    rw [pow_add _ (p + 1) q]
    field_simp
  have e3 : ((s : ℝ) + 1 / 2) / ((2 ^ p : ℕ) : ℝ) - 1 / 2 = ((2 * s + 1 - 2 ^ p : ℤ) : ℝ) / 2 ^ (p + 1) := by
    push_cast
    rw [pow_succ]
    field_simp
  refine ⟨_, hM2, ?_, ?_⟩
  · rw [e1, double_frac _ _ (lt_of_le_of_lt hM1 (by norm_num)) (by omega), subAxisD_frac p s hs (by omega), e2, ← add_div, ← Int.cast_add, add_comm,
      double_frac _ _ (lt_of_le_of_lt hM2 (by norm_num)) (by omega)]
  · rw [e1, e3, e2, ← add_div, ← Int.cast_add]

/-- **C98.** Where every argument is a binary fraction of moderate size nothing is rounded: if `nSubpixels` is a power of two, radius and offsets are
multiples of `2 ^ -e`, where `2 ^ -e` divides the distance of sub-pixel centres from pixel centres, and sizes, offsets and radius are small enough, then
the mask computed in double precision is the exact one. -/
theorem C98_circle_dyadic (nx ny p e : ℕ) (hx : 2 ≤ nx) (hy : 1 ≤ ny) (hpe : p + 1 ≤ e) (he : e ≤ 24) (a b r : ℤ) (hr : 0 < r) (hr' : r ≤ 2 ^ 25)
    (hB : ((nx : ℤ) + ny) * 2 ^ e + |a| + |b| ≤ 2 ^ 25) (isDark : Bool) :
    circleD nx ny ((r : ℝ) / 2 ^ e) ((a : ℝ) / 2 ^ e) ((b : ℝ) / 2 ^ e) (2 ^ p : ℕ) isDark =
      circle nx ny ((r : ℝ) / 2 ^ e) ((a : ℝ) / 2 ^ e) ((b : ℝ) / 2 ^ e) (2 ^ p : ℕ) isDark := by
  have he0 : (0 : ℝ) < 2 ^ e := by positivity
  have hrr : (0 : ℝ) < (r : ℝ) / 2 ^ e := by
    have : (0 : ℝ) < r := by exact_mod_cast hr
    positivity
  have hpow : (2 : ℕ) ^ p ≤ 2 ^ 23 := Nat.pow_le_pow_right (by norm_num) (by omega)
  have hNN : 2 ^ p * 2 ^ p ≤ 2 ^ 53 := (Nat.mul_le_mul hpow hpow).trans (by norm_num)
  have hN1 : 1 ≤ 2 ^ p := Nat.one_le_two_pow
  have hB' : (nx : ℝ) + ny + |(a : ℝ) / 2 ^ e| + |(b : ℝ) / 2 ^ e| ≤ 2 ^ 40 := by
    have h1 : (((nx : ℤ) + ny) * 2 ^ e + |a| + |b| : ℤ) ≤ ((2 ^ 25 : ℤ) : ℝ) := by exact_mod_cast hB
    push_cast at h1
    rw [abs_div, abs_div, abs_of_pos he0]
    have h2 : (nx : ℝ) + ny + |(a : ℝ)| / 2 ^ e + |(b : ℝ)| / 2 ^ e = (((nx : ℝ) + ny) * 2 ^ e + |(a : ℝ)| + |(b : ℝ)|) / 2 ^ e := by field_simp
    rw [h2, div_le_iff₀ he0]
    have h3 : (1 : ℝ) ≤ 2 ^ e := one_le_pow₀ (by norm_num)
    linarith
  rw [circleD_eq nx ny (2 ^ p) hx hy hN1 hNN _ _ _ hrr hB' isDark, circle_eq nx ny (2 ^ p) hx hy hN1 _ _ _ hrr isDark]
  congr 2
  funext i j
  have hcount : subCountD (2 ^ p) ((r : ℝ) / 2 ^ e) (double ((j : ℕ) - ((nx / 2 : ℕ) : ℝ) - (a : ℝ) / 2 ^ e))
      (double ((i : ℕ) - ((ny / 2 : ℕ) : ℝ) - (b : ℝ) / 2 ^ e)) / (((2 ^ p : ℕ) : ℝ)) ^ 2 =
      areaFraction (2 ^ p) (inDisc ((r : ℝ) / 2 ^ e)) (shapeAxis nx ((a : ℝ) / 2 ^ e) j) (shapeAxis ny ((b : ℝ) / 2 ^ e) i) := by
    classical
    rw [shapeAxis_eq _ _ _ j.2, shapeAxis_eq _ _ _ i.2, subCountD_card]
    unfold areaFraction
    congr 2
    refine congrArg Finset.card (filter_congr fun s _ => ?_)
    have hn : (0 : ℤ) ≤ (nx : ℤ) * 2 ^ e := by positivity
    have hn' : (0 : ℤ) ≤ (ny : ℤ) * 2 ^ e := by positivity
    have ha := abs_nonneg a
    have hb := abs_nonneg b
    obtain ⟨M, hM, c1, c2⟩ := coord_exact nx j p e s.2 a j.2 s.2.2 hpe he (by linarith)
    obtain ⟨M', hM', d1, d2⟩ := coord_exact ny i p e s.1 b i.2 s.1.2 hpe he (by linarith)
    rw [c1, d1, c2, d2, rhoD_le_iff M M' r e (by omega) hM hM' hr.le hr']
    unfold inDisc
    rw [div_pow, div_pow, div_pow, ← add_div, div_le_div_iff_of_pos_right (by positivity)]
    exact_mod_cast Iff.rfl
  have hc := subCountD_le (2 ^ p) ((r : ℝ) / 2 ^ e) (double ((j : ℕ) - ((nx / 2 : ℕ) : ℝ) - (a : ℝ) / 2 ^ e))
    (double ((i : ℕ) - ((ny / 2 : ℕ) : ℝ) - (b : ℝ) / 2 ^ e))
  rw [← hcount]
  generalize subCountD (2 ^ p) ((r : ℝ) / 2 ^ e) (double ((j : ℕ) - ((nx / 2 : ℕ) : ℝ) - (a : ℝ) / 2 ^ e))
    (double ((i : ℕ) - ((ny / 2 : ℕ) : ℝ) - (b : ℝ) / 2 ^ e)) = c at *
  have hpp : ((2 ^ p : ℕ) : ℝ) ^ 2 = 2 ^ (2 * p) := by push_cast; rw [← pow_mul, mul_comm]
  have h46 : 2 ^ p * 2 ^ p ≤ 2 ^ 46 := (Nat.mul_le_mul hpow hpow).trans (by norm_num)
  have q1 : double ((c : ℝ) / 2 ^ (2 * p)) = (c : ℝ) / 2 ^ (2 * p) := by
    have := double_frac (c : ℤ) (2 * p) (by rw [Nat.abs_cast]; omega) (by omega)
    rwa [Int.cast_natCast] at this
  have q2 : double (1 - (c : ℝ) / 2 ^ (2 * p)) = 1 - (c : ℝ) / 2 ^ (2 * p) := by
    have hc' : (c : ℤ) ≤ 2 ^ p * 2 ^ p := by exact_mod_cast hc
    have h46' : (2 : ℤ) ^ p * 2 ^ p ≤ 2 ^ 46 := by exact_mod_cast h46
    have := double_frac ((2 : ℤ) ^ (2 * p) - c) (2 * p) (by
      rw [two_mul, pow_add, abs_of_nonneg (by linarith)]
      have : (0 : ℤ) ≤ c := by positivity
      linarith) (by omega)
    push_cast at this
    rwa [sub_div, div_self (by positivity)] at this
  rw [hpp]
  unfold toneD tone
  rw [q1, q2]

/-- A 16 × 12 mask of radius 5, off centre by 1/4 and -3/8, with 8 × 8 sub-pixels: the centre of a sub-pixel may lie on the circle itself, and counts as
inside. -/
example : circleD 16 12 (80 / 2 ^ 4) (4 / 2 ^ 4) (-6 / 2 ^ 4) 8 true = circle 16 12 (80 / 2 ^ 4) (4 / 2 ^ 4) (-6 / 2 ^ 4) 8 true := by
  have := C98_circle_dyadic 16 12 3 4 (by norm_num) (by norm_num) (by norm_num) (by norm_num) 4 (-6) 80 (by norm_num) (by norm_num) (by norm_num) true
  norm_num at this ⊢
  exact this

end Coralign.Props
