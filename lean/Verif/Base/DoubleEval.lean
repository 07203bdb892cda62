import Verif.Base.Double

/-!
# Evaluating double-precision arithmetic on rational numbers

`roundQ` is `double` on the rationals, in a form that can be evaluated.
-/

namespace Coralign

/-- `2 ^ z`. -/
def pow2Q (z : ℤ) : ℚ := if 0 ≤ z then ((2 ^ z.toNat : ℕ) : ℚ) else 1 / ((2 ^ (-z).toNat : ℕ) : ℚ)

/-- The binary logarithm of a positive rational, rounded down. -/
def logQ (a : ℚ) : ℤ :=
  let l : ℤ := (a.num.natAbs.log2 : ℤ) - (a.den.log2 : ℤ)
  if pow2Q l ≤ a then l else l - 1

/-- The double nearest to a rational number. -/
def roundQ (q : ℚ) : ℚ :=
  let u := pow2Q (max (logQ |q| - 52) (-1074))
  (npRound (q / u) : ℚ) * u

theorem pow2Q_cast (z : ℤ) : ((pow2Q z : ℚ) : ℝ) = (2 : ℝ) ^ z := by
  unfold pow2Q
  split_ifs with h
  · obtain ⟨n, rfl⟩ := Int.eq_ofNat_of_zero_le h
    push_cast
    rw [Int.toNat_natCast, zpow_natCast]
  · obtain ⟨n, hn⟩ := Int.eq_ofNat_of_zero_le (show 0 ≤ -z by omega)
    rw [show z = -(n : ℤ) by omega, neg_neg, Int.toNat_natCast, zpow_neg, zpow_natCast]
    push_cast
    rw [one_div]

theorem logQ_eq (a : ℚ) (ha : 0 < a) : logQ a = Int.log 2 (a : ℝ) := by
  have ha' : (0 : ℝ) < a := by exact_mod_cast ha
  have hn : 0 < a.num := Rat.num_pos.mpr ha
  have hn' : a.num.natAbs ≠ 0 := by omega
  have hd' : a.den ≠ 0 := a.den_nz
  have n1 := Nat.log2_self_le hn'
  have n2 : a.num.natAbs < 2 ^ (a.num.natAbs.log2 + 1) := Nat.lt_log2_self
  have d1 := Nat.log2_self_le hd'
  have d2 : a.den < 2 ^ (a.den.log2 + 1) := Nat.lt_log2_self
  have hq : (a : ℝ) = (a.num.natAbs : ℝ) / (a.den : ℝ) := by
    have h1 : ((a.num.natAbs : ℤ)) = a.num := by omega
    have h2 : (a.num.natAbs : ℝ) = (a.num : ℝ) := by rw [← Int.cast_natCast, h1]
    rw [h2]
    exact_mod_cast (Rat.num_div_den a).symm
  set p := a.num.natAbs.log2
  set s := a.den.log2
  have N1 : (2 : ℝ) ^ (p : ℤ) ≤ a.num.natAbs := by rw [zpow_natCast]; exact_mod_cast n1
  have N2 : (a.num.natAbs : ℝ) < (2 : ℝ) ^ ((p : ℤ) + 1) := by
    rw [show ((p : ℤ) + 1) = ((p + 1 : ℕ) : ℤ) by push_cast; ring, zpow_natCast]; exact_mod_cast n2
  have D1 : (2 : ℝ) ^ (s : ℤ) ≤ a.den := by rw [zpow_natCast]; exact_mod_cast d1
  have D2 : (a.den : ℝ) < (2 : ℝ) ^ ((s : ℤ) + 1) := by
    rw [show ((s : ℤ) + 1) = ((s + 1 : ℕ) : ℤ) by push_cast; ring, zpow_natCast]; exact_mod_cast d2
  have dpos : (0 : ℝ) < a.den := by exact_mod_cast Nat.pos_of_ne_zero hd'
  have up : (a : ℝ) < (2 : ℝ) ^ ((p : ℤ) - s + 1) := by
    rw [hq, div_lt_iff₀ dpos]
    refine N2.trans_le ?_
    calc (2 : ℝ) ^ ((p : ℤ) + 1) = (2 : ℝ) ^ ((p : ℤ) - s + 1) * (2 : ℝ) ^ (s : ℤ) := by rw [← two_zpow_add]; congr 1; ring
      _ ≤ _ := mul_le_mul_of_nonneg_left D1 (two_zpow_pos _).le
  have lo : (2 : ℝ) ^ ((p : ℤ) - s - 1) ≤ (a : ℝ) := by
    rw [hq, le_div_iff₀ dpos]
    refine le_trans ?_ N1
    calc (2 : ℝ) ^ ((p : ℤ) - s - 1) * (a.den : ℝ) ≤ (2 : ℝ) ^ ((p : ℤ) - s - 1) * (2 : ℝ) ^ ((s : ℤ) + 1) :=
          mul_le_mul_of_nonneg_left D2.le (two_zpow_pos _).le
      _ = _ := by rw [← two_zpow_add]; congr 1; ring
  have key : ∀ z : ℤ, (2 : ℝ) ^ z ≤ (a : ℝ) → (a : ℝ) < (2 : ℝ) ^ (z + 1) → z = Int.log 2 (a : ℝ) := by
    intro z h1 h2
    have k1 := (Int.zpow_le_iff_le_log (b := 2) (by norm_num) ha' (x := z)).mp (by exact_mod_cast h1)
    have k2 := (Int.lt_zpow_iff_log_lt (b := 2) (by norm_num) (x := z + 1) ha').mp (by exact_mod_cast h2)
    omega
  unfold logQ
  simp only
  split_ifs with h
  · refine key _ ?_ up
    have : ((pow2Q ((p : ℤ) - s) : ℚ) : ℝ) ≤ (a : ℝ) := by exact_mod_cast h
    rwa [pow2Q_cast] at this
  · refine key _ lo ?_
    rw [sub_add_cancel]
    have : (a : ℝ) < ((pow2Q ((p : ℤ) - s) : ℚ) : ℝ) := by exact_mod_cast not_le.mp h
    rwa [pow2Q_cast] at this

theorem npRound_cast (q : ℚ) : npRound (q : ℝ) = npRound q := by
  have hf : ⌊(q : ℝ)⌋ = ⌊q⌋ := Rat.floor_cast q
  have h1 : ((q : ℝ) - (⌊q⌋ : ℤ) < 1 / 2) ↔ (q - (⌊q⌋ : ℤ) < 1 / 2) := by
    rw [← Rat.cast_lt (K := ℝ)]; push_cast; rfl
  have h2 : (1 / 2 < (q : ℝ) - (⌊q⌋ : ℤ)) ↔ (1 / 2 < q - (⌊q⌋ : ℤ)) := by
    rw [← Rat.cast_lt (K := ℝ)]; push_cast; rfl
  unfold npRound
  rw [hf]
  simp only [h1, h2]

/-- The evaluator is correct. -/
theorem roundQ_cast (q : ℚ) : ((roundQ q : ℚ) : ℝ) = double (q : ℝ) := by
  by_cases hq : q = 0
  · subst hq
    unfold roundQ
    simp only [zero_div]
    have : npRound (0 : ℚ) = 0 := by exact_mod_cast npRound_intCast (K := ℚ) 0
    rw [this]
    simp
  · unfold roundQ double ulp
    simp only
    push_cast
    rw [pow2Q_cast, logQ_eq |q| (abs_pos.mpr hq), ← npRound_cast]
    push_cast
    rw [pow2Q_cast]

end Coralign
