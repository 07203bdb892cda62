import Verif.Model.VoltsDouble

/-!
# Property C99: the voltages in double precision
-/

namespace Coralign.Props

open Coralign

theorem twoPi_size : SizeIn 2 3 (double (2 * piD)) := by
  have h2 : SizeIn 1 1 (2 : ℝ) := by right; norm_num
  have := h2.mul piD_size
  exact SizeIn.double (by simpa using this) (by norm_num)

theorem twoPi_ne : double (2 * piD) ≠ 0 := by
  have h2 : (0 : ℝ) < 2 * piD := by rw [piD_eq]; norm_num
  rcases twoPi_size with h | h
  · have h4 : double 4 ≤ double (2 * piD) := double_mono (by rw [piD_eq]; norm_num)
    rw [h, show (4 : ℝ) = ((4 : ℤ) : ℝ) by norm_num, double_int 4 (by norm_num)] at h4
    norm_num at h4
  · intro h0
    rw [h0, abs_zero] at h
    have := two_zpow_pos 2
    linarith [h.1]

/-- The constant of the program against 2π. -/
theorem twoPi_near : ∃ q, Near 2 q ∧ double (2 * piD) = 2 * Real.pi * q := by
  obtain ⟨d, hd, e⟩ := pi_size.rel (by norm_num)
  have h2 : SizeIn 1 1 (2 : ℝ) := by right; norm_num
  obtain ⟨d', hd', e'⟩ := (h2.mul piD_size).rel (by norm_num)
  refine ⟨1 * (1 + d) * (1 + d'), (near_one.step hd (by norm_num)).step hd' (by norm_num), ?_⟩
  rw [e']
  unfold piD
  rw [e]
  ring

theorem SizeIn.wide {a b : ℤ} {x : ℝ} (h : SizeIn a b x) {a' b' : ℤ} (ha : a' ≤ a) (hb : b ≤ b') : SizeIn a' b' x := by
  rcases h with h | h
  · exact .inl h
  · exact .inr ⟨(two_zpow_mono ha).trans h.1, h.2.trans (two_zpow_mono hb)⟩

/-- Specification of a helper: multiplying by `P` is like three roundings. -/
def Three (P : ℝ) : Prop := ∀ n x, n ≤ 10 → Near n x → Near (n + 3) (x * P)

theorem three_of {d1 d2 d3 : ℝ} (h1 : |d1| ≤ roundoff) (h2 : |d2| ≤ roundoff) (h3 : |d3| ≤ roundoff) : Three ((1 + d1) * (1 + d2) * (1 + d3)) := by
  intro n x hn hx
  have := ((hx.step h1 (by omega)).step h2 (by omega)).step h3 (by omega)
  rwa [← mul_assoc, ← mul_assoc]

/-- Three roundings on the way to volts. -/
theorem voltsOfD_near {g h lam : ℝ} (hl : SizeIn (-100) 100 lam) (hg : SizeIn (-100) 100 g) {a b : ℤ} (ha : -800 ≤ a) (hh : SizeIn a b h) :
    SizeIn (a - 203) (b + 198) (voltsOfD g h lam) ∧ ∃ P, Three P ∧ voltsOfD g h lam = h * lam / double (2 * piD) / g * P := by
  have s1 := hh.mul hl
  obtain ⟨d1, h1, e1⟩ := s1.rel (by omega)
  have s1' := s1.double (by omega)
  have s2 := s1'.div twoPi_size
  obtain ⟨d2, h2, e2⟩ := s2.rel (by omega)
  have s2' := s2.double (by omega)
  have s3 := s2'.div hg
  obtain ⟨d3, h3, e3⟩ := s3.rel (by omega)
  have s3' := s3.double (by omega)
  refine ⟨SizeIn.wide s3' (by omega) (by omega), _, three_of h1 h2 h3, ?_⟩
  unfold voltsOfD
  rw [e3, e2, e1]
  ring

/-- And three on the way back. -/
theorem dmhOfD_near {g v lam : ℝ} (hl : SizeIn (-100) 100 lam) (hg : SizeIn (-100) 100 g) {a b : ℤ} (ha : -800 ≤ a) (hv : SizeIn a b v) :
    SizeIn (a - 198) (b + 203) (dmhOfD g v lam) ∧ ∃ P, Three P ∧ dmhOfD g v lam = v / lam * double (2 * piD) * g * P := by
  have s1 := hv.div hl
  obtain ⟨d1, h1, e1⟩ := s1.rel (by omega)
  have s1' := s1.double (by omega)
  have s2 := s1'.mul twoPi_size
  obtain ⟨d2, h2, e2⟩ := s2.rel (by omega)
  have s2' := s2.double (by omega)
  have s3 := s2'.mul hg
  obtain ⟨d3, h3, e3⟩ := s3.rel (by omega)
  have s3' := s3.double (by omega)
  refine ⟨SizeIn.wide s3' (by omega) (by omega), _, three_of h1 h2 h3, ?_⟩
  unfold dmhOfD
  rw [e3, e2, e1]
  ring

theorem near_mul {a y : ℝ} {n : ℕ} (hy : Near n y) (hn : n ≤ 7) : |a * y - a| ≤ |a| / 2 ^ 50 := by
  rw [show a * y - a = a * (y - 1) by ring, abs_mul]
  calc _ ≤ |a| * (1 / 2 ^ 50) := mul_le_mul_of_nonneg_left (hy.le hn) (abs_nonneg _)
    _ = _ := by ring

theorem trip_heights {g h lam : ℝ} (hl : lam ≠ 0) (hls : SizeIn (-100) 100 lam) (hg0 : g ≠ 0) (hg : SizeIn (-100) 100 g) (hh : SizeIn (-500) 500 h) :
    |dmhOfD g (voltsOfD g h lam) lam - h| ≤ |h| / 2 ^ 50 := by
  obtain ⟨s, P, hP, eP⟩ := voltsOfD_near hls hg (by norm_num) hh
  obtain ⟨-, Q, hQ, eQ⟩ := dmhOfD_near hls hg (by norm_num) s
  have hc := twoPi_ne
  have e : dmhOfD g (voltsOfD g h lam) lam = h * (1 * P * Q) := by
    rw [eQ, eP]
    field_simp
  rw [e]
  exact near_mul (hQ _ _ (by norm_num) (hP _ _ (by norm_num) near_one)) (by norm_num)

theorem trip_volts {g v lam : ℝ} (hl : lam ≠ 0) (hls : SizeIn (-100) 100 lam) (hg0 : g ≠ 0) (hg : SizeIn (-100) 100 g) (hv : SizeIn (-500) 500 v) :
    |voltsOfD g (dmhOfD g v lam) lam - v| ≤ |v| / 2 ^ 50 := by
  obtain ⟨s, P, hP, eP⟩ := dmhOfD_near hls hg (by norm_num) hv
  obtain ⟨-, Q, hQ, eQ⟩ := voltsOfD_near hls hg (by norm_num) s
  have hc := twoPi_ne
  have e : voltsOfD g (dmhOfD g v lam) lam = v * (1 * P * Q) := by
    rw [eQ, eP]
    field_simp
  rw [e]
  exact near_mul (hQ _ _ (by norm_num) (hP _ _ (by norm_num) near_one)) (by norm_num)

theorem quot_close {P q : ℝ} (hP : Near 3 P) (hq : Near 2 q) : q ≠ 0 ∧ |P / q - 1| ≤ 1 / 2 ^ 50 := by
  unfold Near at *
  rw [roundoff_eq] at *
  rw [abs_le] at hP hq
  norm_num at hP hq
  have hq0 : 0 < q := by linarith [hq.1]
  refine ⟨hq0.ne', ?_⟩
  rw [show P / q - 1 = (P - q) / q by field_simp, abs_div, abs_of_pos hq0, div_le_iff₀ hq0, abs_le]
  constructor <;> norm_num <;> linarith [hP.1, hP.2, hq.1, hq.2]

theorem volts_accurate {g h lam : ℝ} (hls : SizeIn (-100) 100 lam) (hg0 : g ≠ 0) (hg : SizeIn (-100) 100 g) (hh : SizeIn (-500) 500 h) :
    |voltsOfD g h lam - h * lam / (2 * Real.pi) / g| ≤ |h * lam / (2 * Real.pi) / g| / 2 ^ 50 := by
  obtain ⟨-, P, hP, eP⟩ := voltsOfD_near hls hg (by norm_num) hh
  obtain ⟨q, hq, eq⟩ := twoPi_near
  have hP' := hP _ _ (by norm_num) near_one
  rw [one_mul] at hP'
  obtain ⟨hq0, hb⟩ := quot_close hP' hq
  have hpi := Real.pi_ne_zero
  rw [eP, eq]
  generalize hx : h * lam / (2 * Real.pi) / g = x
  rw [show h * lam / (2 * Real.pi * q) / g * P = x * (P / q) by rw [← hx]; field_simp, show x * (P / q) - x = x * (P / q - 1) by ring, abs_mul]
  calc _ ≤ |x| * (1 / 2 ^ 50) := mul_le_mul_of_nonneg_left hb (abs_nonneg _)
    _ = _ := by ring

theorem heights_accurate {g v lam : ℝ} (hls : SizeIn (-100) 100 lam) (hg : SizeIn (-100) 100 g) (hv : SizeIn (-500) 500 v) :
    |dmhOfD g v lam - v / lam * (2 * Real.pi) * g| ≤ |v / lam * (2 * Real.pi) * g| / 2 ^ 50 := by
  obtain ⟨-, P, hP, eP⟩ := dmhOfD_near hls hg (by norm_num) hv
  obtain ⟨q, hq, eq⟩ := twoPi_near
  have h5 := hP _ _ (by norm_num) hq
  rw [eP, eq, show v / lam * (2 * Real.pi * q) * g * P = v / lam * (2 * Real.pi) * g * (q * P) by ring]
  exact near_mul h5 (by norm_num)

theorem dmhToVoltsD_eq (n m : ℕ) (g h : Fin n → Fin m → ℝ) (lam : ℝ) (hl : 0 < lam) :
    dmhToVoltsD ⟨n, m, g⟩ ⟨n, m, h⟩ lam = .ok ⟨n, m, fun i j => voltsOfD (g i j) (h i j) lam⟩ := by
  unfold dmhToVoltsD
  simp only [if_neg (not_le.mpr hl), and_self, dite_true, Fin.cast_eq_self]

theorem voltsToDmhD_eq (n m : ℕ) (g v : Fin n → Fin m → ℝ) (lam : ℝ) (hl : 0 < lam) :
    voltsToDmhD ⟨n, m, g⟩ ⟨n, m, v⟩ lam = .ok ⟨n, m, fun i j => dmhOfD (g i j) (v i j) lam⟩ := by
  unfold voltsToDmhD
  simp only [if_neg (not_le.mpr hl), and_self, dite_true, Fin.cast_eq_self]

theorem subCmdD_eq (n m : ℕ) (c d : Fin n → Fin m → ℝ) : subCmdD ⟨n, m, c⟩ ⟨n, m, d⟩ = .ok ⟨n, m, fun i j => double (c i j - d i j)⟩ := by
  unfold subCmdD
  simp only [and_self, dite_true, Fin.cast_eq_self]

theorem px_mk (n m : ℕ) (v : Fin n → Fin m → ℝ) (i : Fin n) (j : Fin m) : (⟨n, m, v⟩ : Arr2 ℝ).px (i : ℕ) (j : ℕ) = some (v i j) :=
  Arr2.px_val (⟨n, m, v⟩ : Arr2 ℝ) i j

/-- Specification: a wavelength and a gain map for which the conversions neither overflow nor underflow: no gain is zero, and all are between
`2 ^ -100` and `2 ^ 100` in size. -/
structure FairUnits {n m : ℕ} (g : Fin n → Fin m → ℝ) (lam : ℝ) : Prop where
  pos : 0 < lam
  wavelength : SizeIn (-100) 100 lam
  nonzero : ∀ i j, g i j ≠ 0
  gains : ∀ i j, SizeIn (-100) 100 (g i j)

/-- **C99.** In double precision the two conversions undo each other up to one part in `2 ^ 50`, for heights and voltages of any size between
`2 ^ -500` and `2 ^ 500`, and exactly at zero. -/
theorem C99_round_trip (n m : ℕ) (g h : Fin n → Fin m → ℝ) (lam : ℝ) (hu : FairUnits g lam) (hh : ∀ i j, SizeIn (-500) 500 (h i j)) :
    (∃ v b, dmhToVoltsD ⟨n, m, g⟩ ⟨n, m, h⟩ lam = .ok v ∧ voltsToDmhD ⟨n, m, g⟩ v lam = .ok b ∧ b.nr = n ∧ b.nc = m ∧
      ∀ (i : Fin n) (j : Fin m), ∃ x, b.px (i : ℕ) (j : ℕ) = some x ∧ |x - h i j| ≤ |h i j| / 2 ^ 50) ∧
    (∃ d b, voltsToDmhD ⟨n, m, g⟩ ⟨n, m, h⟩ lam = .ok d ∧ dmhToVoltsD ⟨n, m, g⟩ d lam = .ok b ∧ b.nr = n ∧ b.nc = m ∧
      ∀ (i : Fin n) (j : Fin m), ∃ x, b.px (i : ℕ) (j : ℕ) = some x ∧ |x - h i j| ≤ |h i j| / 2 ^ 50) := by
  have hl := hu.pos
  refine ⟨⟨_, _, dmhToVoltsD_eq n m g h lam hl, voltsToDmhD_eq n m g _ lam hl, rfl, rfl, fun i j => ⟨_, px_mk n m _ i j, ?_⟩⟩,
    ⟨_, _, voltsToDmhD_eq n m g h lam hl, dmhToVoltsD_eq n m g _ lam hl, rfl, rfl, fun i j => ⟨_, px_mk n m _ i j, ?_⟩⟩⟩
  · exact trip_heights hl.ne' hu.wavelength (hu.nonzero i j) (hu.gains i j) (hh i j)
  · exact trip_volts hl.ne' hu.wavelength (hu.nonzero i j) (hu.gains i j) (hh i j)

/-- **C99.** Each conversion is within one part in `2 ^ 50` of the exact one, with the true π. -/
theorem C99_accurate (n m : ℕ) (g h : Fin n → Fin m → ℝ) (lam : ℝ) (hu : FairUnits g lam) (hh : ∀ i j, SizeIn (-500) 500 (h i j)) :
    ∃ v d, dmhToVoltsD ⟨n, m, g⟩ ⟨n, m, h⟩ lam = .ok v ∧ voltsToDmhD ⟨n, m, g⟩ ⟨n, m, h⟩ lam = .ok d ∧
      ∀ (i : Fin n) (j : Fin m), ∃ x y, v.px (i : ℕ) (j : ℕ) = some x ∧ d.px (i : ℕ) (j : ℕ) = some y ∧
        |x - h i j * lam / (2 * Real.pi) / g i j| ≤ |h i j * lam / (2 * Real.pi) / g i j| / 2 ^ 50 ∧
        |y - h i j / lam * (2 * Real.pi) * g i j| ≤ |h i j / lam * (2 * Real.pi) * g i j| / 2 ^ 50 := by
  have hl := hu.pos
  refine ⟨_, _, dmhToVoltsD_eq n m g h lam hl, voltsToDmhD_eq n m g h lam hl, fun i j => ⟨_, _, px_mk n m _ i j, px_mk n m _ i j, ?_, ?_⟩⟩
  · exact volts_accurate hu.wavelength (hu.nonzero i j) (hu.gains i j) (hh i j)
  · exact heights_accurate hu.wavelength (hu.gains i j) (hh i j)

/-- **C99.** The round trip is not exact: at unit gain and wavelength a height of 7 comes back as `7 + 2 ^ -50`. -/
theorem C99_round_trip_inexact : FairUnits (fun _ _ : Fin 1 => (1 : ℝ)) 1 ∧ ∃ v b,
    dmhToVoltsD ⟨1, 1, fun _ _ => 1⟩ ⟨1, 1, fun _ _ => 7⟩ 1 = .ok v ∧ voltsToDmhD ⟨1, 1, fun _ _ => 1⟩ v 1 = .ok b ∧
      b.px 0 0 = some (7 + 1 / 2 ^ 50) := by
  have s1 : SizeIn (-100) 100 (1 : ℝ) := by
    right
    rw [abs_one]
    have h1 := two_zpow_mono (show (-100 : ℤ) ≤ 0 by norm_num)
    have h2 := two_zpow_mono (show (0 : ℤ) ≤ 100 by norm_num)
    rw [zpow_zero] at h1 h2
    exact ⟨h1, h2⟩
  refine ⟨⟨one_pos, s1, fun _ _ => one_ne_zero, fun _ _ => s1⟩, _, _, dmhToVoltsD_eq 1 1 _ _ 1 one_pos, voltsToDmhD_eq 1 1 _ _ 1 one_pos, ?_⟩
  refine (px_mk 1 1 _ 0 0).trans ?_
  congr 1
  have hz : ∀ k : ℕ, (2 : ℝ) ^ (-(k : ℤ)) = 1 / 2 ^ k := fun k => by rw [zpow_neg, one_div, zpow_natCast]
  have hc : double (2 * piD) = 884279719003555 / 2 ^ 47 := by
    rw [piD_eq, double_eq_of_near 7074237752028440 (-(50 : ℕ)) (by norm_num) (by norm_num) (by norm_num), hz]
    · norm_num
    · rw [hz]; norm_num
  have h7 : double ((7 : ℝ) * 1) = 7 := by
    rw [mul_one, show (7 : ℝ) = ((7 : ℤ) : ℝ) by norm_num, double_int 7 (by norm_num)]
  have hv : voltsOfD 1 7 1 = 5017390996819827 / 2 ^ 52 := by
    unfold voltsOfD
    rw [h7, hc, div_one, double_double, double_eq_of_near 5017390996819827 (-(52 : ℕ)) (by norm_num) (by norm_num) (by norm_num), hz]
    · norm_num
    · rw [hz]; norm_num [abs_lt]
  have hvd : double (5017390996819827 / 2 ^ 52) = 5017390996819827 / 2 ^ 52 := by
    rw [double_eq_of_near 5017390996819827 (-(52 : ℕ)) (by norm_num) (by norm_num) (by norm_num), hz]
    · norm_num
    · rw [hz]; norm_num
  show dmhOfD 1 (voltsOfD 1 7 1) 1 = _
  rw [hv]
  unfold dmhOfD
  rw [div_one, hvd, hc, mul_one, double_double, double_eq_of_near 7881299347898369 (-(50 : ℕ)) (by norm_num) (by norm_num) (by norm_num), hz]
  · norm_num
  · rw [hz]; norm_num [abs_lt]

/-- **C99.** A higher demand is never answered by a lower voltage, opposite demands get exactly opposite voltages, and no demand exactly none: at
every actuator of positive gain, or for the last two of gain that is not zero. -/
theorem C99_monotone (n m : ℕ) (g h₁ h₂ : Fin n → Fin m → ℝ) (lam : ℝ) (hl : 0 < lam) :
    ∃ v₁ v₂ w, dmhToVoltsD ⟨n, m, g⟩ ⟨n, m, h₁⟩ lam = .ok v₁ ∧ dmhToVoltsD ⟨n, m, g⟩ ⟨n, m, h₂⟩ lam = .ok v₂ ∧
      dmhToVoltsD ⟨n, m, g⟩ ⟨n, m, fun i j => -h₁ i j⟩ lam = .ok w ∧
      ∀ (i : Fin n) (j : Fin m), ∃ x y z, v₁.px (i : ℕ) (j : ℕ) = some x ∧ v₂.px (i : ℕ) (j : ℕ) = some y ∧ w.px (i : ℕ) (j : ℕ) = some z ∧
        (0 < g i j → h₁ i j ≤ h₂ i j → x ≤ y) ∧ (g i j ≠ 0 → z = -x ∧ (h₁ i j = 0 → x = 0)) := by
  refine ⟨_, _, _, dmhToVoltsD_eq n m g h₁ lam hl, dmhToVoltsD_eq n m g h₂ lam hl, dmhToVoltsD_eq n m g _ lam hl, fun i j =>
    ⟨_, _, _, px_mk n m _ i j, px_mk n m _ i j, px_mk n m _ i j, fun hg hh => ?_, fun _ => ⟨?_, fun h0 => ?_⟩⟩⟩
  · have hc : 0 < double (2 * piD) := lt_of_le_of_ne (double_nonneg (by rw [piD_eq]; norm_num)) twoPi_ne.symm
    exact double_mono (div_le_div_of_nonneg_right (double_mono (div_le_div_of_nonneg_right (double_mono (mul_le_mul_of_nonneg_right hh hl.le)) hc.le)) hg.le)
  · show voltsOfD _ _ _ = -voltsOfD _ _ _
    unfold voltsOfD
    rw [neg_mul, double_neg, neg_div, double_neg, neg_div, double_neg]
  · show voltsOfD _ _ _ = 0
    unfold voltsOfD
    rw [h0, zero_mul, double_zero, zero_div, double_zero, zero_div, double_zero]

/-- **C99.** An actuator of which no height is asked - `flatten` sets the heights of dead actuators to zero - keeps its command to the last bit, unless its
gain is zero (see C121). -/
theorem C99_dead_exact (n m : ℕ) (g h cmd : Fin n → Fin m → ℝ) (lam : ℝ) (hl : 0 < lam) :
    ∃ d o, dmhToVoltsD ⟨n, m, g⟩ ⟨n, m, h⟩ lam = .ok d ∧ subCmdD ⟨n, m, cmd⟩ d = .ok o ∧
      ∀ (i : Fin n) (j : Fin m), h i j = 0 → g i j ≠ 0 → double (cmd i j) = cmd i j → o.px (i : ℕ) (j : ℕ) = some (cmd i j) := by
  refine ⟨_, _, dmhToVoltsD_eq n m g h lam hl, subCmdD_eq n m cmd _, fun i j h0 _ hc => ?_⟩
  refine (px_mk n m _ i j).trans ?_
  congr 1
  show double (cmd i j - voltsOfD (g i j) (h i j) lam) = cmd i j
  unfold voltsOfD
  rw [h0, zero_mul, double_zero, zero_div, double_zero, zero_div, double_zero, sub_zero, hc]

theorem quot_close4 {P q : ℝ} (hP : Near 4 P) (hq : Near 2 q) : q ≠ 0 ∧ |P / q - 1| ≤ 1 / 2 ^ 50 := by
  unfold Near at *
  rw [roundoff_eq] at *
  rw [abs_le] at hP hq
  norm_num at hP hq
  have hq0 : 0 < q := by linarith [hq.1]
  refine ⟨hq0.ne', ?_⟩
  rw [show P / q - 1 = (P - q) / q by field_simp, abs_div, abs_of_pos hq0, div_le_iff₀ hq0, abs_le]
  constructor <;> norm_num <;> linarith [hP.1, hP.2, hq.1, hq.2]

/-- The focus step before rounding to a whole number. -/
theorem focus_error {z4 lam f s : ℝ} (hz : SizeIn (-500) 500 z4) (hls : SizeIn (-100) 100 lam) (hf : SizeIn (-100) 100 f) (hs : SizeIn (-100) 100 s) :
    |double (double (double (double (z4 * lam) / double (2 * piD)) / f) / s) - z4 * lam / (2 * Real.pi) / f / s| ≤
      |z4 * lam / (2 * Real.pi) / f / s| / 2 ^ 50 := by
  obtain ⟨s3, P, hP, eP⟩ := voltsOfD_near hls hf (by norm_num) hz
  have s4 := s3.div hs
  obtain ⟨d4, h4, e4⟩ := s4.rel (by norm_num)
  obtain ⟨q, hq, eq⟩ := twoPi_near
  have hP' := hP _ _ (by norm_num) near_one
  rw [one_mul] at hP'
  obtain ⟨hq0, hb⟩ := quot_close4 (hP'.step h4 (by norm_num)) hq
  have hpi := Real.pi_ne_zero
  show |double (voltsOfD f z4 lam / s) - _| ≤ _
  rw [e4, eP, eq]
  generalize hx : z4 * lam / (2 * Real.pi) / f / s = x
  have hx' : z4 * lam / (2 * Real.pi * q) / f * P / s * (1 + d4) = x * (P * (1 + d4) / q) := by
    rw [← hx]
    simp only [div_eq_mul_inv, mul_inv]
    ring
  rw [hx', show ∀ r : ℝ, x * r - x = x * (r - 1) by intro r; ring, abs_mul]
  calc _ ≤ |x| * (1 / 2 ^ 50) := mul_le_mul_of_nonneg_left hb (abs_nonneg _)
    _ = _ := by ring

/-- **C99.** A focus mechanism that is not used stays where it is, and a calibration of zero is refused when it is used. -/
theorem C99_focus_kept (cmd : ℤ) (z4 lam : ℝ) (fc : FcmCal) :
    fcmStepD false cmd z4 lam fc = .ok cmd ∧
      ((∃ k, fcmStepD true cmd z4 lam fc = .ok k) ↔ fc.focusPerStroke ≠ 0 ∧ fc.strokePerStep ≠ 0) := by
  refine ⟨rfl, ?_⟩
  unfold fcmStepD
  rw [if_pos rfl]
  split_ifs with h
  · refine ⟨fun ⟨_, hk⟩ => ?_, fun hk => absurd h (by tauto)⟩
    cases hk
  · exact ⟨fun _ => by tauto, fun _ => ⟨_, rfl⟩⟩

/-- **C99.** The new focus-mechanism command in double precision is a whole step within half a step of the exact answer `t`, up to the rounding
errors of numbers of that size; where `t` is not that close to the middle between two steps, it is the nearest step. -/
theorem C99_focus (cmd : ℤ) (hcmd : |cmd| ≤ 2 ^ 53) (z4 lam : ℝ) (fc : FcmCal) (hz : SizeIn (-500) 500 z4) (hls : SizeIn (-100) 100 lam)
    (hf0 : fc.focusPerStroke ≠ 0) (hf : SizeIn (-100) 100 fc.focusPerStroke) (hs0 : fc.strokePerStep ≠ 0) (hs : SizeIn (-100) 100 fc.strokePerStep)
    (step : ℝ) (hstep : step = z4 * lam / (2 * Real.pi) / fc.focusPerStroke / fc.strokePerStep) :
    ∃ k, fcmStepD true cmd z4 lam fc = .ok k ∧ |(k : ℝ) - (cmd + step)| ≤ 1 / 2 + (|(cmd : ℝ)| + |step| + 1) / 2 ^ 49 ∧
      ∀ t : ℤ, |(cmd + step : ℝ) - t| + (|(cmd : ℝ)| + |step| + 1) / 2 ^ 49 < 1 / 2 → k = t := by
  have hfe := focus_error hz hls hf hs
  rw [← hstep] at hfe
  unfold fcmStepD
  simp only [if_true]
  rw [if_neg (not_or.mpr ⟨hf0, hs0⟩)]
  generalize double (double (double (double (z4 * lam) / double (2 * piD)) / fc.focusPerStroke) / fc.strokePerStep) = D at hfe ⊢
  refine ⟨_, rfl, ?_⟩
  rw [double_int cmd hcmd]
  have h1 := double_error ((cmd : ℝ) + D)
  rw [roundoff_eq] at h1
  have hu : underflow ≤ 1 / 2 ^ 53 := by
    rw [← roundoff_eq]
    exact two_zpow_mono (by norm_num)
  have hD : |D| ≤ 2 * |step| := by
    have : |D| ≤ |D - step| + |step| := by
      have := abs_add_le (D - step) step
      rwa [sub_add_cancel] at this
    have h0 := abs_nonneg step
    have : |step| / 2 ^ 50 ≤ |step| := by rw [div_le_iff₀ (by norm_num)]; linarith
    linarith
  have hcD := abs_add_le (cmd : ℝ) D
  have key : |double ((cmd : ℝ) + D) - (cmd + step)| ≤ (|(cmd : ℝ)| + |step| + 1) / 2 ^ 49 := by
    have e : double ((cmd : ℝ) + D) - (cmd + step) = (double ((cmd : ℝ) + D) - (cmd + D)) + (D - step) := by ring
    rw [e]
    refine (abs_add_le _ _).trans ?_
    have ha := abs_nonneg (cmd : ℝ)
    have hb := abs_nonneg step
    have : (|(cmd : ℝ)| + |step| + 1) / 2 ^ 49 = 16 * (1 / 2 ^ 53) * (|(cmd : ℝ)| + |step| + 1) := by norm_num; ring
    rw [this]
    have e50 : |step| / 2 ^ 50 = 8 * (1 / 2 ^ 53) * |step| := by norm_num; ring
    rw [e50] at hfe
    have h2 : (1 / 2 ^ 53 : ℝ) * |(cmd : ℝ) + D| ≤ 1 / 2 ^ 53 * (|(cmd : ℝ)| + 2 * |step|) :=
      mul_le_mul_of_nonneg_left (by linarith) (by positivity)
    have hp : (0 : ℝ) < 1 / 2 ^ 53 := by positivity
    generalize (1 / 2 ^ 53 : ℝ) = r at *
    nlinarith
  have hk := abs_sub_npRound_le (double ((cmd : ℝ) + D))
  constructor
  · have e : (npRound (double ((cmd : ℝ) + D)) : ℝ) - (cmd + step) =
        -(double ((cmd : ℝ) + D) - npRound (double ((cmd : ℝ) + D))) + (double ((cmd : ℝ) + D) - (cmd + step)) := by ring
    rw [e]
    refine (abs_add_le _ _).trans ?_
    rw [abs_neg]
    linarith
  · intro t ht
    refine npRound_eq_of_abs_lt ?_
    have e : double ((cmd : ℝ) + D) - t = (double ((cmd : ℝ) + D) - (cmd + step)) + ((cmd + step : ℝ) - t) := by ring
    rw [e]
    refine (abs_add_le _ _).trans_lt ?_
    linarith

/-! ### A case -/

theorem size_of {k : ℤ} {x : ℝ} (hx : x ≠ 0) (h1 : (1 : ℝ) / 2 ^ 40 ≤ |x|) (h2 : |x| ≤ 2 ^ 40) (hk : 40 ≤ k) : SizeIn (-k) k x := by
  right
  have e1 : (2 : ℝ) ^ (-40 : ℤ) = 1 / 2 ^ 40 := by rw [zpow_neg, one_div]; norm_cast
  have e2 : (2 : ℝ) ^ (40 : ℤ) = 2 ^ 40 := by norm_cast
  have g1 := two_zpow_mono (show -k ≤ -40 by omega)
  have g2 := two_zpow_mono hk
  rw [e1] at g1
  rw [e2] at g2
  exact ⟨g1.trans h1, h2.trans g2⟩

/-- Realistic numbers: 575 nm, gains of a few nanometres per volt. -/
example : FairUnits (fun i j : Fin 2 => (4e-9 : ℝ) + i * 1e-9 + j * 2e-9) 575e-9 where
  pos := by norm_num
  wavelength := size_of (by norm_num) (by rw [abs_of_pos] <;> norm_num) (by rw [abs_of_pos] <;> norm_num) (by norm_num)
  nonzero := by intro i j; fin_cases i <;> fin_cases j <;> norm_num
  gains := by
    intro i j
    refine size_of (by fin_cases i <;> fin_cases j <;> norm_num) ?_ ?_ (by norm_num) <;> fin_cases i <;> fin_cases j <;> simp <;> norm_num [abs_of_pos]

/-- A focus error of one radian at 575 nm, with 10 nm of focus per micrometre of stroke and 0.1 micrometres per step: 91.51 steps, so 92 on top of
the 5000 commanded. -/
example : ∃ k, fcmStepD true 5000 1 575e-9 ⟨1e-2, 1e-7⟩ = .ok k ∧ k = 5092 := by
  obtain ⟨k, hk, -, ht⟩ := C99_focus 5000 (by norm_num) 1 575e-9 ⟨1e-2, 1e-7⟩ (size_of (by norm_num) (by norm_num) (by norm_num) (by norm_num))
    (size_of (by norm_num) (by rw [abs_of_pos] <;> norm_num) (by rw [abs_of_pos] <;> norm_num) (by norm_num)) (by norm_num)
    (size_of (by norm_num) (by rw [abs_of_pos] <;> norm_num) (by rw [abs_of_pos] <;> norm_num) (by norm_num)) (by norm_num)
    (size_of (by norm_num) (by rw [abs_of_pos] <;> norm_num) (by rw [abs_of_pos] <;> norm_num) (by norm_num)) _ rfl
  refine ⟨k, hk, ht 5092 ?_⟩
  have h1 := Real.pi_gt_d4
  have h2 := Real.pi_lt_d4
  have hp := Real.pi_pos
  have e : (1 : ℝ) * 575e-9 / (2 * Real.pi) / 1e-2 / 1e-7 = 287.5 / Real.pi := by norm_num; field_simp; norm_num
  have l1 : (91.51 : ℝ) < 287.5 / Real.pi := by rw [lt_div_iff₀ hp]; norm_num at h2 ⊢; linarith
  have l2 : 287.5 / Real.pi < (91.52 : ℝ) := by rw [div_lt_iff₀ hp]; norm_num at h1 ⊢; linarith
  show |((5000 : ℤ) : ℝ) + 1 * 575e-9 / (2 * Real.pi) / 1e-2 / 1e-7 - ((5092 : ℤ) : ℝ)| +
    (|((5000 : ℤ) : ℝ)| + |1 * 575e-9 / (2 * Real.pi) / 1e-2 / 1e-7| + 1) / 2 ^ 49 < 1 / 2
  rw [e, abs_of_pos (show 0 < 287.5 / Real.pi by linarith)]
  push_cast
  rw [abs_of_pos (show (0 : ℝ) < 5000 by norm_num), abs_of_neg (by linarith)]
  norm_num at l1 l2 ⊢
  linarith

end Coralign.Props
