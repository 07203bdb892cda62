import Verif.Props.PlateSolvDouble
import Verif.Props.PlateSolvCases

/-!
# C101: where the plate scale search of double precision leaves that of exact arithmetic
-/

namespace Coralign.Props

open Coralign Coralign.Spec

/-- The double nearest to a number just above a power of two. -/
theorem double_eq_of_above (e : ℤ) (he : -1074 ≤ e) {x : ℝ} (h1 : (2 : ℝ) ^ (52 + e) ≤ x) (h2 : x < (2 : ℝ) ^ (52 + e) + (2 : ℝ) ^ e / 2) : double x = (2 : ℝ) ^ (52 + e) := by
  have hp := two_zpow_pos e
  have g1 : (2 : ℝ) ^ (52 + e) = 2 ^ 52 * (2 : ℝ) ^ e := by rw [two_zpow_add]; norm_cast
  have b2 : x < (2 : ℝ) ^ (52 + e + 1) := by
    have : (2 : ℝ) ^ (52 + e + 1) = 2 * (2 : ℝ) ^ (52 + e) := by rw [two_zpow_add, zpow_one]; ring
    rw [this]
    rw [g1] at h1 h2 ⊢
    linarith
  have hx : 0 < x := (two_zpow_pos _).trans_le h1
  have hlog : Int.log 2 |x| = 52 + e := by
    rw [abs_of_pos hx]
    have l1 := (Int.zpow_le_iff_le_log (b := 2) (by norm_num) hx (x := 52 + e)).mp (by exact_mod_cast h1)
    have l2 := (Int.lt_zpow_iff_log_lt (b := 2) (by norm_num) (x := 52 + e + 1) hx).mp (by exact_mod_cast b2)
    omega
  have hu : ulp x = (2 : ℝ) ^ e := by
    unfold ulp
    rw [hlog, max_eq_left (by omega)]
    congr 1
    ring
  unfold double
  rw [hu, npRound_eq_of_abs_lt (n := 2 ^ 52), g1]
  · push_cast
    ring
  rw [show x / (2 : ℝ) ^ e - ((2 ^ 52 : ℤ) : ℝ) = (x - 2 ^ 52 * (2 : ℝ) ^ e) / (2 : ℝ) ^ e by push_cast; field_simp; norm_num, abs_div, abs_of_pos hp, div_lt_iff₀ hp, abs_lt]
  rw [g1] at h1 h2
  constructor <;> linarith

/-- The search width of the parameter file in the package, `ps_wid: 0.2`. -/
theorem fifthD : double (1 / 5) = 3602879701896397 / 2 ^ 54 := by
  rw [double_eq_of_near 7205759403792794 (-55) (by norm_num) (by norm_num) (by norm_num) (by norm_num [abs_lt])]
  norm_num

/-- Its interpolation step, `interp_step_size: 0.0001`. -/
theorem tenThousandthD : double (1 / 10000) = 7378697629483821 / 2 ^ 66 := by
  rw [double_eq_of_near 7378697629483821 (-66) (by norm_num) (by norm_num) (by norm_num) (by norm_num [abs_lt])]
  norm_num

theorem sevenD : double (7 / 100000) = 2582544170319337 / 2 ^ 65 := by
  rw [double_eq_of_near 5165088340638674 (-66) (by norm_num) (by norm_num) (by norm_num) (by norm_num [abs_lt])]
  norm_num

theorem double_dyadic (m : ℤ) (k : ℕ) (hm : |m| < 2 ^ 53) (hk : k ≤ 1074) : double ((m : ℝ) / 2 ^ k) = m / 2 ^ k := by
  have := double_of_bits m (-k) hm (by omega)
  rw [zpow_neg, zpow_natCast, ← div_eq_mul_inv] at this
  exact this

/-- For a guess of 2.5 pixels the ten plate scales start at 2 and end a little above 2.9. -/
theorem default_pix {pix : List ℝ} (h : arangeD .zeroDivisionError (double ((5 / 2 : ℝ) - double (5 / 2 * double (1 / 5)))) (double (5 / 2 + double (5 / 2 * double (1 / 5))))
    (double (double (5 / 2 * double (1 / 5)) / double (((10 : ℕ) : ℝ) / 2))) = .ok pix) :
    pix.length = 10 ∧ pix[0]? = some 2 ∧ pix[9]? = some (6530219459687221 / 2 ^ 51) := by
  have w1 : double (5 / 2 * double (1 / 5)) = 1 / 2 := by
    rw [fifthD, double_eq_of_above (-53) (by norm_num) (by norm_num) (by norm_num)]
    norm_num
  have w2 : double ((5 / 2 : ℝ) - 1 / 2) = 2 := by
    have := double_int 2 (by norm_num)
    norm_num at this ⊢
    exact this
  have w3 : double ((5 / 2 : ℝ) + 1 / 2) = 3 := by
    have := double_int 3 (by norm_num)
    norm_num at this ⊢
    exact this
  have w4 : double (((10 : ℕ) : ℝ) / 2) = 5 := by
    have := double_int 5 (by norm_num)
    norm_num at this ⊢
    exact this
  have w5 : double ((1 / 2 : ℝ) / 5) = 3602879701896397 / 2 ^ 55 := by
    rw [double_eq_of_near 7205759403792794 (-56) (by norm_num) (by norm_num) (by norm_num) (by norm_num [abs_lt])]
    norm_num
  have w6 : double ((3 : ℝ) - 2) = 1 := by
    have := double_int 1 (by norm_num)
    norm_num at this ⊢
    exact this
  have w7 : double ((1 : ℝ) / (3602879701896397 / 2 ^ 55)) = 10 := by
    rw [double_eq_of_near 5629499534213120 (-49) (by norm_num) (by norm_num) (by norm_num) (by norm_num [abs_lt])]
    norm_num
  have w8 : double ((2 : ℝ) + 3602879701896397 / 2 ^ 55) = 4728779608739021 / 2 ^ 51 := by
    rw [double_eq_of_near 4728779608739021 (-51) (by norm_num) (by norm_num) (by norm_num) (by norm_num [abs_lt])]
    norm_num
  have w9 : double ((4728779608739021 : ℝ) / 2 ^ 51 - 2) = 225179981368525 / 2 ^ 51 := by
    have := double_dyadic 225179981368525 51 (by norm_num) (by norm_num)
    push_cast at this
    rw [← this]
    congr 1
    norm_num
  have w10 : double (((9 : ℕ) : ℝ) * (225179981368525 / 2 ^ 51)) = 2026619832316725 / 2 ^ 51 := by
    have := double_dyadic 2026619832316725 51 (by norm_num) (by norm_num)
    push_cast at this
    rw [← this]
    congr 1
    norm_num
  have w11 : double ((2 : ℝ) + 2026619832316725 / 2 ^ 51) = 6530219459687221 / 2 ^ 51 := by
    have := double_dyadic 6530219459687221 51 (by norm_num) (by norm_num)
    push_cast at this
    rw [← this]
    congr 1
    norm_num
  rw [w1, w2, w3, w4, w5] at h
  unfold arangeD at h
  rw [if_neg (by norm_num), w6, w7] at h
  have hc : ⌈(10 : ℝ)⌉.toNat = 10 := by norm_num; rfl
  rw [hc] at h
  obtain rfl := (Except.ok.inj h).symm
  refine ⟨by simp, ?_, ?_⟩
  · rw [List.getElem?_map]
    simp [arangeValue]
  · rw [List.getElem?_map]
    have : (List.range 10)[9]? = some 9 := rfl
    rw [this, Option.map_some]
    congr 1
    unfold arangeValue
    rw [if_neg (by norm_num)]
    simp only [if_neg (show ¬ (9 = 1) by norm_num)]
    rw [w8, w9, w10, w11]

/-- The interpolation grid from there has a point beyond the last plate scale. -/
theorem default_grid {xs : List ℝ} (h : arangeD .valueError 2 (6530219459687221 / 2 ^ 51) (double (1 / 10000)) = .ok xs) : ∃ x ∈ xs, (6530219459687221 : ℝ) / 2 ^ 51 < x := by
  have w1 : double ((6530219459687221 : ℝ) / 2 ^ 51 - 2) = 2026619832316725 / 2 ^ 51 := by
    have := double_dyadic 2026619832316725 51 (by norm_num) (by norm_num)
    push_cast at this
    rw [← this]
    congr 1
    norm_num
  have w2 : double ((2026619832316725 : ℝ) / 2 ^ 51 / (7378697629483821 / 2 ^ 66)) = 4947802324992004 / 2 ^ 39 := by
    rw [double_eq_of_near 4947802324992004 (-39) (by norm_num) (by norm_num) (by norm_num) (by norm_num [abs_lt])]
    norm_num
  have w3 : double ((2 : ℝ) + 7378697629483821 / 2 ^ 66) = 4503824807351865 / 2 ^ 51 := by
    rw [double_eq_of_near 4503824807351865 (-51) (by norm_num) (by norm_num) (by norm_num) (by norm_num [abs_lt])]
    norm_num
  have w4 : double ((4503824807351865 : ℝ) / 2 ^ 51 - 2) = 225179981369 / 2 ^ 51 := by
    have := double_dyadic 225179981369 51 (by norm_num) (by norm_num)
    push_cast at this
    rw [← this]
    congr 1
    norm_num
  have w5 : double (((9000 : ℕ) : ℝ) * (225179981369 / 2 ^ 51)) = 2026619832321000 / 2 ^ 51 := by
    have := double_dyadic 2026619832321000 51 (by norm_num) (by norm_num)
    push_cast at this
    rw [← this]
    congr 1
    norm_num
  have w6 : double ((2 : ℝ) + 2026619832321000 / 2 ^ 51) = 6530219459691496 / 2 ^ 51 := by
    have := double_dyadic 6530219459691496 51 (by norm_num) (by norm_num)
    push_cast at this
    rw [← this]
    congr 1
    norm_num
  rw [tenThousandthD] at h
  unfold arangeD at h
  rw [if_neg (by norm_num), w1, w2] at h
  obtain rfl := (Except.ok.inj h).symm
  have hlen : 9000 < ⌈(4947802324992004 : ℝ) / 2 ^ 39⌉.toNat := by
    rw [Int.lt_toNat, Int.lt_ceil]
    norm_num
  refine ⟨_, List.mem_map.mpr ⟨9000, List.mem_range.mpr hlen, rfl⟩, ?_⟩
  unfold arangeValue
  rw [if_neg (by norm_num)]
  simp only [if_neg (show ¬ (9000 = 1) by norm_num)]
  rw [w3, w4, w5, w6]
  norm_num

theorem default_fair : FairSearch (5 / 2) (double (1 / 5)) (double (1 / 10000)) 10 := by
  rw [fifthD, tenThousandthD]
  constructor <;> norm_num

/-- **C101.** With the parameter file of the package and a guess of 2.5 pixels per resolution element, the search of exact arithmetic answers for
any two images of one size, and that of double precision always raises `ValueError`. -/
theorem C101_fails (I : Interp1d) (img guess : Arr2 ℝ) (pct : ℝ) (hr : img.nr = guess.nr) (hc : img.nc = guess.nc) (hr0 : 0 < guess.nr) (hc0 : 0 < guess.nc)
    (hp0 : 0 ≤ pct) (hp1 : pct ≤ 100) :
    (∃ r, platesolv I img guess (5 / 2) ⟨some (double (1 / 5)), some 10, some pct, some (double (1 / 10000))⟩ = .ok r) ∧
      platesolvD I img guess (5 / 2) ⟨some (double (1 / 5)), some 10, some pct, some (double (1 / 10000))⟩ = .error .valueError := by
  classical
  have h : PlateArgs img guess (5 / 2) (double (1 / 5)) ((10 : ℕ) : ℝ) pct (double (1 / 10000)) :=
    ⟨by norm_num, hr, hc, ⟨hr0, hc0⟩, by rw [fifthD]; norm_num, by rw [fifthD]; norm_num, by norm_num, hp0, hp1, by rw [tenThousandthD]; norm_num⟩
  have e10 : (10 : ℝ) = ((10 : ℕ) : ℝ) := by norm_num
  constructor
  · obtain ⟨b, p, r, h0, -⟩ := C84_answer I img guess _ _ _ _ _ h
    rw [e10]
    exact ⟨_, h0⟩
  · rw [e10]
    obtain ⟨pix, lo, hi, xs, hpix, hnear, h4, hnodup, hpos, hmin, hmax, hxs, hne, -, hxj, -⟩ := planD default_fair
    obtain ⟨hlen, hp0, hp9⟩ := default_pix hpix
    have hn : (0 : ℝ) < ((10 : ℕ) : ℝ) := by norm_num
    obtain ⟨ref, href, -⟩ := trial_eq guess (5 / 2) (5 / 2) h.pixels.1 h.pixels.2 h.scale h.scale
    have hres : ∀ p, 0 < p → ∃ r, plateResidual img guess ref ((max guess.nr guess.nc : ℕ) : ℝ) pct p = .ok r :=
      fun p hp => (residual_eq img guess _ _ _ pct _ p h hp ref href).imp fun _ h => h.1
    choose! m hm using hres
    have hmap : pix.mapM (fun p => plateResidual img guess ref ((max guess.nr guess.nc : ℕ) : ℝ) pct p) = .ok (pix.map m) := mapM_ok _ _ _ fun p hp => hm p (hpos p hp)
    obtain ⟨h0', e0⟩ := List.getElem?_eq_some_iff.mp hp0
    obtain ⟨h9', e9⟩ := List.getElem?_eq_some_iff.mp hp9
    have hlo : lo = 2 := by
      obtain ⟨h1, h2⟩ := List.min?_eq_some_iff.mp hmin
      obtain ⟨k, hk, rfl⟩ := List.getElem_of_mem h1
      rcases Nat.eq_zero_or_pos k with rfl | hk0
      · exact e0
      · exfalso
        have h3 := h2 _ (List.getElem_mem h0')
        rw [e0] at h3
        have h5 := (abs_le.mp (hnear.2 k hk)).1
        rw [fifthD] at h5
        have : (1 : ℝ) ≤ k := by exact_mod_cast hk0
        norm_num at h5
        linarith
    have hhi : hi = 6530219459687221 / 2 ^ 51 := by
      obtain ⟨h1, h2⟩ := List.max?_eq_some_iff.mp hmax
      obtain ⟨k, hk, rfl⟩ := List.getElem_of_mem h1
      rcases Nat.lt_or_ge k 9 with hk0 | hk0
      · exfalso
        have h3 := h2 _ (List.getElem_mem h9')
        rw [e9] at h3
        have h5 := (abs_le.mp (hnear.2 k hk)).2
        rw [fifthD] at h5
        have : (k : ℝ) ≤ 8 := by exact_mod_cast Nat.le_of_lt_succ hk0
        norm_num at h5 h3
        linarith
      · have : k = 9 := by omega
        subst this
        exact e9
    rw [hlo, hhi] at hxs
    obtain ⟨x, hx, hxhi⟩ := default_grid hxs
    have hbad : ∃ x ∈ xs, x < 2 ∨ 6530219459687221 / 2 ^ 51 < x := ⟨x, hx, Or.inr hxhi⟩
    rw [hlo] at hmin
    rw [hhi] at hmax
    unfold platesolvD
    rw [if_neg (not_le.mpr h.scale), if_neg (by push Not; exact ⟨h.rows, h.cols⟩)]
    simp only
    rw [if_neg hn.ne', hpix, res_ok_bind, href, res_ok_bind, hmap, res_ok_bind, hmin, hmax]
    simp only
    rw [hxs, res_ok_bind, if_neg (by push Not; exact ⟨h4, hnodup⟩), if_pos hbad]

/-- For a guess of 2.25 pixels there are eleven plate scales, the last beyond the end of the range. -/
theorem extra_pix {pix : List ℝ} (h : arangeD .zeroDivisionError (double ((9 / 4 : ℝ) - double (9 / 4 * double (1 / 5)))) (double (9 / 4 + double (9 / 4 * double (1 / 5))))
    (double (double (9 / 4 * double (1 / 5)) / double (((10 : ℕ) : ℝ) / 2))) = .ok pix) :
    pix.length = 11 ∧ ∃ p ∈ pix, 9 / 4 * (1 + double (1 / 5)) < p := by
  have w1 : double (9 / 4 * double (1 / 5)) = 8106479329266893 / 2 ^ 54 := by
    rw [fifthD, double_eq_of_near 8106479329266893 (-54) (by norm_num) (by norm_num) (by norm_num) (by norm_num [abs_lt])]
    norm_num
  have w2 : double ((9 / 4 : ℝ) - 8106479329266893 / 2 ^ 54) = 8106479329266893 / 2 ^ 52 := by
    rw [double_eq_of_near 8106479329266893 (-52) (by norm_num) (by norm_num) (by norm_num) (by norm_num [abs_lt])]
    norm_num
  have w3 : double ((9 / 4 : ℝ) + 8106479329266893 / 2 ^ 54) = 6079859496950170 / 2 ^ 51 := by
    rw [double_eq_of_near 6079859496950170 (-51) (by norm_num) (by norm_num) (by norm_num) (by norm_num [abs_lt])]
    norm_num
  have w4 : double (((10 : ℕ) : ℝ) / 2) = 5 := by
    have := double_int 5 (by norm_num)
    norm_num at this ⊢
    exact this
  have w5 : double ((8106479329266893 : ℝ) / 2 ^ 54 / 5) = 6485183463413514 / 2 ^ 56 := by
    rw [double_eq_of_near 6485183463413514 (-56) (by norm_num) (by norm_num) (by norm_num) (by norm_num [abs_lt])]
    norm_num
  have w6 : double ((6079859496950170 : ℝ) / 2 ^ 51 - 8106479329266893 / 2 ^ 52) = 8106479329266894 / 2 ^ 53 := by
    rw [double_eq_of_near 8106479329266894 (-53) (by norm_num) (by norm_num) (by norm_num) (by norm_num [abs_lt])]
    norm_num
  have w7 : double ((8106479329266894 : ℝ) / 2 ^ 53 / (6485183463413514 / 2 ^ 56)) = 5629499534213121 / 2 ^ 49 := by
    rw [double_eq_of_near 5629499534213121 (-49) (by norm_num) (by norm_num) (by norm_num) (by norm_num [abs_lt])]
    norm_num
  have w8 : double ((8106479329266893 : ℝ) / 2 ^ 52 + 6485183463413514 / 2 ^ 56) = 8511803295730238 / 2 ^ 52 := by
    rw [double_eq_of_near 8511803295730238 (-52) (by norm_num) (by norm_num) (by norm_num) (by norm_num [abs_lt])]
    norm_num
  have w9 : double ((8511803295730238 : ℝ) / 2 ^ 52 - 8106479329266893 / 2 ^ 52) = 405323966463345 / 2 ^ 52 := by
    have := double_dyadic 405323966463345 52 (by norm_num) (by norm_num)
    push_cast at this
    rw [← this]
    congr 1
    norm_num
  have w10 : double (((10 : ℕ) : ℝ) * (405323966463345 / 2 ^ 52)) = 4053239664633450 / 2 ^ 52 := by
    have := double_dyadic 4053239664633450 52 (by norm_num) (by norm_num)
    push_cast at this
    rw [← this]
    congr 1
    norm_num
  have w11 : (6079859496950171 : ℝ) / 2 ^ 51 ≤ double ((8106479329266893 : ℝ) / 2 ^ 52 + 4053239664633450 / 2 ^ 52) := by
    have := double_dyadic 6079859496950171 51 (by norm_num) (by norm_num)
    push_cast at this
    rw [← this]
    exact double_mono (by norm_num)
  rw [w1, w2, w3, w4, w5] at h
  unfold arangeD at h
  rw [if_neg (by norm_num), w6, w7] at h
  have hc : ⌈(5629499534213121 : ℝ) / 2 ^ 49⌉.toNat = 11 := by
    have : ⌈(5629499534213121 : ℝ) / 2 ^ 49⌉ = 11 := by
      rw [Int.ceil_eq_iff]
      norm_num
    rw [this]
    rfl
  rw [hc] at h
  obtain rfl := (Except.ok.inj h).symm
  refine ⟨by simp, _, List.mem_map.mpr ⟨10, List.mem_range.mpr (by norm_num), rfl⟩, ?_⟩
  unfold arangeValue
  rw [if_neg (by norm_num)]
  simp only [if_neg (show ¬ (10 = 1) by norm_num)]
  rw [w8, w9, w10]
  refine lt_of_lt_of_le ?_ w11
  rw [fifthD]
  norm_num

theorem extra_fair : FairSearch (9 / 4) (double (1 / 5)) (double (7 / 100000)) 10 := by
  rw [fifthD, sevenD]
  constructor <;> norm_num

/-- The grid of 0.00007 is clear of the last plate scale, be it the tenth or the eleventh. -/
theorem extra_clear : ClearOfEnd (9 / 4) (double (1 / 5)) (double (7 / 100000)) 10 := by
  rw [fifthD, sevenD]
  rintro T (rfl | rfl) j
  · rcases Nat.lt_or_ge j 11572 with hj | hj
    · have : (j : ℝ) ≤ 11571 := by exact_mod_cast Nat.le_of_lt_succ hj
      refine lt_abs.mpr (Or.inl ?_)
      norm_num
      linarith
    · have : (11572 : ℝ) ≤ j := by exact_mod_cast hj
      refine lt_abs.mpr (Or.inr ?_)
      norm_num
      linarith
  · rcases Nat.lt_or_ge j 12858 with hj | hj
    · have : (j : ℝ) ≤ 12857 := by exact_mod_cast Nat.le_of_lt_succ hj
      refine lt_abs.mpr (Or.inl ?_)
      norm_num
      linarith
    · have : (12858 : ℝ) ≤ j := by exact_mod_cast hj
      refine lt_abs.mpr (Or.inr ?_)
      norm_num
      linarith

/-- **C101.** Ten trials are asked for and exact arithmetic makes ten, but with a search width of 0.2 and a guess of 2.25 pixels double precision tries an
eleventh plate scale, beyond the end `(1 + w) pg` of the range. -/
theorem C101_extra_trial (I : Interp1d) (img guess : Arr2 ℝ) (pct : ℝ) (hr : img.nr = guess.nr) (hc : img.nc = guess.nc) (hr0 : 0 < guess.nr) (hc0 : 0 < guess.nc)
    (hp0 : 0 ≤ pct) (hp1 : pct ≤ 100) :
    (∃ best pix resid, platesolv I img guess (9 / 4) ⟨some (double (1 / 5)), some 10, some pct, some (double (7 / 100000))⟩ = .ok (best, pix, resid) ∧ pix.length = 10) ∧
      ∃ best pix resid, platesolvD I img guess (9 / 4) ⟨some (double (1 / 5)), some 10, some pct, some (double (7 / 100000))⟩ = .ok (best, pix, resid) ∧
        pix.length = 11 ∧ ∃ p ∈ pix, 9 / 4 * (1 + double (1 / 5)) < p := by
  have h : PlateArgs img guess (9 / 4) (double (1 / 5)) ((10 : ℕ) : ℝ) pct (double (7 / 100000)) :=
    ⟨by norm_num, hr, hc, ⟨hr0, hc0⟩, by rw [fifthD]; norm_num, by rw [fifthD]; norm_num, by norm_num, hp0, hp1, by rw [sevenD]; norm_num⟩
  have e10 : (10 : ℝ) = ((10 : ℕ) : ℝ) := by norm_num
  rw [e10]
  constructor
  · obtain ⟨b, p, r, h0, hs, -⟩ := C84_answer I img guess _ _ _ _ _ h
    refine ⟨b, p, r, h0, ?_⟩
    have hl : ∀ k : ℕ, k < p.length ↔ k < 10 := by
      intro k
      rw [hs.2 k, fifthD]
      constructor
      · intro h1
        norm_num at h1
        by_contra hc
        have : (10 : ℝ) ≤ k := by exact_mod_cast Nat.le_of_not_lt hc
        linarith
      · intro h1
        have : (k : ℝ) ≤ 9 := by exact_mod_cast Nat.le_of_lt_succ h1
        norm_num
        linarith
    have h1 := hl 10
    have h2 := hl 9
    omega
  · obtain ⟨b, p, r, h0⟩ := C101_accepts_partial I img guess _ _ pct _ 10 h extra_fair extra_clear
    refine ⟨b, p, r, h0, ?_⟩
    refine extra_pix ?_
    unfold platesolvD at h0
    rw [if_neg (not_le.mpr h.scale), if_neg (by push Not; exact ⟨h.rows, h.cols⟩)] at h0
    simp only at h0
    rw [if_neg (by norm_num)] at h0
    obtain ⟨pix, hpix, h0⟩ := res_bind_ok h0
    rw [hpix]
    obtain ⟨ref, -, h0⟩ := res_bind_ok h0
    obtain ⟨resid, -, h0⟩ := res_bind_ok h0
    congr 1
    split at h0
    · obtain ⟨xs, -, h0⟩ := res_bind_ok h0
      split_ifs at h0
      split at h0
      · exact (Prod.mk.inj (Prod.mk.inj (Except.ok.inj h0)).2).1
      · exact (Prod.mk.inj (Prod.mk.inj (Except.ok.inj h0)).2).1
    · cases h0

/-- The search of ordinary size: a two by two image, ten trials about 2.25 pixels, and an interpolation step clear of the last. -/
theorem extra_args : PlateArgs starImage starImage (9 / 4) (double (1 / 5)) ((10 : ℕ) : ℝ) 100 (double (7 / 100000)) :=
  ⟨by norm_num, rfl, rfl, ⟨by decide, by decide⟩, by rw [fifthD]; norm_num, by rw [fifthD]; norm_num, by norm_num, by norm_num, by norm_num, by rw [sevenD]; norm_num⟩

/-- It returns, in double precision. -/
example : ∃ best pix resid, platesolvD lagrange1d starImage starImage (9 / 4) ⟨some (double (1 / 5)), some ((10 : ℕ) : ℝ), some 100, some (double (7 / 100000))⟩ = .ok (best, pix, resid) :=
  C101_accepts_partial lagrange1d _ _ _ _ _ _ _ extra_args extra_fair extra_clear

/-- What it returns: eleven plate scales and as many misfits. -/
example : ∃ best pix resid, platesolvD lagrange1d starImage starImage (9 / 4) ⟨some (double (1 / 5)), some ((10 : ℕ) : ℝ), some 100, some (double (7 / 100000))⟩ = .ok (best, pix, resid) ∧
    NearScales (9 / 4) (double (1 / 5)) 10 pix ∧ resid.length = pix.length := by
  obtain ⟨b, p, r, h⟩ := C101_accepts_partial lagrange1d _ _ _ _ _ _ _ extra_args extra_fair extra_clear
  rcases C101_outcome lagrange1d _ _ _ _ _ _ _ extra_args extra_fair with h' | ⟨b', p', r', h', h1, h2, -⟩
  · rw [h] at h'
    cases h'
  · exact ⟨b', p', r', h', h1, h2⟩

/-- The package's parameter file on that image, guess 2.5. -/
example : platesolvD lagrange1d starImage starImage (5 / 2) ⟨some (double (1 / 5)), some 10, some 99, some (double (1 / 10000))⟩ = .error .valueError :=
  (C101_fails lagrange1d starImage starImage 99 rfl rfl (by decide) (by decide) (by norm_num) (by norm_num)).2

example : ∃ best pix resid, platesolvD lagrange1d starImage starImage (9 / 4) ⟨some (double (1 / 5)), some 10, some 99, some (double (7 / 100000))⟩ = .ok (best, pix, resid) ∧
    pix.length = 11 ∧ ∃ p ∈ pix, 9 / 4 * (1 + double (1 / 5)) < p :=
  (C101_extra_trial lagrange1d starImage starImage 99 rfl rfl (by decide) (by decide) (by norm_num) (by norm_num)).2

end Coralign.Props
