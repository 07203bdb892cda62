import Verif.Lemmas.ShapesDouble
import Verif.Spec.Double
import Verif.Props.Shapes

/-!
# C98: the circle mask and the rounding helpers in double precision

Every operation on floats is rounded to the nearest double, as the processor does it.
-/

namespace Coralign.Props

open Coralign Coralign.Spec Finset

/-- The pixel in row `k` and column `l`, counted from the central pixel. -/
theorem pixelD (nx ny : ℕ) (f : ℝ → ℝ → ℝ) (k l : ℤ) (hr : Reaches ny nx k l) :
    (⟨ny, nx, fun i j => f ((j : ℕ) - ((nx / 2 : ℕ) : ℝ)) ((i : ℕ) - ((ny / 2 : ℕ) : ℝ))⟩ : Arr2 ℝ).centered k l = some (f l k) := by
  have := raster_centered ny nx 0 0 f k l hr
  simp only [sub_zero] at this
  rw [← this]
  congr 1
  congr 1
  funext i j
  rw [shapeAxis_eq _ _ _ j.2, shapeAxis_eq _ _ _ i.2, sub_zero, sub_zero]

theorem circleD_pixels (nx ny N : ℕ) (hx : 2 ≤ nx) (hy : 1 ≤ ny) (hN : 1 ≤ N) (hNN : N * N ≤ 2 ^ 53) (radius xo yo : ℝ) (hr : 0 < radius)
    (hB : (nx : ℝ) + ny + |xo| + |yo| ≤ 2 ^ 40) (isDark : Bool) :
    ∃ a, circleD nx ny radius xo yo N isDark = .ok a ∧ a.nr = ny ∧ a.nc = nx ∧ ∀ k l : ℤ, Reaches ny nx k l →
      a.centered k l = some (toneD isDark (double ((subCountD N radius (double (l - xo)) (double (k - yo)) : ℝ) / (N : ℝ) ^ 2))) := by
  refine ⟨_, circleD_eq nx ny N hx hy hN hNN radius xo yo hr hB isDark, rfl, rfl, fun k l h => ?_⟩
  exact pixelD nx ny (fun x y => toneD isDark (double ((subCountD N radius (double (x - xo)) (double (y - yo)) : ℝ) / (N : ℝ) ^ 2))) k l h

theorem reach_abs_le (n : ℕ) (l : ℤ) (h1 : 0 ≤ (n : ℤ) / 2 + l) (h2 : (n : ℤ) / 2 + l < n) (o : ℝ) : |(l : ℝ) - o| ≤ (n : ℝ) / 2 + |o| := by
  have := abs_axis_le n ((n : ℤ) / 2 + l).toNat o (by omega)
  have e : ((((n : ℤ) / 2 + l).toNat : ℕ) : ℝ) - ((n / 2 : ℕ) : ℝ) = (l : ℝ) := by
    have : ((((n : ℤ) / 2 + l).toNat : ℕ) : ℤ) - ((n / 2 : ℕ) : ℤ) = l := by omega
    exact_mod_cast this
  rwa [e] at this

/-- **C98.** A circle mask, as computed.  In double precision, for sizes and offsets which sum to at most `2 ^ 40` and at most `2 ^ 53` sub-pixels per
pixel, every pixel of the mask is `c / N²`, rounded once, where `c` counts the sub-pixel centres inside the circle: all those more than `ε` inside are
counted and none more than `ε` outside, where `ε` is `2 ^ -50` of the sum of the sizes and offsets.  `isDark` gives one minus that, rounded. -/
theorem C98_circle (nx ny N : ℕ) (hx : 2 ≤ nx) (hy : 1 ≤ ny) (hN : 1 ≤ N) (hNN : N * N ≤ 2 ^ 53) (radius xo yo : ℝ) (hr : 0 < radius)
    (hB : (nx : ℝ) + ny + |xo| + |yo| ≤ 2 ^ 40) (isDark : Bool) :
    ∃ a, circleD nx ny radius xo yo N isDark = .ok a ∧ a.nr = ny ∧ a.nc = nx ∧ ∀ k l : ℤ, Reaches ny nx k l → ∃ c : ℕ,
      centresWithin N (radius - ((nx : ℝ) + ny + |xo| + |yo|) / 2 ^ 50) (l - xo) (k - yo) ≤ c ∧
      c ≤ centresWithin N (radius + ((nx : ℝ) + ny + |xo| + |yo|) / 2 ^ 50) (l - xo) (k - yo) ∧
      a.centered k l = some (if isDark then double (1 - double ((c : ℝ) / (N : ℝ) ^ 2)) else double ((c : ℝ) / (N : ℝ) ^ 2)) := by
  obtain ⟨a, ha, h1, h2, h3⟩ := circleD_pixels nx ny N hx hy hN hNN radius xo yo hr hB isDark
  refine ⟨a, ha, h1, h2, fun k l hk => ⟨_, ?_, ?_, h3 k l hk⟩⟩
  all_goals
    classical
    have hN50 : N ≤ 2 ^ 50 := by
      by_contra h
      have : 2 ^ 50 * 2 ^ 50 ≤ N * N := Nat.mul_le_mul (by omega) (by omega)
      omega
    unfold Reaches at hk
    have bx := reach_abs_le nx l (by omega) (by omega) xo
    have by' := reach_abs_le ny k (by omega) (by omega) yo
    have hx2 : (2 : ℝ) ≤ nx := by exact_mod_cast hx
    have hy1 : (1 : ℝ) ≤ ny := by exact_mod_cast hy
    have hxo := abs_nonneg xo
    have hyo := abs_nonneg yo
    have hb : |(l : ℝ) - xo| + |(k : ℝ) - yo| ≤ 2 ^ 40 := by linarith
    have hε : roundoff * (8 * (|(l : ℝ) - xo| + |(k : ℝ) - yo|) + 12) ≤ ((nx : ℝ) + ny + |xo| + |yo|) / 2 ^ 50 := by
      have := mul_le_mul roundoff_le (show 8 * (|(l : ℝ) - xo| + |(k : ℝ) - yo|) + 12 ≤ 8 * ((nx : ℝ) + ny + |xo| + |yo|) by linarith)
        (by positivity) (by norm_num)
      refine this.trans (le_of_eq ?_)
      ring
    rw [subCountD_card]
    unfold centresWithin centreDistance
    refine card_le_card fun s hs => ?_
    rw [mem_filter] at hs ⊢
    refine ⟨mem_univ _, ?_⟩
    have e := abs_le.mp (dist_error N s.2 s.1 s.2.2 s.1.2 hN50 ((l : ℝ) - xo) ((k : ℝ) - yo) hb)
    have := hs.2
    linarith [e.1, e.2]

/-- A 5 × 4 mask with a radius of 1.5 and 10 × 10 sub-pixels, off centre by 0.3 and -0.2. -/
example : ∃ a, circleD 5 4 (3 / 2) (3 / 10) (-1 / 5) 10 true = .ok a ∧ a.nr = 4 ∧ a.nc = 5 := by
  obtain ⟨a, h, h1, h2, _⟩ := C98_circle 5 4 10 (by norm_num) (by norm_num) (by norm_num) (by norm_num) (3 / 2) (3 / 10) (-1 / 5) (by norm_num)
    (by rw [abs_of_pos (by norm_num), abs_of_neg (by norm_num)]; norm_num) true
  exact ⟨a, h, h1, h2⟩

/-- **C98.** Away from the edge nothing is lost: a pixel none of whose sub-pixel centres is within `ε` of the circle has the double nearest to the
fraction of its sub-pixels which lie in the disc. -/
theorem C98_circle_clear (nx ny N : ℕ) (hx : 2 ≤ nx) (hy : 1 ≤ ny) (hN : 1 ≤ N) (hNN : N * N ≤ 2 ^ 53) (radius xo yo : ℝ) (hr : 0 < radius)
    (hB : (nx : ℝ) + ny + |xo| + |yo| ≤ 2 ^ 40) (k l : ℤ) (hk : Reaches ny nx k l)
    (hclear : ∀ t s : Fin N, ((nx : ℝ) + ny + |xo| + |yo|) / 2 ^ 50 < |centreDistance N (l - xo) (k - yo) t s - radius|) :
    ∃ a, circleD nx ny radius xo yo N false = .ok a ∧ a.centered k l = some (double (areaFraction N (inDisc radius) (l - xo) (k - yo))) := by
  obtain ⟨a, ha, h1, h2, h3⟩ := C98_circle nx ny N hx hy hN hNN radius xo yo hr hB false
  refine ⟨a, ha, ?_⟩
  obtain ⟨c, c1, c2, c3⟩ := h3 k l hk
  rw [c3]
  classical
  have hε : 0 ≤ ((nx : ℝ) + ny + |xo| + |yo|) / 2 ^ 50 := by positivity
  have e : ∀ ρ, |ρ - radius| ≤ ((nx : ℝ) + ny + |xo| + |yo|) / 2 ^ 50 → centresWithin N ρ (l - xo) (k - yo) =
      (univ.filter fun s : Fin N × Fin N => inDisc radius ((l : ℝ) - xo + (((s.2 : ℕ) + 1 / 2 : ℝ) / N - 1 / 2))
        ((k : ℝ) - yo + (((s.1 : ℕ) + 1 / 2 : ℝ) / N - 1 / 2))).card := by
    intro ρ hρ
    unfold centresWithin
    congr 1
    refine filter_congr fun s _ => ?_
    rw [← sqrt_le_iff_disc radius _ _ hr]
    have := hclear s.1 s.2
    rw [abs_le] at hρ
    change centreDistance N (l - xo) (k - yo) s.1 s.2 ≤ ρ ↔ centreDistance N (l - xo) (k - yo) s.1 s.2 ≤ radius
    rcases lt_abs.mp this with h | h
    · constructor <;> intro _ <;> linarith [hρ.1, hρ.2]
    · constructor <;> intro _ <;> linarith [hρ.1, hρ.2]
  rw [e _ (by rw [sub_sub_cancel_left, abs_neg, abs_of_nonneg hε])] at c1
  rw [e _ (by rw [add_sub_cancel_left, abs_of_nonneg hε])] at c2
  rw [if_neg (by simp)]
  unfold areaFraction
  rw [le_antisymm c2 c1]

/-- The central pixel of a 5 × 5 mask of radius 2: all four sub-pixel centres are `√(1/8)` away from the origin, and the value is 1. -/
example : ∃ a, circleD 5 5 2 0 0 2 false = .ok a ∧ a.centered 0 0 = some (double (areaFraction 2 (inDisc 2) 0 0)) := by
  have := C98_circle_clear 5 5 2 (by norm_num) (by norm_num) (by norm_num) (by norm_num) 2 0 0 (by norm_num) (by norm_num) 0 0 (by decide)
    (fun t s => by
      have h : centreDistance 2 ((0 : ℤ) - 0) ((0 : ℤ) - 0) t s ≤ 1 := by
        unfold centreDistance
        refine (sqrt_le_abs_add _ _).trans ?_
        have a := sub_range 2 s s.2
        have b := sub_range 2 t t.2
        simp only [Int.cast_zero, sub_zero, zero_add]
        linarith
      rw [abs_sub_comm]
      refine lt_of_lt_of_le ?_ (le_abs_self _)
      norm_num at h ⊢
      linarith)
  simpa using this

/-- **C98.** As computed, the values of a circle mask lie between zero and one. -/
theorem C98_range (nx ny N : ℕ) (hx : 2 ≤ nx) (hy : 1 ≤ ny) (hN : 1 ≤ N) (hNN : N * N ≤ 2 ^ 53) (radius xo yo : ℝ) (hr : 0 < radius)
    (hB : (nx : ℝ) + ny + |xo| + |yo| ≤ 2 ^ 40) (isDark : Bool) :
    ∃ a, circleD nx ny radius xo yo N isDark = .ok a ∧ ∀ k l : ℤ, Reaches ny nx k l → ∃ v, a.centered k l = some v ∧ 0 ≤ v ∧ v ≤ 1 := by
  obtain ⟨a, ha, _, _, h3⟩ := circleD_pixels nx ny N hx hy hN hNN radius xo yo hr hB isDark
  refine ⟨a, ha, fun k l hk => ⟨_, h3 k l hk, ?_⟩⟩
  have hN0 : (0 : ℝ) < (N : ℝ) ^ 2 := by
    have : (0 : ℝ) < N := by exact_mod_cast hN
    positivity
  have h1 := subCountD_le N radius (double (l - xo)) (double (k - yo))
  have h1' : (subCountD N radius (double (l - xo)) (double (k - yo)) : ℝ) ≤ (N : ℝ) ^ 2 := by rw [pow_two]; exact_mod_cast h1
  have h2 := double_nonneg (x := (subCountD N radius (double (l - xo)) (double (k - yo)) : ℝ) / (N : ℝ) ^ 2) (by positivity)
  have h4 : double ((subCountD N radius (double (l - xo)) (double (k - yo)) : ℝ) / (N : ℝ) ^ 2) ≤ 1 := by
    rw [← double_one]
    exact double_mono ((div_le_one hN0).mpr h1')
  unfold toneD
  cases isDark
  · exact ⟨h2, h4⟩
  · refine ⟨double_nonneg (by linarith), ?_⟩
    have := double_mono (show 1 - double ((subCountD N radius (double (l - xo)) (double (k - yo)) : ℝ) / (N : ℝ) ^ 2) ≤ 1 by linarith)
    rwa [double_one] at this

/-- **C98.** As computed, a larger radius never dims a pixel of a circle mask, not even by the last bit. -/
theorem C98_monotone (nx ny N : ℕ) (hx : 2 ≤ nx) (hy : 1 ≤ ny) (hN : 1 ≤ N) (hNN : N * N ≤ 2 ^ 53) (r R xo yo : ℝ) (hr : 0 < r) (hR : r ≤ R)
    (hB : (nx : ℝ) + ny + |xo| + |yo| ≤ 2 ^ 40) :
    ∃ a b, circleD nx ny r xo yo N false = .ok a ∧ circleD nx ny R xo yo N false = .ok b ∧
      ∀ k l : ℤ, Reaches ny nx k l → ∃ v w, a.centered k l = some v ∧ b.centered k l = some w ∧ v ≤ w := by
  obtain ⟨a, ha, _, _, h3⟩ := circleD_pixels nx ny N hx hy hN hNN r xo yo hr hB false
  obtain ⟨b, hb, _, _, h4⟩ := circleD_pixels nx ny N hx hy hN hNN R xo yo (hr.trans_le hR) hB false
  refine ⟨a, b, ha, hb, fun k l hk => ⟨_, _, h3 k l hk, h4 k l hk, ?_⟩⟩
  refine double_mono (div_le_div_of_nonneg_right ?_ (by positivity))
  classical
  rw [subCountD_card, subCountD_card]
  exact_mod_cast card_le_card fun s hs => by
    rw [mem_filter] at hs ⊢
    exact ⟨hs.1, hs.2.trans hR⟩

theorem subAxisD_rev (N : ℕ) (hN : N ≤ 2 ^ 50) (s : Fin N) : subAxisD N s.rev = -subAxisD N s := by
  rw [subAxisD_eq N _ s.rev.2 hN, subAxisD_eq N _ s.2 hN, ← double_neg, ← neg_mul]
  congr 2
  have : ((s.rev : ℕ) : ℝ) = (N : ℝ) - 1 - (s : ℕ) := by
    have h : (s.rev : ℕ) + 1 + s = N := by
      rw [Fin.val_rev]
      omega
    have : ((s.rev : ℕ) : ℝ) + 1 + (s : ℕ) = N := by exact_mod_cast h
    linarith
  rw [this]
  ring

theorem rhoD_neg_left (x y : ℝ) : rhoD (-x) y = rhoD x y := by unfold rhoD; rw [neg_mul_neg]

theorem rhoD_comm (x y : ℝ) : rhoD x y = rhoD y x := by unfold rhoD; rw [add_comm]

theorem subCountD_neg (N : ℕ) (hN : N ≤ 2 ^ 50) (r x y : ℝ) : subCountD N r (-x) y = subCountD N r x y := by
  unfold subCountD
  refine sum_congr rfl fun a _ => ?_
  refine Fintype.sum_equiv Fin.revPerm _ _ fun b => ?_
  rw [Fin.revPerm_apply, subAxisD_rev N hN b]
  rw [show -subAxisD N b + x = -(subAxisD N b + -x) by ring, double_neg, rhoD_neg_left]

theorem subCountD_comm (N : ℕ) (r x y : ℝ) : subCountD N r x y = subCountD N r y x := by
  unfold subCountD
  rw [sum_comm]
  exact sum_congr rfl fun a _ => sum_congr rfl fun b _ => by rw [rhoD_comm]

/-- **C98.** As computed, mirroring the offset mirrors the mask, and exchanging the axes transposes it, to the last bit. -/
theorem C98_mirror (nx ny N : ℕ) (hx : 2 ≤ nx) (hy : 2 ≤ ny) (hN : 1 ≤ N) (hNN : N * N ≤ 2 ^ 53) (r xo yo : ℝ) (hr : 0 < r)
    (hB : (nx : ℝ) + ny + |xo| + |yo| ≤ 2 ^ 40) (isDark : Bool) :
    ∃ a mx my t, circleD nx ny r xo yo N isDark = .ok a ∧ circleD nx ny r (-xo) yo N isDark = .ok mx ∧
      circleD nx ny r xo (-yo) N isDark = .ok my ∧ circleD ny nx r yo xo N isDark = .ok t ∧
      ∀ k l : ℤ, Reaches ny nx k l →
        (Reaches ny nx k (-l) → mx.centered k (-l) = a.centered k l) ∧ (Reaches ny nx (-k) l → my.centered (-k) l = a.centered k l) ∧
        t.centered l k = a.centered k l := by
  have hN50 : N ≤ 2 ^ 50 := by
    by_contra h
    have : 2 ^ 50 * 2 ^ 50 ≤ N * N := Nat.mul_le_mul (by omega) (by omega)
    omega
  obtain ⟨a, ha, _, _, h1⟩ := circleD_pixels nx ny N hx (by omega) hN hNN r xo yo hr hB isDark
  obtain ⟨mx, hmx, _, _, h2⟩ := circleD_pixels nx ny N hx (by omega) hN hNN r (-xo) yo hr (by rwa [abs_neg]) isDark
  obtain ⟨my, hmy, _, _, h3⟩ := circleD_pixels nx ny N hx (by omega) hN hNN r xo (-yo) hr (by rwa [abs_neg]) isDark
  obtain ⟨t, ht, _, _, h4⟩ := circleD_pixels ny nx N hy (by omega) hN hNN r yo xo hr (by linarith) isDark
  refine ⟨a, mx, my, t, ha, hmx, hmy, ht, fun k l hk => ⟨fun hk' => ?_, fun hk' => ?_, ?_⟩⟩
  · rw [h1 k l hk, h2 k (-l) hk']
    push_cast
    rw [show -(l : ℝ) - -xo = -((l : ℝ) - xo) by ring, double_neg, subCountD_neg N hN50]
  · rw [h1 k l hk, h3 (-k) l hk']
    push_cast
    rw [show -(k : ℝ) - -yo = -((k : ℝ) - yo) by ring, double_neg, subCountD_comm, subCountD_neg N hN50, subCountD_comm]
  · rw [h1 k l hk, h4 l k (by unfold Reaches at hk ⊢; omega), subCountD_comm]

/-- A mask of radius 2 has the values of a mask of radius 1 or greater ones. -/
example : ∃ a b, circleD 7 7 1 (1 / 3) 0 100 false = .ok a ∧ circleD 7 7 2 (1 / 3) 0 100 false = .ok b ∧
    ∀ k l : ℤ, Reaches 7 7 k l → ∃ v w, a.centered k l = some v ∧ b.centered k l = some w ∧ v ≤ w :=
  C98_monotone 7 7 100 (by norm_num) (by norm_num) (by norm_num) (by norm_num) 1 2 (1 / 3) 0 (by norm_num) (by norm_num)
    (by rw [abs_of_pos (by norm_num)]; norm_num)

/-- A centred mask of odd size is its own mirror image. -/
example : ∃ a, circleD 7 9 2 0 0 100 false = .ok a ∧ a.centered 1 (-3) = a.centered 1 3 ∧ a.centered (-4) 2 = a.centered 4 2 := by
  obtain ⟨a, mx, my, t, ha, hx, hy, _, h⟩ := C98_mirror 7 9 100 (by norm_num) (by norm_num) (by norm_num) (by norm_num) 2 0 0 (by norm_num)
    (by norm_num) false
  rw [neg_zero] at hx hy
  have e1 : mx = a := Except.ok.inj (hx.symm.trans ha)
  have e2 : my = a := Except.ok.inj (hy.symm.trans ha)
  subst e1 e2
  exact ⟨_, ha, (h 1 3 (by decide)).1 (by decide), (h 4 2 (by decide)).2.1 (by decide)⟩

/-- **C98.** In double precision `ceil_odd` returns the least odd whole number that is not less than its argument. -/
theorem C98_ceil_odd (x : ℝ) : IsLeast {n : ℤ | n % 2 = 1 ∧ x ≤ n} (ceilOddD x) := by
  unfold ceilOddD
  simp only
  have h1 := Int.le_ceil x
  constructor
  · split_ifs with h
    · refine ⟨by omega, ?_⟩
      push_cast
      linarith
    · exact ⟨by omega, h1⟩
  · rintro n ⟨hn, hx⟩
    have := Int.ceil_le.mpr hx
    split_ifs with h <;> omega

/-- A double is halved exactly, unless it is subnormal. -/
theorem half_cases (x : ℝ) (hx : double x = x) :
    double (x / 2) = x / 2 ∨ ∃ m : ℤ, x = (m : ℝ) * (2 : ℝ) ^ (-1074 : ℤ) ∧ |x| < (2 : ℝ) ^ (-1021 : ℤ) := by
  obtain ⟨m, hm⟩ : ∃ m : ℤ, x = (m : ℝ) * ulp x := ⟨npRound (x / ulp x), hx.symm⟩
  have hlt := lt_two_log |x|
  by_cases h : Int.log 2 |x| - 52 ≤ -1074
  · right
    refine ⟨m, ?_, hlt.trans_le (two_zpow_mono (by omega))⟩
    have e : ulp x = (2 : ℝ) ^ (-1074 : ℤ) := by
      unfold ulp
      rw [max_eq_right h]
    rwa [e] at hm
  · left
    have e : ulp x = (2 : ℝ) ^ (Int.log 2 |x| - 52) := by
      unfold ulp
      rw [max_eq_left (by omega)]
    rw [e] at hm
    have hp := two_zpow_pos (Int.log 2 |x| - 52)
    have hm53 : |m| < 2 ^ 53 := by
      have h1 : |(m : ℝ)| * (2 : ℝ) ^ (Int.log 2 |x| - 52) < (2 : ℝ) ^ (53 : ℤ) * (2 : ℝ) ^ (Int.log 2 |x| - 52) := by
        rw [← two_zpow_add, show 53 + (Int.log 2 |x| - 52) = Int.log 2 |x| + 1 by ring]
        refine lt_of_eq_of_lt ?_ hlt
        conv_rhs => rw [hm]
        rw [abs_mul, abs_of_pos hp]
      have h2 := lt_of_mul_lt_mul_right h1 hp.le
      have h3 : (2 : ℝ) ^ (53 : ℤ) = ((2 ^ 53 : ℤ) : ℝ) := by norm_cast
      rw [h3, ← Int.cast_abs] at h2
      exact_mod_cast h2
    have := double_of_bits m (Int.log 2 |x| - 52 - 1) hm53 (by omega)
    rw [zpow_sub_one₀ (by norm_num), ← mul_assoc, ← hm, ← div_eq_mul_inv] at this
    exact this

theorem double_tiny : double ((2 : ℝ) ^ (-1074 : ℤ)) = (2 : ℝ) ^ (-1074 : ℤ) := by
  have := double_of_bits 1 (-1074) (by norm_num) le_rfl
  rwa [Int.cast_one, one_mul] at this

theorem double_point_five : double (0.5 : ℝ) = 1 / 2 := by
  have := double_half 1 (by norm_num)
  rw [Int.cast_one] at this
  rw [show (0.5 : ℝ) = 1 / 2 by norm_num, this]

/-- **C98.** In double precision `ceil_even` returns the least even whole number that is not less than its argument, for every double but one: the
smallest positive double, whose half is rounded to zero. -/
theorem C98_ceil_even (x : ℝ) (hx : double x = x) (h : x ≠ (2 : ℝ) ^ (-1074 : ℤ)) : IsLeast {n : ℤ | n % 2 = 0 ∧ x ≤ n} (ceilEvenD x) := by
  have key : ⌈double (double 0.5 * x)⌉ = ⌈x / 2⌉ := by
    rw [double_point_five, show 1 / 2 * x = x / 2 by ring]
    rcases half_cases x hx with e | ⟨m, hm, hs⟩
    · rw [e]
    · have hsmall : |x| ≤ 1 := hs.le.trans (by
        have := two_zpow_mono (show (-1021 : ℤ) ≤ 0 by norm_num)
        rwa [zpow_zero] at this)
      rw [abs_le] at hsmall
      have hp := two_zpow_pos (-1074)
      have up : double (x / 2) ≤ 1 := by
        rw [← double_one]
        exact double_mono (by linarith [hsmall.2])
      have lo : -1 / 2 ≤ double (x / 2) := by
        have h1 := double_mono (show -(1 / 2) ≤ x / 2 by linarith [hsmall.1])
        rw [double_neg, ← double_point_five, double_double, double_point_five] at h1
        linarith
      rcases le_or_gt m 0 with h0 | h0
      · have hx0 : x ≤ 0 := by
          rw [hm]
          exact mul_nonpos_of_nonpos_of_nonneg (by exact_mod_cast h0) hp.le
        have h1 := double_mono (show x / 2 ≤ 0 by linarith)
        rw [double_zero] at h1
        have a : ⌈double (x / 2)⌉ = 0 := Int.ceil_eq_iff.mpr ⟨by push_cast; linarith, by push_cast; linarith⟩
        have b : ⌈x / 2⌉ = 0 := Int.ceil_eq_iff.mpr ⟨by push_cast; linarith [hsmall.1], by push_cast; linarith⟩
        rw [a, b]
      · have h1 : m ≠ 1 := by
          rintro rfl
          rw [Int.cast_one, one_mul] at hm
          exact h hm
        have h2 : (2 : ℝ) ≤ m := by exact_mod_cast (show 2 ≤ m by omega)
        have h3 : (2 : ℝ) ^ (-1074 : ℤ) ≤ x / 2 := by
          rw [hm]
          have := mul_le_mul_of_nonneg_right h2 hp.le
          linarith
        have h4 := double_mono h3
        rw [double_tiny] at h4
        have a : ⌈double (x / 2)⌉ = 1 := Int.ceil_eq_iff.mpr ⟨by push_cast; linarith, by push_cast; linarith⟩
        have b : ⌈x / 2⌉ = 1 := Int.ceil_eq_iff.mpr ⟨by push_cast; linarith, by push_cast; linarith [hsmall.2]⟩
        rw [a, b]
  unfold ceilEvenD
  rw [key]
  constructor
  · refine ⟨by omega, ?_⟩
    have := Int.le_ceil (x / 2)
    push_cast
    linarith
  · rintro n ⟨hn, hx⟩
    obtain ⟨j, rfl⟩ : ∃ j, n = 2 * j := ⟨n / 2, by omega⟩
    have : ⌈x / 2⌉ ≤ j := Int.ceil_le.mpr (by push_cast at hx; linarith)
    omega

/-- Three is a double, and the least even whole number from three on is four. -/
example : ceilEvenD 3 = 4 := by
  have h3 : double 3 = 3 := by exact_mod_cast double_nat 3 (by norm_num)
  have h := C98_ceil_even 3 h3 (by
    have := two_zpow_mono (show (-1074 : ℤ) ≤ 0 by norm_num)
    rw [zpow_zero] at this
    intro e
    rw [← e] at this
    norm_num at this)
  have h4 : IsLeast {n : ℤ | n % 2 = 0 ∧ (3 : ℝ) ≤ n} 4 := ⟨⟨by norm_num, by norm_num⟩, fun n hn => by
    have : (3 : ℤ) ≤ n := by exact_mod_cast hn.2
    have := hn.1
    omega⟩
  exact h.unique h4

/-- **C98.** The exception: `ceil_even` of the smallest positive double is `0`, which is less than its argument. -/
theorem C98_ceil_even_tiny : ceilEvenD ((2 : ℝ) ^ (-1074 : ℤ)) = 0 ∧ ((0 : ℤ) : ℝ) < (2 : ℝ) ^ (-1074 : ℤ) := by
  refine ⟨?_, by rw [Int.cast_zero]; exact two_zpow_pos _⟩
  unfold ceilEvenD
  have e : double (double 0.5 * (2 : ℝ) ^ (-1074 : ℤ)) = 0 := by
    rw [double_point_five]
    have hz : (1 / 2 : ℝ) * (2 : ℝ) ^ (-1074 : ℤ) = (2 : ℝ) ^ (-1075 : ℤ) := by
      rw [show (-1075 : ℤ) = -1 + -1074 by norm_num, two_zpow_add, zpow_neg_one]
      norm_num
    have hu : ulp ((2 : ℝ) ^ (-1075 : ℤ)) = (2 : ℝ) ^ (-1074 : ℤ) := by
      unfold ulp
      rw [abs_of_pos (two_zpow_pos _)]
      have : Int.log 2 ((2 : ℝ) ^ (-1075 : ℤ)) = -1075 := by exact_mod_cast Int.log_zpow (R := ℝ) (b := 2) (by norm_num) (-1075)
      rw [this]
      norm_num
    rw [hz]
    unfold double
    rw [hu, ← hz, mul_div_assoc, div_self (two_zpow_pos _).ne', mul_one]
    have : npRound (1 / 2 : ℝ) = 0 := by
      have hf : ⌊(1 / 2 : ℝ)⌋ = 0 := Int.floor_eq_iff.mpr ⟨by norm_num, by norm_num⟩
      unfold npRound
      rw [hf]
      norm_num
    rw [this]
    simp
  rw [e]
  simp

end Coralign.Props
