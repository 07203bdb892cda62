import Verif.Props.CoarseFinds
import Verif.Props.PupilSearchDouble

/-!
# Property C134 in double precision
-/

namespace Coralign.Props

open Coralign Finset

theorem loopD_finds (img : Arr2 ℝ) (nBeam shrink c : ℝ) (hb : 0 < nBeam) (hd : double shrink = shrink) (hs : 1 < shrink) (hc : 0 < c) (a b N : ℤ)
    (h : ∀ x y, |beamSum img nBeam x y - c * ((lens N ⌊(nBeam / 2) ^ 2⌋ (x - a, y - b)).card : ℝ)| < c / 2)
    (m k : ℤ) (h0 : TwoRadii N ⌊(nBeam / 2) ^ 2⌋ m k)
    (n : ℕ) (hn53 : n ≤ 2 ^ 53) : ∀ (est : Option (ℤ × ℤ)) (xs ys radius step : ℤ), 0 < radius → 1 ≤ step → step ≤ n → step ≤ 2 * min m k + 1 →
      CloseGrid (min m k) radius step (a - xs) → CloseGrid (min m k) radius step (b - ys) → ∀ fuel, n + 1 ≤ fuel →
      ∃ x y steps, coarseLoopD img nBeam shrink fuel est xs ys radius step = some (.ok ((x, y), steps)) ∧
        |x - a| ≤ |m - k| ∧ |y - b| ≤ |m - k| := by
  have hmono : ∀ x y x' y', beamSum img nBeam x y ≤ beamSum img nBeam x' y' →
      (lens N ⌊(nBeam / 2) ^ 2⌋ (x - a, y - b)).card ≤ (lens N ⌊(nBeam / 2) ^ 2⌋ (x' - a, y' - b)).card := by
    intro x y x' y' hle
    have h1 := abs_lt.mp (h x y)
    have h2 := abs_lt.mp (h x' y')
    have h3 : c * ((lens N ⌊(nBeam / 2) ^ 2⌋ (x - a, y - b)).card : ℝ) <
        c * (((lens N ⌊(nBeam / 2) ^ 2⌋ (x' - a, y' - b)).card : ℝ) + 1) := by
      rw [mul_add, mul_one]; linarith [h1.1, h1.2, h2.1, h2.2]
    have h4 := lt_of_mul_lt_mul_left h3 hc.le
    have h5 : (lens N ⌊(nBeam / 2) ^ 2⌋ (x - a, y - b)).card < (lens N ⌊(nBeam / 2) ^ 2⌋ (x' - a, y' - b)).card + 1 := by exact_mod_cast h4
    omega
  have hnear := abs_le.mp h0.near
  induction n with
  | zero => intro _ _ _ _ step _ h1 h2; omega
  | succ n ih =>
    intro est xs ys radius step hr h1 h2 h2m hx hy fuel hf
    obtain ⟨fuel, rfl⟩ : ∃ f, fuel = f + 1 := ⟨fuel - 1, by omega⟩
    obtain ⟨hn1, hn2⟩ := nextStepD_spec shrink hd hs step h1 (by
      have : ((n + 1 : ℕ) : ℤ) ≤ 2 ^ 53 := by exact_mod_cast hn53
      omega)
    obtain ⟨gx, gx0, gx1, gx2⟩ := hx
    obtain ⟨gy, gy0, gy1, gy2⟩ := hy
    obtain ⟨x, y, M, hok, -, -, hbest⟩ := C52_best img nBeam xs ys radius step hb hr (by omega)
    have hcard := hmono _ _ _ _
      (hbest (gx + xs) (gy + ys) (by rw [add_sub_cancel_right]; exact gx0) (by rw [add_sub_cancel_right]; exact gy0)).1
    rw [abs_le] at gx1 gx2 gy1 gy2
    unfold coarseLoopD
    rw [if_neg (by omega), hok]
    simp only
    by_cases hone : step = 1
    · have ex : gx + xs - a = 0 := by omega
      have ey : gy + ys - b = 0 := by omega
      rw [ex, ey] at hcard
      obtain ⟨hv1, hv2⟩ := lens_nested _ _ m k h0 _ hcard
      rw [hn1 hone]
      obtain ⟨fuel, rfl⟩ : ∃ f, fuel = f + 1 := ⟨fuel - 1, by omega⟩
      unfold coarseLoopD
      simp only [if_true]
      exact ⟨x, y, [step], rfl, hv1, hv2⟩
    · obtain ⟨⟨v1, v2⟩, v3, v4⟩ := lens_round _ _ m k step h0 (by omega) _ _
        ⟨by rw [abs_le]; simp only; omega, by rw [abs_le]; simp only; omega⟩
        ⟨by rw [abs_le]; simp only; omega, by rw [abs_le]; simp only; omega⟩ hcard
      rw [abs_le] at v1 v2 v3 v4
      simp only at v1 v2 v3 v4
      obtain ⟨-, l1, l2⟩ := hn2 hone
      obtain ⟨x', y', steps, hst, hv⟩ := ih (by omega) (some (x, y)) x y (2 * step) (nextStepD shrink step) (by omega) l1 (by omega) (by omega)
        (closeGrid_of _ _ _ _ l1 (by omega) (by omega) (by omega) (by omega))
        (closeGrid_of _ _ _ _ l1 (by omega) (by omega) (by omega) (by omega)) fuel (by omega)
      rw [hst]
      exact ⟨x', y', _, rfl, hv⟩

/-- **C134 in double precision.** With the steps computed in double precision, for a beam size and a shrink factor that are doubles, the
centre is found exactly whenever the stated radius has as many whole pixels as that of the pupil. -/
theorem C134_double (img pure : Arr2 ℝ) (diam nBeam shrink c : ℝ) (hdiam : 0 < diam) (hb : 0 < nBeam) (hB : nBeam ≤ 2 ^ 53)
    (hdB : double nBeam = nBeam) (hd : double shrink = shrink) (hs : 1 < shrink) (hc : 0 < c) (a b : ℤ)
    (hn : 2 ≤ img.nr ∨ 2 ≤ img.nc) (h : IdealPupil pure diam c a b) (hi : AlmostPicture img pure c) (hsz : ⌊diam / 2⌋ = ⌊nBeam / 2⌋) :
    ∃ steps, ∀ fuel, (max 1 ⌊double (nBeam / shrink)⌋).toNat < fuel →
      coarselyLocateD fuel img nBeam shrink = some (.ok ((a, b), steps)) := by
  obtain ⟨x, y, steps, -, -, hall⟩ := C51_double img nBeam shrink hb hB hd hs hn
  suffices hv : x = a ∧ y = b by
    obtain ⟨rfl, rfl⟩ := hv
    exact ⟨steps, hall⟩
  have hsum : ∀ x y, |beamSum img nBeam x y - c * ((lens ⌊(diam / 2) ^ 2⌋ ⌊(nBeam / 2) ^ 2⌋ (x - a, y - b)).card : ℝ)| < c / 2 := by
    intro x y
    rw [← beamSum_lens pure diam nBeam c a b h]
    exact beamSum_almost img pure nBeam c hi x y
  obtain ⟨hm0, hm, hm'⟩ := floor_sq (show 0 ≤ diam / 2 by linarith)
  obtain ⟨hk0, hk, hk'⟩ := floor_sq (show 0 ≤ nBeam / 2 by linarith)
  have hroom := ideal_room h hdiam
  rw [← hi.rows, ← hi.cols] at hroom
  have hstep : 1 ≤ max 1 ⌊double (nBeam / shrink)⌋ := le_max_left _ _
  have h2m : max 1 ⌊double (nBeam / shrink)⌋ ≤ 2 * min ⌊diam / 2⌋ ⌊nBeam / 2⌋ + 1 := by
    refine max_le (by omega) ?_
    have f2 : nBeam / 2 < ⌊nBeam / 2⌋ + 1 := Int.lt_floor_add_one _
    have : ⌊double (nBeam / shrink)⌋ < 2 * ⌊nBeam / 2⌋ + 2 := by
      rw [Int.floor_lt]
      push_cast
      have := (double_mono (div_le_self hb.le hs.le)).trans hdB.le
      linarith
    omega
  have hnear : |⌊diam / 2⌋ - ⌊nBeam / 2⌋| ≤ 1 := by rw [hsz, sub_self, abs_zero]; norm_num
  have h0 : TwoRadii ⌊(diam / 2) ^ 2⌋ ⌊(nBeam / 2) ^ 2⌋ ⌊diam / 2⌋ ⌊nBeam / 2⌋ := ⟨hm0, hm, hm', hk0, hk, hk', hnear⟩
  have hloop : ∃ x y st, coarselyLocateD ((max 1 ⌊double (nBeam / shrink)⌋).toNat + 1) img nBeam shrink = some (.ok ((x, y), st)) ∧
      |x - a| ≤ |⌊diam / 2⌋ - ⌊nBeam / 2⌋| ∧ |y - b| ≤ |⌊diam / 2⌋ - ⌊nBeam / 2⌋| := by
    unfold coarselyLocateD
    rw [if_neg (not_not.mpr hb), if_neg (by push Not; linarith), if_neg (by push Not; exact hs)]
    have hS53 : max 1 ⌊double (nBeam / shrink)⌋ ≤ 2 ^ 53 := by
      refine max_le (by norm_num) ?_
      have h3 : ((⌊double (nBeam / shrink)⌋ : ℤ) : ℝ) ≤ ((2 ^ 53 : ℤ) : ℝ) := by
        refine (Int.floor_le _).trans ((double_mono (div_le_self hb.le hs.le)).trans (hdB.le.trans (hB.trans ?_)))
        norm_num
      exact_mod_cast h3
    generalize ⌊diam / 2⌋ = m at *
    generalize ⌊nBeam / 2⌋ = k at *
    generalize max 1 ⌊double (nBeam / shrink)⌋ = S at *
    refine loopD_finds img nBeam shrink c hb hd hs hc a b _ hsum m k h0 S.toNat (by omega) none 0 0 _ S (by omega) hstep (by omega) h2m ?_ ?_ _
      le_rfl
    · exact closeGrid_of _ _ _ _ hstep h2m (by omega) (by omega) (by omega)
    · exact closeGrid_of _ _ _ _ hstep h2m (by omega) (by omega) (by omega)
  obtain ⟨x', y', st, hst, hv⟩ := hloop
  rw [hall _ (Nat.lt_succ_self _)] at hst
  have he := (Prod.mk.inj (Except.ok.inj (Option.some.inj hst))).1
  obtain ⟨rfl, rfl⟩ := Prod.mk.inj he
  rw [hsz, sub_self, abs_zero, abs_nonpos_iff, abs_nonpos_iff] at hv
  omega

/-- A pupil of diameter 40 in a corner of a 100 x 200 picture, with the diameter stated as 41. -/
example : ∃ steps, coarselyLocateD 20 (discPicture 100 200 40 7 (-75) 25) 41 3 = some (.ok ((-75, 25), steps)) := by
  have d40 : double 41 = 41 := by exact_mod_cast double_int 41 (by norm_num)
  have d3 : double 3 = 3 := by exact_mod_cast double_int 3 (by norm_num)
  have e1 : ⌊(40 : ℝ) / 2⌋ = 20 := by rw [Int.floor_eq_iff]; norm_num
  have e2 : ⌊(41 : ℝ) / 2⌋ = 20 := by rw [Int.floor_eq_iff]; norm_num
  obtain ⟨steps, h⟩ := C134_double (discPicture 100 200 40 7 (-75) 25) (discPicture 100 200 40 7 (-75) 25) 40 41 3 7 (by norm_num) (by norm_num)
    (by norm_num) d40 d3 (by norm_num) (by norm_num) (-75) 25 (Or.inl (by simp [discPicture]))
    (discPicture_ideal _ _ _ _ _ _ (by norm_num) (by norm_num) (by norm_num) (by norm_num) (by norm_num)) ⟨rfl, rfl, by simp⟩
    (by rw [e1, e2])
  refine ⟨steps, h 20 ?_⟩
  have := floor_quotient 41 3 (by norm_num) (by norm_num) (by norm_num) (by norm_num)
  push_cast at this
  rw [this, show ⌊(41 : ℝ) / 3⌋ = 13 by rw [Int.floor_eq_iff]; norm_num]
  norm_num

end Coralign.Props
