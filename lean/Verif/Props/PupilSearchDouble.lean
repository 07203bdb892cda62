import Verif.Model.PupilSearchDouble
import Verif.Props.PupilSearch
import Verif.Props.HlcDouble
import Verif.Lemmas.ShapesDouble

/-!
# C51 in double precision: the coarse search still terminates
-/

namespace Coralign.Props

open Spec

/-- A double above one is above it by at least one unit in the last place. -/
theorem shrink_gap (s : ℝ) (hd : double s = s) (h : 1 < s) : 1 + 2 * roundoff ≤ s := by
  by_contra hc
  push Not at hc
  rw [roundoff_eq] at hc
  have hlog : Int.log 2 |s| = 0 := by
    rw [abs_of_pos (by linarith)]
    have a := (Int.zpow_le_iff_le_log (b := 2) (by norm_num) (by linarith : 0 < s) (x := 0)).mp (by norm_num; linarith)
    have b := (Int.lt_zpow_iff_log_lt (b := 2) (by norm_num) (x := 1) (by linarith : 0 < s)).mp (by norm_num at hc ⊢; linarith)
    omega
  have hu : ulp s = (2 : ℝ) ^ (-52 : ℤ) := by unfold ulp; rw [hlog]; norm_num
  unfold double at hd
  rw [hu] at hd
  generalize npRound (s / (2 : ℝ) ^ (-52 : ℤ)) = z at hd
  have e : (z : ℝ) = s * 4503599627370496 := by
    rw [← hd]
    norm_num
    ring
  have h1 : ((4503599627370496 : ℤ) : ℝ) < (z : ℝ) := by push_cast; linarith
  have h2 : (z : ℝ) < ((4503599627370497 : ℤ) : ℝ) := by
    push_cast
    norm_num at hc
    linarith
  have h1' : (4503599627370496 : ℤ) < z := by exact_mod_cast h1
  have h2' : z < (4503599627370497 : ℤ) := by exact_mod_cast h2
  omega

theorem step_drops (s : ℝ) (hs : 1 + 2 * roundoff ≤ s) (n : ℤ) (hn : 1 ≤ n) : double ((n : ℝ) / s) < n := by
  have n1 : (1 : ℝ) ≤ n := by exact_mod_cast hn
  have u0 := roundoff_pos
  have hu : roundoff ≤ 1 / 8 := by rw [roundoff_eq]; norm_num
  have hη : underflow ≤ roundoff * roundoff := underflow_le'
  have hs0 : 0 < s := by linarith
  have z0 : 0 < (n : ℝ) / s := by positivity
  have hz : (n : ℝ) / s * (1 + 2 * roundoff) ≤ n := by
    rw [div_mul_eq_mul_div, div_le_iff₀ hs0]
    exact mul_le_mul_of_nonneg_left hs (by linarith)
  have he := double_error ((n : ℝ) / s)
  rw [abs_le, abs_of_pos z0] at he
  have he2 := he.2
  set z := (n : ℝ) / s
  set d := double z
  -- `d ≤ z (1 + u) + u²` and `z (1 + 2 u) ≤ n`
  by_contra hc
  push Not at hc
  have h1 : (n : ℝ) ≤ z * (1 + roundoff) + roundoff * roundoff := by linarith
  have h2 : z * roundoff ≤ roundoff * roundoff := by nlinarith
  have h3 : z ≤ roundoff := le_of_mul_le_mul_right h2 u0
  nlinarith

theorem nextStepD_spec (shrink : ℝ) (hd : double shrink = shrink) (hs : 1 < shrink) (step : ℤ) (h : 1 ≤ step) (hb : step ≤ 2 ^ 53) :
    (step = 1 → nextStepD shrink step = 0) ∧
    (step ≠ 1 → nextStepD shrink step = max 1 ⌊double ((step : ℝ) / shrink)⌋ ∧ 1 ≤ nextStepD shrink step ∧ nextStepD shrink step < step) := by
  unfold nextStepD
  refine ⟨fun h1 => if_pos h1, fun h1 => ?_⟩
  rw [if_neg h1]
  simp only
  rw [double_int step (by rw [abs_of_pos (by omega)]; exact hb)]
  have hlt : ⌊double ((step : ℝ) / shrink)⌋ < step := by
    rw [Int.floor_lt]
    exact step_drops shrink (shrink_gap shrink hd hs) step h
  split
  · next c => rw [max_eq_left (by omega)]; omega
  · next c => rw [max_eq_right (by omega)]; omega

/-- The steps of a terminating search in double precision: each is the rounded quotient of the previous one and the shrink factor, rounded down but at least 1, and
smaller than the previous one; the search stops after the round with step 1. -/
def StepChainD (shrink : ℝ) : ℤ → List ℤ → Prop
  | _, [] => False
  | s, [t] => t = s ∧ s = 1
  | s, t :: u :: rest => t = s ∧ u < t ∧ u = max 1 ⌊double ((t : ℝ) / shrink)⌋ ∧ StepChainD shrink u (u :: rest)

theorem loopD_terminates (img : Arr2 ℝ) (nBeam shrink : ℝ) (hb : 0 < nBeam) (hd : double shrink = shrink) (hs : 1 < shrink) (n : ℕ) (hn : n ≤ 2 ^ 53) :
    ∀ (est : Option (ℤ × ℤ)) (xs ys radius step : ℤ), 0 < radius → 1 ≤ step → step ≤ n →
      ∃ x y steps, StepChainD shrink step steps ∧ steps.length ≤ n ∧
        ∀ fuel, n + 1 ≤ fuel → coarseLoopD img nBeam shrink fuel est xs ys radius step = some (.ok ((x, y), steps)) := by
  induction n with
  | zero => intro _ _ _ _ step _ h1 h2; omega
  | succ n ih =>
    intro est xs ys radius step hr h1 h2
    obtain ⟨x, y, M, hok, -⟩ := C52_best img nBeam xs ys radius step hb hr (by omega)
    have hb53 : step ≤ 2 ^ 53 := by
      have : ((n + 1 : ℕ) : ℤ) ≤ 2 ^ 53 := by exact_mod_cast hn
      omega
    obtain ⟨hn1, hn2⟩ := nextStepD_spec shrink hd hs step h1 hb53
    by_cases hone : step = 1
    · refine ⟨x, y, [step], ⟨rfl, hone⟩, by simp, fun fuel hf => ?_⟩
      obtain ⟨fuel, rfl⟩ : ∃ f, fuel = f + 2 := ⟨fuel - 2, by omega⟩
      unfold coarseLoopD
      rw [if_neg (by omega), hok]
      simp only
      rw [hn1 hone]
      unfold coarseLoopD
      simp only [if_true]
    · obtain ⟨e, l1, l2⟩ := hn2 hone
      obtain ⟨x', y', steps, h4, h5, h3⟩ := ih (by omega) (some (x, y)) x y (2 * step) (nextStepD shrink step) (by omega) l1 (by omega)
      refine ⟨x', y', step :: steps, ?_, by simp; omega, fun fuel hf => ?_⟩
      · match steps, h4 with
        | [t], ⟨h, h'⟩ => exact ⟨rfl, by omega, by omega, rfl, by omega⟩
        | t :: u :: rest, h =>
          obtain ⟨g1, g2⟩ := h
          subst g1
          exact ⟨rfl, l2, e, rfl, g2⟩
      · obtain ⟨fuel, rfl⟩ : ∃ f, fuel = f + 1 := ⟨fuel - 1, by omega⟩
        unfold coarseLoopD
        rw [if_neg (by omega), hok]
        simp only
        rw [h3 fuel (by omega)]

/-- **C51 in double precision.** With both divisions rounded, the search terminates for every shrink factor that is a double above 1, however close to 1, and every
beam of at most `2⁵³` pixels; its steps still decrease strictly and end with 1. -/
theorem C51_double (img : Arr2 ℝ) (nBeam shrink : ℝ) (hb : 0 < nBeam) (hB : nBeam ≤ 2 ^ 53) (hd : double shrink = shrink) (hs : 1 < shrink)
    (hn : 2 ≤ img.nr ∨ 2 ≤ img.nc) :
    ∃ x y steps, StepChainD shrink (max 1 ⌊double (nBeam / shrink)⌋) steps ∧ steps.length ≤ (max 1 ⌊double (nBeam / shrink)⌋).toNat ∧
      ∀ fuel, (max 1 ⌊double (nBeam / shrink)⌋).toNat < fuel → coarselyLocateD fuel img nBeam shrink = some (.ok ((x, y), steps)) := by
  have hstep : 1 ≤ max 1 ⌊double (nBeam / shrink)⌋ := le_max_left _ _
  have hS53 : max 1 ⌊double (nBeam / shrink)⌋ ≤ 2 ^ 53 := by
    refine max_le (by norm_num) ?_
    have h1 : nBeam / shrink ≤ ((2 ^ 53 : ℤ) : ℝ) := by
      push_cast
      refine (div_le_self hb.le hs.le).trans (hB.trans (by norm_num))
    have h2 := (double_mono h1).trans (double_int (2 ^ 53) (by norm_num)).le
    have h3 : ((⌊double (nBeam / shrink)⌋ : ℤ) : ℝ) ≤ ((2 ^ 53 : ℤ) : ℝ) := (Int.floor_le _).trans h2
    exact_mod_cast h3
  generalize hS : max 1 ⌊double (nBeam / shrink)⌋ = S at hstep hS53
  obtain ⟨x, y, steps, h1, h2, h3⟩ := loopD_terminates img nBeam shrink hb hd hs S.toNat (by omega) none 0 0 (max (img.nc / 2 : ℕ) (img.nr / 2 : ℕ)) S (by omega) hstep (by omega)
  refine ⟨x, y, steps, h1, h2, fun fuel hf => ?_⟩
  unfold coarselyLocateD
  rw [if_neg (not_not.mpr hb), if_neg (by push Not; linarith), if_neg (by push Not; exact hs), hS]
  exact h3 fuel hf

/-! ### Whole shrink factors, such as the default 3 -/

theorem floor_quotient (n : ℤ) (k : ℕ) (hk : 1 ≤ k) (h0 : 0 ≤ n) (hn : n ≤ 2 ^ 52) (hk2 : k ≤ 2 ^ 52) : ⌊double ((n : ℝ) / (k : ℝ))⌋ = ⌊(n : ℝ) / (k : ℝ)⌋ := by
  have k1 : (1 : ℝ) ≤ k := by exact_mod_cast hk
  have k0 : (0 : ℝ) < k := by linarith
  have n0 : (0 : ℝ) ≤ n := by exact_mod_cast h0
  have nb : (n : ℝ) ≤ 4503599627370496 := by exact_mod_cast hn
  have kb : (k : ℝ) ≤ 4503599627370496 := by exact_mod_cast hk2
  set q := ⌊(n : ℝ) / (k : ℝ)⌋ with hq
  have q0 : 0 ≤ q := Int.floor_nonneg.mpr (div_nonneg n0 k0.le)
  have q1 : (q : ℝ) ≤ n / k := Int.floor_le _
  have q2 : (n : ℝ) / k < q + 1 := Int.lt_floor_add_one _
  have hq52 : |q| ≤ 2 ^ 53 := by
    rw [abs_of_nonneg q0]
    have : (q : ℝ) ≤ ((2 ^ 53 : ℤ) : ℝ) := by
      push_cast
      have := q1.trans (div_le_self n0 k1)
      linarith
    exact_mod_cast this
  rw [Int.floor_eq_iff]
  constructor
  · rw [← double_int q hq52]
    exact double_mono q1
  · have hz : (n : ℝ) / k ≤ q + 1 - 1 / k := by
      have h1 : (n : ℝ) < (q + 1) * k := by rwa [div_lt_iff₀ k0] at q2
      have h2 : n < (q + 1) * (k : ℤ) := by exact_mod_cast h1
      have h3 : (n : ℝ) + 1 ≤ (q + 1) * k := by exact_mod_cast (by omega : n + 1 ≤ (q + 1) * (k : ℤ))
      rw [div_le_iff₀ k0, sub_mul, div_mul_cancel₀ _ k0.ne']
      linarith
    have he := double_error ((n : ℝ) / k)
    rw [abs_le, abs_of_nonneg (div_nonneg n0 k0.le)] at he
    have hη := underflow_le'
    have u0 := roundoff_pos
    have key : roundoff * ((n : ℝ) / k) + roundoff * roundoff < 1 / k := by
      rw [lt_div_iff₀ k0, add_mul, mul_assoc, div_mul_cancel₀ _ k0.ne']
      rw [roundoff_eq]
      have e1 : (2 : ℝ) ^ (-53 : ℤ) * n ≤ 1 / 2 := by norm_num; linarith
      have e2 : (2 : ℝ) ^ (-53 : ℤ) * (2 : ℝ) ^ (-53 : ℤ) * k ≤ 1 / 4 := by norm_num; linarith
      linarith
    linarith [he.2]

theorem loopD_same (img : Arr2 ℝ) (nBeam : ℝ) (k : ℕ) (hk : 2 ≤ k) (hk2 : k ≤ 2 ^ 52) (fuel : ℕ) :
    ∀ (est : Option (ℤ × ℤ)) (xs ys radius step : ℤ), 0 ≤ step → step ≤ 2 ^ 52 →
      coarseLoopD img nBeam k fuel est xs ys radius step = coarseLoop img nBeam k fuel est xs ys radius step := by
  induction fuel with
  | zero => intros; rfl
  | succ fuel ih =>
    intro est xs ys radius step h0 h1
    have hns : nextStepD k step = nextStep k step := by
      unfold nextStepD nextStep
      split_ifs with h
      · rfl
      · rw [double_int step (by rw [abs_of_nonneg h0]; exact h1.trans (by norm_num)), floor_quotient step k (by omega) h0 h1 hk2]
    have hnb : 0 ≤ nextStep (k : ℝ) step ∧ nextStep (k : ℝ) step ≤ 2 ^ 52 := by
      rcases h0.lt_or_eq with hp | rfl
      · obtain ⟨a, b⟩ := nextStep_spec (k : ℝ) (by exact_mod_cast hk) step (by omega)
        by_cases h : step = 1
        · rw [a h]; exact ⟨le_rfl, by norm_num⟩
        · obtain ⟨-, c, d⟩ := b h; exact ⟨by omega, by omega⟩
      · unfold nextStep; simp
    unfold coarseLoopD coarseLoop
    rw [hns]
    split_ifs
    · rfl
    · cases coarseOnce img nBeam xs ys radius step with
      | error e => rfl
      | ok p =>
        obtain ⟨e, M⟩ := p
        simp only
        rw [ih _ _ _ _ _ hnb.1 hnb.2]
        rfl

/-- **C51 in double precision.** With a beam of a whole number of pixels and a whole shrink factor, such as the default 3, rounding changes nothing: the same rounds,
with the same steps and the same estimate. -/
theorem C51_double_same (img : Arr2 ℝ) (N k : ℕ) (hN : N ≤ 2 ^ 52) (hk : 2 ≤ k) (hk2 : k ≤ 2 ^ 52) (fuel : ℕ) :
    coarselyLocateD fuel img N k = coarselyLocate fuel img N k := by
  unfold coarselyLocateD coarselyLocate
  have e := floor_quotient (N : ℤ) k (by omega) (by omega) (by exact_mod_cast hN) hk2
  rw [Int.cast_natCast] at e
  rw [e]
  have hb : ⌊(N : ℝ) / (k : ℝ)⌋ ≤ 2 ^ 52 := by
    have : ((⌊(N : ℝ) / (k : ℝ)⌋ : ℤ) : ℝ) ≤ ((2 ^ 52 : ℤ) : ℝ) := by
      refine (Int.floor_le _).trans ((div_le_self (Nat.cast_nonneg N) (by exact_mod_cast (by omega : 1 ≤ k))).trans ?_)
      exact_mod_cast hN
    exact_mod_cast this
  have h1 := le_max_left (1 : ℤ) ⌊(N : ℝ) / (k : ℝ)⌋
  rw [loopD_same img N k hk hk2 fuel none 0 0 _ _ (by omega) (max_le (by norm_num) hb)]

/-- A shrink factor one unit in the last place above 1. -/
example (f : Fin 30 → Fin 40 → ℝ) : ∃ x y steps, ∀ fuel, (max 1 ⌊double (10 / (1 + (2 : ℝ) ^ (-52 : ℤ)))⌋).toNat < fuel →
    coarselyLocateD fuel ⟨30, 40, f⟩ 10 (1 + (2 : ℝ) ^ (-52 : ℤ)) = some (.ok ((x, y), steps)) := by
  have hd : double (1 + (2 : ℝ) ^ (-52 : ℤ)) = 1 + (2 : ℝ) ^ (-52 : ℤ) := by
    have := double_of_bits (4503599627370497 : ℤ) (-52) (by norm_num) (by norm_num)
    have e : ((4503599627370497 : ℤ) : ℝ) * (2 : ℝ) ^ (-52 : ℤ) = 1 + (2 : ℝ) ^ (-52 : ℤ) := by norm_num
    rwa [e] at this
  obtain ⟨x, y, steps, -, -, h⟩ := C51_double ⟨30, 40, f⟩ 10 (1 + (2 : ℝ) ^ (-52 : ℤ)) (by norm_num) (by norm_num) hd (by norm_num) (Or.inl (by norm_num))
  exact ⟨x, y, steps, h⟩

example (f : Fin 30 → Fin 40 → ℝ) : coarselyLocateD 9 ⟨30, 40, f⟩ (30 : ℕ) (3 : ℕ) = coarselyLocate 9 ⟨30, 40, f⟩ (30 : ℕ) (3 : ℕ) :=
  C51_double_same _ 30 3 (by norm_num) (by norm_num) (by norm_num) 9

end Coralign.Props
