import Verif.Props.Zernike

/-!
# The array `gen_zernikes` chooses (C65)
-/

namespace Coralign.Props
open Coralign Coralign.Spec

/-- Specification: every point of the beam — the disc of diameter `nBeam` centred at `(xo, yo)` from the centre pixel `N//2` — lies in one of the
pixels of a square array with `N` pixels on a side. -/
def HoldsBeam (N : ℕ) (xo yo nBeam : ℝ) : Prop :=
  ∀ x y : ℝ, (x - xo) ^ 2 + (y - yo) ^ 2 ≤ (nBeam / 2) ^ 2 →
    ∃ k l : ℤ, Reaches N N k l ∧ |x - l| ≤ 1 / 2 ∧ |y - k| ≤ 1 / 2

/-- A coordinate lies in a pixel of an array of `2 H` pixels exactly between the outer edges of the first and the last. -/
theorem covered_iff (H : ℤ) (x : ℝ) (hH : 0 < H) :
    (∃ l : ℤ, -H ≤ l ∧ l < H ∧ |x - l| ≤ 1 / 2) ↔ -(H : ℝ) - 1 / 2 ≤ x ∧ x ≤ H - 1 / 2 := by
  constructor
  · rintro ⟨l, h1, h2, h3⟩
    have a1 : -(H : ℝ) ≤ l := by exact_mod_cast h1
    have a2 : (l : ℝ) ≤ H - 1 := by
      have : l ≤ H - 1 := by omega
      exact_mod_cast this
    rw [abs_le] at h3
    constructor <;> linarith
  · rintro ⟨h1, h2⟩
    rcases eq_or_lt_of_le h2 with h | h
    · refine ⟨H - 1, by omega, by omega, ?_⟩
      rw [h, abs_le]; push_cast; constructor <;> linarith
    · refine ⟨⌊x + 1 / 2⌋, ?_, ?_, ?_⟩
      · rw [Int.le_floor]; push_cast; linarith
      · rw [Int.floor_lt]; linarith
      · have b1 := Int.floor_le (x + 1 / 2)
        have b2 := Int.lt_floor_add_one (x + 1 / 2)
        rw [abs_le]; constructor <;> linarith

/-- An array of `2 H` pixels holds the beam exactly if it reaches `nBeam/2` beyond the centre of the beam on all four sides. -/
theorem holds_iff (H : ℤ) (hH : 0 < H) (xo yo nBeam : ℝ) (hb : 0 < nBeam) :
    HoldsBeam (2 * H).toNat xo yo nBeam ↔
      (-(H : ℝ) - 1 / 2 ≤ xo - nBeam / 2 ∧ xo + nBeam / 2 ≤ H - 1 / 2) ∧ -(H : ℝ) - 1 / 2 ≤ yo - nBeam / 2 ∧ yo + nBeam / 2 ≤ H - 1 / 2 := by
  have key : ∀ x y : ℝ, (∃ k l : ℤ, Reaches (2 * H).toNat (2 * H).toNat k l ∧ |x - l| ≤ 1 / 2 ∧ |y - k| ≤ 1 / 2) ↔
      (-(H : ℝ) - 1 / 2 ≤ x ∧ x ≤ H - 1 / 2) ∧ -(H : ℝ) - 1 / 2 ≤ y ∧ y ≤ H - 1 / 2 := by
    intro x y
    rw [← covered_iff H x hH, ← covered_iff H y hH]
    constructor
    · rintro ⟨k, l, h, h1, h2⟩
      unfold Reaches at h
      exact ⟨⟨l, by omega, by omega, h1⟩, ⟨k, by omega, by omega, h2⟩⟩
    · rintro ⟨⟨l, a1, a2, a3⟩, ⟨k, b1, b2, b3⟩⟩
      refine ⟨k, l, ?_, a3, b3⟩
      unfold Reaches
      omega
  unfold HoldsBeam
  simp only [key]
  constructor
  · intro h
    have e1 := h (xo - nBeam / 2) yo (by nlinarith)
    have e2 := h (xo + nBeam / 2) yo (by nlinarith)
    have e3 := h xo (yo - nBeam / 2) (by nlinarith)
    have e4 := h xo (yo + nBeam / 2) (by nlinarith)
    exact ⟨⟨e1.1.1, e2.1.2⟩, e3.2.1, e4.2.2⟩
  · rintro ⟨⟨h1, h2⟩, h3, h4⟩ x y hxy
    have a : |x - xo| ≤ nBeam / 2 := abs_le_of_sq_le_sq (by nlinarith [sq_nonneg (y - yo)]) (by linarith)
    have b : |y - yo| ≤ nBeam / 2 := abs_le_of_sq_le_sq (by nlinarith [sq_nonneg (x - xo)]) (by linarith)
    rw [abs_le] at a b
    refine ⟨⟨?_, ?_⟩, ?_, ?_⟩ <;> linarith

theorem gen_default (terms : List (ℤ × ℝ)) (xo yo nBeam : ℝ) (h : GenArgs terms nBeam 1000000) :
    ∃ o H, genZernikes (terms.map Prod.fst) (terms.map Prod.snd) xo yo nBeam = .ok o ∧ 0 < H ∧ o.nr = (2 * H).toNat ∧ o.nc = o.nr ∧
      H = ⌈(1 / 2 : ℝ) * (nBeam + 1 + max |xo| |yo|)⌉ := by
  refine ⟨_, ⌈(1 / 2 : ℝ) * (nBeam + 1 + max |xo| |yo|)⌉, gen_eq terms xo yo nBeam 1000000 h, ?_, ?_, rfl, rfl⟩
  · rw [Int.ceil_pos]
    have := h.beam
    have : 0 ≤ max |xo| |yo| := le_trans (abs_nonneg xo) (le_max_left _ _)
    linarith
  · simp only [genSize, if_true]; rfl

/-- **C65 (partial).** Without offsets, the array chosen by default is the smallest with an even number of pixels on a side that holds the beam, as
documented.  Missing: displaced beams, see `C65_offsets` and `C65_default_array_clips`. -/
theorem C65_smallest_partial (terms : List (ℤ × ℝ)) (nBeam : ℝ) (h : GenArgs terms nBeam 1000000) :
    ∃ o, genZernikes (terms.map Prod.fst) (terms.map Prod.snd) 0 0 nBeam = .ok o ∧ o.nc = o.nr ∧ Even o.nr ∧ HoldsBeam o.nr 0 0 nBeam ∧
      ∀ M : ℕ, Even M → HoldsBeam M 0 0 nBeam → o.nr ≤ M := by
  obtain ⟨o, H, ho, hH, h1, h2, h3⟩ := gen_default terms 0 0 nBeam h
  have hb := h.beam
  have hz : H = ⌈(1 / 2 : ℝ) * (nBeam + 1)⌉ := by rw [h3]; simp
  have hle : (1 / 2 : ℝ) * (nBeam + 1) ≤ H := by rw [hz]; exact Int.le_ceil _
  refine ⟨o, ho, h2, ⟨H.toNat, by omega⟩, ?_, ?_⟩
  · rw [h1, holds_iff H hH _ _ _ hb]
    refine ⟨⟨?_, ?_⟩, ?_, ?_⟩ <;> linarith
  · rintro M ⟨m, rfl⟩ hM
    rcases Nat.eq_zero_or_pos m with rfl | hm
    · obtain ⟨k, l, hr, -⟩ := hM 0 0 (by nlinarith)
      unfold Reaches at hr
      omega
    · have e : m + m = (2 * (m : ℤ)).toNat := by omega
      rw [e, holds_iff (m : ℤ) (by omega) _ _ _ hb] at hM
      have : H ≤ m := by
        rw [hz, Int.ceil_le]
        have := hM.1.2
        push_cast at this ⊢
        linarith
      omega

/-- **C65.** The offsets with which the array chosen by default holds every beam: neither offset may exceed half the larger of the two in size, nor fall
below minus one less half of it.  So no beam displaced right or up by the same or a larger amount than in the other direction is safe. -/
theorem C65_offsets (ts : List (ℤ × ℝ)) (hne : ts ≠ []) (hpos : ∀ p ∈ ts, 1 ≤ p.1) (xo yo : ℝ) :
    (∀ nBeam, 0 < nBeam → ∃ o, genZernikes (ts.map Prod.fst) (ts.map Prod.snd) xo yo nBeam = .ok o ∧ HoldsBeam o.nr xo yo nBeam) ↔
      (xo ≤ max |xo| |yo| / 2 ∧ yo ≤ max |xo| |yo| / 2) ∧ -1 - max |xo| |yo| / 2 ≤ xo ∧ -1 - max |xo| |yo| / 2 ≤ yo := by
  set a := max |xo| |yo| with ha
  have ha0 : 0 ≤ a := le_trans (abs_nonneg xo) (le_max_left _ _)
  constructor
  · intro hall
    -- a beam for which the size needs no rounding
    obtain ⟨n, hn⟩ : ∃ n : ℤ, a + 1 < 2 * (n : ℝ) := by
      obtain ⟨n, hn⟩ := exists_nat_gt ((a + 1) / 2)
      exact ⟨n, by push_cast; linarith⟩
    have hb : 0 < 2 * (n : ℝ) - 1 - a := by linarith
    obtain ⟨o, ho, hold⟩ := hall _ hb
    obtain ⟨o', H, ho', hH, h1, h2, h3⟩ := gen_default ts xo yo _ ⟨hne, hpos, hb, by norm_num⟩
    rw [ho] at ho'
    cases ho'
    rw [h1, holds_iff H hH _ _ _ hb] at hold
    have hHn : H = n := by
      rw [h3, ← ha]
      rw [show (1 / 2 : ℝ) * (2 * n - 1 - a + 1 + a) = n by ring, Int.ceil_intCast]
    rw [hHn] at hold
    obtain ⟨⟨e1, e2⟩, e3, e4⟩ := hold
    refine ⟨⟨?_, ?_⟩, ?_, ?_⟩ <;> linarith
  · rintro ⟨⟨e1, e2⟩, e3, e4⟩ nBeam hb
    obtain ⟨o, H, ho, hH, h1, h2, h3⟩ := gen_default ts xo yo nBeam ⟨hne, hpos, hb, by norm_num⟩
    refine ⟨o, ho, ?_⟩
    rw [h1, holds_iff H hH _ _ _ hb]
    have hle : (1 / 2 : ℝ) * (nBeam + 1 + a) ≤ H := by rw [h3]; exact Int.le_ceil _
    refine ⟨⟨?_, ?_⟩, ?_, ?_⟩ <;> linarith

/-- The condition of `C65_offsets` for a shift of one and a half pixels to the left and half a pixel up; it fails for a shift to the right. -/
example : ((-3 / 2 : ℝ) ≤ max |(-3 / 2 : ℝ)| |1 / 2| / 2 ∧ (1 / 2 : ℝ) ≤ max |(-3 / 2 : ℝ)| |1 / 2| / 2) ∧
    -1 - max |(-3 / 2 : ℝ)| |1 / 2| / 2 ≤ -3 / 2 ∧ -1 - max |(-3 / 2 : ℝ)| |1 / 2| / 2 ≤ 1 / 2 := by
  norm_num [abs_of_neg, abs_of_pos]

/-- Tip of a nanometre on a beam of 9.5 pixels, displaced by a tenth of a pixel to the right: not all of some such beam is in the array. -/
example : ¬ ∀ nBeam : ℝ, 0 < nBeam → ∃ o, genZernikes [2] [1] (1 / 10) 0 nBeam = .ok o ∧ HoldsBeam o.nr (1 / 10) 0 nBeam := by
  intro h
  have := (C65_offsets [(2, 1)] (by simp) (by simp) (1 / 10) 0).mp h
  norm_num [abs_of_pos] at this

end Coralign.Props
