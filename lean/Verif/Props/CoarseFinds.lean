import Verif.Props.PupilSearch
import Mathlib.Data.Finset.Card
import Mathlib.Data.Int.Interval
import Mathlib.Algebra.Order.BigOperators.Group.Finset
import Mathlib.Tactic.Linarith

/-!
# Property C134: the coarse search finds the centre of an ideal pupil

The light that a trial disc collects from a pupil of the same size is the number of pixels in the lens where the two discs overlap.
The lens grows when the trial disc is reflected to the side of the pupil's centre, and that is enough to follow every round.
-/

namespace Coralign.Props

open Coralign Finset

/-! ### Specification -/

/-- Specification: a picture of an ideal pupil of diameter `nBeam`.  It is uniformly bright (`c`) in a disc centred `(a, b)` pixels from
the centre pixel, the disc lies in the picture, and the picture is dark elsewhere. -/
structure IdealPupil (img : Arr2 ℝ) (nBeam c : ℝ) (a b : ℤ) : Prop where
  bright : ∀ i j : ℤ, (((j - (img.nc / 2 : ℕ) - a : ℤ) : ℝ)) ^ 2 + (((i - (img.nr / 2 : ℕ) - b : ℤ) : ℝ)) ^ 2 ≤ (nBeam / 2) ^ 2 →
    img.px i j = some c
  dark : ∀ i j, ¬ InBeam img nBeam a b (i : Fin img.nr) (j : Fin img.nc) → img.val i j = 0

/-! ### Overlapping discs -/

/-- The pixels within squared distance `N` of the origin and `M` of `v`. -/
noncomputable def lens (N M : ℤ) (v : ℤ × ℤ) : Finset (ℤ × ℤ) :=
  (Icc (-N) N ×ˢ Icc (-N) N).filter fun p => p.1 ^ 2 + p.2 ^ 2 ≤ N ∧ (p.1 - v.1) ^ 2 + (p.2 - v.2) ^ 2 ≤ M

theorem mem_lens (N M : ℤ) (v p : ℤ × ℤ) :
    p ∈ lens N M v ↔ p.1 ^ 2 + p.2 ^ 2 ≤ N ∧ (p.1 - v.1) ^ 2 + (p.2 - v.2) ^ 2 ≤ M := by
  unfold lens
  rw [mem_filter, and_iff_right_iff_imp]
  rintro ⟨h, -⟩
  have key : ∀ x y : ℤ, x ^ 2 + y ^ 2 ≤ N → -N ≤ x ∧ x ≤ N := by
    intro x y h
    have h1 : |x| ≤ x ^ 2 := by
      rcases eq_or_ne x 0 with rfl | hx
      · simp
      · have : 1 ≤ |x| := Int.one_le_abs hx
        nlinarith [sq_abs x]
    have h2 := abs_le.mp (show |x| ≤ N by nlinarith [sq_nonneg y])
    exact h2
  obtain ⟨a, b⟩ := key p.1 p.2 h
  obtain ⟨c, d⟩ := key p.2 p.1 (by linarith)
  simp [mem_product, a, b, c, d]

/-- Reflection: if `σ` swaps the two centres and moves points of the first lens towards the origin, the second lens is not smaller. -/
theorem lens_reflect (N M : ℤ) (v v' : ℤ × ℤ) (σ : ℤ × ℤ → ℤ × ℤ) (hσ : ∀ p, σ (σ p) = p)
    (hmap : ∀ p ∈ lens N M v, p ∉ lens N M v' → σ p ∈ lens N M v') (hback : ∀ p ∈ lens N M v, σ p ∈ lens N M v → p ∈ lens N M v') :
    (lens N M v).card ≤ (lens N M v').card ∧
      ∀ q ∈ lens N M v', q ∉ lens N M v → σ q ∉ lens N M v → (lens N M v).card < (lens N M v').card := by
  classical
  let g : ℤ × ℤ → ℤ × ℤ := fun p => if p ∈ lens N M v' then p else σ p
  have hg : ∀ p ∈ lens N M v, g p ∈ lens N M v' := by
    intro p hp
    by_cases h : p ∈ lens N M v'
    · simp only [g, if_pos h]; exact h
    · simp only [g, if_neg h]; exact hmap p hp h
  have hinj : Set.InjOn g (lens N M v) := by
    intro p hp q hq he
    rw [mem_coe] at hp hq
    by_cases h1 : p ∈ lens N M v' <;> by_cases h2 : q ∈ lens N M v' <;> simp only [g, h1, h2, if_true, if_false] at he
    · exact he
    · exact absurd (hback q hq (he ▸ hp)) h2
    · exact absurd (hback p hp (he ▸ hq)) h1
    · rw [← hσ p, ← hσ q, he]
  refine ⟨card_le_card_of_injOn g hg hinj, ?_⟩
  intro q hq h1 h2
  rw [← card_image_of_injOn hinj]
  refine card_lt_card ((ssubset_iff_of_subset ?_).mpr ⟨q, hq, ?_⟩)
  · intro p hp
    obtain ⟨p', hp', rfl⟩ := mem_image.mp hp
    exact hg p' hp'
  · intro hp
    obtain ⟨p', hp', he⟩ := mem_image.mp hp
    by_cases h : p' ∈ lens N M v'
    · simp only [g, if_pos h] at he
      exact h1 (he ▸ hp')
    · simp only [g, if_neg h] at he
      apply h2
      rw [← he, hσ]
      exact hp'

theorem lens_swap (N M a b : ℤ) : (lens N M (a, b)).card = (lens N M (b, a)).card := by
  refine card_bij' (fun p _ => p.swap) (fun p _ => p.swap) ?_ ?_ (fun p _ => p.swap_swap) (fun p _ => p.swap_swap)
  · intro p hp
    rw [mem_lens] at hp ⊢
    simp only [Prod.fst_swap, Prod.snd_swap] at hp ⊢
    constructor <;> linarith [hp.1, hp.2]
  · intro p hp
    rw [mem_lens] at hp ⊢
    simp only [Prod.fst_swap, Prod.snd_swap] at hp ⊢
    constructor <;> linarith [hp.1, hp.2]

/-- Moving the second disc towards the first one, along a row. -/
theorem lens_row (N M a a' b : ℤ) (h : |a'| ≤ |a|) : (lens N M (a, b)).card ≤ (lens N M (a', b)).card := by
  refine (lens_reflect N M (a, b) (a', b) (fun p => (a + a' - p.1, p.2)) ?_ ?_ ?_).1
  · intro p; ext <;> simp
  · intro p hp hq
    rw [mem_lens] at hp hq ⊢
    obtain ⟨h1, h2⟩ := hp
    simp only [not_and, not_le] at hq h1 h2 ⊢
    have h3 := hq h1
    have h4 : (a' - a) * (2 * p.1 - a - a') < 0 := by nlinarith
    refine ⟨?_, by nlinarith⟩
    have h5 : (a + a') * (a + a' - 2 * p.1) ≤ 0 := by
      rcases le_or_gt 0 a with ha | ha
      · rw [abs_of_nonneg ha] at h
        obtain ⟨l, u⟩ := abs_le.mp h
        have : 0 < 2 * p.1 - a - a' := by
          by_contra hc
          nlinarith [mul_nonneg (show 0 ≤ a - a' by linarith) (show 0 ≤ -(2 * p.1 - a - a') by linarith)]
        nlinarith [mul_nonneg (show 0 ≤ a + a' by linarith) this.le]
      · rw [abs_of_neg ha] at h
        obtain ⟨l, u⟩ := abs_le.mp h
        have : 2 * p.1 - a - a' < 0 := by
          by_contra hc
          nlinarith [mul_nonneg (show 0 ≤ a' - a by linarith) (show 0 ≤ 2 * p.1 - a - a' by linarith)]
        nlinarith [mul_nonneg (show 0 ≤ -(a + a') by linarith) (show 0 ≤ -(2 * p.1 - a - a') by linarith)]
    nlinarith
  · intro p hp hq
    rw [mem_lens] at hp hq ⊢
    simp only at hp hq ⊢
    refine ⟨hp.1, ?_⟩
    nlinarith [hq.2]

theorem lens_col (N M a b b' : ℤ) (h : |b'| ≤ |b|) : (lens N M (a, b)).card ≤ (lens N M (a, b')).card := by
  rw [lens_swap N M a b, lens_swap N M a b']
  exact lens_row N M b b' a h

/-- Moving the second disc along a diagonal. -/
theorem lens_diag (N M s : ℤ) (hs : 0 ≤ s) : (lens N M (2 * s + 1, 0)).card ≤ (lens N M (s + 1, s)).card := by
  refine (lens_reflect N M (2 * s + 1, 0) (s + 1, s) (fun p => (p.2 + s + 1, p.1 - s - 1)) ?_ ?_ ?_).1
  · intro p; ext <;> simp <;> ring
  · intro p hp hq
    rw [mem_lens] at hp hq ⊢
    obtain ⟨h1, h2⟩ := hp
    simp only [not_and, not_le] at hq h1 h2 ⊢
    have h3 := hq h1
    have h4 : s * (p.2 - p.1 + s + 1) < 0 := by nlinarith
    have h5 : p.2 - p.1 + s + 1 < 0 := by
      by_contra hc
      nlinarith [mul_nonneg hs (show 0 ≤ p.2 - p.1 + s + 1 by linarith)]
    refine ⟨?_, by nlinarith⟩
    nlinarith [mul_nonneg (show 0 ≤ s + 1 by linarith) (show 0 ≤ -(p.2 - p.1 + s + 1) by linarith)]
  · intro p hp hq
    rw [mem_lens] at hp hq ⊢
    simp only at hp hq ⊢
    refine ⟨hp.1, ?_⟩
    nlinarith [hq.2]

theorem whole_root (X : ℤ) (h : 0 ≤ X) : ∃ w : ℤ, 0 ≤ w ∧ w ^ 2 ≤ X ∧ X < (w + 1) ^ 2 := by
  obtain ⟨n, rfl⟩ := Int.eq_ofNat_of_zero_le h
  refine ⟨(n.sqrt : ℕ), Int.natCast_nonneg _, ?_, ?_⟩
  · have := Nat.sqrt_le' n
    exact_mod_cast this
  · have := Nat.lt_succ_sqrt' n
    exact_mod_cast this

/-- One more pixel away is strictly worse, as long as the discs overlap well and the displacement is at least the difference of the radii. -/
theorem lens_strict (N M m k s : ℤ) (hm : m ^ 2 ≤ N) (hm' : N < (m + 1) ^ 2) (hk : k ^ 2 ≤ M) (hk' : M < (k + 1) ^ 2) (hs : 0 ≤ s)
    (hsm : s ≤ m) (hsk : s ≤ k) (hd : |m - k| ≤ s) : (lens N M (s + 1, s)).card < (lens N M (s, s)).card := by
  obtain ⟨d1, d2⟩ := abs_le.mp hd
  obtain ⟨-, hlt⟩ := lens_reflect N M (s + 1, s) (s, s) (fun p => (2 * s + 1 - p.1, p.2)) (by intro p; ext <;> simp) (by
    intro p hp hq
    rw [mem_lens] at hp hq ⊢
    obtain ⟨h1, h2⟩ := hp
    simp only [not_and, not_le] at hq h1 h2 ⊢
    have h3 := hq h1
    have h4 : 2 * s + 1 < 2 * p.1 := by nlinarith
    refine ⟨?_, by nlinarith⟩
    nlinarith [mul_nonneg (show 0 ≤ 2 * s + 1 by linarith) (show 0 ≤ 2 * p.1 - (2 * s + 1) by linarith)]) (by
    intro p hp hq
    rw [mem_lens] at hp hq ⊢
    simp only at hp hq ⊢
    refine ⟨hp.1, ?_⟩
    nlinarith [hq.2])
  rcases le_or_gt k m with hkm | hkm
  · refine hlt (s - k, s) ?_ ?_ ?_
    · rw [mem_lens]
      simp only
      constructor
      · nlinarith [mul_nonneg hs (show 0 ≤ k - s by linarith), mul_nonneg (show 0 ≤ m - k by linarith) (show 0 ≤ m + k by linarith)]
      · nlinarith
    · rw [mem_lens]
      simp only [not_and, not_le]
      intro _
      nlinarith
    · rw [mem_lens]
      simp only [not_and, not_le]
      intro hc
      exfalso
      have : m + 1 ≤ s + 1 + k := by linarith
      nlinarith [mul_self_le_mul_self (show 0 ≤ m + 1 by linarith) this, sq_nonneg s]
  · have hMs : 0 ≤ M - s ^ 2 := by nlinarith
    obtain ⟨w, w0, w1, w2⟩ := whole_root (M - s ^ 2) hMs
    have w3 : w ≤ k := by
      by_contra hc
      have h1 := mul_self_le_mul_self (show 0 ≤ k + 1 by linarith) (show k + 1 ≤ w by omega)
      rw [sq (k + 1)] at hk'
      rw [sq w] at w1
      linarith [sq_nonneg s]
    have w4 : k ≤ s + w := by
      by_contra hc
      have h1 := mul_self_le_mul_self (show 0 ≤ w + 1 by linarith) (show w + 1 ≤ k - s by omega)
      have h2 := mul_nonneg hs (show 0 ≤ k - s by linarith)
      have h3 : (k - s) * (k - s) + s ^ 2 + 2 * (s * (k - s)) = k ^ 2 := by ring
      rw [sq (w + 1)] at w2
      linarith
    refine hlt (s - w, 0) ?_ ?_ ?_
    · rw [mem_lens]
      simp only
      constructor
      · have := sq_le_sq' (show -m ≤ s - w by linarith) (show s - w ≤ m by linarith)
        linarith [show (0 : ℤ) ^ 2 = 0 by norm_num]
      · rw [show (s - w - s) ^ 2 + (0 - s) ^ 2 = w ^ 2 + s ^ 2 by ring]
        linarith
    · rw [mem_lens]
      simp only [not_and, not_le]
      intro _
      rw [show (s - w - (s + 1)) ^ 2 + (0 - s) ^ 2 = (w + 1) ^ 2 + s ^ 2 by ring]
      linarith
    · rw [mem_lens]
      simp only [not_and, not_le]
      intro hc
      exfalso
      have h1 : m + 1 ≤ s + 1 + w := by linarith
      have h2 := mul_self_le_mul_self (show 0 ≤ m + 1 by linarith) h1
      rw [show (2 * s + 1 - (s - w)) ^ 2 + 0 ^ 2 = (s + 1 + w) * (s + 1 + w) by ring] at hc
      rw [sq (m + 1)] at hm'
      linarith

theorem lens_pos (N M m k : ℤ) (hm : m ^ 2 ≤ N) (hk : k ^ 2 ≤ M) (u : ℤ × ℤ) (h1 : |u.1| ≤ m) (h2 : |u.2| ≤ k) : 0 < (lens N M u).card := by
  have e1 : u.1 ^ 2 ≤ m ^ 2 := by rw [← sq_abs u.1]; nlinarith [abs_nonneg u.1]
  have e2 : u.2 ^ 2 ≤ k ^ 2 := by rw [← sq_abs u.2]; nlinarith [abs_nonneg u.2]
  refine card_pos.mpr ⟨(u.1, 0), (mem_lens _ _ _ _).mpr ?_⟩
  constructor <;> simp only <;> nlinarith

theorem abs_le_of_sq (N m x y : ℤ) (hm0 : 0 ≤ m) (hm' : N < (m + 1) ^ 2) (h : x ^ 2 + y ^ 2 ≤ N) : |x| ≤ m := by
  by_contra hc
  have h1 : m + 1 ≤ |x| := by omega
  have h2 : |x| ^ 2 = x ^ 2 := sq_abs x
  nlinarith [sq_nonneg y]

theorem lens_far (N M m k : ℤ) (hm0 : 0 ≤ m) (hm' : N < (m + 1) ^ 2) (hk0 : 0 ≤ k) (hk' : M < (k + 1) ^ 2) (v : ℤ × ℤ)
    (h : 0 < (lens N M v).card) : |v.1| ≤ m + k ∧ |v.2| ≤ m + k := by
  obtain ⟨p, hp⟩ := card_pos.mp h
  rw [mem_lens] at hp
  obtain ⟨h1, h2⟩ := hp
  have a1 := abs_le.mp (abs_le_of_sq N m _ _ hm0 hm' h1)
  have a2 := abs_le.mp (abs_le_of_sq M k _ _ hk0 hk' h2)
  have a3 := abs_le.mp (abs_le_of_sq N m p.2 p.1 hm0 hm' (by linarith))
  have a4 := abs_le.mp (abs_le_of_sq M k (p.2 - v.2) (p.1 - v.1) hk0 hk' (by linarith))
  constructor <;> rw [abs_le] <;> omega

/-- Two radii that differ by at most a pixel: `m` and `k` are the whole pixels in the radii of the pupil and of the trial disc. -/
structure TwoRadii (N M m k : ℤ) : Prop where
  m0 : 0 ≤ m
  m1 : m ^ 2 ≤ N
  m2 : N < (m + 1) ^ 2
  k0 : 0 ≤ k
  k1 : k ^ 2 ≤ M
  k2 : M < (k + 1) ^ 2
  near : |m - k| ≤ 1

/-- What one round tells: a trial disc that collects as much as one at most `s` (and at most a radius) off on each axis is itself at most
`2 s` off on each axis. -/
theorem lens_round (N M m k s : ℤ) (h0 : TwoRadii N M m k) (hs : 1 ≤ s) (u v : ℤ × ℤ)
    (u1 : |u.1| ≤ s ∧ |u.1| ≤ min m k) (u2 : |u.2| ≤ s ∧ |u.2| ≤ min m k) (h : (lens N M u).card ≤ (lens N M v).card) :
    (|v.1| ≤ 2 * s ∧ |v.1| ≤ m + k) ∧ (|v.2| ≤ 2 * s ∧ |v.2| ≤ m + k) := by
  obtain ⟨f1, f2⟩ := lens_far N M m k h0.m0 h0.m2 h0.k0 h0.k2 v
    (lt_of_lt_of_le (lens_pos N M m k h0.m1 h0.k1 u (u1.2.trans (min_le_left _ _)) (u2.2.trans (min_le_right _ _))) h)
  have hs0 : 0 ≤ s := by omega
  rcases le_or_gt s (min m k) with hsm | hsm
  · have hst := lens_strict N M m k s h0.m1 h0.m2 h0.k1 h0.k2 hs0 (hsm.trans (min_le_left _ _)) (hsm.trans (min_le_right _ _))
      (h0.near.trans hs)
    have hd := lens_diag N M s hs0
    have hu : (lens N M (s, s)).card ≤ (lens N M u).card :=
      le_trans (lens_row N M s u.1 s (by rw [abs_of_nonneg hs0]; exact u1.1))
        (lens_col N M u.1 s u.2 (by rw [abs_of_nonneg hs0]; exact u2.1))
    have h3 : (lens N M (v.1, v.2)).card = (lens N M v).card := rfl
    refine ⟨⟨?_, f1⟩, ?_, f2⟩
    · by_contra hc
      have h1 := lens_row N M v.1 (2 * s + 1) v.2 (by rw [abs_of_nonneg (by omega)]; omega)
      have h2 := lens_col N M (2 * s + 1) v.2 0 (by rw [abs_zero]; exact abs_nonneg _)
      omega
    · by_contra hc
      have h1 := lens_col N M v.1 v.2 (2 * s + 1) (by rw [abs_of_nonneg (by omega)]; omega)
      have h2 := lens_row N M v.1 0 (2 * s + 1) (by rw [abs_zero]; exact abs_nonneg _)
      have h4 := lens_swap N M 0 (2 * s + 1)
      omega
  · have hn := abs_le.mp h0.near
    refine ⟨⟨by omega, f1⟩, by omega, f2⟩

/-- A displacement of more than the difference of the radii loses at least one pixel. -/
theorem lens_nested (N M m k : ℤ) (h0 : TwoRadii N M m k) (v : ℤ × ℤ) (h : (lens N M (0, 0)).card ≤ (lens N M v).card) :
    |v.1| ≤ |m - k| ∧ |v.2| ≤ |m - k| := by
  have ha0 : 0 ≤ |m - k| := abs_nonneg _
  set a : ℤ := |m - k| + 1 with ha
  have hb1 := neg_abs_le (m - k)
  have hb2 := le_abs_self (m - k)
  obtain ⟨-, hlt⟩ := lens_reflect N M (a, 0) (0, 0) (fun p => (a - p.1, p.2)) (by intro p; ext <;> simp) (by
    intro p hp hq
    rw [mem_lens] at hp hq ⊢
    obtain ⟨h1, h2⟩ := hp
    simp only [not_and, not_le] at hq h1 h2 ⊢
    have h3 := hq h1
    have h4 : a < 2 * p.1 := by nlinarith
    refine ⟨?_, by nlinarith⟩
    nlinarith [mul_nonneg (show 0 ≤ a by linarith) (show 0 ≤ 2 * p.1 - a by linarith)]) (by
    intro p hp hq
    rw [mem_lens] at hp hq ⊢
    simp only at hp hq ⊢
    refine ⟨hp.1, ?_⟩
    nlinarith [hq.2])
  have hm0 := h0.m0
  have hm1 := h0.m1
  have hm2 := h0.m2
  have hk0 := h0.k0
  have hk1 := h0.k1
  have hk2 := h0.k2
  have hstrict : (lens N M (a, 0)).card < (lens N M (0, 0)).card := by
    rcases le_or_gt M N with hMN | hMN
    · refine hlt (-k, 0) ?_ ?_ ?_
      · rw [mem_lens]; simp only; constructor <;> nlinarith
      · rw [mem_lens]
        simp only [not_and, not_le]
        intro _
        nlinarith [mul_self_le_mul_self (show 0 ≤ k + 1 by linarith) (show k + 1 ≤ k + a by linarith)]
      · rw [mem_lens]
        simp only [not_and, not_le]
        intro hc
        exfalso
        nlinarith [mul_self_le_mul_self (show 0 ≤ m + 1 by linarith) (show m + 1 ≤ k + a by linarith)]
    · refine hlt (-m, 0) ?_ ?_ ?_
      · rw [mem_lens]; simp only; constructor <;> nlinarith
      · rw [mem_lens]
        simp only [not_and, not_le]
        intro _
        nlinarith [mul_self_le_mul_self (show 0 ≤ k + 1 by linarith) (show k + 1 ≤ m + a by linarith)]
      · rw [mem_lens]
        simp only [not_and, not_le]
        intro hc
        exfalso
        nlinarith [mul_self_le_mul_self (show 0 ≤ m + 1 by linarith) (show m + 1 ≤ m + a by linarith)]
  have h3 : (lens N M (v.1, v.2)).card = (lens N M v).card := rfl
  constructor
  · by_contra hc
    have e1 := lens_row N M v.1 a v.2 (by rw [abs_of_nonneg (by omega)]; omega)
    have e2 := lens_col N M a v.2 0 (by rw [abs_zero]; exact abs_nonneg _)
    omega
  · by_contra hc
    have e1 := lens_col N M v.1 v.2 a (by rw [abs_of_nonneg (by omega)]; omega)
    have e2 := lens_row N M v.1 0 a (by rw [abs_zero]; exact abs_nonneg _)
    have e4 := lens_swap N M 0 a
    omega

/-! ### The light collected -/

theorem inBeam_int (img : Arr2 ℝ) (nBeam : ℝ) (x y : ℤ) (i j : ℕ) :
    InBeam img nBeam x y i j ↔
      ((j : ℤ) - (img.nc / 2 : ℕ) - x) ^ 2 + ((i : ℤ) - (img.nr / 2 : ℕ) - y) ^ 2 ≤ ⌊(nBeam / 2) ^ 2⌋ := by
  unfold InBeam
  rw [Int.le_floor]
  push_cast
  rfl

theorem beamSum_lens (img : Arr2 ℝ) (diam nBeam c : ℝ) (a b : ℤ) (h : IdealPupil img diam c a b) (x y : ℤ) :
    beamSum img nBeam x y = c * ((lens ⌊(diam / 2) ^ 2⌋ ⌊(nBeam / 2) ^ 2⌋ (x - a, y - b)).card : ℝ) := by
  classical
  have hval : ∀ (i : Fin img.nr) (j : Fin img.nc), InBeam img diam a b i j → img.val i j = c := by
    intro i j hij
    have := h.bright (i : ℕ) (j : ℕ) hij
    rw [Arr2.px_val] at this
    exact Option.some.inj this
  have e1 : beamSum img nBeam x y =
      ∑ p : Fin img.nr × Fin img.nc, if InBeam img diam a b p.1 p.2 ∧ InBeam img nBeam x y p.1 p.2 then c else 0 := by
    unfold beamSum
    rw [Fintype.sum_prod_type]
    refine sum_congr rfl fun i _ => sum_congr rfl fun j _ => ?_
    by_cases h1 : InBeam img diam a b i j
    · by_cases h2 : InBeam img nBeam x y i j
      · rw [if_pos h2, if_pos ⟨h1, h2⟩, hval i j h1]
      · rw [if_neg h2, if_neg fun hh => h2 hh.2]
    · rw [h.dark i j h1, ite_self, if_neg fun hh => h1 hh.1]
  rw [e1, ← sum_filter, sum_const, nsmul_eq_mul, mul_comm]
  congr 2
  refine card_bij (fun p _ => (((p.2 : ℕ) : ℤ) - (img.nc / 2 : ℕ) - a, ((p.1 : ℕ) : ℤ) - (img.nr / 2 : ℕ) - b)) ?_ ?_ ?_
  · intro p hp
    rw [mem_filter, inBeam_int, inBeam_int] at hp
    rw [mem_lens]
    refine ⟨hp.2.1, ?_⟩
    have := hp.2.2
    simp only
    rw [show ((p.2 : ℕ) : ℤ) - (img.nc / 2 : ℕ) - a - (x - a) = ((p.2 : ℕ) : ℤ) - (img.nc / 2 : ℕ) - x by ring,
      show ((p.1 : ℕ) : ℤ) - (img.nr / 2 : ℕ) - b - (y - b) = ((p.1 : ℕ) : ℤ) - (img.nr / 2 : ℕ) - y by ring]
    exact this
  · intro p _ q _ he
    have h1 := congrArg Prod.fst he
    have h2 := congrArg Prod.snd he
    simp only at h1 h2
    ext <;> omega
  · intro q hq
    rw [mem_lens] at hq
    have hpx := h.bright (q.2 + (img.nr / 2 : ℕ) + b) (q.1 + (img.nc / 2 : ℕ) + a) (by
      rw [show q.1 + (img.nc / 2 : ℕ) + a - (img.nc / 2 : ℕ) - a = q.1 by ring,
        show q.2 + (img.nr / 2 : ℕ) + b - (img.nr / 2 : ℕ) - b = q.2 by ring]
      have := Int.le_floor.mp hq.1
      push_cast at this
      exact this)
    obtain ⟨⟨b1, b2⟩, b3, b4⟩ := (Arr2.px_isSome img _ _).mp (by rw [hpx]; rfl)
    have ei : (((q.2 + (img.nr / 2 : ℕ) + b).toNat : ℕ) : ℤ) = q.2 + (img.nr / 2 : ℕ) + b := Int.toNat_of_nonneg b1
    have ej : (((q.1 + (img.nc / 2 : ℕ) + a).toNat : ℕ) : ℤ) = q.1 + (img.nc / 2 : ℕ) + a := Int.toNat_of_nonneg b3
    refine ⟨(⟨(q.2 + (img.nr / 2 : ℕ) + b).toNat, by omega⟩, ⟨(q.1 + (img.nc / 2 : ℕ) + a).toNat, by omega⟩), ?_, ?_⟩
    · rw [mem_filter, inBeam_int, inBeam_int]
      refine ⟨mem_univ _, ?_, ?_⟩
      · simp only
        rw [ei, ej, show q.1 + (img.nc / 2 : ℕ) + a - (img.nc / 2 : ℕ) - a = q.1 by ring,
          show q.2 + (img.nr / 2 : ℕ) + b - (img.nr / 2 : ℕ) - b = q.2 by ring]
        exact hq.1
      · simp only
        rw [ei, ej, show q.1 + (img.nc / 2 : ℕ) + a - (img.nc / 2 : ℕ) - x = q.1 - (x - a) by ring,
          show q.2 + (img.nr / 2 : ℕ) + b - (img.nr / 2 : ℕ) - y = q.2 - (y - b) by ring]
        exact hq.2
    · simp only
      rw [ei, ej]
      ext <;> simp only <;> ring

/-! ### The rounds -/

/-- Some grid offset is less than a step and at most a radius away from `t`. -/
def CloseGrid (m radius step t : ℤ) : Prop := ∃ g, OnGrid radius step g ∧ |g - t| ≤ step - 1 ∧ |g - t| ≤ m

theorem closeGrid_of (m radius step t : ℤ) (hs : 1 ≤ step) (h2m : step ≤ 2 * m + 1) (hl : -radius ≤ t) (hu : t ≤ radius)
    (hedge : m < step → t + step - m - 1 ≤ radius) : CloseGrid m radius step t := by
  have h1 := Int.emod_add_mul_ediv (t + radius) step
  have h2 := Int.emod_nonneg (t + radius) (show step ≠ 0 by omega)
  have h3 := Int.emod_lt_of_pos (t + radius) (show 0 < step by omega)
  have h4 : 0 ≤ (t + radius) / step := Int.ediv_nonneg (by omega) (by omega)
  generalize (t + radius) % step = r at *
  generalize (t + radius) / step = k at *
  have e : ((k.toNat : ℕ) : ℤ) = k := Int.toNat_of_nonneg h4
  rcases le_or_gt r m with hr | hr
  · refine ⟨t - r, ⟨k.toNat, by rw [e]; linarith, by omega⟩, ?_, ?_⟩ <;>
      rw [show t - r - t = -r by ring, abs_neg, abs_of_nonneg h2] <;> omega
  · have := hedge (by omega)
    refine ⟨t - r + step, ⟨k.toNat + 1, by push_cast; rw [e]; linarith, by omega⟩, ?_, ?_⟩ <;>
      rw [show t - r + step - t = step - r by ring, abs_of_nonneg (by omega)] <;> omega

theorem loop_finds (img : Arr2 ℝ) (nBeam shrink c : ℝ) (hb : 0 < nBeam) (hs : 1 < shrink) (hc : 0 < c) (a b N : ℤ)
    (h : ∀ x y, |beamSum img nBeam x y - c * ((lens N ⌊(nBeam / 2) ^ 2⌋ (x - a, y - b)).card : ℝ)| < c / 2)
    (m k : ℤ) (h0 : TwoRadii N ⌊(nBeam / 2) ^ 2⌋ m k)
    (n : ℕ) : ∀ (est : Option (ℤ × ℤ)) (xs ys radius step : ℤ), 0 < radius → 1 ≤ step → step ≤ n → step ≤ 2 * min m k + 1 →
      CloseGrid (min m k) radius step (a - xs) → CloseGrid (min m k) radius step (b - ys) → ∀ fuel, n + 1 ≤ fuel →
      ∃ x y steps, coarseLoop img nBeam shrink fuel est xs ys radius step = some (.ok ((x, y), steps)) ∧
        |x - a| ≤ |m - k| ∧ |y - b| ≤ |m - k| := by
  have hmono : ∀ x y x' y', beamSum img nBeam x y ≤ beamSum img nBeam x' y' →
      (lens N ⌊(nBeam / 2) ^ 2⌋ (x - a, y - b)).card ≤ (lens N ⌊(nBeam / 2) ^ 2⌋ (x' - a, y' - b)).card := by
    intro x y x' y' hle
    have h1 := abs_lt.mp (h x y)
    have h2 := abs_lt.mp (h x' y')
    have h3 : c * ((lens N ⌊(nBeam / 2) ^ 2⌋ (x - a, y - b)).card : ℝ) <
        c * (((lens N ⌊(nBeam / 2) ^ 2⌋ (x' - a, y' - b)).card : ℝ) + 1) := by
      rw [mul_add, mul_one]; linarith [h1.1, h1.2, h2.1, h2.2]
    have h4 := lt_of_mul_lt_mul_left h3 hc.le
    have h5 : (lens N ⌊(nBeam / 2) ^ 2⌋ (x - a, y - b)).card < (lens N ⌊(nBeam / 2) ^ 2⌋ (x' - a, y' - b)).card + 1 := by exact_mod_cast h4
    omega
  have hnear := abs_le.mp h0.near
  induction n with
  | zero => intro _ _ _ _ step _ h1 h2; omega
  | succ n ih =>
    intro est xs ys radius step hr h1 h2 h2m hx hy fuel hf
    obtain ⟨fuel, rfl⟩ : ∃ f, fuel = f + 1 := ⟨fuel - 1, by omega⟩
    obtain ⟨hn1, hn2⟩ := nextStep_spec shrink hs step h1
    obtain ⟨gx, gx0, gx1, gx2⟩ := hx
    obtain ⟨gy, gy0, gy1, gy2⟩ := hy
    obtain ⟨x, y, M, hok, -, -, hbest⟩ := C52_best img nBeam xs ys radius step hb hr (by omega)
    have hcard := hmono _ _ _ _
      (hbest (gx + xs) (gy + ys) (by rw [add_sub_cancel_right]; exact gx0) (by rw [add_sub_cancel_right]; exact gy0)).1
    rw [abs_le] at gx1 gx2 gy1 gy2
    unfold coarseLoop
    rw [if_neg (by omega), hok]
    simp only
    by_cases hone : step = 1
    · have ex : gx + xs - a = 0 := by omega
      have ey : gy + ys - b = 0 := by omega
      rw [ex, ey] at hcard
      obtain ⟨hv1, hv2⟩ := lens_nested _ _ m k h0 _ hcard
      rw [hn1 hone]
      obtain ⟨fuel, rfl⟩ : ∃ f, fuel = f + 1 := ⟨fuel - 1, by omega⟩
      unfold coarseLoop
      simp only [if_true]
      exact ⟨x, y, [step], rfl, hv1, hv2⟩
    · obtain ⟨⟨v1, v2⟩, v3, v4⟩ := lens_round _ _ m k step h0 (by omega) _ _
        ⟨by rw [abs_le]; simp only; omega, by rw [abs_le]; simp only; omega⟩
        ⟨by rw [abs_le]; simp only; omega, by rw [abs_le]; simp only; omega⟩ hcard
      rw [abs_le] at v1 v2 v3 v4
      simp only at v1 v2 v3 v4
      obtain ⟨-, l1, l2⟩ := hn2 hone
      obtain ⟨x', y', steps, hst, hv⟩ := ih (some (x, y)) x y (2 * step) (nextStep shrink step) (by omega) l1 (by omega) (by omega)
        (closeGrid_of _ _ _ _ l1 (by omega) (by omega) (by omega) (by omega))
        (closeGrid_of _ _ _ _ l1 (by omega) (by omega) (by omega) (by omega)) fuel (by omega)
      rw [hst]
      exact ⟨x', y', _, rfl, hv⟩

/-- Specification: `img` is the picture `pure`, of the same shape, with an error of less than half a bright pixel in all. -/
structure AlmostPicture (img pure : Arr2 ℝ) (c : ℝ) : Prop where
  rows : img.nr = pure.nr
  cols : img.nc = pure.nc
  small : ∑ i ∈ range img.nr, ∑ j ∈ range img.nc, |img.zext i j - pure.zext i j| < c / 2

theorem beamSum_zext (img : Arr2 ℝ) (nBeam : ℝ) (x y : ℤ) [∀ i j, Decidable (InBeam img nBeam x y i j)] :
    beamSum img nBeam x y = ∑ i ∈ range img.nr, ∑ j ∈ range img.nc, if InBeam img nBeam x y i j then img.zext i j else 0 := by
  unfold beamSum
  rw [← Fin.sum_univ_eq_sum_range (fun i => ∑ j ∈ range img.nc, if InBeam img nBeam x y i j then img.zext i j else 0)]
  refine sum_congr rfl fun i _ => ?_
  rw [← Fin.sum_univ_eq_sum_range (fun j => if InBeam img nBeam x y i j then img.zext i j else 0)]
  refine sum_congr rfl fun j _ => ?_
  rw [Arr2.zext_val]
  congr

theorem beamSum_almost (img pure : Arr2 ℝ) (nBeam c : ℝ) (h : AlmostPicture img pure c) (x y : ℤ) :
    |beamSum img nBeam x y - beamSum pure nBeam x y| < c / 2 := by
  classical
  refine lt_of_le_of_lt ?_ h.small
  rw [beamSum_zext, beamSum_zext, ← h.rows, ← h.cols, ← sum_sub_distrib]
  refine le_trans (abs_sum_le_sum_abs _ _) (sum_le_sum fun i _ => ?_)
  rw [← sum_sub_distrib]
  refine le_trans (abs_sum_le_sum_abs _ _) (sum_le_sum fun j _ => ?_)
  have he : InBeam img nBeam x y i j ↔ InBeam pure nBeam x y i j := by unfold InBeam; rw [h.rows, h.cols]
  by_cases hi : InBeam img nBeam x y i j
  · rw [if_pos hi, if_pos (he.mp hi)]
  · rw [if_neg hi, if_neg fun hh => hi (he.mpr hh), sub_zero, abs_zero]
    exact abs_nonneg _

theorem floor_sq {r : ℝ} (hr : 0 ≤ r) : 0 ≤ ⌊r⌋ ∧ ⌊r⌋ ^ 2 ≤ ⌊r ^ 2⌋ ∧ ⌊r ^ 2⌋ < (⌊r⌋ + 1) ^ 2 := by
  have hm0 : 0 ≤ ⌊r⌋ := Int.floor_nonneg.mpr hr
  have f1 : (⌊r⌋ : ℝ) ≤ r := Int.floor_le _
  have f2 : r < ⌊r⌋ + 1 := Int.lt_floor_add_one _
  have hm0' : (0 : ℝ) ≤ ⌊r⌋ := by exact_mod_cast hm0
  refine ⟨hm0, ?_, ?_⟩
  · rw [Int.le_floor]; push_cast; nlinarith
  · rw [Int.floor_lt]; push_cast; nlinarith

/-- An ideal pupil keeps its radius away from the ends of the search. -/
theorem ideal_room {img : Arr2 ℝ} {diam c : ℝ} {a b : ℤ} (h : IdealPupil img diam c a b) (hd : 0 < diam) :
    (-(max (img.nc / 2 : ℕ) (img.nr / 2 : ℕ) : ℤ) + ⌊diam / 2⌋ ≤ a ∧ a ≤ (max (img.nc / 2 : ℕ) (img.nr / 2 : ℕ) : ℤ) - ⌊diam / 2⌋) ∧
    (-(max (img.nc / 2 : ℕ) (img.nr / 2 : ℕ) : ℤ) + ⌊diam / 2⌋ ≤ b ∧ b ≤ (max (img.nc / 2 : ℕ) (img.nr / 2 : ℕ) : ℤ) - ⌊diam / 2⌋) := by
  obtain ⟨hm0, hm, -⟩ := floor_sq (show 0 ≤ diam / 2 by linarith)
  generalize ⌊diam / 2⌋ = m at hm0 hm ⊢
  have hin : ∀ u v : ℤ, u ^ 2 + v ^ 2 ≤ m ^ 2 → (0 ≤ v + (img.nr / 2 : ℕ) + b ∧ v + (img.nr / 2 : ℕ) + b < img.nr) ∧
      (0 ≤ u + (img.nc / 2 : ℕ) + a ∧ u + (img.nc / 2 : ℕ) + a < img.nc) := by
    intro u v huv
    have hpx := h.bright (v + (img.nr / 2 : ℕ) + b) (u + (img.nc / 2 : ℕ) + a) (by
      rw [show u + (img.nc / 2 : ℕ) + a - (img.nc / 2 : ℕ) - a = u by ring,
        show v + (img.nr / 2 : ℕ) + b - (img.nr / 2 : ℕ) - b = v by ring]
      have := Int.le_floor.mp (le_trans huv hm)
      push_cast at this
      exact this)
    exact (Arr2.px_isSome img _ _).mp (by rw [hpx]; rfl)
  have p1 := hin m 0 (by ring_nf; exact le_rfl)
  have p2 := hin (-m) 0 (by ring_nf; exact le_rfl)
  have p3 := hin 0 m (by ring_nf; exact le_rfl)
  have p4 := hin 0 (-m) (by ring_nf; exact le_rfl)
  omega

/-- **C134.** The stated diameter need not be that of the pupil.  If the radii differ by at most one whole pixel, the answer is off by no more
than that on each axis, and not at all if the radii have the same number of whole pixels; also if the picture is in error by less
than half a bright pixel in all. -/
theorem C134_near_size (img pure : Arr2 ℝ) (diam nBeam shrink c : ℝ) (hdiam : 0 < diam) (hb : 0 < nBeam) (hs : 1 < shrink) (hc : 0 < c) (a b : ℤ)
    (hn : 2 ≤ img.nr ∨ 2 ≤ img.nc) (h : IdealPupil pure diam c a b) (hi : AlmostPicture img pure c)
    (hsz : ⌊diam / 2⌋ = ⌊nBeam / 2⌋ ∨ |⌊diam / 2⌋ - ⌊nBeam / 2⌋| = 1 ∧ 2 ≤ shrink) :
    ∃ x y steps, (|x - a| ≤ |⌊diam / 2⌋ - ⌊nBeam / 2⌋| ∧ |y - b| ≤ |⌊diam / 2⌋ - ⌊nBeam / 2⌋|) ∧
      ∀ fuel, (max 1 ⌊nBeam / shrink⌋).toNat < fuel → coarselyLocate fuel img nBeam shrink = some (.ok ((x, y), steps)) := by
  obtain ⟨x, y, steps, -, -, hall⟩ := C51_terminates img nBeam shrink hb hs hn
  refine ⟨x, y, steps, ?_, hall⟩
  have hsum : ∀ x y, |beamSum img nBeam x y - c * ((lens ⌊(diam / 2) ^ 2⌋ ⌊(nBeam / 2) ^ 2⌋ (x - a, y - b)).card : ℝ)| < c / 2 := by
    intro x y
    rw [← beamSum_lens pure diam nBeam c a b h]
    exact beamSum_almost img pure nBeam c hi x y
  obtain ⟨hm0, hm, hm'⟩ := floor_sq (show 0 ≤ diam / 2 by linarith)
  obtain ⟨hk0, hk, hk'⟩ := floor_sq (show 0 ≤ nBeam / 2 by linarith)
  have hroom := ideal_room h hdiam
  rw [← hi.rows, ← hi.cols] at hroom
  have hstep : 1 ≤ max 1 ⌊nBeam / shrink⌋ := le_max_left _ _
  have h2m : max 1 ⌊nBeam / shrink⌋ ≤ 2 * min ⌊diam / 2⌋ ⌊nBeam / 2⌋ + 1 := by
    refine max_le (by omega) ?_
    have f2 : nBeam / 2 < ⌊nBeam / 2⌋ + 1 := Int.lt_floor_add_one _
    rcases hsz with he | ⟨he, hs2⟩
    · have : ⌊nBeam / shrink⌋ < 2 * ⌊nBeam / 2⌋ + 2 := by
        rw [Int.floor_lt]
        push_cast
        have : nBeam / shrink < nBeam := by rw [div_lt_iff₀ (by linarith)]; nlinarith
        linarith
      omega
    · have : ⌊nBeam / shrink⌋ < ⌊nBeam / 2⌋ + 1 := by
        rw [Int.floor_lt]
        push_cast
        refine lt_of_le_of_lt ?_ f2
        exact div_le_div_of_nonneg_left hb.le (by norm_num) hs2
      rcases abs_eq (by norm_num : (0 : ℤ) ≤ 1) |>.mp he with h1 | h1 <;> omega
  have hnear : |⌊diam / 2⌋ - ⌊nBeam / 2⌋| ≤ 1 := by
    rcases hsz with he | ⟨he, -⟩
    · rw [he, sub_self, abs_zero]; norm_num
    · exact he.le
  have h0 : TwoRadii ⌊(diam / 2) ^ 2⌋ ⌊(nBeam / 2) ^ 2⌋ ⌊diam / 2⌋ ⌊nBeam / 2⌋ := ⟨hm0, hm, hm', hk0, hk, hk', hnear⟩
  have hloop : ∃ x y st, coarselyLocate ((max 1 ⌊nBeam / shrink⌋).toNat + 1) img nBeam shrink = some (.ok ((x, y), st)) ∧
      |x - a| ≤ |⌊diam / 2⌋ - ⌊nBeam / 2⌋| ∧ |y - b| ≤ |⌊diam / 2⌋ - ⌊nBeam / 2⌋| := by
    unfold coarselyLocate
    rw [if_neg (not_not.mpr hb), if_neg (by push Not; linarith), if_neg (by push Not; exact hs)]
    generalize ⌊diam / 2⌋ = m at *
    generalize ⌊nBeam / 2⌋ = k at *
    generalize max 1 ⌊nBeam / shrink⌋ = S at *
    refine loop_finds img nBeam shrink c hb hs hc a b _ hsum m k h0 S.toNat none 0 0 _ S (by omega) hstep (by omega) h2m ?_ ?_ _
      le_rfl
    · exact closeGrid_of _ _ _ _ hstep h2m (by omega) (by omega) (by omega)
    · exact closeGrid_of _ _ _ _ hstep h2m (by omega) (by omega) (by omega)
  obtain ⟨x', y', st, hst, hv⟩ := hloop
  rw [hall _ (Nat.lt_succ_self _)] at hst
  have he := (Prod.mk.inj (Except.ok.inj (Option.some.inj hst))).1
  obtain ⟨rfl, rfl⟩ := Prod.mk.inj he
  exact hv

/-- **C134.** The centre is found exactly whenever the stated radius has as many whole pixels as that of the pupil, also if the picture is in
error by less than half a bright pixel in all. -/
theorem C134_noisy (img pure : Arr2 ℝ) (diam nBeam shrink c : ℝ) (hdiam : 0 < diam) (hb : 0 < nBeam) (hs : 1 < shrink) (hc : 0 < c) (a b : ℤ)
    (hn : 2 ≤ img.nr ∨ 2 ≤ img.nc) (h : IdealPupil pure diam c a b) (hi : AlmostPicture img pure c) (hsz : ⌊diam / 2⌋ = ⌊nBeam / 2⌋) :
    ∃ steps, ∀ fuel, (max 1 ⌊nBeam / shrink⌋).toNat < fuel →
      coarselyLocate fuel img nBeam shrink = some (.ok ((a, b), steps)) := by
  obtain ⟨x, y, steps, hv, hall⟩ := C134_near_size img pure diam nBeam shrink c hdiam hb hs hc a b hn h hi (Or.inl hsz)
  rw [hsz, sub_self, abs_zero, abs_nonpos_iff, abs_nonpos_iff] at hv
  obtain rfl : x = a := by omega
  obtain rfl : y = b := by omega
  exact ⟨steps, hall⟩

/-- **C134.** For a picture of an ideal pupil of the stated diameter lying anywhere in the picture, the search returns the centre of
the pupil exactly, for every diameter, picture size and shrink factor, although it tries only a few of the offsets. -/
theorem C134_finds_centre (img : Arr2 ℝ) (nBeam shrink c : ℝ) (hb : 0 < nBeam) (hs : 1 < shrink) (hc : 0 < c) (a b : ℤ)
    (hn : 2 ≤ img.nr ∨ 2 ≤ img.nc) (h : IdealPupil img nBeam c a b) :
    ∃ steps, ∀ fuel, (max 1 ⌊nBeam / shrink⌋).toNat < fuel →
      coarselyLocate fuel img nBeam shrink = some (.ok ((a, b), steps)) :=
  C134_noisy img img nBeam nBeam shrink c hb hb hs hc a b hn h ⟨rfl, rfl, by simpa using hc⟩ rfl

/-- A picture of a disc of diameter `d` and brightness `c` centred `(a, b)` pixels from the centre pixel. -/
noncomputable def discPicture (nr nc : ℕ) (d c : ℝ) (a b : ℤ) : Arr2 ℝ :=
  open scoped Classical in
  ⟨nr, nc, fun i j => if (((((j : ℕ) : ℤ) - (nc / 2 : ℕ) - a : ℤ) : ℝ)) ^ 2 + (((((i : ℕ) : ℤ) - (nr / 2 : ℕ) - b : ℤ) : ℝ)) ^ 2 ≤ (d / 2) ^ 2 then c else 0⟩

/-- If the disc lies in the picture, that is an ideal pupil. -/
theorem discPicture_ideal (nr nc : ℕ) (d c : ℝ) (a b : ℤ) (hd : 0 ≤ d)
    (h1 : d / 2 ≤ (nr / 2 : ℕ) + b) (h2 : (nr / 2 : ℕ) + b + d / 2 < nr) (h3 : d / 2 ≤ (nc / 2 : ℕ) + a)
    (h4 : (nc / 2 : ℕ) + a + d / 2 < nc) : IdealPupil (discPicture nr nc d c a b) d c a b := by
  have key : ∀ x y : ℤ, (x : ℝ) ^ 2 + (y : ℝ) ^ 2 ≤ (d / 2) ^ 2 → -(d / 2) ≤ x ∧ (x : ℝ) ≤ d / 2 := fun x y h =>
    abs_le.mp (abs_le_of_sq_le_sq (by nlinarith [sq_nonneg (y : ℝ)]) (by linarith))
  refine ⟨fun i j h => ?_, fun i j h => ?_⟩
  · have hj := key _ _ h
    have hi := key _ _ (by rw [add_comm]; exact h)
    simp only [discPicture] at hi hj h
    simp only [Int.cast_sub, Int.cast_natCast] at hi hj
    have b1 : (0 : ℤ) ≤ i := by
      have : (0 : ℝ) ≤ i := by linarith [hi.1]
      exact_mod_cast this
    have b2 : i < (nr : ℤ) := by
      have : (i : ℝ) < nr := by linarith [hi.2]
      exact_mod_cast this
    have b3 : (0 : ℤ) ≤ j := by
      have : (0 : ℝ) ≤ j := by linarith [hj.1]
      exact_mod_cast this
    have b4 : j < (nc : ℤ) := by
      have : (j : ℝ) < nc := by linarith [hj.2]
      exact_mod_cast this
    rw [Arr2.px_of_inB _ (by simp only [discPicture]; omega)]
    simp only [discPicture, Int.toNat_of_nonneg b1, Int.toNat_of_nonneg b3]
    rw [if_pos h]
  · unfold InBeam at h
    simp only [discPicture] at h ⊢
    exact if_neg h

/-- `C134_finds_centre`: a pupil of diameter 40 in a corner of a 100 x 200 picture, in three rounds (steps 13, 4, 1). -/
example : ∃ steps, coarselyLocate 20 (discPicture 100 200 40 7 (-75) 25) 40 3 = some (.ok ((-75, 25), steps)) := by
  obtain ⟨steps, h⟩ := C134_finds_centre (discPicture 100 200 40 7 (-75) 25) 40 3 7 (by norm_num) (by norm_num) (by norm_num) (-75) 25
    (Or.inl (by simp [discPicture])) (discPicture_ideal _ _ _ _ _ _ (by norm_num) (by norm_num) (by norm_num) (by norm_num) (by norm_num))
  exact ⟨steps, h 20 (by rw [show ⌊(40 : ℝ) / 3⌋ = 13 by rw [Int.floor_eq_iff]; norm_num]; norm_num)⟩

/-- `C134_near_size`: the same pupil, with the diameter stated as 43. -/
example : ∃ x y steps, (|x - -75| ≤ 1 ∧ |y - 25| ≤ 1) ∧ coarselyLocate 20 (discPicture 100 200 40 7 (-75) 25) 43 3 = some (.ok ((x, y), steps)) := by
  have e1 : ⌊(40 : ℝ) / 2⌋ = 20 := by rw [Int.floor_eq_iff]; norm_num
  have e2 : ⌊(43 : ℝ) / 2⌋ = 21 := by rw [Int.floor_eq_iff]; norm_num
  obtain ⟨x, y, steps, hv, h⟩ := C134_near_size (discPicture 100 200 40 7 (-75) 25) (discPicture 100 200 40 7 (-75) 25) 40 43 3 7 (by norm_num) (by norm_num)
    (by norm_num) (by norm_num) (-75) 25 (Or.inl (by simp [discPicture]))
    (discPicture_ideal _ _ _ _ _ _ (by norm_num) (by norm_num) (by norm_num) (by norm_num) (by norm_num)) ⟨rfl, rfl, by simp⟩
    (Or.inr ⟨by rw [e1, e2]; norm_num, by norm_num⟩)
  rw [e1, e2] at hv
  exact ⟨x, y, steps, by simpa using hv, h 20 (by rw [show ⌊(43 : ℝ) / 3⌋ = 14 by rw [Int.floor_eq_iff]; norm_num]; norm_num)⟩

/-- `C134_noisy`: the same pupil with one dark pixel a third as bright as the pupil. -/
example : ∃ steps, coarselyLocate 20 (⟨100, 200, fun i j => (discPicture 100 200 40 7 (-75) 25).val i j +
    if (i : ℕ) = 0 ∧ (j : ℕ) = 0 then 7 / 3 else 0⟩ : Arr2 ℝ) 40 3 = some (.ok ((-75, 25), steps)) := by
  obtain ⟨steps, h⟩ := C134_noisy (⟨100, 200, fun i j => (discPicture 100 200 40 7 (-75) 25).val i j +
    if (i : ℕ) = 0 ∧ (j : ℕ) = 0 then 7 / 3 else 0⟩ : Arr2 ℝ) (discPicture 100 200 40 7 (-75) 25) 40 40 3 7 (by norm_num) (by norm_num) (by norm_num) (by norm_num) (-75) 25
    (Or.inl (by norm_num)) (discPicture_ideal _ _ _ _ _ _ (by norm_num) (by norm_num) (by norm_num) (by norm_num) (by norm_num))
    ⟨rfl, rfl, by
      have e : ∀ i ∈ range 100, ∀ j ∈ range 200, |(⟨100, 200, fun i j => (discPicture 100 200 40 7 (-75) 25).val i j +
          if (i : ℕ) = 0 ∧ (j : ℕ) = 0 then 7 / 3 else 0⟩ : Arr2 ℝ).zext (i : ℤ) (j : ℤ) - (discPicture 100 200 40 7 (-75) 25).zext i j| =
          if i = 0 ∧ j = 0 then 7 / 3 else 0 := by
        intro i hi j hj
        have h1 := Arr2.zext_val (⟨100, 200, fun i j => (discPicture 100 200 40 7 (-75) 25).val i j +
          if (i : ℕ) = 0 ∧ (j : ℕ) = 0 then 7 / 3 else 0⟩ : Arr2 ℝ) ⟨i, mem_range.mp hi⟩ ⟨j, mem_range.mp hj⟩
        have h2 := Arr2.zext_val (discPicture 100 200 40 7 (-75) 25) ⟨i, mem_range.mp hi⟩ ⟨j, mem_range.mp hj⟩
        simp only at h1 h2
        rw [h1, h2]
        refine ((fun u v => by rw [add_sub_cancel_left]) : ∀ u v : ℝ, |u + v - u| = |v|) _ _ |>.trans ?_
        split <;> norm_num
      rw [sum_congr rfl fun i hi => sum_congr rfl fun j hj => e i hi j hj]
      rw [sum_eq_single_of_mem 0 (by simp) (fun i _ hi => sum_eq_zero fun j _ => if_neg fun hh => hi hh.1),
        sum_eq_single_of_mem 0 (by simp) (fun j _ hj => if_neg fun hh => hj hh.2)]
      norm_num⟩ rfl
  exact ⟨steps, h 20 (by rw [show ⌊(40 : ℝ) / 3⌋ = 13 by rw [Int.floor_eq_iff]; norm_num]; norm_num)⟩

/-- **C134** (finding). The diameter must be right: if the trial disc is larger than the pupil, many offsets collect all its light and the first
one is taken, above the pupil; the bound of `C134_near_size` is attained.  A pupil of one pixel at the centre of a 5 x 5 picture, searched with a disc of diameter 2, is
reported one pixel up. -/
theorem C134_wrong_size : IdealPupil (discPicture 5 5 1 1 0 0) 1 1 0 0 ∧
    ∃ steps, ∀ fuel, 1 < fuel → coarselyLocate fuel (discPicture 5 5 1 1 0 0) 2 3 = some (.ok ((0, -1), steps)) := by
  classical
  have hid := discPicture_ideal 5 5 1 1 0 0 (by norm_num) (by norm_num) (by norm_num) (by norm_num) (by norm_num)
  refine ⟨hid, [1], fun fuel hf => ?_⟩
  have hsum : ∀ x y : ℤ, beamSum (discPicture 5 5 1 1 0 0) 2 x y = if x ^ 2 + y ^ 2 ≤ 1 then 1 else 0 := by
    intro x y
    have hv : ∀ i j : Fin 5, (if InBeam (discPicture 5 5 1 1 0 0) 2 x y i j then (discPicture 5 5 1 1 0 0).val i j else 0) =
        if i = 2 ∧ j = 2 then (if x ^ 2 + y ^ 2 ≤ 1 then (1 : ℝ) else 0) else 0 := by
      intro i j
      by_cases hij : i = 2 ∧ j = 2
      · obtain ⟨rfl, rfl⟩ := hij
        refine Eq.trans ?_ (if_pos (⟨rfl, rfl⟩ : (2 : Fin 5) = 2 ∧ (2 : Fin 5) = 2)).symm
        have h1 : (discPicture 5 5 1 1 0 0).val (2 : Fin 5) (2 : Fin 5) = 1 := by
          simp only [discPicture]
          rw [if_pos]
          norm_num
        have h2 : InBeam (discPicture 5 5 1 1 0 0) 2 x y ((2 : Fin 5) : ℕ) ((2 : Fin 5) : ℕ) ↔ x ^ 2 + y ^ 2 ≤ 1 := by
          rw [inBeam_int, show ⌊((2 : ℝ) / 2) ^ 2⌋ = 1 by norm_num]
          simp only [discPicture]
          norm_num
        rw [h1]
        by_cases h3 : x ^ 2 + y ^ 2 ≤ 1
        · rw [if_pos h3, if_pos (h2.mpr h3)]
        · rw [if_neg h3, if_neg fun hh => h3 (h2.mp hh)]
      · rw [if_neg hij]
        have h0 : (discPicture 5 5 1 1 0 0).val i j = 0 := by
          apply hid.dark
          rw [inBeam_int, show ⌊((1 : ℝ) / 2) ^ 2⌋ = 0 by rw [Int.floor_eq_iff]; norm_num]
          simp only [discPicture]
          intro hc
          apply hij
          have a1 : ((((j : ℕ) : ℤ) - (5 / 2 : ℕ) - 0)) = 0 := by nlinarith [sq_nonneg (((j : ℕ) : ℤ) - (5 / 2 : ℕ) - 0), sq_nonneg (((i : ℕ) : ℤ) - (5 / 2 : ℕ) - 0)]
          have a2 : ((((i : ℕ) : ℤ) - (5 / 2 : ℕ) - 0)) = 0 := by nlinarith [sq_nonneg (((j : ℕ) : ℤ) - (5 / 2 : ℕ) - 0), sq_nonneg (((i : ℕ) : ℤ) - (5 / 2 : ℕ) - 0)]
          constructor <;> ext <;> simp <;> omega
        rw [h0, ite_self]
    unfold beamSum
    refine Eq.trans (sum_congr rfl fun i _ => sum_congr rfl fun j _ => ?_) (?_ :
      ∑ i : Fin 5, ∑ j : Fin 5, (if i = 2 ∧ j = 2 then (if x ^ 2 + y ^ 2 ≤ 1 then (1 : ℝ) else 0) else 0) = _)
    · convert hv i j
    · rw [sum_eq_single_of_mem 2 (mem_univ _) (fun i _ hi => sum_eq_zero fun j _ => if_neg fun hh => hi hh.1),
        sum_eq_single_of_mem 2 (mem_univ _) (fun j _ hj => if_neg fun hh => hj hh.2), if_pos ⟨rfl, rfl⟩]
  obtain ⟨fuel, rfl⟩ : ∃ f, fuel = f + 2 := ⟨fuel - 2, by omega⟩
  obtain ⟨x, y, M, hok, -, -, hbest⟩ := C52_best (discPicture 5 5 1 1 0 0) 2 0 0 2 1 (by norm_num) (by norm_num) (by norm_num)
  have hb := hbest 0 (-1) ⟨2, by norm_num, by norm_num⟩ ⟨1, by norm_num, by norm_num⟩
  rw [hsum, hsum, if_pos (by norm_num)] at hb
  have hin : x ^ 2 + y ^ 2 ≤ 1 := by
    by_contra hc
    rw [if_neg hc] at hb
    linarith [hb.1]
  rw [if_pos hin] at hb
  have hn : ¬ (-1 < y ∨ -1 = y ∧ 0 < x) := fun hh => lt_irrefl _ (hb.2 hh)
  have hy : y = -1 := by
    have : -1 ≤ y := by nlinarith [sq_nonneg x]
    omega
  have hx : x = 0 := by
    subst hy
    nlinarith [sq_nonneg x]
  subst hx hy
  unfold coarselyLocate
  rw [if_neg (by norm_num), if_neg (by norm_num), if_neg (by norm_num)]
  have hstep : max 1 ⌊(2 : ℝ) / 3⌋ = 1 := by
    rw [show ⌊(2 : ℝ) / 3⌋ = 0 by rw [Int.floor_eq_iff]; norm_num]
    rfl
  have hrad : max (((discPicture 5 5 1 1 0 0).nc / 2 : ℕ) : ℤ) (((discPicture 5 5 1 1 0 0).nr / 2 : ℕ) : ℤ) = 2 := rfl
  rw [hstep, hrad]
  unfold coarseLoop
  rw [if_neg (by norm_num), hok]
  simp only
  have hns : nextStep 3 1 = 0 := by unfold nextStep; rw [if_pos rfl]
  rw [hns]
  unfold coarseLoop
  rw [if_pos rfl]

end Coralign.Props
