import Verif.Model.IntImages
import Verif.Props.PsfFit

/-!
# Property C114: images of integer type

Detector frames are arrays of integers.  The answers of an image function should be those for the same pixel values as floats.
-/

namespace Coralign.Props

open Coralign

/-! ### Specification -/

/-- The integers that the type can hold. -/
def IntKind.Holds (k : IntKind) (z : ℤ) : Prop :=
  if k.signed then -2 ^ (k.bits - 1) ≤ z ∧ z < 2 ^ (k.bits - 1) else 0 ≤ z ∧ z < 2 ^ k.bits

/-- The image as floats. -/
noncomputable def asFloats (a : Arr2 ℤ) : Arr2 ℝ := a.map fun v : ℤ => (v : ℝ)

theorem wrap_of_holds (k : IntKind) (hb : 0 < k.bits) (z : ℤ) (h : IntKind.Holds k z) : k.wrap z = z := by
  obtain ⟨b, s⟩ := k
  unfold IntKind.Holds at h
  unfold IntKind.wrap
  obtain ⟨b, rfl⟩ : ∃ c, b = c + 1 := ⟨b - 1, by simp only at hb; omega⟩
  cases s with
  | false =>
    simp only [Bool.false_eq_true, if_false] at h ⊢
    exact Int.emod_eq_of_lt h.1 h.2
  | true =>
    simp only [if_true, Nat.add_sub_cancel] at h ⊢
    have e : ((2 ^ (b + 1) : ℕ) : ℤ) = 2 * 2 ^ b := by push_cast; ring
    refine Int.bmod_eq_of_le (by rw [e]; omega) (by rw [e]; omega)

theorem wrap_unsigned (b : ℕ) (z : ℤ) : 0 ≤ (IntKind.mk b false).wrap z ∧ (IntKind.mk b false).wrap z < 2 ^ b := by
  unfold IntKind.wrap
  simp only [Bool.false_eq_true, if_false]
  exact ⟨Int.emod_nonneg _ (by positivity), Int.emod_lt_of_pos _ (by positivity)⟩

/-! ### `rms` -/

/-- **C114, partial.** `rms` of an integer array is right when the squares of the entries still fit the type.
Missing: the other arrays, for which it is wrong (`C114_rms_fails`). -/
theorem C114_rms_partial (k : IntKind) (hb : 0 < k.bits) {ι : Type} [Fintype ι] (a : ι → ℤ) (h : ∀ i, IntKind.Holds k (a i ^ 2)) :
    rmsI k a = .num (rms fun i => (a i : ℝ)) := by
  unfold rmsI rms
  have e : ∀ i, ((k.wrap (a i ^ 2) : ℤ) : ℝ) = (a i : ℝ) ^ 2 := fun i => by rw [wrap_of_holds k hb _ (h i)]; push_cast; rfl
  simp only [e]
  rw [if_neg]
  rw [not_lt]
  exact div_nonneg (Finset.sum_nonneg fun i _ => sq_nonneg _) (Nat.cast_nonneg _)

/-- **C114 fails for `rms`.** The rms of an unsigned array never exceeds the root of the largest value of the type: 16 for `uint8`,
256 for `uint16`. -/
theorem C114_rms_fails (b : ℕ) {ι : Type} [Fintype ι] [Nonempty ι] (a : ι → ℤ) :
    ∃ r, rmsI ⟨b, false⟩ a = .num r ∧ r ≤ Real.sqrt (2 ^ b) := by
  have hc : (0 : ℝ) < Fintype.card ι := by exact_mod_cast Fintype.card_pos
  have h0 : ∀ i, (0 : ℝ) ≤ ((IntKind.mk b false).wrap (a i ^ 2) : ℤ) := fun i => Int.cast_nonneg (wrap_unsigned b (a i ^ 2)).1
  have h1 : ∀ i, (((IntKind.mk b false).wrap (a i ^ 2) : ℤ) : ℝ) ≤ 2 ^ b := fun i => by
    have := (Int.cast_le (R := ℝ)).mpr (wrap_unsigned b (a i ^ 2)).2.le
    simpa using this
  unfold rmsI
  simp only
  rw [if_neg (not_lt.mpr (div_nonneg (Finset.sum_nonneg fun i _ => h0 i) hc.le))]
  refine ⟨_, rfl, Real.sqrt_le_sqrt ?_⟩
  rw [div_le_iff₀ hc]
  calc ∑ i, (((IntKind.mk b false).wrap (a i ^ 2) : ℤ) : ℝ) ≤ ∑ _i : ι, (2 : ℝ) ^ b := Finset.sum_le_sum fun i _ => h1 i
    _ = 2 ^ b * Fintype.card ι := by rw [Finset.sum_const, Finset.card_univ, nsmul_eq_mul, mul_comm]

/-- **C114 fails for `rms`.** A uniform `uint16` frame of 256 counts, of any size, has the rms 0; a uniform `int16` frame of 200
counts has the rms NaN. -/
theorem C114_rms_uniform_fails (ι : Type) [Fintype ι] [Nonempty ι] :
    rmsI ⟨16, false⟩ (fun _ : ι => 256) = .num 0 ∧ rmsI ⟨16, true⟩ (fun _ : ι => 200) = .nan := by
  have hc : (0 : ℝ) < Fintype.card ι := by exact_mod_cast Fintype.card_pos
  constructor
  · unfold rmsI
    have : (IntKind.mk 16 false).wrap ((256 : ℤ) ^ 2) = 0 := by decide
    simp only [this, Int.cast_zero, Finset.sum_const_zero, zero_div, lt_irrefl, if_false, Real.sqrt_zero]
  · unfold rmsI
    have : (IntKind.mk 16 true).wrap ((200 : ℤ) ^ 2) = -25536 := by decide
    simp only [this]
    rw [if_pos]
    rw [Finset.sum_const, Finset.card_univ, nsmul_eq_mul, mul_div_assoc, mul_div_cancel₀]
    · norm_num
    · exact hc.ne'

/-! ### Centre of energy and quadrants -/

/-- An image of a type of at most 32 bits with at most 2^31 pixels. -/
structure SmallInts (k : IntKind) (a : Arr2 ℤ) : Prop where
  bits : k.bits ≤ 32
  holds : ∀ i j, IntKind.Holds k (a.val i j)
  count : a.nr * a.nc ≤ 2 ^ 31

theorem holds_bound (k : IntKind) (hb : k.bits ≤ 32) (z : ℤ) (h : IntKind.Holds k z) :
    (k.signed = true → -2 ^ 31 ≤ z ∧ z ≤ 2 ^ 31) ∧ (k.signed = false → 0 ≤ z ∧ z ≤ 2 ^ 32) := by
  unfold IntKind.Holds at h
  constructor
  · intro hs
    rw [if_pos hs] at h
    have : (2 : ℤ) ^ (k.bits - 1) ≤ 2 ^ 31 := pow_le_pow_right₀ (by norm_num) (by omega)
    omega
  · intro hs
    rw [if_neg (by rw [hs]; simp)] at h
    have : (2 : ℤ) ^ k.bits ≤ 2 ^ 32 := pow_le_pow_right₀ (by norm_num) hb
    omega

/-- The 64-bit sum over any set of pixels is exact. -/
theorem wide_sum (k : IntKind) (a : Arr2 ℤ) (h : SmallInts k a) (s : Finset (Fin a.nr × Fin a.nc)) :
    k.wide.wrap (∑ p ∈ s, a.val p.1 p.2) = ∑ p ∈ s, a.val p.1 p.2 := by
  have hcard : (s.card : ℤ) ≤ 2 ^ 31 := by
    have h1 : s.card ≤ a.nr * a.nc := by
      have := Finset.card_le_univ s
      rwa [Fintype.card_prod, Fintype.card_fin, Fintype.card_fin] at this
    exact_mod_cast h1.trans h.count
  have hc0 : (0 : ℤ) ≤ s.card := Int.natCast_nonneg _
  refine wrap_of_holds _ (by unfold IntKind.wide; norm_num) _ ?_
  unfold IntKind.Holds IntKind.wide
  cases hs : k.signed with
  | true =>
    simp only [if_true]
    have up : ∑ p ∈ s, a.val p.1 p.2 ≤ s.card * 2 ^ 31 := by
      have := Finset.sum_le_card_nsmul s (fun p => a.val p.1 p.2) (2 ^ 31) fun p _ => ((holds_bound k h.bits _ (h.holds p.1 p.2)).1 hs).2
      simpa [nsmul_eq_mul] using this
    have lo : s.card * (-2 ^ 31) ≤ ∑ p ∈ s, a.val p.1 p.2 := by
      have := Finset.card_nsmul_le_sum s (fun p => a.val p.1 p.2) (-2 ^ 31) fun p _ => ((holds_bound k h.bits _ (h.holds p.1 p.2)).1 hs).1
      simpa [nsmul_eq_mul] using this
    norm_num at up lo hcard ⊢
    omega
  | false =>
    simp only [Bool.false_eq_true, if_false]
    have up : ∑ p ∈ s, a.val p.1 p.2 ≤ s.card * 2 ^ 32 := by
      have := Finset.sum_le_card_nsmul s (fun p => a.val p.1 p.2) (2 ^ 32) fun p _ => ((holds_bound k h.bits _ (h.holds p.1 p.2)).2 hs).2
      simpa [nsmul_eq_mul] using this
    have lo : 0 ≤ ∑ p ∈ s, a.val p.1 p.2 := Finset.sum_nonneg fun p _ => ((holds_bound k h.bits _ (h.holds p.1 p.2)).2 hs).1
    norm_num at up lo hcard ⊢
    omega

/-- **C114.** `center_of_energy` of an integer image is that of the same image as floats. -/
theorem C114_center (k : IntKind) (a : Arr2 ℤ) (h : SmallInts k a) : centerOfEnergyI k a = centerOfEnergy (asFloats a) := by
  have hs : (Finset.univ.filter fun p : Fin a.nr × Fin a.nc => a.val p.1 p.2 ≠ 0) = nonzeroPixels (asFloats a) := by
    unfold nonzeroPixels
    refine Finset.filter_congr fun p _ => ?_
    show _ ↔ ((a.val p.1 p.2 : ℤ) : ℝ) ≠ 0
    simp
  have ht : ((k.wide.wrap (∑ p ∈ (Finset.univ.filter fun p : Fin a.nr × Fin a.nc => a.val p.1 p.2 ≠ 0), a.val p.1 p.2) : ℤ) : ℝ)
      = totalEnergy (asFloats a) := by
    rw [wide_sum k a h, hs]
    unfold totalEnergy
    exact Int.cast_sum (R := ℝ) (nonzeroPixels (asFloats a)) fun p : Fin a.nr × Fin a.nc => a.val p.1 p.2
  unfold centerOfEnergyI
  simp only [ht]
  unfold centerOfEnergy
  simp only
  rw [← hs]
  by_cases he : (Finset.univ.filter fun p : Fin a.nr × Fin a.nc => a.val p.1 p.2 ≠ 0) = ∅
  · rw [if_pos he]
    exact (if_pos (show (Finset.univ.filter fun p : Fin (asFloats a).nr × Fin (asFloats a).nc => a.val p.1 p.2 ≠ 0) = ∅ from he)).symm
  · rw [if_neg he]
    refine Eq.trans ?_ (if_neg (show ¬ (Finset.univ.filter fun p : Fin (asFloats a).nr × Fin (asFloats a).nc => a.val p.1 p.2 ≠ 0) = ∅ from he)).symm
    by_cases h0 : totalEnergy (asFloats a) = 0
    · rw [if_pos h0, if_pos h0]
    · rw [if_neg h0, if_neg h0]
      rfl

/-- **C114.** `quadrant_energy_balance` of an integer image is that of the same image as floats. -/
theorem C114_quadrants (k : IntKind) (a : Arr2 ℤ) (h : SmallInts k a) (ox oy : ℤ) (radius : ℝ) :
    quadrantEnergyBalanceI k a ox oy radius = quadrantEnergyBalance (asFloats a) ox oy radius := by
  have ht : ((k.wide.wrap (∑ i : Fin a.nr, ∑ j : Fin a.nc, a.val i j) : ℤ) : ℝ) = ∑ i : Fin a.nr, ∑ j : Fin a.nc, ((a.val i j : ℤ) : ℝ) := by
    have := wide_sum k a h Finset.univ
    rw [Fintype.sum_prod_type] at this
    rw [this]
    push_cast
    rfl
  unfold quadrantEnergyBalanceI quadrantEnergyBalance quadCounts
  simp only [ht]
  rfl

/-! ### `psffit` -/

open scoped Classical in
/-- The pixels of the target above the threshold. -/
noncomputable def brightPixels (tgt : Arr2 ℤ) (thresh : ℝ) : Finset (Fin tgt.nr × Fin tgt.nc) :=
  Finset.univ.filter fun p => thresh * amax (asFloats tgt) < (tgt.val p.1 p.2 : ℝ)

/-- The inner product of the guess and the target, and of the guess with itself, over these pixels. -/
noncomputable def guessTarget (guess tgt : Arr2 ℤ) (thresh : ℝ) : ℤ :=
  ∑ p ∈ brightPixels tgt thresh, guess.zext (p.1 : ℕ) (p.2 : ℕ) * tgt.val p.1 p.2

@[inherit_doc guessTarget]
noncomputable def guessGuess (guess tgt : Arr2 ℤ) (thresh : ℝ) : ℤ :=
  ∑ p ∈ brightPixels tgt thresh, guess.zext (p.1 : ℕ) (p.2 : ℕ) * guess.zext (p.1 : ℕ) (p.2 : ℕ)

theorem amplitudeI_eq (k : IntKind) (guess tgt : Arr2 ℤ) (thresh : ℝ) : psfAmplitudeI k guess tgt thresh =
    (Fl.num ((k.wrap (guessTarget guess tgt thresh) : ℤ) : ℝ)).quot (.num ((k.wrap (guessGuess guess tgt thresh) : ℤ) : ℝ)) := by
  unfold psfAmplitudeI guessTarget guessGuess brightPixels asFloats
  rw [Finset.sum_filter, Finset.sum_filter, Fintype.sum_prod_type, Fintype.sum_prod_type]

theorem amplitude_floats_eq (guess tgt : Arr2 ℤ) (thresh : ℝ) : psfAmplitude (asFloats guess) (asFloats tgt) thresh =
    ((guessTarget guess tgt thresh : ℤ) : ℝ) / ((guessGuess guess tgt thresh : ℤ) : ℝ) := by
  have hz : ∀ i j : ℤ, (asFloats guess).zext i j = ((guess.zext i j : ℤ) : ℝ) := by
    intro i j
    unfold asFloats Arr2.zext
    rw [Arr2.px_map]
    cases guess.px i j with
    | none => exact Int.cast_zero.symm
    | some v => rfl
  unfold psfAmplitude guessTarget guessGuess brightPixels
  rw [Finset.sum_filter, Finset.sum_filter, Fintype.sum_prod_type, Fintype.sum_prod_type, Int.cast_sum, Int.cast_sum]
  congr 1
  · refine Finset.sum_congr rfl fun i _ => ?_
    rw [Int.cast_sum]
    refine Finset.sum_congr rfl fun j _ => ?_
    rw [hz, Int.cast_ite, Int.cast_mul, Int.cast_zero]
    rfl
  · refine Finset.sum_congr rfl fun i _ => ?_
    rw [Int.cast_sum]
    refine Finset.sum_congr rfl fun j _ => ?_
    rw [hz, Int.cast_ite, Int.cast_mul, Int.cast_zero]
    rfl

/-- **C114, partial.** The amplitude of `psffit` for integer images is that for the same images as floats when both inner products fit
the type.  Missing: brighter images, for which it is wrong (`C114_amplitude_fails`). -/
theorem C114_amplitude_partial (k : IntKind) (hb : 0 < k.bits) (guess tgt : Arr2 ℤ) (thresh : ℝ)
    (hgt : IntKind.Holds k (guessTarget guess tgt thresh)) (hgg : IntKind.Holds k (guessGuess guess tgt thresh))
    (h0 : guessGuess guess tgt thresh ≠ 0) :
    psfAmplitudeI k guess tgt thresh = .num (psfAmplitude (asFloats guess) (asFloats tgt) thresh) := by
  rw [amplitudeI_eq, amplitude_floats_eq, wrap_of_holds k hb _ hgt, wrap_of_holds k hb _ hgg]
  unfold Fl.quot
  simp only
  rw [if_neg (Int.cast_ne_zero.mpr h0)]

/-- The image with one lit pixel. -/
def litImage (n m : ℕ) (i0 : Fin n) (j0 : Fin m) (v : ℤ) : Arr2 ℤ := ⟨n, m, fun i j => if (i, j) = (i0, j0) then v else 0⟩

theorem litImage_bright (n m : ℕ) (i0 : Fin n) (j0 : Fin m) (v : ℤ) (hv : 0 < v) (thresh : ℝ) (h0 : 0 ≤ thresh) (h1 : thresh < 1) :
    brightPixels (litImage n m i0 j0 v) thresh = {(i0, j0)} := by
  have hv' : (0 : ℝ) < v := by exact_mod_cast hv
  have hpk : amax (asFloats (litImage n m i0 j0 v)) = v := by
    refine amax_eq _ _ ⟨⟨i0, j0, ?_⟩, fun i j => ?_⟩
    · show ((if (i0, j0) = (i0, j0) then v else 0 : ℤ) : ℝ) = v
      rw [if_pos rfl]
    · have key : ∀ (i : Fin n) (j : Fin m), ((if (i, j) = (i0, j0) then v else 0 : ℤ) : ℝ) ≤ v := by
        intro i j
        split
        · exact le_rfl
        · simpa using hv'.le
      exact key i j
  refine Finset.ext fun p => ?_
  unfold brightPixels
  rw [Finset.mem_filter, hpk]
  refine Iff.trans ?_ (Finset.mem_singleton (α := Fin n × Fin m)).symm
  have hp : (litImage n m i0 j0 v).val p.1 p.2 = if (show Fin n × Fin m from p) = (i0, j0) then v else 0 := rfl
  rw [hp]
  constructor
  · rintro ⟨-, h⟩
    by_contra hne
    rw [if_neg hne] at h
    push_cast at h
    have := mul_nonneg h0 hv'.le
    linarith
  · intro h
    refine ⟨Finset.mem_univ _, ?_⟩
    rw [if_pos h]
    nlinarith

theorem litImage_sums (n m : ℕ) (i0 : Fin n) (j0 : Fin m) (u v : ℤ) (hv : 0 < v) (thresh : ℝ) (h0 : 0 ≤ thresh) (h1 : thresh < 1) :
    guessTarget (litImage n m i0 j0 u) (litImage n m i0 j0 v) thresh = u * v ∧
    guessGuess (litImage n m i0 j0 u) (litImage n m i0 j0 v) thresh = u * u := by
  have hg : (litImage n m i0 j0 u).zext ((i0 : ℕ) : ℤ) ((j0 : ℕ) : ℤ) = u :=
    (Arr2.zext_val (litImage n m i0 j0 u) i0 j0).trans (if_pos rfl)
  have ht : (litImage n m i0 j0 v).val i0 j0 = v := if_pos rfl
  unfold guessTarget guessGuess
  rw [litImage_bright n m i0 j0 v hv thresh h0 h1]
  constructor
  · refine (Finset.sum_singleton _ _).trans ?_
    rw [hg, ht]
  · refine (Finset.sum_singleton _ _).trans ?_
    rw [hg]

/-- **C114 fails for `psffit`.** In `uint16` frames of any size, a star of 400 counts compared with the same star of 200 counts is
reported with the amplitude 0.3616 instead of 2. -/
theorem C114_amplitude_fails (n m : ℕ) (i0 : Fin n) (j0 : Fin m) (thresh : ℝ) (h0 : 0 ≤ thresh) (h1 : thresh < 1) :
    psfAmplitudeI ⟨16, false⟩ (litImage n m i0 j0 200) (litImage n m i0 j0 400) thresh = .num (14464 / 40000) ∧
    psfAmplitude (asFloats (litImage n m i0 j0 200)) (asFloats (litImage n m i0 j0 400)) thresh = 2 := by
  obtain ⟨s1, s2⟩ := litImage_sums n m i0 j0 200 400 (by norm_num) thresh h0 h1
  have w1 : (IntKind.mk 16 false).wrap (200 * 400) = 14464 := by decide
  have w2 : (IntKind.mk 16 false).wrap (200 * 200) = 40000 := by decide
  rw [amplitudeI_eq, amplitude_floats_eq, s1, s2, w1, w2]
  constructor
  · unfold Fl.quot
    simp only
    rw [if_neg (by norm_num)]
    norm_num
  · norm_num

/-! ### The mask of the clocking fit -/

/-- **C114, partial.** The mask from which the clocking search starts is that for the same amplitudes as floats when their squares fit the
type.  Missing: brighter images (`C114_mask_fails`). -/
theorem C114_mask_partial (k : IntKind) (hb : 0 < k.bits) (amp : Arr2 ℤ) (h : ∀ i j, IntKind.Holds k (amp.val i j ^ 2)) :
    squareMaskI k amp = ampthresh ((asFloats amp).map fun v => v ^ 2) 21 := by
  unfold squareMaskI asFloats
  congr 1
  refine congrArg (Arr2.mk amp.nr amp.nc) (funext fun i => funext fun j => ?_)
  have := congrArg (fun z : ℤ => (z : ℝ)) (wrap_of_holds k hb _ (h i j))
  simp only [Int.cast_pow] at this
  exact this

/-- **C114 fails for the mask of the clocking fit.** A `uint8` amplitude image of any size in which the pupil has 16 counts and the rest
none is refused: all the squares are 0 modulo 256. -/
theorem C114_mask_fails (n m : ℕ) (pupil : Fin n → Fin m → Bool) :
    squareMaskI ⟨8, false⟩ ⟨n, m, fun i j => if pupil i j then 16 else 0⟩ = .error .valueError := by
  unfold squareMaskI
  have e : ((⟨n, m, fun i j => if pupil i j then 16 else 0⟩ : Arr2 ℤ).map fun v : ℤ => (((IntKind.mk 8 false).wrap (v ^ 2) : ℤ) : ℝ))
      = ⟨n, m, fun _ _ => 0⟩ := by
    refine congrArg (Arr2.mk n m) (funext fun i => funext fun j => ?_)
    have key : ∀ b : Bool, (((IntKind.mk 8 false).wrap ((if b = true then 16 else 0 : ℤ) ^ 2) : ℤ) : ℝ) = 0 := by
      intro b
      have : (IntKind.mk 8 false).wrap ((if b = true then 16 else 0 : ℤ) ^ 2) = 0 := by cases b <;> decide
      rw [this, Int.cast_zero]
    exact key (pupil i j)
  rw [e]
  unfold ampthresh
  rw [if_neg (by norm_num)]
  have hall : ∀ x ∈ (⟨n, m, fun _ _ => 0⟩ : Arr2 ℝ).pixels, x = 0 := by
    intro x hx
    unfold Arr2.pixels at hx
    simp only [List.mem_flatMap, List.mem_map] at hx
    obtain ⟨_, -, _, -, h⟩ := hx
    exact h.symm
  have ht : ampThreshold (⟨n, m, fun _ _ => 0⟩ : Arr2 ℝ).pixels ((21 : ℤ).toNat) = .error .valueError := by
    unfold ampThreshold
    split
    · next lo hi h1 h2 =>
      rw [if_pos]
      rw [hall lo (List.min?_mem h1), hall hi (List.max?_mem h2)]
    · rfl
  rw [ht]

/-! ### Cases -/

example : IntKind.Holds ⟨16, false⟩ ((200 : ℤ) ^ 2) := by unfold IntKind.Holds; norm_num

example : rmsI ⟨16, false⟩ (fun i : Fin 2 => if i = 0 then 3 else 4) = .num (rms fun i : Fin 2 => ((if i = 0 then 3 else 4 : ℤ) : ℝ)) :=
  C114_rms_partial _ (by norm_num) _ fun i => by
    unfold IntKind.Holds
    rw [if_neg (by simp)]
    split <;> norm_num

example : centerOfEnergyI ⟨16, false⟩ (litImage 4 4 1 2 65535) = centerOfEnergy (asFloats (litImage 4 4 1 2 65535)) :=
  C114_center _ _ ⟨by norm_num, fun i j => by
    have key : ∀ c : Bool, IntKind.Holds ⟨16, false⟩ (if c = true then 65535 else 0) := by
      intro c
      unfold IntKind.Holds
      rw [if_neg (by simp)]
      cases c <;> norm_num
    have := key (decide ((show Fin 4 × Fin 4 from (i, j)) = (1, 2)))
    simp only [decide_eq_true_eq] at this
    exact this, by unfold litImage; norm_num⟩

example : psfAmplitudeI ⟨16, false⟩ (litImage 4 4 1 2 100) (litImage 4 4 1 2 200) (1 / 5) =
    .num (psfAmplitude (asFloats (litImage 4 4 1 2 100)) (asFloats (litImage 4 4 1 2 200)) (1 / 5)) := by
  obtain ⟨s1, s2⟩ := litImage_sums 4 4 1 2 100 200 (by norm_num) (1 / 5) (by norm_num) (by norm_num)
  refine C114_amplitude_partial _ (by norm_num) _ _ _ ?_ ?_ ?_
  · rw [s1]; unfold IntKind.Holds; norm_num
  · rw [s2]; unfold IntKind.Holds; norm_num
  · rw [s2]; norm_num

end Coralign.Props
