import Verif.Props.CoarseUse
import Verif.Props.NoisyPupilFits
import Verif.Props.PupilAnswers

/-!
# Property C134, continued: the centre of a noisy photograph of a disc
-/

namespace Coralign.Props

open Coralign Coralign.Spec Finset

/-- Specification: pixel `(i, j)` of a picture lies in the disc of diameter `d` centred `(a, b)` pixels from the centre pixel. -/
def InDisc (amp : Arr2 ℝ) (d : ℝ) (a b i j : ℤ) : Prop :=
  (((j - (amp.nc / 2 : ℕ) - a : ℤ) : ℝ)) ^ 2 + (((i - (amp.nr / 2 : ℕ) - b : ℤ) : ℝ)) ^ 2 ≤ (d / 2) ^ 2

/-- Specification: a photograph of a disc that lies in the picture without filling it, of level `bright` on a ground of level `dim`, with an
error of at most `ε` in every pixel. -/
structure DiscPhoto (amp : Arr2 ℝ) (d dim bright ε : ℝ) (a b : ℤ) : Prop where
  inside : ∀ i j : ℤ, InDisc amp d a b i j → ∃ v, amp.px i j = some v ∧ |v - bright| ≤ ε
  outside : ∀ (i j : ℤ) v, ¬ InDisc amp d a b i j → amp.px i j = some v → |v - dim| ≤ ε
  room : ∃ (i j : ℤ) (v : ℝ), amp.px i j = some v ∧ ¬ InDisc amp d a b i j

/-- The mask of such a photograph is the disc. -/
theorem photo_mask (amp : Arr2 ℝ) (d dim bright ε : ℝ) (a b : ℤ) (h : DiscPhoto amp d dim bright ε a b) (nBin : ℤ) (hn : 3 ≤ nBin)
    (hlt : dim < bright) (hε : 2 * (nBin + 2) * ε ≤ bright - dim) :
    ∃ m, ampthresh amp nBin = .ok m ∧ m.nr = amp.nr ∧ m.nc = amp.nc ∧ IdealPupil m.bits d 1 a b := by
  classical
  let m : Arr2 Bool := ⟨amp.nr, amp.nc, fun i j => decide (InDisc amp d a b (i : ℕ) (j : ℕ))⟩
  have hpx : ∀ i j v, amp.px i j = some v → m.px i j = some (decide (InDisc amp d a b i j)) := by
    intro i j v hv
    obtain ⟨⟨b1, b2⟩, b3, b4⟩ := (Arr2.px_isSome amp _ _).mp (by rw [hv]; rfl)
    rw [Arr2.px_of_inB m ⟨⟨b1, b2⟩, b3, b4⟩]
    simp only [m, Int.toNat_of_nonneg b1, Int.toNat_of_nonneg b3]
  have hback : ∀ i j t, m.px i j = some t → t = decide (InDisc amp d a b i j) := by
    intro i j t ht
    obtain ⟨⟨b1, b2⟩, b3, b4⟩ := (Arr2.px_isSome m _ _).mp (by rw [ht]; rfl)
    rw [Arr2.px_of_inB m ⟨⟨b1, b2⟩, b3, b4⟩] at ht
    simp only [m, Int.toNat_of_nonneg b1, Int.toNat_of_nonneg b3] at ht
    exact (Option.some.inj ht).symm
  refine ⟨m, C133_noise amp m nBin dim bright ε ⟨rfl, rfl, ?_, ?_⟩ hn hlt hε ?_ ?_, rfl, rfl, ?_, ?_⟩
  · intro i j v hm hv
    obtain ⟨w, hw, hwe⟩ := h.inside i j (of_decide_eq_true (hback i j true hm).symm)
    rw [hv] at hw
    rw [Option.some.inj hw]
    exact hwe
  · intro i j v hm hv
    exact h.outside i j v (of_decide_eq_false (hback i j false hm).symm) hv
  · have hin : InDisc amp d a b ((amp.nr / 2 : ℕ) + b) ((amp.nc / 2 : ℕ) + a) := by
      unfold InDisc
      rw [add_sub_cancel_left, add_sub_cancel_left, sub_self, sub_self]
      simp only [Int.cast_zero]
      nlinarith [sq_nonneg (d / 2)]
    obtain ⟨v, hv, -⟩ := h.inside _ _ hin
    exact ⟨_, _, by rw [hpx _ _ v hv, decide_eq_true hin]⟩
  · obtain ⟨i, j, v, hv, ho⟩ := h.room
    exact ⟨i, j, by rw [hpx i j v hv, decide_eq_false ho]⟩
  · intro i j hin
    obtain ⟨v, hv, -⟩ := h.inside i j hin
    have hm := hpx i j v hv
    rw [decide_eq_true (show InDisc amp d a b i j from hin)] at hm
    unfold Arr2.bits
    rw [Arr2.px_map, hm]
    simp
  · intro i j ho
    show (if (decide (InDisc amp d a b (i : ℕ) (j : ℕ))) = true then (1 : ℝ) else 0) = 0
    rw [if_neg]
    intro hh
    exact ho (of_decide_eq_true hh)

/-- **C134.** In a photograph of a disc with errors of at most one part in `2 (nBin + 2)` of the contrast, the coarse search of the mask that
`ampthresh` finds returns the centre of the disc exactly, if the stated radius has as many whole pixels as that of the disc. -/
theorem C134_photo (amp : Arr2 ℝ) (diam dim bright ε : ℝ) (a b : ℤ) (h : DiscPhoto amp diam dim bright ε a b) (hdiam : 0 < diam) (nBin : ℤ)
    (hn : 3 ≤ nBin) (hlt : dim < bright) (hε : 2 * (nBin + 2) * ε ≤ bright - dim) (hsz : 2 ≤ amp.nr ∨ 2 ≤ amp.nc) (d shrink : ℝ) (hd : 0 < d)
    (hs : 1 < shrink) (hsame : ⌊diam / 2⌋ = ⌊d / 2⌋) :
    ∃ m steps, ampthresh amp nBin = .ok m ∧ ∀ fuel, (max 1 ⌊d / shrink⌋).toNat < fuel →
      coarselyLocate fuel m.bits d shrink = some (.ok ((a, b), steps)) := by
  obtain ⟨m, hm, hr, hc, hid⟩ := photo_mask amp diam dim bright ε a b h nBin hn hlt hε
  obtain ⟨steps, hst⟩ := C134_noisy m.bits m.bits diam d shrink 1 hdiam hd hs one_pos a b (by show 2 ≤ m.nr ∨ 2 ≤ m.nc; omega) hid
    ⟨rfl, rfl, by simp⟩ hsame
  exact ⟨m, steps, hm, hst⟩

/-- **C134.** The earlier pupil fit starts from the true centre: if it answers with a diameter `d` for a photograph of a disc whose radius has
as many whole pixels, its offsets are those that the fine search finds from the centre of the disc. -/
theorem C134_old_fit (fuel : ℕ) (S : Solver) (Sp : ClampSpline) (R : Rotate) (t : PupilTuningOld) (amp : Arr2 ℝ) (x y c d : ℝ)
    (hfit : fitUnmaskedPupilOld fuel S Sp R t amp = some (.ok (x, y, c, d))) (diam dim bright ε : ℝ) (a b : ℤ)
    (h : DiscPhoto amp diam dim bright ε a b) (hdiam : 0 < diam) (hd : 0 < d) (hsame : ⌊diam / 2⌋ = ⌊d / 2⌋) (hn : 3 ≤ t.nBin)
    (hlt : dim < bright) (hε : 2 * (t.nBin + 2) * ε ≤ bright - dim) (hsz : 2 ≤ amp.nr ∨ 2 ≤ amp.nc) (hf : (max 1 ⌊d / 3⌋).toNat < fuel) :
    ∃ m r ref, ampthresh amp t.nBin = .ok m ∧
      rotateShiftDownsample Sp R t.mask 0 (d / t.diamHighRes) 0 0 (6 / 5) false = .ok r ∧ padCrop r [t.nPadFFT, t.nPadFFT] 0 = .ok ref ∧
      computeLateralOffsets S m.bits ref d t.nPhaseSteps t.dPixel t.nPadFFT t.nFocusCrop 1 a b = .ok (y, x) := by
  obtain ⟨-, m, _, _, r, ref, _, x1, y1, w, hm, -, -, -, hr, href, hco, hlat, -⟩ := (C83_answer fuel S Sp R t amp x y c d).mp hfit
  obtain ⟨m', steps, hm', hst⟩ := C134_photo amp diam dim bright ε a b h hdiam t.nBin hn hlt hε hsz d 3 hd (by norm_num) hsame
  rw [hm] at hm'
  obtain rfl := Except.ok.inj hm'
  rw [hst fuel hf] at hco
  have he := (Prod.mk.inj (Except.ok.inj (Option.some.inj hco))).1
  obtain ⟨rfl, rfl⟩ := Prod.mk.inj he
  exact ⟨m, r, ref, hm, hr, href, hlat⟩

/-- A photograph of a disc, with errors: the levels are 46 and 0 and the pixels of even columns are off by 1. -/
noncomputable def stripedPhoto : Arr2 ℝ :=
  ⟨100, 200, fun i j => (discPicture 100 200 40 46 (-75) 25).val i j + if (j : ℕ) % 2 = 0 then 1 else 0⟩

theorem photo_example : DiscPhoto stripedPhoto 40 0 46 1 (-75) 25 := by
  have hid := discPicture_ideal 100 200 40 46 (-75) 25 (by norm_num) (by norm_num) (by norm_num) (by norm_num) (by norm_num)
  have hn : ∀ n : ℕ, |(if n % 2 = 0 then (1 : ℝ) else 0)| ≤ 1 := by
    intro n; split <;> norm_num
  refine ⟨?_, ?_, ?_⟩
  · intro i j hin
    have hb := hid.bright i j hin
    obtain ⟨⟨b1, b2⟩, b3, b4⟩ := (Arr2.px_isSome (discPicture 100 200 40 46 (-75) 25) _ _).mp (by rw [hb]; rfl)
    have hv := Arr2.px_of_inB (discPicture 100 200 40 46 (-75) 25) ⟨⟨b1, b2⟩, b3, b4⟩
    rw [hb] at hv
    refine ⟨_, Arr2.px_of_inB stripedPhoto ⟨⟨b1, b2⟩, b3, b4⟩, ?_⟩
    simp only [stripedPhoto]
    refine le_trans (le_of_eq ?_) (hn j.toNat)
    refine congrArg abs ?_
    have hs : ∀ w e : ℝ, (46 : ℝ) = w → w + e - 46 = e := fun w e hw => by rw [← hw]; ring
    exact hs _ _ (Option.some.inj hv)
  · intro i j v ho hv
    obtain ⟨⟨b1, b2⟩, b3, b4⟩ := (Arr2.px_isSome stripedPhoto _ _).mp (by rw [hv]; rfl)
    rw [Arr2.px_of_inB stripedPhoto ⟨⟨b1, b2⟩, b3, b4⟩] at hv
    rw [← Option.some.inj hv, sub_zero]
    refine le_trans (le_of_eq ?_) (hn j.toNat)
    refine congrArg abs ?_
    have hz := hid.dark ⟨i.toNat, by simp only [discPicture, stripedPhoto] at b2 ⊢; omega⟩ ⟨j.toNat, by simp only [discPicture, stripedPhoto] at b4 ⊢; omega⟩ (by
      unfold InBeam
      simp only [Int.toNat_of_nonneg b1, Int.toNat_of_nonneg b3]
      exact ho)
    simp only [stripedPhoto]
    refine Eq.trans (congrArg (· + _) hz) (zero_add _)
  · refine ⟨0, 199, _, Arr2.px_of_inB stripedPhoto ⟨⟨by norm_num, by norm_num [stripedPhoto]⟩, by norm_num, by norm_num [stripedPhoto]⟩, ?_⟩
    unfold InDisc stripedPhoto
    norm_num

example : ∃ m steps, ampthresh stripedPhoto 21 = .ok m ∧
    ∀ fuel, (max 1 ⌊(41 : ℝ) / 3⌋).toNat < fuel → coarselyLocate fuel m.bits 41 3 = some (.ok ((-75, 25), steps)) :=
  C134_photo _ 40 0 46 1 (-75) 25 photo_example (by norm_num) 21 (by norm_num) (by norm_num) (by norm_num) (Or.inl (by norm_num [stripedPhoto])) 41 3 (by norm_num) (by norm_num)
    (by rw [show ⌊(40 : ℝ) / 2⌋ = 20 by rw [Int.floor_eq_iff]; norm_num, show ⌊(41 : ℝ) / 2⌋ = 20 by rw [Int.floor_eq_iff]; norm_num])

/-- The five-pixel disc of the earlier scenes is such a photograph, without errors. -/
theorem photo_round : DiscPhoto lyotM 5 0 1 0 0 0 := by
  have hin : ∀ i j : ℤ, InDisc lyotM 5 0 0 i j → (i - 6) ^ 2 + (j - 6) ^ 2 ≤ 5 := by
    intro i j h
    have h' : ((j - 6) ^ 2 + (i - 6) ^ 2 : ℤ) ≤ 6 := by
      unfold InDisc at h
      have e : (((j - (lyotM.nc / 2 : ℕ) - 0 : ℤ) : ℝ)) ^ 2 + (((i - (lyotM.nr / 2 : ℕ) - 0 : ℤ) : ℝ)) ^ 2 = (((j - 6) ^ 2 + (i - 6) ^ 2 : ℤ) : ℝ) := by
        rw [show (lyotM.nc / 2 : ℕ) = 6 from rfl, show (lyotM.nr / 2 : ℕ) = 6 from rfl]; push_cast; ring
      rw [e] at h
      have h7 : (((j - 6) ^ 2 + (i - 6) ^ 2 : ℤ) : ℝ) < (7 : ℤ) := lt_of_le_of_lt h (by norm_num)
      have : ((j - 6) ^ 2 + (i - 6) ^ 2 : ℤ) < 7 := by exact_mod_cast h7
      omega
    have hi : -2 ≤ i - 6 ∧ i - 6 ≤ 2 := by constructor <;> nlinarith [sq_nonneg (j - 6)]
    have hj : -2 ≤ j - 6 ∧ j - 6 ≤ 2 := by constructor <;> nlinarith [sq_nonneg (i - 6)]
    generalize i - 6 = x at *
    generalize j - 6 = y at *
    obtain rfl | rfl | rfl | rfl | rfl : x = -2 ∨ x = -1 ∨ x = 0 ∨ x = 1 ∨ x = 2 := by omega
    all_goals obtain rfl | rfl | rfl | rfl | rfl : y = -2 ∨ y = -1 ∨ y = 0 ∨ y = 1 ∨ y = 2 := by omega
    all_goals first | (exfalso; revert h'; norm_num; done) | norm_num
  have hout : ∀ i j : ℤ, ¬ InDisc lyotM 5 0 0 i j → ¬ (i - 6) ^ 2 + (j - 6) ^ 2 ≤ 5 := by
    intro i j h h5
    apply h
    unfold InDisc
    rw [show (lyotM.nc / 2 : ℕ) = 6 from rfl, show (lyotM.nr / 2 : ℕ) = 6 from rfl]
    have h6 : (((i - 6) ^ 2 + (j - 6) ^ 2 : ℤ) : ℝ) ≤ (5 : ℤ) := by exact_mod_cast h5
    push_cast at h6 ⊢
    linarith
  have hval : ∀ i j : ℤ, 0 ≤ i → i < 13 → 0 ≤ j → j < 13 → lyotM.px i j = some ((round5 (i - 6) (j - 6) : ℕ) : ℝ) := by
    intro i j b1 b2 b3 b4
    rw [Arr2.px_of_inB lyotM (by show ((0 ≤ i ∧ i < ((13 : ℕ) : ℤ)) ∧ 0 ≤ j ∧ j < ((13 : ℕ) : ℤ)); omega)]
    show some ((round5 (((i.toNat : ℕ) : ℤ) - 6) (((j.toNat : ℕ) : ℤ) - 6) : ℕ) : ℝ) = _
    rw [Int.toNat_of_nonneg b1, Int.toNat_of_nonneg b3]
  refine ⟨?_, ?_, 0, 0, _, hval 0 0 (by norm_num) (by norm_num) (by norm_num) (by norm_num), fun h => absurd (hin _ _ h) (by norm_num)⟩
  · intro i j h
    have h5 := hin i j h
    have hi : -2 ≤ i - 6 ∧ i - 6 ≤ 2 := by constructor <;> nlinarith [sq_nonneg (j - 6)]
    have hj : -2 ≤ j - 6 ∧ j - 6 ≤ 2 := by constructor <;> nlinarith [sq_nonneg (i - 6)]
    refine ⟨_, hval i j (by omega) (by omega) (by omega) (by omega), ?_⟩
    unfold round5
    rw [if_pos h5]
    norm_num
  · intro i j v h hv
    obtain ⟨⟨b1, b2⟩, b3, b4⟩ := (Arr2.px_isSome lyotM _ _).mp (by rw [hv]; rfl)
    rw [hval i j b1 b2 b3 b4] at hv
    rw [← Option.some.inj hv]
    unfold round5
    rw [if_neg (hout i j h)]
    norm_num

/-- `C134_old_fit`: the fit of `old_fit` answers with diameter 5 for that photograph. -/
example (S : Solver) (Sp : ClampSpline) : ∃ m r ref, ampthresh (roundAt 0 0) 21 = .ok m ∧
      rotateShiftDownsample Sp Rotate.still oldScene.mask 0 (5 / oldScene.diamHighRes) 0 0 (6 / 5) false = .ok r ∧ padCrop r [6, 6] 0 = .ok ref ∧
      computeLateralOffsets S m.bits ref 5 3 1 6 3 1 (0 : ℤ) (0 : ℤ) = .ok (0, 0) :=
  C134_old_fit 2 S Sp Rotate.still oldScene (roundAt 0 0) 0 0 0 5 (old_fit 2 le_rfl S Sp) 5 0 1 0 0 0 (by rw [roundAt_centre]; exact photo_round)
    (by norm_num) (by norm_num) rfl (by norm_num [oldScene]) (by norm_num) (by norm_num) (Or.inl (by rw [roundAt_centre]; show 2 ≤ 13; norm_num))
    (by rw [show ⌊(5 : ℝ) / 3⌋ = 1 by rw [Int.floor_eq_iff]; norm_num]; norm_num)

end Coralign.Props
