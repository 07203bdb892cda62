import Verif.Props.PupilFit

/-!
# C81: a scene in which the hypotheses of the theorems hold

A round pupil of 21 pixels in a 13 x 13 image, and the reference at three times the resolution.
-/

namespace Coralign.Props

open Coralign Coralign.Spec

/-- The pupil moved by `(sy, sx)`. -/
noncomputable def roundAt (sy sx : ℤ) : Arr2 ℝ := ⟨13, 13, fun i j => (round5 (((i : ℕ) : ℤ) - 6 - sy) (((j : ℕ) : ℤ) - 6 - sx) : ℕ)⟩

/-- The bright pixels. -/
def roundSet (sy sx : ℤ) : Set (ℤ × ℤ) := {p | (p.1 - sy) ^ 2 + (p.2 - sx) ^ 2 ≤ 5}

noncomputable def pupilScene : PupilTuning where
  nIterOffsets := 2
  nPadFFT := 6
  nFocusCrop := 3
  nPhaseSteps := 3
  dPixel := 1
  clockDegMax := 1
  nClock := 3
  mask := stopMask
  diamHighRes := 15
  rotRef := 7
  flipxRef := false
  padFacRef := 6 / 5
  deltaAmpMax := 3 / 4
  percentile := 100
  zeroPadding := 0

/-- A finder of pupils five pixels across. -/
noncomputable def fiveFinder : EllipseFinder := fun M => (cornerFinder M).map fun e => ((e.1.1 + 2, e.1.2 + 2), (5, 5))

theorem fiveFinder_sees : SeesShape fiveFinder := by
  intro M N dy dx h
  unfold fiveFinder
  rw [cornerFinder_sees M N dy dx h]
  cases cornerFinder M with
  | error e => rfl
  | ok e =>
    simp only [Except.map, Except.ok.injEq, Prod.mk.injEq]
    exact ⟨⟨by ring, by ring⟩, trivial⟩

/-- A shift by at most one pixel each way. -/
def Small (sy sx : ℤ) : Prop := (-1 ≤ sy ∧ sy ≤ 1) ∧ (-1 ≤ sx ∧ sx ≤ 1)

theorem roundSet_box {sy sx : ℤ} {p : ℤ × ℤ} (hp : p ∈ roundSet sy sx) : (sy - 2 ≤ p.1 ∧ p.1 ≤ sy + 2) ∧ (sx - 2 ≤ p.2 ∧ p.2 ≤ sx + 2) := by
  have h : (p.1 - sy) ^ 2 + (p.2 - sx) ^ 2 ≤ 5 := hp
  refine ⟨⟨?_, ?_⟩, ?_, ?_⟩ <;> nlinarith [sq_nonneg (p.1 - sy), sq_nonneg (p.2 - sx)]

theorem roundAt_at0 (sy sx p q : ℤ) (h : Reaches 13 13 p q) : at0 (roundAt sy sx) p q = (round5 (p - sy) (q - sx) : ℕ) :=
  at0_13 _ (fun p q => (round5 (p - sy) (q - sx) : ℕ)) (fun _ _ => rfl) p q h

theorem roundAt_spread (sy sx : ℤ) (hs : Small sy sx) : Spread13 (roundAt sy sx) := by
  obtain ⟨⟨a, b⟩, c, d⟩ := hs
  refine ⟨rfl, rfl, fun p q h => ?_, ?_, ?_⟩
  · rw [roundAt_at0 sy sx p q h]
    rcases round5_cases (p - sy) (q - sx) with e | e <;> rw [e] <;> norm_num
  · rw [roundAt_at0 sy sx 0 0 (by unfold Reaches; norm_num)]
    unfold round5
    rw [if_pos (by nlinarith)]
    simp
  · rw [roundAt_at0 sy sx 6 6 (by unfold Reaches; norm_num)]
    unfold round5
    rw [if_neg (by nlinarith)]
    simp

theorem roundAt_mask (sy sx : ℤ) (hs : Small sy sx) : ∃ m, ampthresh (roundAt sy sx) 21 = .ok m ∧ m.bits = roundAt sy sx ∧ places m = roundSet sy sx := by
  obtain ⟨-, m, t, hm, t0, t1, hpx⟩ := spread13_norm _ (roundAt_spread sy sx hs)
  obtain ⟨s1, s2, -⟩ := C12_threshold_mask _ 21 m hm
  have hval : ∀ p q, Reaches 13 13 p q → m.centered p q = some (decide (round5 (p - sy) (q - sx) = 1)) := by
    intro p q h
    unfold Arr2.centered
    rw [hpx, s1, s2, px_at0 (roundAt sy sx) p q h, roundAt_at0 sy sx p q h, Option.map_some]
    rcases round5_cases (p - sy) (q - sx) with e | e <;> rw [e] <;> simp
    · linarith
    · exact t1
  refine ⟨m, hm, ?_, ?_⟩
  · refine (val_13 m.bits (by rw [(bits_shape m).1, s1]; rfl) (by rw [(bits_shape m).2, s2]; rfl) (fun p q => (round5 (p - sy) (q - sx) : ℕ)) fun p q h => ?_).trans rfl
    unfold at0
    rw [bits_centered, hval p q h]
    rcases round5_cases (p - sy) (q - sx) with e | e <;> rw [e] <;> simp
  · ext p
    by_cases h : Reaches 13 13 p.1 p.2
    · show m.centered p.1 p.2 = some true ↔ _
      rw [hval _ _ h]
      unfold round5 roundSet
      simp
    · constructor
      · intro hp
        have := centered_eq_none m (k := p.1) (l := p.2) (by rw [s1, s2]; exact h)
        rw [show m.centered p.1 p.2 = some true from hp] at this
        cases this
      · intro hp
        have := roundSet_box hp
        obtain ⟨⟨a, b⟩, c, d⟩ := hs
        unfold Reaches at h
        omega

theorem scene_side (m : Arr2 ℝ) (hr : m.nr = 13) (hc : m.nc = 13) : ⌈(1 : ℝ) * ((max m.nr m.nc : ℕ) : ℝ)⌉ = 13 := by
  rw [hr, hc]
  norm_num

theorem scene_room (sy sx : ℤ) (hs : Small sy sx) : Room 13 1 (roundSet sy sx) := by
  intro p hp q ⟨h1, h2⟩
  have := roundSet_box hp
  obtain ⟨⟨a, b⟩, c, d⟩ := hs
  rw [abs_le] at h1 h2
  unfold Reaches
  push_cast at *
  omega

/-- The ellipse found. -/
theorem scene_ellipse (sy sx : ℤ) (hs : Small sy sx) : fitEllipse fiveFinder ⟨1, 1⟩ (roundAt sy sx) = .ok (5, (sx : ℝ), (sy : ℝ)) := by
  obtain ⟨m, hm, hb, hp⟩ := roundAt_mask sy sx hs
  obtain ⟨c1, k1⟩ := bits_clean _ m hm 1 le_rfl
  rw [hb, hp] at c1 k1
  obtain ⟨M, hM, hfit⟩ := clean_fit fiveFinder 1 1 (roundAt sy sx) 1 (roundSet sy sx) c1 (by rw [scene_side _ rfl rfl]; exact scene_room sy sx hs) k1
  rw [hfit]
  have hmem : ∀ p ∈ roundSet sy sx, p ∈ Closed 1 (roundSet sy sx) := fun p hp q hq => ⟨p, hp, by
    unfold Near at hq ⊢
    rw [abs_sub_comm p.1, abs_sub_comm p.2]
    exact hq⟩
  have hlow : ∀ p ∈ Closed 1 (roundSet sy sx), sy - 2 ≤ p.1 ∧ sx - 2 ≤ p.2 := by
    intro p hp
    obtain ⟨r, hr, h1, h2⟩ := hp (p.1 - 1, p.2 - 1) (by unfold Near; simp)
    have := roundSet_box hr
    simp only at h1 h2
    rw [abs_le] at h1 h2
    push_cast at h1 h2
    omega
  have hne : (places M).Nonempty := by
    rw [hM]
    exact ⟨(sy, sx), hmem _ (by unfold roundSet; simp)⟩
  have i2 : sInf (Prod.snd '' places M) = sx - 2 := by
    rw [hM]
    refine IsLeast.csInf_eq ⟨⟨(sy, sx - 2), hmem _ (by unfold roundSet; simp), rfl⟩, ?_⟩
    rintro x ⟨p, hp, rfl⟩
    exact (hlow p hp).2
  have i1 : sInf (Prod.fst '' places M) = sy - 2 := by
    rw [hM]
    refine IsLeast.csInf_eq ⟨⟨(sy - 2, sx), hmem _ (by unfold roundSet; simp), rfl⟩, ?_⟩
    rintro x ⟨p, hp, rfl⟩
    exact (hlow p hp).1
  unfold fiveFinder cornerFinder
  rw [if_pos hne, i1, i2]
  simp only [Except.map, Except.ok.injEq, Prod.mk.injEq]
  refine ⟨max_self _, ?_, ?_⟩ <;> push_cast <;> ring

theorem counts3' : ∀ u ∈ Finset.Icc (-7 : ℤ) 7, ∀ v ∈ Finset.Icc (-7 : ℤ) 7, stopCount 3 u v = 9 * round5 u v := by
  unfold stopCount round5 stopAt
  decide +kernel

/-- The reference made from the stop, in whatever array it comes. -/
theorem stop_any (Sp : ClampSpline) (mask : Arr2 ℝ) (hM : ∀ x y, maskAt mask false x y = (stopAt x y : ℕ)) (padFac th : ℝ) (hp : 1 ≤ padFac)
    (hm : (20 : ℝ) ≤ padFac * (max mask.nr mask.nc : ℕ)) (xo yo : ℤ) :
    ∃ d, rotateShiftDownsample Sp Rotate.still mask th (5 / 15) xo yo padFac false = .ok d ∧ ∀ p q : ℤ, -7 ≤ p - yo → p - yo ≤ 7 → -7 ≤ q - xo → q - xo ≤ 7 →
      at0 d p q = (round5 (p - yo) (q - xo) : ℕ) := by
  rw [show (5 / 15 : ℝ) = 1 / ((3 : ℕ) : ℝ) by norm_num]
  have hargs : MaskArgs mask (1 / ((3 : ℕ) : ℝ)) padFac := ⟨by positivity, by norm_num, hp, by push_cast at hm ⊢; linarith⟩
  obtain ⟨d, hd⟩ := (C60_accepts Sp Rotate.still mask 0 (1 / ((3 : ℕ) : ℝ)) xo yo padFac false).mpr hargs
  have hth : rotateShiftDownsample Sp Rotate.still mask th (1 / ((3 : ℕ) : ℝ)) xo yo padFac false = .ok d := by
    obtain ⟨h1, h2, h3⟩ := side_facts (padFac * (max mask.nr mask.nc : ℕ))
    have h4 := h3.mpr hargs.enough
    obtain ⟨N, hN'⟩ := Int.eq_ofNat_of_zero_le (show 0 ≤ ceilOdd (padFac * (max mask.nr mask.nc : ℕ)) by omega)
    rw [rsd_ok Sp Rotate.still mask _ (1 / ((3 : ℕ) : ℝ)) xo yo padFac false hargs N hN'.symm] at hd ⊢
    rw [← hd]
    congr 2
    show (if th = 0 then _ else Rotate.still.run _ _) = (if (0 : ℝ) = 0 then _ else Rotate.still.run _ _)
    have : ∀ t a, Rotate.still.run t a = a := fun _ _ => rfl
    rw [this, this, ite_self, ite_self]
  refine ⟨d, hth, fun p q p1 p2 q1 q2 => ?_⟩
  rw [C60_downsample_whole Sp Rotate.still mask 3 (by norm_num) xo yo padFac false 7 (by norm_num) (fun x y h => by
    rw [hM]
    unfold stopAt
    rw [if_neg]
    · simp
    · rw [Int.abs_eq_natAbs, Int.abs_eq_natAbs] at h; omega) (by push_cast at hm ⊢; linarith) d hd p q]
  have hfun : maskAt mask false = maskAt stopMask false := by
    funext x y
    rw [hM, stopMask_at]
  rw [hfun, stop_mean]
  have := counts3' (p - yo) (by rw [Finset.mem_Icc]; omega) (q - xo) (by rw [Finset.mem_Icc]; omega)
  rw [show ((3 : ℕ) : ℤ) = 3 from rfl, this, disc_cards.2.1]
  push_cast
  field_simp

theorem embed_at0' (d : Arr2 ℝ) (n : ℕ) (p q : ℤ) (h : Reaches n n p q) : at0 (embed d n n 0) p q = at0 d p q := by
  unfold at0
  rw [embed_centered _ _ _ _ h, Option.getD_some]

theorem scene_args : PupilArgs pupilScene := by
  unfold pupilScene
  constructor <;> norm_num

theorem scene_padded : PaddedMask pupilScene (embed stopMask 24 24 0) ∧ ∀ x y, maskAt (embed stopMask 24 24 0) false x y = (stopAt x y : ℕ) := by
  refine ⟨⟨24, by norm_num, ?_, ?_, padCrop_eq stopMask 24 24 0 (by norm_num) (by norm_num)⟩, fun x y => ?_⟩
  · show (((max 23 23 : ℕ) : ℝ)) + 0 ≤ ((24 : ℤ) : ℝ)
    norm_num
  · show ((24 : ℤ) : ℝ) < (((max 23 23 : ℕ) : ℝ)) + 0 + 2
    norm_num
  · rw [← stopMask_at]
    unfold maskAt
    simp only [Bool.false_eq_true, if_false]
    by_cases h : Reaches 24 24 x y
    · rw [embed_centered _ _ _ _ h, Option.getD_some]
    · rw [centered_eq_none (embed stopMask 24 24 0) h, centered_eq_none stopMask (by
        show ¬ Reaches 23 23 x y
        unfold Reaches at h ⊢
        omega)]

/-- The lateral search rests on a pupil at the coarse offset. -/
theorem scene_rest (sy sx : ℤ) (hs : Small sy sx) (p q : ℤ) (hp : p ∈ window 6) (hq : q ∈ window 6) :
    at0 (roundAt sy sx) (p + sy) (q + sx) = (round5 p q : ℕ) := by
  rw [mem_window] at hp hq
  obtain ⟨⟨a, b⟩, c, d⟩ := hs
  rw [roundAt_at0 sy sx _ _ (by unfold Reaches; push_cast at hp hq ⊢; omega), add_sub_cancel_right, add_sub_cancel_right]

/-- How well the scene matches the reference, whatever the angle. -/
theorem scene_matches (Sp : ClampSpline) (sy sx : ℤ) (hs : Small sy sx) (th : ℝ) :
    ∃ ref, IsReference Sp Rotate.still (embed stopMask 24 24 0) th (5 / 15) sx sy 1 13 13 ref ∧ Matches (roundAt sy sx) ref 100 (3 / 4) false 169 := by
  obtain ⟨d, hd, hdv⟩ := stop_any Sp (embed stopMask 24 24 0) scene_padded.2 1 th le_rfl (by show (20 : ℝ) ≤ 1 * ((max 24 24 : ℕ) : ℝ); norm_num) sx sy
  have hone : ∀ a : Arr2 ℝ, a.map (fun v : ℝ => v / 1) = a := by
    rintro ⟨n, m, f⟩
    unfold Arr2.map
    simp
  have hsq : (roundAt sy sx).map (fun v : ℝ => v ^ 2) = roundAt sy sx := by
    unfold roundAt Arr2.map
    congr 1
    funext i j
    simp only
    rcases round5_cases (((i : ℕ) : ℤ) - 6 - sy) (((j : ℕ) : ℤ) - 6 - sx) with e | e <;> rw [e] <;> simp
  have hv : embed d 13 13 0 = roundAt sy sx := by
    refine (val_13 _ rfl rfl (fun p q => (round5 (p - sy) (q - sx) : ℕ)) fun p q h => ?_).trans rfl
    rw [embed_at0' d 13 p q h]
    obtain ⟨⟨s1, s2⟩, s3, s4⟩ := hs
    unfold Reaches at h
    exact hdv p q (by omega) (by omega) (by omega) (by omega)
  refine ⟨_, ⟨d, hd, padCrop_eq d 13 13 0 (by norm_num) (by norm_num)⟩, ?_⟩
  rw [show ((13 : ℤ).toNat) = 13 from rfl, hv]
  unfold Matches
  rw [if_pos rfl]
  have hn := (spread13_norm _ (roundAt_spread sy sx hs)).1
  refine ⟨1, 1, by rw [hsq]; exact hn, hn, ?_⟩
  rw [hone]
  refine Eq.trans ?_ (close13 (roundAt sy sx) (roundAt sy sx) rfl rfl rfl rfl (3 / 4) (fun _ _ => true) (fun p q h => ?_)).symm
  · simp
  · simp

/-- `C81_recovers`: the whole fit of the scene, for a pupil off the centre. -/
theorem scene_fit (S : Solver) (Sp : ClampSpline) (sy sx : ℤ) (hs : Small sy sx) :
    fitUnmaskedPupil S Sp Rotate.still fiveFinder ⟨1, 1⟩ pupilScene (roundAt sy sx) = .ok ((sx : ℝ), (sy : ℝ), 0, 5) := by
  obtain ⟨m, hm, hb, -⟩ := roundAt_mask sy sx hs
  obtain ⟨r, hr, hrv⟩ := stop_any Sp stopMask stopMask_at (6 / 5) 7 (by norm_num) (by show (20 : ℝ) ≤ 6 / 5 * ((max 23 23 : ℕ) : ℝ); norm_num) 0 0
  have hrv' : ∀ p ∈ window 6, ∀ q ∈ window 6, at0 (embed r 6 6 0) p q = (round5 p q : ℕ) := by
    intro p hp q hq
    rw [mem_window] at hp hq
    push_cast at hp hq
    rw [embed_at0' r 6 p q (by unfold Reaches; push_cast; omega), hrv p q (by omega) (by omega) (by omega) (by omega), sub_zero, sub_zero]
  refine C81_recovers S Sp Rotate.still fiveFinder ⟨1, 1⟩ pupilScene scene_args (by norm_num [pupilScene]) (by norm_num [pupilScene]) (by norm_num [pupilScene])
    (by norm_num [pupilScene]) (roundAt sy sx) m hm 5 (by norm_num) sx sy (by rw [hb]; exact scene_ellipse sy sx hs) (embed r 6 6 0)
    ⟨r, by simpa [pupilScene] using hr, padCrop_eq r 6 6 0 (by norm_num) (by norm_num)⟩ 1 one_pos ?_ (round_resolves _ hrv') ?_ (embed stopMask 24 24 0) scene_padded.1
    (fun _ => 169) (fun th _ => by rw [hb]; exact scene_matches Sp sy sx hs th) 0 (Or.inr ⟨rfl, fun _ _ => rfl⟩)
  · intro p hp q hq
    rw [hb, one_mul]
    exact (scene_rest sy sx hs p q hp hq).trans (hrv' p hp q hq).symm
  · intro k hk
    have hk' : (k : ℤ) + 1 < 2 := hk
    obtain rfl : k = 0 := by omega
    rw [pow_zero, div_one, hb]
    exact round_paraboloid _ _ (fun p hp q hq => (scene_rest sy sx hs p q hp hq).trans (hrv' p hp q hq).symm) hrv'

/-- `C81_shift`: the pupil in the middle and one pixel up and to the right. -/
example (S : Solver) (Sp : ClampSpline) : ∃ m m', ampthresh (roundAt 0 0) 21 = .ok m ∧ ampthresh (roundAt (-1) 1) 21 = .ok m' ∧
    (∀ p : ℤ × ℤ, p ∈ places m ↔ (p.1 + (-1), p.2 + 1) ∈ places m') ∧ Room 13 1 (places m) ∧ Room 13 1 (places m') ∧
    fitUnmaskedPupil S Sp Rotate.still fiveFinder ⟨1, 1⟩ pupilScene (roundAt 0 0) = .ok (0, 0, 0, 5) ∧
    fitUnmaskedPupil S Sp Rotate.still fiveFinder ⟨1, 1⟩ pupilScene (roundAt (-1) 1) = .ok (1, -1, 0, 5) := by
  have s0 : Small 0 0 := by unfold Small; norm_num
  have s1 : Small (-1) 1 := by unfold Small; norm_num
  obtain ⟨m, hm, -, hp⟩ := roundAt_mask 0 0 s0
  obtain ⟨m', hm', -, hp'⟩ := roundAt_mask (-1) 1 s1
  have f0 := scene_fit S Sp 0 0 s0
  have f1 := scene_fit S Sp (-1) 1 s1
  push_cast at f0 f1
  refine ⟨m, m', hm, hm', fun p => ?_, by rw [hp]; exact scene_room 0 0 s0, by rw [hp']; exact scene_room (-1) 1 s1, f0, f1⟩
  rw [hp, hp']
  unfold roundSet
  simp

end Coralign.Props
