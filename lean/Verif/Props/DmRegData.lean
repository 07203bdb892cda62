import Verif.Props.DmRegBlind
import Verif.Props.BadPixelsDm

/-!
# C115: what the DM registration looks at
-/

namespace Coralign.Props

open Coralign Coralign.Spec

/-- `v` is the angle `x` brought into the half-open turn around zero. -/
def IsWrapped (x v : ℝ) : Prop := (-Real.pi < v ∧ v ≤ Real.pi) ∧ ∃ k : ℤ, x = v + 2 * Real.pi * k

/-- Two data sets with the same usable pixels and the same shapes, whose changes of phase, brought within half a turn, differ at the usable
pixels by the piston, tip and tilt `p + q row + s column`. -/
structure SameChange (d d' : PhaseData) (p q s : ℝ) : Prop where
  usable : d'.usable = d.usable
  amp0 : d'.amp0.nr = d.amp0.nr ∧ d'.amp0.nc = d.amp0.nc
  ph0 : d'.ph0.nr = d.ph0.nr ∧ d'.ph0.nc = d.ph0.nc
  amp1 : d'.amp1.nr = d.amp1.nr ∧ d'.amp1.nc = d.amp1.nc
  ph1 : d'.ph1.nr = d.ph1.nr ∧ d'.ph1.nc = d.ph1.nc
  change : ∀ i j a b a' b', d.usable.px i j = some true → d.ph0.px i j = some a → d.ph1.px i j = some b → d'.ph0.px i j = some a' →
    d'.ph1.px i j = some b' → ∃ v v', IsWrapped (b - a) v ∧ IsWrapped (b' - a') v' ∧ v' = v + (p + q * i + s * j)

theorem isWrapped_eq {x v : ℝ} (h : IsWrapped x v) : wrapPhase x = v := by
  obtain ⟨⟨h1, h2⟩, k, rfl⟩ := h
  exact wrapPhase_turns v k h1 h2

theorem wrapped_isWrapped (x : ℝ) : IsWrapped x (wrapPhase x) :=
  ⟨⟨Complex.neg_pi_lt_arg _, Complex.arg_le_pi _⟩, wrapPhase_turn x⟩

theorem sameChange_shapes {d d' : PhaseData} {p q s : ℝ} (h : SameChange d d' p q s) : d'.shapesDiffer ↔ d.shapesDiffer := by
  unfold PhaseData.shapesDiffer
  rw [h.usable, h.amp0.1, h.amp0.2, h.ph0.1, h.ph0.2, h.amp1.1, h.amp1.2, h.ph1.1, h.ph1.2]

theorem sameChange_measured (S : Solver) {d d' : PhaseData} {p q s : ℝ} (h : SameChange d d' p q s) (hs : ¬ d.shapesDiffer) :
    measuredDiff S d' = measuredDiff S d := by
  have hs' := hs
  unfold PhaseData.shapesDiffer at hs'
  push Not at hs'
  obtain ⟨⟨a1, a2⟩, ⟨b1, b2⟩, ⟨c1, c2⟩, d1, d2⟩ := hs'
  obtain ⟨hu, -, ⟨h1, h2⟩, -, ⟨h3, h4⟩, hch⟩ := h
  obtain ⟨A0, ⟨n0, m0, f0⟩, A1, ⟨n1, m1, f1⟩, ⟨n, m, k⟩⟩ := d
  obtain ⟨A0', ⟨n0', m0', f0'⟩, A1', ⟨n1', m1', f1'⟩, U'⟩ := d'
  simp only at hu h1 h2 h3 h4 a1 a2 b1 b2 c1 c2 d1 d2 hch
  subst hu h1 h2 h3 h4
  obtain rfl : n1' = n0' := c1.symm.trans a1
  obtain rfl : m1' = m0' := c2.symm.trans a2
  obtain rfl : n = n1' := d1.symm.trans a1
  obtain rfl : m = m1' := d2.symm.trans a2
  unfold measuredDiff
  rw [ptt_ok S _ _ rfl rfl, ptt_ok S _ _ rfl rfl]
  refine congrArg Except.ok (congrArg (Arr2.mk n m) (ptt_congr_plane S _ _ _ p q s fun i j hk => ?_))
  have e0 : (⟨n, m, f0⟩ : Arr2 ℝ).px ((i : ℕ) : ℤ) ((j : ℕ) : ℤ) = some (f0 i j) := Arr2.px_val (⟨n, m, f0⟩ : Arr2 ℝ) i j
  have e0' : (⟨n, m, f0'⟩ : Arr2 ℝ).px ((i : ℕ) : ℤ) ((j : ℕ) : ℤ) = some (f0' i j) := Arr2.px_val (⟨n, m, f0'⟩ : Arr2 ℝ) i j
  have hk' : (⟨n, m, k⟩ : Arr2 Bool).px ((i : ℕ) : ℤ) ((j : ℕ) : ℤ) = some true :=
    (Arr2.px_val (⟨n, m, k⟩ : Arr2 Bool) i j).trans (congrArg some hk)
  obtain ⟨v, v', w1, w2, w3⟩ := hch (i : ℕ) (j : ℕ) _ _ _ _ hk' e0 (Arr2.px_val (⟨n, m, f1⟩ : Arr2 ℝ) i j) e0' (Arr2.px_val (⟨n, m, f1'⟩ : Arr2 ℝ) i j)
  show wrapPhase (f1' i j - ((⟨n, m, f0'⟩ : Arr2 ℝ).px ((i : ℕ) : ℤ) ((j : ℕ) : ℤ)).getD 0) =
    wrapPhase (f1 i j - ((⟨n, m, f0⟩ : Arr2 ℝ).px ((i : ℕ) : ℤ) ((j : ℕ) : ℤ)).getD 0) + _
  rw [e0, e0', Option.getD_some, Option.getD_some, isWrapped_eq w1, isWrapped_eq w2, w3]
  push_cast
  rfl

/-- **C115** (partial). `calc_translation_clocking` looks at the phase maps only through the change of phase within half a turn, without piston,
tip and tilt, at the usable pixels.  Amplitudes, unusable pixels, whole turns of phase and the calibration of the other mirror are
irrelevant, for the answers and for the exceptions.  Missing: a piston that moves some of the changes across half a turn
(`C115_piston_fails`) and NaN in unusable pixels (`C115_unusable_nan_fails`). -/
theorem C115_registration_partial (Sp : Spline) (R : Rotate) (T : Shift) (S : Solver) (d d' : PhaseData) (p q s : ℝ) (h : SameChange d d' p q s)
    (whichDM : ℤ) (deltaV : Arr2 ℝ) (xPupil yPupil : ℝ) (dm1 dm2 dm1' dm2' : DmReg) (h1 : whichDM = 1 → dm1' = dm1) (h2 : whichDM = 2 → dm2' = dm2)
    (t : ClockTuning) (lam : ℝ) :
    calcTranslationClocking Sp R T S d' whichDM deltaV xPupil yPupil dm1' dm2' t lam =
      calcTranslationClocking Sp R T S d whichDM deltaV xPupil yPupil dm1 dm2 t lam := by
  unfold calcTranslationClocking
  by_cases hs : d.shapesDiffer
  · rw [if_pos hs, if_pos ((sameChange_shapes h).mpr hs)]
  rw [if_neg hs, if_neg (fun x => hs ((sameChange_shapes h).mp x))]
  by_cases hw : whichDM = 1 ∨ whichDM = 2
  swap
  · rw [if_pos hw, if_pos hw]
  have hc : (if whichDM = 1 then dm1' else dm2') = if whichDM = 1 then dm1 else dm2 := by
    rcases hw with hw | hw
    · rw [if_pos hw, if_pos hw, h1 hw]
    · rw [if_neg (by omega), if_neg (by omega), h2 hw]
  rw [hc, sameChange_measured S h hs, h.usable]

/-- **C115** (partial), for `calc_scale`.  Missing: as in `C115_registration_partial`. -/
theorem C115_scale_partial (Sp : Spline) (R : Rotate) (T : Shift) (S : Solver) (d d' : PhaseData) (p q s : ℝ) (h : SameChange d d' p q s)
    (whichDM : ℤ) (deltaV : Arr2 ℝ) (dm1 dm2 dm1' dm2' : DmReg) (h1 : whichDM = 1 → dm1' = dm1) (h2 : whichDM = 2 → dm2' = dm2)
    (t : ScaleTuning) (lam xo yo th : ℝ) :
    calcScale Sp R T S d' whichDM deltaV dm1' dm2' t lam xo yo th = calcScale Sp R T S d whichDM deltaV dm1 dm2 t lam xo yo th := by
  unfold calcScale
  by_cases hs : d.shapesDiffer
  · rw [if_pos hs, if_pos ((sameChange_shapes h).mpr hs)]
  rw [if_neg hs, if_neg (fun x => hs ((sameChange_shapes h).mp x))]
  by_cases hw : whichDM = 1 ∨ whichDM = 2
  swap
  · rw [if_pos hw, if_pos hw]
  have hc : (if whichDM = 1 then dm1' else dm2') = if whichDM = 1 then dm1 else dm2 := by
    rcases hw with hw | hw
    · rw [if_pos hw, if_pos hw, h1 hw]
    · rw [if_neg (by omega), if_neg (by omega), h2 hw]
  rw [hc, sameChange_measured S h hs, h.usable]

/-- Whole turns of phase, other amplitudes and anything at the unusable pixels: the hypothesis of the two theorems. -/
theorem sameChange_of_turns {n m : ℕ} (a0 a0' p0 p0' a1 a1' p1 p1' : Fin n → Fin m → ℝ) (k : Fin n → Fin m → Bool) (turns : Fin n → Fin m → ℤ)
    (h : ∀ i j, k i j = true → p1' i j - p0' i j = p1 i j - p0 i j + 2 * Real.pi * turns i j) :
    SameChange ⟨⟨n, m, a0⟩, ⟨n, m, p0⟩, ⟨n, m, a1⟩, ⟨n, m, p1⟩, ⟨n, m, k⟩⟩ ⟨⟨n, m, a0'⟩, ⟨n, m, p0'⟩, ⟨n, m, a1'⟩, ⟨n, m, p1'⟩, ⟨n, m, k⟩⟩ 0 0 0 := by
  refine ⟨rfl, ⟨rfl, rfl⟩, ⟨rfl, rfl⟩, ⟨rfl, rfl⟩, ⟨rfl, rfl⟩, fun i j a b a' b' hk ha hb ha' hb' => ?_⟩
  have hin : (0 ≤ i ∧ i < (n : ℤ)) ∧ (0 ≤ j ∧ j < (m : ℤ)) := (Arr2.px_isSome (⟨n, m, k⟩ : Arr2 Bool) i j).mp (by rw [hk]; rfl)
  obtain ⟨x, rfl⟩ := Int.eq_ofNat_of_zero_le hin.1.1
  obtain ⟨y, rfl⟩ := Int.eq_ofNat_of_zero_le hin.2.1
  have hx : x < n := by omega
  have hy : y < m := by omega
  have e : ∀ {α : Type} (f : Fin n → Fin m → α), (⟨n, m, f⟩ : Arr2 α).px (x : ℤ) (y : ℤ) = some (f ⟨x, hx⟩ ⟨y, hy⟩) :=
    fun f => Arr2.px_val (⟨n, m, f⟩ : Arr2 _) ⟨x, hx⟩ ⟨y, hy⟩
  simp only [e, Option.some.injEq] at hk ha hb ha' hb'
  subst ha hb ha' hb'
  obtain ⟨hw, c, hc⟩ := wrapped_isWrapped (p1 ⟨x, hx⟩ ⟨y, hy⟩ - p0 ⟨x, hx⟩ ⟨y, hy⟩)
  refine ⟨_, _, ⟨hw, c, hc⟩, ⟨hw, c + turns ⟨x, hx⟩ ⟨y, hy⟩, ?_⟩, by ring⟩
  rw [h _ _ hk]
  push_cast
  linarith

/-- For instance the phases of `saddleData` with ten turns more in every other pixel, other amplitudes, and 100 in the middle, which is not
usable. -/
example (Sp : Spline) (R : Rotate) (T : Shift) (S : Solver) (deltaV : Arr2 ℝ) (t : ScaleTuning) (lam xo yo th : ℝ) (dm other : DmReg) :
    calcScale Sp R T S ⟨Arr2.full 3 3 5, Arr2.full 3 3 0, Arr2.full 3 3 7,
      ⟨3, 3, fun i j => if i = 1 ∧ j = 1 then 100 else (saddle 1).val i j + 2 * Real.pi * (if i.val = j.val then (10 : ℤ) else 0)⟩, corners⟩ 1 deltaV dm other t lam xo yo th =
    calcScale Sp R T S saddleData 1 deltaV dm dm t lam xo yo th := by
  refine C115_scale_partial Sp R T S saddleData _ 0 0 0 ?_ 1 deltaV dm dm dm other (fun _ => rfl) (by norm_num) t lam xo yo th
  refine sameChange_of_turns _ _ _ _ _ _ _ _ _ (fun i j => if i.val = j.val then 10 else 0) fun i j hk => ?_
  have h' : (i : ℕ) ≠ 1 ∧ (j : ℕ) ≠ 1 := of_decide_eq_true hk
  have : ¬ (i = 1 ∧ j = 1) := fun h => h'.1 (by rw [h.1]; rfl)
  simp only [if_neg this]
  show (saddle 1).val i j + 2 * Real.pi * _ - 0 = (saddle 1).val i j - 0 + _
  ring

/-! ### A piston matters -/

/-- Phases whose change is a saddle of height -1 at the corners, on top of the piston `p`. -/
noncomputable def pistonData (p : ℝ) : PhaseData :=
  ⟨Arr2.full 3 3 1, Arr2.full 3 3 0, Arr2.full 3 3 1, ⟨3, 3, fun i j => (saddle (-1)).val i j + p⟩, corners⟩

theorem piston_measured (S : Solver) (p m : ℝ) (h1 : wrapPhase (-1 + p) - wrapPhase (1 + p) = 2 * m) : measuredDiff S (pistonData p) = .ok (saddle m) := by
  unfold measuredDiff
  have e : ((pistonData p).ph1.subPx (pistonData p).ph0).map wrapPhase = ⟨3, 3, fun i j => wrapPhase ((saddle (-1)).val i j + p)⟩ := by
    refine congrArg (Arr2.mk 3 3) (funext fun i => funext fun j => ?_)
    have h0 : (Arr2.full 3 3 (0 : ℝ)).px (i : ℕ) (j : ℕ) = some 0 := Arr2.px_val (Arr2.full 3 3 (0 : ℝ)) i j
    show wrapPhase ((saddle (-1)).val i j + p - ((Arr2.full 3 3 (0 : ℝ)).px (i : ℕ) (j : ℕ)).getD 0) = _
    rw [h0, Option.getD_some, sub_zero]
  rw [e]
  refine (ptt_corners S _).trans ?_
  congr 2
  simp only [saddle]
  norm_num
  rw [show (1 : ℝ) + p = 1 + p from rfl]
  linarith

theorem piston_none (S : Solver) : measuredDiff S (pistonData 0) = .ok (saddle (-1)) := by
  refine piston_measured S 0 (-1) ?_
  rw [wrapPhase_small _ (by norm_num), wrapPhase_small _ (by norm_num)]
  norm_num

theorem piston_half (S : Solver) : measuredDiff S (pistonData Real.pi) = .ok (saddle (Real.pi - 1)) := by
  have := Real.pi_gt_three
  refine piston_measured S Real.pi (Real.pi - 1) ?_
  have a : wrapPhase (-1 + Real.pi) = Real.pi - 1 := by
    have := wrapPhase_turns (Real.pi - 1) 0 (by linarith) (by linarith)
    rw [← this]; congr 1; push_cast; ring
  have b : wrapPhase (1 + Real.pi) = 1 - Real.pi := by
    have := wrapPhase_turns (1 - Real.pi) 1 (by linarith) (by linarith)
    rw [← this]; congr 1; push_cast; ring
  rw [a, b]; ring

theorem piston_offset_misfit (Sp : Spline) (T : Shift) (S : Solver) (m : ℝ) (hm : m ≤ 3) (F : ℝ → ℝ → ℝ → ℝ)
    (hF : IsOffsetMisfit Sp Rotate.breathe T S corners (saddle m) quarticPoke pointDm F)
    (X Y : ℤ) (hX : -2 ≤ X ∧ X ≤ 2) (hY : -2 ≤ Y ∧ Y ≤ 2) :
    F 0 X Y = 24 * ((X : ℝ) ^ 2 + (Y : ℝ) ^ 2) + (16 - 4 * m) := by
  obtain ⟨surf, sim, h1, h2, h3⟩ := hF 0 X Y
  obtain ⟨v, e1, e2⟩ := quartic_surface Sp T X Y hX hY 0
  have e1' : dmhtoph Sp Rotate.breathe T corners.nr corners.nc quarticPoke pointDm.nact pointDm.inf pointDm.ppactD pointDm.cx pointDm.cy X Y 0 pointDm.flipx =
    .ok ⟨3, 3, v⟩ := e1
  rw [e1'] at h1
  obtain rfl := Except.ok.inj h1
  have e3 : removePistonTipTilt S ((⟨3, 3, v⟩ : Arr2 ℝ).map fun v : ℝ => v * 2) corners = _ := ptt_corners S fun i j => v i j * 2
  rw [e3] at h2
  rw [h3, ← Except.ok.inj h2, saddle_misfit, e2, e2, e2, e2]
  rw [abs_of_nonpos]
  · norm_num; ring
  · norm_num
    nlinarith [sq_nonneg (X : ℝ), sq_nonneg (Y : ℝ)]

theorem piston_clock_misfit (Sp : Spline) (T : Shift) (m : ℝ) (G : ℝ → ℝ → ℝ → ℝ)
    (hG : IsClockMisfit Sp Rotate.breathe T corners (saddle m) quarticPoke pointDm G) (th : ℝ) :
    G 0 0 th = 4 * |m - 2 * (1 + (th ^ 2 - 20 * th) / 10000)| := by
  obtain ⟨surf, h1, h3⟩ := hG 0 0 th
  obtain ⟨v, e1, e2⟩ := quartic_surface Sp T 0 0 (by norm_num) (by norm_num) th
  have e1' : dmhtoph Sp Rotate.breathe T corners.nr corners.nc quarticPoke pointDm.nact pointDm.inf pointDm.ppactD pointDm.cx pointDm.cy 0 0 th pointDm.flipx =
    .ok ⟨3, 3, v⟩ := by rw [Int.cast_zero] at e1; exact e1
  rw [e1'] at h1
  obtain rfl := Except.ok.inj h1
  rw [h3]
  refine (corners_misfit _ v).trans ?_
  rw [e2, e2, e2, e2]
  generalize 1 + (th ^ 2 - 20 * th) / 10000 = c
  norm_num
  rw [show -m + c * 2 = -(m - 2 * c) by ring, abs_neg, show m - c * 2 = m - 2 * c by ring]
  ring

theorem piston_search (Sp : Spline) (T : Shift) (S : Solver) (m : ℝ) (hm : m ≤ 3) (F : ℝ → ℝ → ℝ → ℝ)
    (hF : IsOffsetMisfit Sp Rotate.breathe T S corners (saddle m) quarticPoke pointDm F) :
    QuadraticSearch (F 0) 3 1 (spacing 1 3) 1 (1, 0) 0 0 := by
  have key : ∀ X : ℤ, 0 ≤ X ∧ X ≤ 1 → Paraboloid (F 0) (trials 3 1 (X : ℝ)) (trials 3 1 ((0 : ℤ) : ℝ)) 0 0 := by
    intro X hX
    refine ⟨24, 0, 24, 16 - 4 * m, by norm_num, by norm_num, ?_⟩
    intro x hx y hy
    obtain ⟨x, rfl, hx⟩ := mem_trials_int X x hx
    obtain ⟨y, rfl, hy⟩ := mem_trials_int 0 y hy
    rw [piston_offset_misfit Sp T S m hm F hF x y (by omega) (by omega)]
    ring
  have hsp : spacing 1 3 = 1 := by unfold spacing; norm_num
  intro p hp cx cy hc i hi
  obtain rfl : i = 0 := by omega
  rw [pow_zero, one_mul, hsp]
  rcases hc with h | h
  · rw [← h] at hp
    rcases hp with h | h
    · obtain ⟨rfl, rfl⟩ := Prod.mk.inj h
      have := key 1 (by norm_num)
      simpa using this
    · obtain ⟨rfl, rfl⟩ := Prod.mk.inj h
      have := key 0 (by norm_num)
      simpa using this
  · exact absurd h.1 (by norm_num)

theorem piston_answer (Sp : Spline) (T : Shift) (S : Solver) (p m : ℝ) (hm : m ≤ 3) (hd : measuredDiff S (pistonData p) = .ok (saddle m)) (th0 : ℝ)
    (hP : Parabola (fun th => 4 * |m - 2 * (1 + (th ^ 2 - 20 * th) / 10000)|) [-90, 0, 90] th0) :
    calcTranslationClocking Sp Rotate.breathe T S (pistonData p) 1 quarticPoke 1 0 pointDm pointDm (regTuning 1 1 1) (2 * Real.pi) = .ok (0, 0, th0) := by
  obtain ⟨⟨F, hF⟩, G, hG⟩ := misfits_exist Sp Rotate.breathe T S corners (saddle m) quarticPoke pointDm pointDm_args
  have hA : ClockArgs (pistonData p) 1 quarticPoke (regTuning 1 1 1) (2 * Real.pi) :=
    ⟨⟨⟨rfl, rfl⟩, ⟨rfl, rfl⟩, ⟨rfl, rfl⟩, rfl, rfl⟩, Or.inl rfl, rfl, by have := Real.pi_pos; linarith, by norm_num [regTuning], by norm_num [regTuning],
      by norm_num [regTuning], by norm_num [regTuning], by norm_num [regTuning], by norm_num [regTuning]⟩
  rw [clocking_eq Sp Rotate.breathe T S (pistonData p) 1 quarticPoke 1 0 pointDm pointDm (regTuning 1 1 1) (2 * Real.pi) hA pointDm rfl quarticPoke (saddle m)
    quartic_heights hd, linspace_trials' (regTuning 1 1 1).offsetMax (regTuning 1 1 1).nOffset (by norm_num [regTuning]) (regTuning 1 1 1).shrinkFac]
  rw [show (regTuning 1 1 1).nIterBoth.toNat = 0 + 1 from rfl, bothLoop]
  obtain ⟨k, -, e⟩ := offsetLoop_exact S (offsetCost Sp Rotate.breathe T S corners (saddle m) quarticPoke pointDm 0) (F 0) (offsetCost_eq hF 0) (regTuning 1 1 1)
    (by norm_num [regTuning]) (by norm_num [regTuning]) (by norm_num [regTuning]) (by norm_num [regTuning]) 0 0 (1, 0) (1, 0)
    (piston_search Sp T S m hm F hF) (Or.inl rfl) 0 (by norm_num [regTuning])
  have e' : offsetLoop S (offsetCost Sp Rotate.breathe T S (pistonData p).usable (saddle m) quarticPoke pointDm pointDm.thact) (regTuning 1 1 1)
      (regTuning 1 1 1).nIterOffset.toNat 0 (trials (regTuning 1 1 1).nOffset.toNat ((regTuning 1 1 1).shrinkFac ^ 0 * spacing (regTuning 1 1 1).offsetMax (regTuning 1 1 1).nOffset) 0,
        trials (regTuning 1 1 1).nOffset.toNat ((regTuning 1 1 1).shrinkFac ^ 0 * spacing (regTuning 1 1 1).offsetMax (regTuning 1 1 1).nOffset) 0) (1, 0) = _ := e
  rw [e', res_ok_bind]
  have hc := clockLoop_once S (clockCost Sp Rotate.breathe T corners (saddle m) quarticPoke pointDm 0 0) (G 0 0) (clockCost_eq hG 0 0) (regTuning 1 1 1)
    (by norm_num [regTuning]) (by norm_num [regTuning]) rfl th0 0 (by
      have hl : trials (regTuning 1 1 1).nClock.toNat (spacing (regTuning 1 1 1).clockMaxDeg (regTuning 1 1 1).nClock) 0 = [-90, 0, 90] := by
        show trials 3 (spacing 90 3) 0 = _
        simp only [trials, spacing, List.range_succ, List.range_zero, List.nil_append, List.cons_append, List.map_cons, List.map_nil]
        norm_num
      rw [hl]
      obtain ⟨a, f, h1, h2⟩ := hP
      exact ⟨a, f, h1, fun s hs => (piston_clock_misfit Sp T m G hG s).trans (h2 s hs)⟩)
  have hc' : clockLoop S (clockCost Sp Rotate.breathe T (pistonData p).usable (saddle m) quarticPoke pointDm 0 0) (regTuning 1 1 1) (regTuning 1 1 1).nIterClock.toNat 0
    pointDm.thact = _ := hc
  rw [hc', res_ok_bind]
  rfl

/-- **C115, where it fails.** The phase change is a saddle of one radian at the usable pixels and the registration is `(0, 0, 10°)`.  With a
piston of half a turn added to the second phase map the same call answers more than 12 degrees: the phases are wrapped before the piston is
removed. -/
theorem C115_piston_fails (Sp : Spline) (T : Shift) (S : Solver) :
    calcTranslationClocking Sp Rotate.breathe T S (pistonData 0) 1 quarticPoke 1 0 pointDm pointDm (regTuning 1 1 1) (2 * Real.pi) = .ok (0, 0, 10) ∧
    ∃ th, 12 < th ∧
      calcTranslationClocking Sp Rotate.breathe T S (pistonData Real.pi) 1 quarticPoke 1 0 pointDm pointDm (regTuning 1 1 1) (2 * Real.pi) = .ok (0, 0, th) := by
  have hp := Real.pi_gt_d2
  have hp' := Real.pi_lt_d2
  constructor
  · refine piston_answer Sp T S 0 (-1) (by norm_num) (piston_none S) 10 ⟨1 / 1250, 12 - 1 / 1250 * 100, by norm_num, ?_⟩
    intro s _
    have := breathe_pos s
    simp only
    rw [abs_of_nonpos (by linarith)]
    ring
  · refine ⟨32.4 / (15.24 - 4 * Real.pi), ?_, ?_⟩
    · rw [lt_div_iff₀ (by linarith)]; linarith
    · have hd : (15.24 - 4 * Real.pi : ℝ) ≠ 0 := by linarith
      refine piston_answer Sp T S Real.pi (Real.pi - 1) (by linarith) (piston_half S) _
        ⟨2 * (15.24 - 4 * Real.pi) / 8100, 4 * (Real.pi - 3) - 2 * 32.4 ^ 2 / (8100 * (15.24 - 4 * Real.pi)), ?_, ?_⟩
      · rw [abs_of_pos (by linarith)]
        have : (1 : ℝ) / 2 ^ 52 ≤ 2 * 2 / 8100 := by norm_num
        linarith
      · intro s hs
        simp only [List.mem_cons, List.not_mem_nil, or_false] at hs
        rcases hs with rfl | rfl | rfl <;> simp only
        · rw [abs_of_nonpos (by norm_num; linarith)]; field_simp; ring
        · rw [abs_of_nonneg (by norm_num; linarith)]; field_simp; ring
        · rw [abs_of_nonpos (by norm_num; linarith)]; field_simp; ring

/-- `saddleData` with NaN in the middle of the second phase map. -/
noncomputable def middleNan : PhaseDataN :=
  { numData saddleData with ph1 := ⟨3, 3, fun i j => if i = 1 ∧ j = 1 then .nan else .num ((saddle 1).val i j)⟩ }

/-- **C115, where it fails.** The middle of the image is not usable, and no number there changes the answer `(0, 0, 10°)`; NaN there leaves no
answer. -/
theorem C115_unusable_nan_fails (Sp : Spline) (T : Shift) (S : Solver) (nanFit : Option PyExc) (atNan : Fl ℝ → Fl ℝ → Fl ℝ → Res (Arr2 (Fl ℝ)))
    (r : Fl ℝ × Fl ℝ × Fl ℝ)
    (e : calcTranslationClockingN Sp Rotate.breathe T S nanFit atNan middleNan 1 quarticPoke 1 0 pointDm pointDm (regTuning 1 1 1) (2 * Real.pi) = .ok r) :
    middleNan.usable.px 1 1 = some false ∧ r = (.nan, .nan, .nan) :=
  ⟨rfl, C113_registration Sp Rotate.breathe T S nanFit atNan middleNan (Or.inr ⟨(1 : Fin 3), (1 : Fin 3), rfl⟩) 1 quarticPoke 1 0 pointDm pointDm (regTuning 1 1 1) (2 * Real.pi) r e⟩

/-- Without the NaN, the same call. -/
example (Sp : Spline) (T : Shift) (S : Solver) (nanFit : Option PyExc) (atNan : Fl ℝ → Fl ℝ → Fl ℝ → Res (Arr2 (Fl ℝ))) :
    calcTranslationClockingN Sp Rotate.breathe T S nanFit atNan (numData (pistonData 0)) 1 quarticPoke 1 0 pointDm pointDm (regTuning 1 1 1) (2 * Real.pi) =
      .ok (.num 0, .num 0, .num 10) := by
  rw [C113_registration_numbers, (C115_piston_fails Sp T S).1]
  rfl

end Coralign.Props
