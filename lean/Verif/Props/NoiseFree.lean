import Verif.Props.DmRegCases
import Verif.Props.DmhPlaced
import Verif.Spec.NoiseFree

/-!
# C91: on noise-free data the true registration fits best
-/

namespace Coralign.Props

open Coralign Coralign.Spec

/-- From noise-free data the function recovers twice the change of the surface, without piston, tip and tilt. -/
theorem noiseFree_measured (S : Solver) (d : PhaseData) (surf : Arr2 ℝ) (h : NoiseFree d surf)
    (hp : d.ph1.nr = d.usable.nr ∧ d.ph1.nc = d.usable.nc) (hs : surf.nr = d.usable.nr ∧ surf.nc = d.usable.nc) :
    measuredDiff S d = removePistonTipTilt S (surf.map fun v : ℝ => v * 2) d.usable := by
  obtain ⟨amp0, ph0, amp1, ⟨n, m, f⟩, ⟨n', m', k⟩⟩ := d
  obtain ⟨sn, sm, s⟩ := surf
  obtain ⟨rfl, rfl⟩ : n = n' ∧ m = m' := hp
  obtain ⟨rfl, rfl⟩ : sn = n ∧ sm = m := hs
  obtain ⟨p, q, r, h⟩ := h
  unfold measuredDiff
  refine (ptt_ok S _ _ rfl rfl).trans (Eq.trans ?_ (ptt_ok S _ _ rfl rfl).symm)
  congr 2
  refine ptt_congr_plane S (fun i j => s i j * 2) (fun i j => wrapPhase (f i j - (ph0.px (i : ℕ) (j : ℕ)).getD 0)) _ p q r ?_
  intro i j hk
  obtain ⟨t, e1, e2, e3⟩ := h (i : ℕ) (j : ℕ) (by
    have := Arr2.px_val (⟨sn, sm, k⟩ : Arr2 Bool) i j
    rw [this]
    exact congrArg some hk)
  have z1 : (⟨sn, sm, f⟩ : Arr2 ℝ).zext (i : ℕ) (j : ℕ) = f i j := Arr2.zext_val ⟨sn, sm, f⟩ i j
  have z2 : (⟨sn, sm, s⟩ : Arr2 ℝ).zext (i : ℕ) (j : ℕ) = s i j := Arr2.zext_val ⟨sn, sm, s⟩ i j
  rw [z2] at e1 e2 e3
  simp only [Int.cast_natCast] at e1 e2 e3
  rw [z1] at e1
  have e1' : f i j - (ph0.px (i : ℕ) (j : ℕ)).getD 0 = 2 * s i j + (p + q * (i : ℕ) + r * (j : ℕ)) + 2 * Real.pi * t := e1
  rw [e1', wrapPhase_turns _ t e2 e3]
  ring

theorem totalMisfit_nonneg (u : Arr2 Bool) (a b : Arr2 ℝ) : 0 ≤ totalMisfit u a b := by
  unfold totalMisfit
  refine Finset.sum_nonneg fun p _ => ?_
  split
  · exact abs_nonneg _
  · exact le_rfl

theorem totalMisfit_self (u : Arr2 Bool) (a : Arr2 ℝ) : totalMisfit u a a = 0 := by
  unfold totalMisfit
  refine Finset.sum_eq_zero fun p _ => ?_
  rw [sub_self, abs_zero, ite_self]

/-- **C91.** Translation search: on noise-free data the misfit vanishes at the true displacement and clocking, and is nowhere smaller. -/
theorem C91_translation (Sp : Spline) (R : Rotate) (T : Shift) (S : Solver) (d : PhaseData) (whichDM : ℤ) (deltaV : Arr2 ℝ)
    (t : ClockTuning) (lam : ℝ) (h : ClockArgs d whichDM deltaV t lam) (c : DmReg)
    (dmrad meas : Arr2 ℝ) (hm : IsMeasured S d meas)
    (F : ℝ → ℝ → ℝ → ℝ) (hF : IsOffsetMisfit Sp R T S d.usable meas dmrad c F) (x0 y0 th0 : ℝ) (surf : Arr2 ℝ)
    (htrue : dmhtoph Sp R T d.usable.nr d.usable.nc dmrad c.nact c.inf c.ppactD c.cx c.cy x0 y0 th0 c.flipx = .ok surf)
    (hnf : NoiseFree d surf) :
    F th0 x0 y0 = 0 ∧ ∀ th x y, F th0 x0 y0 ≤ F th x y := by
  have hm := (isMeasured_iff S d meas (h.shapes.2.2.1.1.trans h.shapes.2.2.2.1.symm) (h.shapes.2.2.1.2.trans h.shapes.2.2.2.2.symm)).mp hm
  obtain ⟨⟨a1, a2⟩, ⟨b1, b2⟩, ⟨c1, c2⟩, ⟨d1, d2⟩⟩ := h.shapes
  obtain ⟨s1, s2⟩ := (C62_shape Sp R T d.usable.nr d.usable.nc dmrad c.nact c.inf c.ppactD c.cx c.cy x0 y0 th0 c.flipx).2 _ htrue
  have hz : F th0 x0 y0 = 0 := by
    obtain ⟨surf', sim, h1, h2, h3⟩ := hF th0 x0 y0
    rw [htrue] at h1
    injection h1 with h1
    subst h1
    rw [noiseFree_measured S d surf hnf ⟨by omega, by omega⟩ ⟨by exact_mod_cast s1, by exact_mod_cast s2⟩, h2] at hm
    injection hm with hm
    rw [h3, hm, totalMisfit_self]
  refine ⟨hz, fun th x y => ?_⟩
  obtain ⟨surf', sim, h1, h2, h3⟩ := hF th x y
  rw [hz, h3]
  exact totalMisfit_nonneg _ _ _

/-- **C91.** Scale search: on noise-free data of a mirror that is not reversed the misfit vanishes at the true scales, and is nowhere
smaller. -/
theorem C91_scale (Sp : Spline) (R : Rotate) (T : Shift) (S : Solver) (d : PhaseData) (whichDM : ℤ) (deltaV : Arr2 ℝ)
    (t : ScaleTuning) (lam : ℝ) (h : ScaleArgs d whichDM deltaV t lam) (c : DmReg)
    (dmrad meas : Arr2 ℝ) (hm : IsMeasured S d meas) (dx dy th : ℝ) (A : ℝ → ℝ → Prop)
    (H : ℝ → ℝ → ℝ) (hH : IsScaleMisfit Sp R T S d.usable meas dmrad c dx dy th A H) (X0 Y0 : ℝ) (hA : A X0 Y0) (surf : Arr2 ℝ)
    (htrue : dmhtoph Sp R T d.usable.nr d.usable.nc dmrad c.nact c.inf c.ppactD (X0 * c.cx) (Y0 * c.cy) dx dy th false = .ok surf)
    (hnf : NoiseFree d surf) :
    H X0 Y0 = 0 ∧ ∀ X Y, A X Y → H X0 Y0 ≤ H X Y := by
  have hm := (isMeasured_iff S d meas (h.shapes.2.2.1.1.trans h.shapes.2.2.2.1.symm) (h.shapes.2.2.1.2.trans h.shapes.2.2.2.2.symm)).mp hm
  obtain ⟨⟨a1, a2⟩, ⟨b1, b2⟩, ⟨c1, c2⟩, ⟨d1, d2⟩⟩ := h.shapes
  obtain ⟨s1, s2⟩ := (C62_shape Sp R T d.usable.nr d.usable.nc dmrad c.nact c.inf c.ppactD (X0 * c.cx) (Y0 * c.cy) dx dy th false).2 _ htrue
  have hz : H X0 Y0 = 0 := by
    obtain ⟨surf', sim, h1, h2, h3⟩ := hH X0 Y0 hA
    rw [htrue] at h1
    injection h1 with h1
    subst h1
    rw [noiseFree_measured S d surf hnf ⟨by omega, by omega⟩ ⟨by exact_mod_cast s1, by exact_mod_cast s2⟩, h2] at hm
    injection hm with hm
    rw [h3, hm, totalMisfit_self]
  refine ⟨hz, fun X Y hXY => ?_⟩
  obtain ⟨surf', sim, h1, h2, h3⟩ := hH X Y hXY
  rw [hz, h3]
  exact totalMisfit_nonneg _ _ _

/-- The clocking search compares the measured phase with the surface instead of the phase. -/
theorem clock_truth (u : Arr2 Bool) (s s' : Arr2 ℝ) (meas : Arr2 ℝ) (hm : ∀ i j, u.px i j = some true → meas.zext i j = 2 * s.zext i j)
    (h : totalHeight u s' ≤ totalHeight u s) : totalMisfit u meas s ≤ totalMisfit u meas s' := by
  have e : totalMisfit u meas s = totalHeight u s := by
    unfold totalMisfit totalHeight
    refine Finset.sum_congr rfl fun p _ => ?_
    by_cases hk : u.val p.1 p.2 = true
    · rw [if_pos hk, if_pos hk, hm _ _ (by rw [Arr2.px_val]; exact congrArg some hk)]
      congr 1; ring
    · rw [if_neg hk, if_neg hk]
  have e2 : 2 * totalHeight u s ≤ totalMisfit u meas s' + totalHeight u s' := by
    unfold totalMisfit totalHeight
    rw [Finset.mul_sum, ← Finset.sum_add_distrib]
    refine Finset.sum_le_sum fun p _ => ?_
    by_cases hk : u.val p.1 p.2 = true
    · rw [if_pos hk, if_pos hk, if_pos hk, hm _ _ (by rw [Arr2.px_val]; exact congrArg some hk)]
      have := abs_sub_abs_le_abs_sub (2 * s.zext (p.1 : ℕ) (p.2 : ℕ)) (s'.zext (p.1 : ℕ) (p.2 : ℕ))
      rw [abs_mul, abs_two] at this
      linarith
    · rw [if_neg hk, if_neg hk, if_neg hk]; norm_num
  linarith

/-- Without piston, tip and tilt there is nothing to remove. -/
theorem ptt_flat (S : Solver) (usable : Arr2 Bool) (surf o : Arr2 ℝ) (hs : surf.nr = usable.nr ∧ surf.nc = usable.nc) (hf : Flat usable surf)
    (h : removePistonTipTilt S (surf.map fun v : ℝ => v * 2) usable = .ok o) (i j : ℤ) (hu : usable.px i j = some true) :
    o.zext i j = 2 * surf.zext i j := by
  obtain ⟨n, m, k⟩ := usable
  obtain ⟨sn, sm, s⟩ := surf
  obtain ⟨rfl, rfl⟩ : sn = n ∧ sm = m := hs
  have hz : ∀ i j, (⟨sn, sm, s⟩ : Arr2 ℝ).zext ((i : Fin sn) : ℕ) ((j : Fin sm) : ℕ) = s i j := fun i j => Arr2.zext_val ⟨sn, sm, s⟩ i j
  have hf' : ∀ p q r : ℝ, ∑ i : Fin sn, ∑ j : Fin sm, (if k i j = true then (p + q * ((i : ℕ) : ℝ) + r * ((j : ℕ) : ℝ)) * s i j else 0) = 0 := by
    intro p q r
    refine Eq.trans ?_ (hf p q r)
    refine Finset.sum_congr rfl fun i _ => Finset.sum_congr rfl fun j _ => ?_
    exact if_congr Iff.rfl (by rw [← hz i j]) rfl
  have e1 := (ptt_ok S ((⟨sn, sm, s⟩ : Arr2 ℝ).map fun v : ℝ => v * 2) ⟨sn, sm, k⟩ rfl rfl).symm.trans h
  set w : Fin sn → Fin sm → ℝ := fun i j => if k i j = true then s i j * 2 else 0 with hw
  have e2 := ptt_congr_plane S w (fun i j => s i j * 2) k 0 0 0 (fun i j hk => by rw [hw]; simp only [hk, if_true]; ring)
  have e3 : removePistonTipTilt S ⟨sn, sm, w⟩ ⟨sn, sm, k⟩ = .ok ⟨sn, sm, w⟩ := by
    refine C25_identity S _ _ rfl rfl ?_ ?_
    · intro i j h
      have hb := (Arr2.px_isSome (⟨sn, sm, k⟩ : Arr2 Bool) i j).mp (by rw [h]; rfl)
      rw [Arr2.px_of_inB _ hb] at h
      have h' := Option.some.inj h
      simp only at h'
      rw [Arr2.px_of_inB (⟨sn, sm, w⟩ : Arr2 ℝ) hb, hw]
      simp only [h', Bool.false_eq_true, if_false]
    · have g : ∀ p q r : ℝ, ∑ i : Fin sn, ∑ j : Fin sm, (p + q * ((i : ℕ) : ℝ) + r * ((j : ℕ) : ℝ)) * w i j = 0 := by
        intro p q r
        have := hf' (2 * p) (2 * q) (2 * r)
        rw [← this]
        refine Finset.sum_congr rfl fun i _ => Finset.sum_congr rfl fun j _ => ?_
        rw [hw]
        by_cases hk : k i j = true
        · simp only [hk, if_true]; ring
        · simp only [hk, if_false, Bool.false_eq_true, mul_zero]
      refine ⟨?_, ?_, ?_⟩
      · simpa [energy] using g 1 0 0
      · simpa [rowMoment] using g 0 1 0
      · simpa [colMoment] using g 0 0 1
  have e4 := (ptt_ok S ⟨sn, sm, w⟩ ⟨sn, sm, k⟩ rfl rfl).symm.trans e3
  have e5 : (⟨sn, sm, pttValues S (fun i j => s i j * 2) k⟩ : Arr2 ℝ) = o := Except.ok.inj e1
  have e6 : (⟨sn, sm, pttValues S w k⟩ : Arr2 ℝ) = ⟨sn, sm, w⟩ := Except.ok.inj e4
  rw [← e5, e2, e6]
  have hb := (Arr2.px_isSome (⟨sn, sm, k⟩ : Arr2 Bool) i j).mp (by rw [hu]; rfl)
  rw [Arr2.px_of_inB _ hb] at hu
  have hk := Option.some.inj hu
  simp only at hk
  show ((⟨sn, sm, w⟩ : Arr2 ℝ).px i j).getD 0 = 2 * ((⟨sn, sm, s⟩ : Arr2 ℝ).px i j).getD 0
  rw [Arr2.px_of_inB (⟨sn, sm, w⟩ : Arr2 ℝ) hb, Arr2.px_of_inB (⟨sn, sm, s⟩ : Arr2 ℝ) hb, hw]
  simp only [hk, if_true, Option.getD_some]
  ring

/-- **C91** (partial).  Clocking search: on noise-free data the misfit is least at the true clocking if the true surface has no piston, tip
or tilt over the usable pixels and no other clocking brings more of it there.  Missing: other surfaces, for which this is false
(`C91_clocking_prefers_wrong_angle`). -/
theorem C91_clocking_partial (Sp : Spline) (R : Rotate) (T : Shift) (S : Solver) (d : PhaseData) (whichDM : ℤ) (deltaV : Arr2 ℝ)
    (t : ClockTuning) (lam : ℝ) (h : ClockArgs d whichDM deltaV t lam) (c : DmReg)
    (dmrad meas : Arr2 ℝ) (hm : IsMeasured S d meas)
    (G : ℝ → ℝ → ℝ → ℝ) (hG : IsClockMisfit Sp R T d.usable meas dmrad c G) (x0 y0 th0 : ℝ) (surf : Arr2 ℝ)
    (htrue : dmhtoph Sp R T d.usable.nr d.usable.nc dmrad c.nact c.inf c.ppactD c.cx c.cy x0 y0 th0 c.flipx = .ok surf)
    (hnf : NoiseFree d surf) (hflat : Flat d.usable surf) (th : ℝ)
    (hth : ∀ s, dmhtoph Sp R T d.usable.nr d.usable.nc dmrad c.nact c.inf c.ppactD c.cx c.cy x0 y0 th c.flipx = .ok s →
      totalHeight d.usable s ≤ totalHeight d.usable surf) :
    G x0 y0 th0 ≤ G x0 y0 th := by
  have hm := (isMeasured_iff S d meas (h.shapes.2.2.1.1.trans h.shapes.2.2.2.1.symm) (h.shapes.2.2.1.2.trans h.shapes.2.2.2.2.symm)).mp hm
  obtain ⟨⟨a1, a2⟩, ⟨b1, b2⟩, ⟨c1, c2⟩, ⟨d1, d2⟩⟩ := h.shapes
  obtain ⟨s1, s2⟩ := (C62_shape Sp R T d.usable.nr d.usable.nc dmrad c.nact c.inf c.ppactD c.cx c.cy x0 y0 th0 c.flipx).2 _ htrue
  have hs : surf.nr = d.usable.nr ∧ surf.nc = d.usable.nc := ⟨by exact_mod_cast s1, by exact_mod_cast s2⟩
  rw [noiseFree_measured S d surf hnf ⟨by omega, by omega⟩ hs] at hm
  obtain ⟨u1, f1, g1⟩ := hG x0 y0 th0
  obtain ⟨u2, f2, g2⟩ := hG x0 y0 th
  rw [htrue] at f1
  injection f1 with f1
  subst f1
  rw [g1, g2]
  exact clock_truth d.usable surf u2 meas (ptt_flat S d.usable surf meas hs hflat hm) (hth u2 f2)

/-! ### A mirror for which a wrong clocking fits better -/

/-- Commands of a mirror with 5 x 5 point-like actuators: four values at the corners of the middle 3 x 3 actuators. -/
noncomputable def cornerPoke (p q r s : ℝ) : Arr2 ℝ := ⟨5, 5, fun i j =>
  if (i : ℕ) = 1 ∧ (j : ℕ) = 1 then p else if (i : ℕ) = 1 ∧ (j : ℕ) = 3 then q
  else if (i : ℕ) = 3 ∧ (j : ℕ) = 1 then r else if (i : ℕ) = 3 ∧ (j : ℕ) = 3 then s else 0⟩

/-- A ramp along the diagonal, a piston and a saddle. -/
noncomputable def rampPoke : Arr2 ℝ := cornerPoke (-1 / 5) (1 / 5) (1 / 5) 1

/-- Unit gains and point-like actuators, one pixel apart, true clocking 0. -/
noncomputable def rampDm : DmReg := ⟨Arr2.full 5 5 1, Arr2.full 1 1 1, 5, 1, 1, 1, 0, false⟩

theorem corner_args (p q r s : ℝ) : DmhArgs 3 3 (cornerPoke p q r s) 5 (Arr2.full 1 1 1) 1 1 1 where
  rows := by norm_num
  cols := by norm_num
  nact := by norm_num
  samples := by norm_num
  posX := by norm_num
  posY := by norm_num
  smaller := by constructor <;> decide
  shape := ⟨rfl, rfl⟩
  sampled := by norm_num
  square := rfl
  odd := rfl
  enough := by decide

/-- The surface on the camera, upright and turned by a right angle. -/
theorem corner_surface (Sp : Spline) (R : Rotate) (hR : R.Exact) (T : Shift) (p q r s th : ℝ) (hth : th = 0 ∨ th = 90) :
    ∃ v : Fin 3 → Fin 3 → ℝ, dmhtoph Sp R T 3 3 (cornerPoke p q r s) 5 (Arr2.full 1 1 1) 1 1 1 0 0 th false = .ok ⟨3, 3, v⟩ ∧
      (th = 0 → v 0 0 = p ∧ v 0 2 = q ∧ v 2 0 = r ∧ v 2 2 = s) ∧
      (th = 90 → v 0 0 = r ∧ v 0 2 = p ∧ v 2 0 = s ∧ v 2 2 = q) := by
  obtain ⟨o, ho⟩ := (C62_shape Sp R T 3 3 (cornerPoke p q r s) 5 (Arr2.full 1 1 1) 1 1 1 0 0 th false).1.mpr (corner_args p q r s)
  obtain ⟨s1, s2⟩ := (C62_shape Sp R T 3 3 (cornerPoke p q r s) 5 (Arr2.full 1 1 1) 1 1 1 0 0 th false).2 o ho
  have hf := fun u v y x k l => C62_placed_centred Sp R hR T 3 3 (cornerPoke p q r s) 5 (Arr2.full 1 1 1) 1 1 1 th false o ho u v y x k l
  obtain ⟨nr, nc, v⟩ := o
  obtain rfl : nr = 3 := by exact_mod_cast s1
  obtain rfl : nc = 3 := by exact_mod_cast s2
  have hc : ∀ i j : Fin 3, (⟨3, 3, v⟩ : Arr2 ℝ).centered (((i : ℕ) : ℤ) - 1) (((j : ℕ) : ℤ) - 1) = some (v i j) := by
    intro i j
    have e := Arr2.px_val (⟨3, 3, v⟩ : Arr2 ℝ) i j
    unfold Arr2.centered
    refine Eq.trans ?_ e
    congr 1
    · show ((3 : ℕ) : ℤ) / 2 + (((i : ℕ) : ℤ) - 1) = _; omega
    · show ((3 : ℕ) : ℤ) / 2 + (((j : ℕ) : ℤ) - 1) = _; omega
  have key : ∀ (a b : Fin 5) (i j : Fin 3), AppearsAt false th 0 0 (((a : ℕ) : ℤ) - 2 : ℤ) (((b : ℕ) : ℤ) - 2 : ℤ) (((i : ℕ) : ℤ) - 1 : ℤ) (((j : ℕ) : ℤ) - 1 : ℤ) →
      v i j = (cornerPoke p q r s).val a b := by
    intro a b i j hat
    have := hf (((a : ℕ) : ℤ) - 2) (((b : ℕ) : ℤ) - 2) (a : ℕ) (b : ℕ) (((i : ℕ) : ℤ) - 1) (((j : ℕ) : ℤ) - 1)
      (by unfold dmPos; push_cast; ring) (by unfold dmPos; push_cast; ring) hat (by unfold Reaches; omega)
    rw [hc i j] at this
    rw [Option.some.inj this]
    exact facesheet_points 5 _ a b
  have val : ∀ a b : Fin 5, (cornerPoke p q r s).val a b = if (a : ℕ) = 1 ∧ (b : ℕ) = 1 then p else if (a : ℕ) = 1 ∧ (b : ℕ) = 3 then q
      else if (a : ℕ) = 3 ∧ (b : ℕ) = 1 then r else if (a : ℕ) = 3 ∧ (b : ℕ) = 3 then s else 0 := fun _ _ => rfl
  refine ⟨v, ho, ?_, ?_⟩
  · rintro rfl
    have st := fun (a b : Fin 5) => appears_straight false 0 0 (((a : ℕ) : ℤ) - 2) (((b : ℕ) : ℤ) - 2)
    refine ⟨?_, ?_, ?_, ?_⟩
    · rw [key 1 1 0 0 (by have := st 1 1; norm_num at this ⊢; exact this), val]; norm_num
    · rw [key 1 3 0 2 (by have := st 1 3; norm_num at this ⊢; exact this), val]; norm_num
    · rw [key 3 1 2 0 (by have := st 3 1; norm_num at this ⊢; exact this), val]; norm_num
    · rw [key 3 3 2 2 (by have := st 3 3; norm_num at this ⊢; exact this), val]; norm_num
  · rintro rfl
    have st := fun (a b : Fin 5) => appears_quarter false 0 0 (((a : ℕ) : ℤ) - 2) (((b : ℕ) : ℤ) - 2)
    refine ⟨?_, ?_, ?_, ?_⟩
    · rw [key 3 1 0 0 (by have := st 3 1; norm_num at this ⊢; exact this), val]; norm_num
    · rw [key 1 1 0 2 (by have := st 1 1; norm_num at this ⊢; exact this), val]; norm_num
    · rw [key 3 3 2 0 (by have := st 3 3; norm_num at this ⊢; exact this), val]; norm_num
    · rw [key 1 3 2 2 (by have := st 1 3; norm_num at this ⊢; exact this), val]; norm_num

/-- Noise-free measurements of a surface on the corners of a 3 x 3 camera. -/
noncomputable def cornerData (v : Fin 3 → Fin 3 → ℝ) : PhaseData :=
  ⟨Arr2.full 3 3 1, Arr2.full 3 3 0, Arr2.full 3 3 1, (⟨3, 3, v⟩ : Arr2 ℝ).map fun x : ℝ => x * 2, corners⟩

theorem corner_noiseFree (v : Fin 3 → Fin 3 → ℝ) (h1 : -1 ≤ v 0 0 ∧ v 0 0 ≤ 1) (h2 : -1 ≤ v 0 2 ∧ v 0 2 ≤ 1) (h3 : -1 ≤ v 2 0 ∧ v 2 0 ≤ 1)
    (h4 : -1 ≤ v 2 2 ∧ v 2 2 ≤ 1) : NoiseFree (cornerData v) ⟨3, 3, v⟩ := by
  refine ⟨0, 0, 0, fun i j hu => ⟨0, ?_⟩⟩
  change corners.px i j = some true at hu
  have hb := (Arr2.px_isSome corners i j).mp (by rw [hu]; rfl)
  have hb' : (0 ≤ i ∧ i < ((3 : ℕ) : ℤ)) ∧ (0 ≤ j ∧ j < ((3 : ℕ) : ℤ)) := hb
  have hu' := hu
  rw [Arr2.px_of_inB corners hb] at hu'
  have hk := Option.some.inj hu'
  have hk' : i.toNat ≠ 1 ∧ j.toNat ≠ 1 := of_decide_eq_true hk
  have z0 : (cornerData v).ph0.zext i j = 0 := by
    show ((Arr2.full 3 3 (0 : ℝ)).px i j).getD 0 = 0
    rw [Arr2.px_full]; split <;> rfl
  obtain ⟨i', hi'⟩ : ∃ i' : Fin 3, ((i' : ℕ) : ℤ) = i := ⟨⟨i.toNat, by omega⟩, by simp only; omega⟩
  obtain ⟨j', hj'⟩ : ∃ j' : Fin 3, ((j' : ℕ) : ℤ) = j := ⟨⟨j.toNat, by omega⟩, by simp only; omega⟩
  have z1 : (cornerData v).ph1.zext i j = v i' j' * 2 := by
    rw [← hi', ← hj']; exact Arr2.zext_val (⟨3, 3, fun i j => v i j * 2⟩ : Arr2 ℝ) i' j'
  have z2 : (⟨3, 3, v⟩ : Arr2 ℝ).zext i j = v i' j' := by
    rw [← hi', ← hj']; exact Arr2.zext_val (⟨3, 3, v⟩ : Arr2 ℝ) i' j'
  have hbd : -1 ≤ v i' j' ∧ v i' j' ≤ 1 := by
    have hi2 : i' = 0 ∨ i' = 2 := by
      rcases (show (i' : ℕ) = 0 ∨ (i' : ℕ) = 2 by omega) with e | e
      · exact Or.inl (Fin.ext e)
      · exact Or.inr (Fin.ext e)
    have hj2 : j' = 0 ∨ j' = 2 := by
      rcases (show (j' : ℕ) = 0 ∨ (j' : ℕ) = 2 by omega) with e | e
      · exact Or.inl (Fin.ext e)
      · exact Or.inr (Fin.ext e)
    rcases hi2 with rfl | rfl <;> rcases hj2 with rfl | rfl
    · exact h1
    · exact h2
    · exact h3
    · exact h4
  have := Real.pi_gt_three
  rw [z0, z1, z2]
  refine ⟨by simp; ring, by linarith, by linarith⟩

/-- **C91**, why it is partial.  Measurements of a mirror that is exactly where the calibration says, without noise: turned by a right angle
the simulated mirror fits better than it does in its true position. -/
theorem C91_clocking_prefers_wrong_angle (Sp : Spline) (R : Rotate) (hR : R.Exact) (T : Shift) (S : Solver) :
    ∃ (d : PhaseData) (surf meas : Arr2 ℝ),
      dmhtoph Sp R T 3 3 rampPoke rampDm.nact rampDm.inf rampDm.ppactD rampDm.cx rampDm.cy 0 0 rampDm.thact rampDm.flipx = .ok surf ∧
      (d.usable.nr = 3 ∧ d.usable.nc = 3) ∧ NoiseFree d surf ∧ IsMeasured S d meas ∧
      ∀ G, IsClockMisfit Sp R T d.usable meas rampPoke rampDm G → G 0 0 90 < G 0 0 rampDm.thact := by
  obtain ⟨v, hv, hv0, -⟩ := corner_surface Sp R hR T (-1 / 5) (1 / 5) (1 / 5) 1 0 (Or.inl rfl)
  obtain ⟨w, hw, -, hw0⟩ := corner_surface Sp R hR T (-1 / 5) (1 / 5) (1 / 5) 1 90 (Or.inr rfl)
  obtain ⟨v1, v2, v3, v4⟩ := hv0 rfl
  obtain ⟨w1, w2, w3, w4⟩ := hw0 rfl
  set d : PhaseData := cornerData v with hd
  have hnf : NoiseFree d ⟨3, 3, v⟩ := corner_noiseFree v (by rw [v1]; norm_num) (by rw [v2]; norm_num) (by rw [v3]; norm_num) (by rw [v4]; norm_num)
  have hm : measuredDiff S d = .ok (saddle (1 / 5)) := by
    rw [noiseFree_measured S d ⟨3, 3, v⟩ hnf ⟨rfl, rfl⟩ ⟨rfl, rfl⟩]
    refine (ptt_corners S fun i j => v i j * 2).trans ?_
    rw [v1, v2, v3, v4]
    norm_num
  refine ⟨d, ⟨3, 3, v⟩, saddle (1 / 5), hv, ⟨rfl, rfl⟩, hnf, (isMeasured_iff S d _ rfl rfl).mpr hm, fun G hG => ?_⟩
  obtain ⟨s1, f1, g1⟩ := hG 0 0 0
  obtain ⟨s2, f2, g2⟩ := hG 0 0 90
  have f1' : (⟨3, 3, v⟩ : Arr2 ℝ) = s1 := Except.ok.inj (hv.symm.trans f1)
  have f2' : (⟨3, 3, w⟩ : Arr2 ℝ) = s2 := Except.ok.inj (hw.symm.trans f2)
  show G 0 0 90 < G 0 0 0
  rw [g1, g2, ← f1', ← f2']
  have m1 := corners_misfit (saddle (1 / 5)).val v
  have m2 := corners_misfit (saddle (1 / 5)).val w
  have q : ∀ i j : Fin 3, (saddle (1 / 5)).val i j = 1 / 5 * ((((i : ℕ) : ℝ) - 1) * (((j : ℕ) : ℝ) - 1)) := fun _ _ => rfl
  rw [q, q, q, q, v1, v2, v3, v4] at m1
  rw [q, q, q, q, w1, w2, w3, w4] at m2
  refine (m2.trans_lt ?_).trans_eq m1.symm
  norm_num [abs_of_nonneg, abs_of_neg]

/-- The commands of the counterexample are those the function computes from voltages for unit gains. -/
example : voltsToDmh rampDm.gain rampPoke (2 * Real.pi) = .ok rampPoke := by
  have hp := Real.pi_pos
  unfold voltsToDmh
  rw [if_neg (by linarith), dif_pos ⟨rfl, rfl⟩]
  congr 1
  show (⟨5, 5, _⟩ : Arr2 ℝ) = ⟨5, 5, rampPoke.val⟩
  congr 1
  funext i j
  show dmhOf 1 (rampPoke.val i j) _ = rampPoke.val i j
  unfold dmhOf
  field_simp

/-- A mirror that meets the conditions of `C91_clocking_partial`: a saddle, turned by a right angle. -/
example (Sp : Spline) (R : Rotate) (hR : R.Exact) (T : Shift) : ∃ v w : Fin 3 → Fin 3 → ℝ,
    dmhtoph Sp R T 3 3 (cornerPoke (1 / 5) (-1 / 5) (-1 / 5) (1 / 5)) 5 (Arr2.full 1 1 1) 1 1 1 0 0 0 false = .ok ⟨3, 3, v⟩ ∧
    dmhtoph Sp R T 3 3 (cornerPoke (1 / 5) (-1 / 5) (-1 / 5) (1 / 5)) 5 (Arr2.full 1 1 1) 1 1 1 0 0 90 false = .ok ⟨3, 3, w⟩ ∧
    NoiseFree (cornerData v) ⟨3, 3, v⟩ ∧ Flat corners ⟨3, 3, v⟩ ∧ totalHeight corners ⟨3, 3, w⟩ ≤ totalHeight corners ⟨3, 3, v⟩ ∧
    0 < totalHeight corners ⟨3, 3, v⟩ := by
  obtain ⟨v, hv, hv0, -⟩ := corner_surface Sp R hR T (1 / 5) (-1 / 5) (-1 / 5) (1 / 5) 0 (Or.inl rfl)
  obtain ⟨w, hw, -, hw0⟩ := corner_surface Sp R hR T (1 / 5) (-1 / 5) (-1 / 5) (1 / 5) 90 (Or.inr rfl)
  obtain ⟨v1, v2, v3, v4⟩ := hv0 rfl
  obtain ⟨w1, w2, w3, w4⟩ := hw0 rfl
  have hz : ∀ (f : Fin 3 → Fin 3 → ℝ), totalHeight corners ⟨3, 3, f⟩ = |f 0 0| + |f 0 2| + |f 2 0| + |f 2 2| := by
    intro f
    have e := corners_misfit f fun _ _ => 0
    simp only [sub_zero] at e
    rw [← e]
    unfold totalHeight totalMisfit
    refine Finset.sum_congr rfl fun p _ => if_congr Iff.rfl ?_ rfl
    congr 1
    have : (⟨3, 3, fun _ _ => 0⟩ : Arr2 ℝ).zext (p.1 : ℕ) (p.2 : ℕ) = 0 := Arr2.zext_val (⟨3, 3, fun _ _ => 0⟩ : Arr2 ℝ) p.1 p.2
    rw [this, sub_zero]
  refine ⟨v, w, hv, hw, corner_noiseFree v (by rw [v1]; norm_num) (by rw [v2]; norm_num) (by rw [v3]; norm_num) (by rw [v4]; norm_num), ?_, ?_, ?_⟩
  · intro p q r
    have e : ∀ i j : Fin 3, (⟨3, 3, v⟩ : Arr2 ℝ).zext (i : ℕ) (j : ℕ) = v i j := fun i j => Arr2.zext_val ⟨3, 3, v⟩ i j
    show ∑ i : Fin 3, ∑ j : Fin 3, (if decide ((i : ℕ) ≠ 1 ∧ (j : ℕ) ≠ 1) = true then _ else 0) = 0
    simp only [e, Fin.sum_univ_three]
    norm_num
    rw [v1, v2, v3, v4]
    ring
  · rw [hz, hz, v1, v2, v3, v4, w1, w2, w3, w4]
    norm_num
  · rw [hz, v1, v2, v3, v4]
    norm_num

end Coralign.Props
