import Verif.Props.DmSymmetry
import Verif.Props.NoiseFree
import Verif.Props.MeasureSymmetry

/-!
# C124, continued: DM registration from mirrored and transposed measurements
-/

namespace Coralign.Props

open Coralign Coralign.Spec Finset

/-- Specification: the whole data set mirrored left to right, or transposed. -/
def PhaseData.flip (f : Flip) (d : PhaseData) : PhaseData := ⟨f.on d.amp0, f.on d.ph0, f.on d.amp1, f.on d.ph1, f.on d.usable⟩

/-- Specification: the same mirror as seen mirrored left to right, or transposed. -/
def DmReg.flip (f : Flip) (c : DmReg) : DmReg := match f with
  | .mirror => { c with gain := c.gain.fliplr, inf := c.inf.fliplr, thact := -c.thact }
  | .transpose => { c with gain := c.gain.tr, inf := c.inf.tr, cx := c.cy, cy := c.cx, thact := -c.thact }

/-- Specification: the trial displacement as seen mirrored, or transposed. -/
def Flip.shift (f : Flip) (x y : ℝ) : ℝ × ℝ := match f with
  | .mirror => (-x, y)
  | .transpose => (y, x)

theorem dmh_mirrored_odd (S : Spline) (hS : S.Symmetric) (R : Rotate) (hR : R.Symmetric) (T : Shift) (hT : T.Symmetric) (nrow ncol : ℤ) (hodd : ncol % 2 = 1)
    (dm : Arr2 ℝ) (n : ℤ) (w : Arr2 ℝ) (P : ℤ) (cx cy dx dy th : ℝ) (flipx : Bool) (out : Arr2 ℝ)
    (hok : dmhtoph S R T nrow ncol dm n w P cx cy dx dy th flipx = .ok out) :
    dmhtoph S R T nrow ncol dm.fliplr n w.fliplr P cx cy (-dx) dy (-th) flipx = .ok out.fliplr := by
  obtain ⟨o, ho, hv⟩ := C123_mirrored S hS R hR T hT nrow ncol dm n w P cx cy dx dy th flipx out hok
  rw [ho]
  congr 1
  obtain ⟨a1, a2⟩ := (C62_shape S R T nrow ncol dm n w P cx cy dx dy th flipx).2 _ hok
  obtain ⟨b1, b2⟩ := (C62_shape S R T nrow ncol dm.fliplr n w.fliplr P cx cy (-dx) dy (-th) flipx).2 _ ho
  refine Arr2.ext_px (show o.nr = out.nr by omega) (show o.nc = out.nc by omega) fun i j h1 h2 h3 h4 => ?_
  have e := hv (i - nrow / 2) (j - ncol / 2) (by unfold Reaches; omega) (by unfold Reaches; omega)
  rw [fliplr_px]
  have e3 : o.centered (i - nrow / 2) (j - ncol / 2) = o.px i j := by unfold Arr2.centered; rw [b1, b2]; congr 1 <;> omega
  have e4 : out.centered (i - nrow / 2) (-(j - ncol / 2)) = out.px i ((out.nc : ℤ) - 1 - j) := by unfold Arr2.centered; rw [a1, a2]; congr 1 <;> omega
  rw [e3, e4] at e
  exact e

theorem on_zext (f : Flip) (a : Arr2 ℝ) (i j : ℤ) : (f.on a).zext i j = a.zext (f.src a i j).1 (f.src a i j).2 := by
  unfold Arr2.zext
  rw [on_px]

theorem misfit_flip (f : Flip) (u : Arr2 Bool) (a b : Arr2 ℝ) (ha : a.nc = u.nc) (hb : b.nc = u.nc) :
    totalMisfit (f.on u) (f.on a) (f.on b) = totalMisfit u a b := by
  unfold totalMisfit
  rw [Fintype.sum_prod_type, Fintype.sum_prod_type]
  cases f with
  | mirror =>
    show ∑ i : Fin u.nr, ∑ j : Fin u.nc, (if u.val i j.rev = true then _ else _) = _
    refine sum_congr rfl fun i _ => ?_
    rw [← Equiv.sum_comp Fin.revPerm]
    refine sum_congr rfl fun j _ => ?_
    rw [Fin.revPerm_apply, Fin.rev_rev]
    show (if u.val i j = true then |(Flip.mirror.on a).zext (i : ℕ) (((Fin.rev j : Fin u.nc) : ℕ) : ℤ) - (Flip.mirror.on b).zext (i : ℕ) (((Fin.rev j : Fin u.nc) : ℕ) : ℤ)| else 0) = _
    rw [on_zext, on_zext]
    show (if u.val i j = true then |a.zext (i : ℕ) ((a.nc : ℤ) - 1 - _) - b.zext (i : ℕ) ((b.nc : ℤ) - 1 - _)| else 0) = _
    rw [ha, hb, rev_val, sub_sub_cancel]
  | transpose =>
    show ∑ i : Fin u.nc, ∑ j : Fin u.nr, (if u.val j i = true then |(Flip.transpose.on a).zext (i : ℕ) (j : ℕ) - (Flip.transpose.on b).zext (i : ℕ) (j : ℕ)| else 0) = _
    rw [sum_comm]
    refine sum_congr rfl fun i _ => sum_congr rfl fun j _ => ?_
    rw [on_zext, on_zext]
    rfl

/-- Specification: mirroring needs a centre column; transposing is stated for a mirror that is not wired the other way round. -/
def Flip.Applies (f : Flip) (u : Arr2 Bool) (c : DmReg) : Prop := match f with
  | .mirror => (u.nc : ℤ) % 2 = 1
  | .transpose => c.flipx = false

theorem dmh_flip (Sp : Spline) (hS : Sp.Symmetric) (R : Rotate) (hR : R.Symmetric) (T : Shift) (hT : T.Symmetric) (f : Flip) (u : Arr2 Bool) (c : DmReg)
    (hf : f.Applies u c) (dm : Arr2 ℝ) (x y th : ℝ) (out : Arr2 ℝ)
    (h : dmhtoph Sp R T u.nr u.nc dm c.nact c.inf c.ppactD c.cx c.cy (f.shift x y).1 (f.shift x y).2 (-th) c.flipx = .ok out) :
    dmhtoph Sp R T (f.on u).nr (f.on u).nc (f.on dm) (DmReg.flip f c).nact (DmReg.flip f c).inf (DmReg.flip f c).ppactD (DmReg.flip f c).cx (DmReg.flip f c).cy x y th
      (DmReg.flip f c).flipx = .ok (f.on out) := by
  cases f with
  | mirror =>
    have := dmh_mirrored_odd Sp hS R hR T hT u.nr u.nc hf dm c.nact c.inf c.ppactD c.cx c.cy (-x) y (-th) c.flipx out h
    rw [neg_neg, neg_neg] at this
    exact this
  | transpose =>
    have hf : c.flipx = false := hf
    rw [hf] at h
    have := C123_transposed Sp hS R hR T hT u.nr u.nc dm c.nact c.inf c.ppactD c.cx c.cy y x (-th) out h
    rw [neg_neg] at this
    show dmhtoph Sp R T u.nc u.nr dm.tr c.nact c.inf.tr c.ppactD c.cy c.cx x y th c.flipx = .ok out.tr
    rw [hf]
    exact this

/-- **C124.** DM registration from a mirrored or transposed data set, with the commands and the calibration mirrored or transposed alike: the measured change of phase is
the mirrored or transposed one, and the misfits which the translation and the clocking search minimise are the same functions of the mirrored or transposed trial
registration. -/
theorem C124_registration (Sp : Spline) (hS : Sp.Symmetric) (R : Rotate) (hR : R.Symmetric) (T : Shift) (hT : T.Symmetric) (S : Solver) (f : Flip) (d : PhaseData)
    (hd : ¬ d.shapesDiffer) (c : DmReg) (hf : f.Applies d.usable c) (dmrad meas : Arr2 ℝ) (hm : IsMeasured S d meas) (F G : ℝ → ℝ → ℝ → ℝ)
    (hF : IsOffsetMisfit Sp R T S d.usable meas dmrad c F) (hG : IsClockMisfit Sp R T d.usable meas dmrad c G) :
    IsMeasured S (PhaseData.flip f d) (f.on meas) ∧
    IsOffsetMisfit Sp R T S (f.on d.usable) (f.on meas) (f.on dmrad) (DmReg.flip f c) (fun th x y => F (-th) (f.shift x y).1 (f.shift x y).2) ∧
    IsClockMisfit Sp R T (f.on d.usable) (f.on meas) (f.on dmrad) (DmReg.flip f c) (fun x y th => G (f.shift x y).1 (f.shift x y).2 (-th)) := by
  have hmc : meas.nc = d.usable.nc := by
    obtain ⟨diff, _, _, _, h⟩ := hm
    exact (ptt_shape S _ _ _ h).2
  refine ⟨?_, fun th x y => ?_, fun x y th => ?_⟩
  · obtain ⟨diff, h1, h2, h3, h4⟩ := hm
    unfold PhaseData.shapesDiffer at hd
    simp only [not_or, not_not] at hd
    obtain ⟨⟨a1, a2⟩, ⟨b1, b2⟩, ⟨c1, c2⟩, d1, d2⟩ := hd
    refine ⟨f.on diff, ?_, ?_, fun i j v hv => ?_, ?_⟩
    · cases f
      · exact h1
      · exact h2
    · cases f
      · exact h2
      · exact h1
    · rw [on_px] at hv
      have := h3 _ _ v hv
      show _ ∧ ∃ k : ℤ, (f.on d.ph1).zext i j - (f.on d.ph0).zext i j = v + 2 * Real.pi * k
      rw [on_zext, on_zext]
      have e1 : f.src d.ph1 i j = f.src diff i j := by
        cases f with
        | mirror => show (i, (d.ph1.nc : ℤ) - 1 - j) = (i, (diff.nc : ℤ) - 1 - j); rw [show d.ph1.nc = diff.nc by omega]
        | transpose => rfl
      have e0 : f.src d.ph0 i j = f.src diff i j := by
        cases f with
        | mirror => show (i, (d.ph0.nc : ℤ) - 1 - j) = (i, (diff.nc : ℤ) - 1 - j); rw [show d.ph0.nc = diff.nc by omega]
        | transpose => rfl
      rw [e1, e0]
      exact this
    · show removePistonTipTilt S (f.on diff) (f.on d.usable) = _
      rw [ptt_on_flip, h4]
      rfl
  · obtain ⟨surf, sim, h1, h2, h3⟩ := hF (-th) (f.shift x y).1 (f.shift x y).2
    refine ⟨f.on surf, f.on sim, dmh_flip Sp hS R hR T hT f d.usable c hf dmrad x y th surf h1, ?_, ?_⟩
    · rw [on_map, ptt_on_flip, h2]; rfl
    · show F (-th) (f.shift x y).1 (f.shift x y).2 = _
      rw [h3, misfit_flip f d.usable meas sim hmc (ptt_shape S _ _ _ h2).2]
  · obtain ⟨surf, h1, h3⟩ := hG (f.shift x y).1 (f.shift x y).2 (-th)
    refine ⟨f.on surf, dmh_flip Sp hS R hR T hT f d.usable c hf dmrad x y th surf h1, ?_⟩
    have hs : (surf.nc : ℤ) = d.usable.nc := ((C62_shape Sp R T d.usable.nr d.usable.nc dmrad c.nact c.inf c.ppactD c.cx c.cy _ _ _ c.flipx).2 _ h1).2
    show G (f.shift x y).1 (f.shift x y).2 (-th) = _
    rw [h3, misfit_flip f d.usable meas surf hmc (by exact_mod_cast hs)]

theorem volts_fliplr (g v : Arr2 ℝ) (lam : ℝ) : voltsToDmh g.fliplr v.fliplr lam = (voltsToDmh g v lam).map Arr2.fliplr := by
  obtain ⟨n, m, a⟩ := g
  obtain ⟨n', m', b⟩ := v
  unfold voltsToDmh
  by_cases h0 : lam ≤ 0
  · rw [if_pos h0, if_pos h0]; rfl
  rw [if_neg h0, if_neg h0]
  by_cases h : n' = n ∧ m' = m
  · obtain ⟨rfl, rfl⟩ := h
    rw [dif_pos (show (Arr2.fliplr ⟨n', m', b⟩).nr = (Arr2.fliplr ⟨n', m', a⟩).nr ∧ (Arr2.fliplr ⟨n', m', b⟩).nc = (Arr2.fliplr ⟨n', m', a⟩).nc from ⟨rfl, rfl⟩),
      dif_pos ⟨rfl, rfl⟩]
    rfl
  · rw [dif_neg h, dif_neg (show ¬ ((Arr2.fliplr ⟨n', m', b⟩).nr = (Arr2.fliplr ⟨n, m, a⟩).nr ∧ (Arr2.fliplr ⟨n', m', b⟩).nc = (Arr2.fliplr ⟨n, m, a⟩).nc) from h)]; rfl

/-- Specification: the same mirror described with its columns of actuators counted from the other side. -/
def rewired (c : DmReg) : DmReg := { c with gain := c.gain.fliplr, inf := c.inf.fliplr, flipx := !c.flipx }

/-- **C124.** How the columns of actuators are counted does not matter to the registration: with the gain map, the influence function and the commands given in the
opposite order of columns and `flipx` set the other way, `calc_translation_clocking` answers exactly the same. -/
theorem C124_rewired (Sp : Spline) (hS : Sp.Symmetric) (R : Rotate) (T : Shift) (S : Solver) (d : PhaseData) (whichDM : ℤ) (deltaV : Arr2 ℝ) (x y : ℝ) (dm1 dm2 : DmReg)
    (t : ClockTuning) (lam : ℝ) :
    calcTranslationClocking Sp R T S d whichDM deltaV.fliplr x y (rewired dm1) (rewired dm2) t lam =
      calcTranslationClocking Sp R T S d whichDM deltaV x y dm1 dm2 t lam := by
  unfold calcTranslationClocking
  have hc : (if whichDM = 1 then rewired dm1 else rewired dm2) = rewired (if whichDM = 1 then dm1 else dm2) := by split <;> rfl
  simp only [hc, show deltaV.fliplr.nr = deltaV.nr from rfl, show deltaV.fliplr.nc = deltaV.nc from rfl]
  generalize (if whichDM = 1 then dm1 else dm2) = c
  rw [show (rewired c).gain = c.gain.fliplr from rfl, volts_fliplr, show (rewired c).thact = c.thact from rfl]
  cases hv : voltsToDmh c.gain deltaV lam with
  | error e => rfl
  | ok dmrad =>
    have hO : ∀ meas, offsetCost Sp R T S d.usable meas dmrad.fliplr (rewired c) = offsetCost Sp R T S d.usable meas dmrad c := by
      intro meas
      funext th x y
      unfold offsetCost
      rw [show dmhtoph Sp R T d.usable.nr d.usable.nc dmrad.fliplr (rewired c).nact (rewired c).inf (rewired c).ppactD (rewired c).cx (rewired c).cy x y th (rewired c).flipx =
        _ from C123_flipx Sp hS R T d.usable.nr d.usable.nc dmrad c.nact c.inf c.ppactD c.cx c.cy x y th c.flipx]
    have hC : ∀ meas, clockCost Sp R T d.usable meas dmrad.fliplr (rewired c) = clockCost Sp R T d.usable meas dmrad c := by
      intro meas
      funext x y th
      unfold clockCost
      rw [show dmhtoph Sp R T d.usable.nr d.usable.nc dmrad.fliplr (rewired c).nact (rewired c).inf (rewired c).ppactD (rewired c).cx (rewired c).cy x y th (rewired c).flipx =
        _ from C123_flipx Sp hS R T d.usable.nr d.usable.nc dmrad c.nact c.inf c.ppactD c.cx c.cy x y th c.flipx]
    simp only [Except.map, Bind.bind, Except.bind, hO, hC]

/-- **C124, C91.** `calc_scale` ignores `flipx`.  For commands and an influence function that are the same counted from either side, as its documentation asks for, this does no
harm: noise-free data of a mirror wired either way are fitted best by the true scales. -/
theorem C91_scale_either_parity (Sp : Spline) (hS : Sp.Symmetric) (R : Rotate) (T : Shift) (S : Solver) (d : PhaseData) (whichDM : ℤ) (deltaV : Arr2 ℝ)
    (t : ScaleTuning) (lam : ℝ) (h : ScaleArgs d whichDM deltaV t lam) (c : DmReg)
    (dmrad meas : Arr2 ℝ) (hm : IsMeasured S d meas) (dx dy th : ℝ) (A : ℝ → ℝ → Prop)
    (H : ℝ → ℝ → ℝ) (hH : IsScaleMisfit Sp R T S d.usable meas dmrad c dx dy th A H) (X0 Y0 : ℝ) (hA : A X0 Y0) (surf : Arr2 ℝ)
    (hsym : dmrad.fliplr = dmrad) (hinf : c.inf.fliplr = c.inf)
    (htrue : dmhtoph Sp R T d.usable.nr d.usable.nc dmrad c.nact c.inf c.ppactD (X0 * c.cx) (Y0 * c.cy) dx dy th c.flipx = .ok surf)
    (hnf : NoiseFree d surf) :
    H X0 Y0 = 0 ∧ ∀ X Y, A X Y → H X0 Y0 ≤ H X Y := by
  refine C91_scale Sp R T S d whichDM deltaV t lam h c dmrad meas hm dx dy th A H hH X0 Y0 hA surf ?_ hnf
  cases hc : c.flipx with
  | false => rw [hc] at htrue; exact htrue
  | true =>
    rw [hc] at htrue
    have := C123_flipx Sp hS R T d.usable.nr d.usable.nc dmrad c.nact c.inf c.ppactD (X0 * c.cx) (Y0 * c.cy) dx dy th true
    rw [hsym, hinf] at this
    rw [← htrue, ← this]
    rfl

/-! ### Cases -/

/-- Noise-free measurements of a mirror of five by five actuators meet the conditions of `C124_registration`, mirrored and transposed. -/
example (Sp : Spline) (R : Rotate) (hR : R.Exact) (T : Shift) (S : Solver) (f : Flip) : ∃ (v : Fin 3 → Fin 3 → ℝ) (meas : Arr2 ℝ) (F G : ℝ → ℝ → ℝ → ℝ),
    v 0 0 = -1 / 5 ∧ v 0 2 = 1 / 5 ∧ v 2 2 = 1 ∧ ¬ (cornerData v).shapesDiffer ∧ f.Applies (cornerData v).usable rampDm ∧ IsMeasured S (cornerData v) meas ∧
    IsOffsetMisfit Sp R T S (cornerData v).usable meas rampPoke rampDm F ∧ IsClockMisfit Sp R T (cornerData v).usable meas rampPoke rampDm G := by
  obtain ⟨v, hv, hv0, -⟩ := corner_surface Sp R hR T (-1 / 5) (1 / 5) (1 / 5) 1 0 (Or.inl rfl)
  obtain ⟨v1, v2, v3, v4⟩ := hv0 rfl
  obtain ⟨meas, hm⟩ := measured_ok S (cornerData v) ⟨⟨rfl, rfl⟩, rfl, rfl⟩
  have hm := (isMeasured_iff S (cornerData v) _ rfl rfl).mpr hm
  obtain ⟨⟨F, hF⟩, ⟨G, hG⟩⟩ := misfits_exist Sp R T S corners meas rampPoke rampDm (corner_args _ _ _ _)
  refine ⟨v, meas, F, G, v1, v2, v4, ?_, ?_, hm, hF, hG⟩
  · unfold PhaseData.shapesDiffer
    simp [cornerData, corners, Arr2.full]
  · cases f
    · show (((3 : ℕ) : ℤ)) % 2 = 1
      norm_num
    · rfl

/-- Commands and an influence function that are the same counted from either side, as in `C91_scale_either_parity`; the commands are neither zero nor constant. -/
example : (cornerPoke 1 1 2 2).fliplr = cornerPoke 1 1 2 2 ∧ rampDm.inf.fliplr = rampDm.inf ∧ (cornerPoke 1 1 2 2).val (1 : Fin 5) (1 : Fin 5) ≠ (cornerPoke 1 1 2 2).val (3 : Fin 5) (3 : Fin 5) := by
  refine ⟨?_, rfl, ?_⟩
  · unfold cornerPoke Arr2.fliplr
    congr 1
    refine funext fun (i : Fin 5) => funext fun (j : Fin 5) => ?_
    fin_cases i <;> fin_cases j <;> simp [Fin.rev]
  · show (1 : ℝ) ≠ 2
    norm_num

end Coralign.Props
