import Verif.Props.MaskFit

/-!
# C78: magnification and clocking of the Lyot stop (`fit_lyot_stop_mag_clocking`)
-/

namespace Coralign.Props

open Coralign Coralign.Spec

theorem mapM_inv {α : Type} (f : α → Res ℝ) (l : List α) (o : List ℝ) (h : l.mapM f = .ok o) :
    ∃ g : α → ℝ, (∀ x ∈ l, f x = .ok (g x)) ∧ o = l.map g := by
  refine ⟨fun x => match f x with | .ok v => v | .error _ => 0, ?_⟩
  induction l generalizing o with
  | nil =>
    refine ⟨by simp, ?_⟩
    exact (Except.ok.inj h).symm
  | cons a l ih =>
    rw [List.mapM_cons] at h
    cases ha : f a with
    | error e => rw [ha] at h; cases h
    | ok v =>
      rw [ha] at h
      cases hl : l.mapM f with
      | error e => rw [hl] at h; cases h
      | ok o' =>
        rw [hl] at h
        obtain ⟨h1, h2⟩ := ih o' hl
        refine ⟨fun x hx => ?_, ?_⟩
        · rcases List.mem_cons.mp hx with rfl | hx
          · simp only [ha]
          · exact h1 x hx
        · rw [List.map_cons, ← h2]
          simp only [ha]
          exact (Except.ok.inj h).symm

theorem amplitude_eq (img : Arr2 ℝ) (f : ℝ) : imageToAmp img f = amplitude img f := by
  unfold imageToAmp amplitude
  congr 1
  funext v
  congr 1
  split_ifs with h
  · exact (max_eq_right h.le).symm
  · exact (max_eq_left (not_lt.mp h)).symm

theorem inUnits_eq (img : Arr2 ℝ) (f : ℝ) : clipUnits img f = inUnits img f := by
  unfold clipUnits inUnits
  congr 1
  funext v
  split_ifs with h
  · exact (max_eq_right h.le).symm
  · exact (max_eq_left (not_lt.mp h)).symm

theorem sumWhere_eq (a : Arr2 ℝ) (m : Arr2 Bool) : sumWhere a m = lightIn a m := by
  unfold sumWhere lightIn
  rw [← Fin.sum_univ_eq_sum_range (fun p : ℕ => ∑ q ∈ Finset.range a.nc, if m.px (p : ℤ) (q : ℤ) = some true then (a.px (p : ℤ) (q : ℤ)).getD 0 else 0)]
  refine Finset.sum_congr rfl fun i _ => ?_
  rw [← Fin.sum_univ_eq_sum_range (fun q : ℕ => if m.px ((i : ℕ) : ℤ) (q : ℤ) = some true then (a.px ((i : ℕ) : ℤ) (q : ℤ)).getD 0 else 0)]
  refine Finset.sum_congr rfl fun j _ => ?_
  rw [Arr2.px_val]
  rfl

theorem lyotOverlap_iff (Sp : ClampSpline) (R : Rotate) (t : LyotTuning) (amp : Arr2 ℝ) (clock x y m v : ℝ) :
    lyotOverlap Sp R t amp clock x y m = .ok v ↔ ∃ N : ℕ, LyotMatches Sp R t amp clock x y m N ∧ v = N := by
  unfold lyotOverlap LyotMatches
  constructor
  · intro h
    obtain ⟨ref, hr, h⟩ := res_bind_ok h
    obtain ⟨g, hg, h⟩ := res_bind_ok h
    have hr' := (referenceOn_iff _ _ _ _ _ _ _ _ _ _ _).mp hr
    obtain ⟨d, -, hd⟩ := id hr'
    obtain ⟨s1, s2⟩ := padCrop_shape_of_ok hd
    refine ⟨_, ⟨ref, g, hr', (normFactorOf_iff _ _ _ _).mp hg, rfl⟩, ?_⟩
    rw [← Except.ok.inj h, countClose_eq _ _ _ (by exact s1) (by exact s2)]
    rfl
  · rintro ⟨N, ⟨ref, g, hr, hg, hN⟩, rfl⟩
    obtain ⟨d, -, hd⟩ := id hr
    obtain ⟨s1, s2⟩ := padCrop_shape_of_ok hd
    rw [(referenceOn_iff _ _ _ _ _ _ _ _ _ _ _).mpr hr, res_ok_bind]
    simp only
    rw [(normFactorOf_iff _ _ _ _).mpr hg, res_ok_bind, countClose_eq _ _ _ (by exact s1) (by exact s2), hN]
    rfl

/-- The matches of a given reference are one number. -/
theorem lyotMatches_unique (Sp : ClampSpline) (R : Rotate) (t : LyotTuning) (amp : Arr2 ℝ) (clock x y m : ℝ) (N N' : ℕ)
    (h : LyotMatches Sp R t amp clock x y m N) (h' : LyotMatches Sp R t amp clock x y m N') : N = N' := by
  have e := (lyotOverlap_iff Sp R t amp clock x y m N).mpr ⟨N, h, rfl⟩
  have e' := (lyotOverlap_iff Sp R t amp clock x y m N').mpr ⟨N', h', rfl⟩
  exact_mod_cast Except.ok.inj (e.symm.trans e')

open scoped Classical in
/-- The rounds of the line search. -/
theorem magLoop_rounds (S : Solver) (overlap : ℝ → Res ℝ) (shrink delta : ℝ) (nMag nIter : ℕ) (left iter : ℕ) (mag out : ℝ)
    (h : magLoop S overlap shrink delta nMag nIter left iter mag = .ok out) :
    ∃ est : ℕ → ℝ, est 0 = mag ∧ est left = out ∧ ∀ k < left, ∃ F : ℝ → ℝ,
      (∀ m ∈ (spread delta nMag).map (fun v : ℝ => est k + shrink * v), overlap m = .ok (F m)) ∧
      est (k + 1) = (if iter + k = 0 ∧ nIter > 1 then
          lineArgmax ((spread delta nMag).map fun v : ℝ => est k + shrink * v) (((spread delta nMag).map fun v : ℝ => est k + shrink * v).map F)
        else deficitVertex S ((spread delta nMag).map fun v : ℝ => est k + shrink * v)
          (((spread delta nMag).map fun v : ℝ => est k + shrink * v).map F) 1) := by
  induction left generalizing iter mag with
  | zero => exact ⟨fun _ => mag, rfl, Except.ok.inj h, fun k hk => absurd hk (by omega)⟩
  | succ left ih =>
    unfold magLoop at h
    simp only [linspaceList_spread] at h
    obtain ⟨o, ho, h⟩ := res_bind_ok h
    obtain ⟨F, hF, rfl⟩ := mapM_inv _ _ _ ho
    obtain ⟨est, e0, e1, e2⟩ := ih _ _ h
    refine ⟨fun k => if k = 0 then mag else est (k - 1), rfl, ?_, ?_⟩
    · simpa using e1
    · intro k hk
      rcases Nat.eq_zero_or_pos k with rfl | hpos
      · refine ⟨F, by simpa using hF, ?_⟩
        simp only [if_pos, Nat.add_sub_cancel, Nat.add_zero, Nat.zero_add, one_ne_zero, if_false]
        exact e0
      · obtain ⟨k, rfl⟩ := Nat.exists_eq_succ_of_ne_zero hpos.ne'
        obtain ⟨G, g1, g2⟩ := e2 k (by omega)
        refine ⟨G, by simpa using g1, ?_⟩
        simp only [Nat.succ_ne_zero, if_false, Nat.succ_sub_one, Nat.add_sub_cancel] at g2 ⊢
        rw [show iter + (k + 1) = iter + 1 + k by ring]
        exact g2

/-- The vertex in the words of the specification. -/
theorem deficitVertex_isVertex (S : Solver) (F : ℝ → ℕ) (l : List ℝ) (fb : ℝ) (hl : l ≠ []) :
    IsDeficitVertex l F fb (deficitVertex S l (l.map fun m => (F m : ℝ)) fb) := by
  obtain ⟨s, hs, -, hmax⟩ := argmax_peak (fun m => (F m : ℝ)) l hl
  rw [deficitVertex_eq S (fun m => (F m : ℝ)) l fb (F s) ⟨s, hs, rfl⟩ hmax]
  have hls := S.isLeastSq (vander2 fun i : Fin l.length => l.get i) (fun i : Fin l.length => ((F (l.get i) : ℝ) - F s) ^ 2)
  simp only
  generalize S.solve (vander2 fun i : Fin l.length => l.get i) (fun i : Fin l.length => ((F (l.get i) : ℝ) - F s) ^ 2) = p at hls ⊢
  have hres : ∀ q : Fin 3 → ℝ, sqResidual (vander2 fun i : Fin l.length => l.get i) (fun i : Fin l.length => ((F (l.get i) : ℝ) - F s) ^ 2) q =
      (l.map fun m : ℝ => (q 0 * m ^ 2 + q 1 * m + q 2 - ((F m : ℝ) - F s) ^ 2) ^ 2).sum := by
    intro q
    rw [← Fin.sum_univ_fun_getElem l (fun m : ℝ => (q 0 * m ^ 2 + q 1 * m + q 2 - ((F m : ℝ) - F s) ^ 2) ^ 2)]
    unfold sqResidual fitted vander2
    refine Finset.sum_congr rfl fun i _ => ?_
    rw [Fin.sum_univ_three]
    simp only [Matrix.cons_val_zero, Matrix.cons_val_one, Matrix.cons_val_two, Matrix.head_cons, Matrix.tail_cons, Matrix.cons_val, List.get_eq_getElem]
    ring
  refine ⟨F s, p 0, p 1, p 2, ⟨s, hs, rfl⟩, hmax, fun a' b' c' => ?_, ?_⟩
  · have := hls ![a', b', c']
    rw [hres, hres] at this
    simpa using this
  · by_cases h : p 0 = 0
    · exact Or.inl ⟨h, if_pos h⟩
    · refine Or.inr ⟨h, ?_⟩
      rw [if_neg h]
      field_simp
      ring

theorem magGrid_ne_nil (t : LyotTuning) (m : ℝ) (h : 0 < t.nMag) : magGrid t m ≠ [] := by
  intro hc
  have := congrArg List.length hc
  unfold magGrid at this
  rw [List.length_map, spread_length, List.length_nil] at this
  omega

/-- **C78.** Multiplying both images by the same positive factor changes nothing. -/
theorem C78_exposure (fuel : ℕ) (S : Solver) (Sp : ClampSpline) (R : Rotate) (t : LyotTuning) {n m n' m' : ℕ} (U : Fin n → Fin m → ℝ)
    (M : Fin n' → Fin m' → ℝ) (c : ℝ) (hc : 0 < c) (xP yP : ℝ) :
    fitLyotStopMagClocking fuel S Sp R t ⟨n, m, fun i j => c * U i j⟩ ⟨n', m', fun i j => c * M i j⟩ xP yP =
      fitLyotStopMagClocking fuel S Sp R t ⟨n, m, U⟩ ⟨n', m', M⟩ xP yP := by
  have e1 := normFactorOf_scale ⟨n, m, U⟩ ⟨n, m, U⟩ t.percentile c c hc hc
  have a1 : ∀ {p q : ℕ} (W : Fin p → Fin q → ℝ) (f : ℝ), clipUnits ⟨p, q, fun i j => c * W i j⟩ (c * f) = clipUnits ⟨p, q, W⟩ f := by
    intro p q W f
    unfold clipUnits Arr2.map
    simp only [mul_div_mul_left _ _ hc.ne']
  have a2 : ∀ {p q : ℕ} (W : Fin p → Fin q → ℝ) (f : ℝ), imageToAmp ⟨p, q, fun i j => c * W i j⟩ (c * f) = imageToAmp ⟨p, q, W⟩ f :=
    fun W f => imageToAmp_scale ⟨_, _, W⟩ f c hc.ne'
  unfold Arr2.map at e1
  have e : lyotStart Sp R t ⟨n, m, fun i j => c * U i j⟩ ⟨n', m', fun i j => c * M i j⟩ xP yP = lyotStart Sp R t ⟨n, m, U⟩ ⟨n', m', M⟩ xP yP := by
    unfold lyotStart
    refine congrArg (fun k => lyotChecks t >>= k) (funext fun _ => ?_)
    simp only at e1 ⊢
    rw [e1]
    cases normFactorOf ⟨n, m, U⟩ ⟨n, m, U⟩ t.percentile with
    | error e => rfl
    | ok f =>
      rw [show (Except.ok f : Res ℝ).map (fun f => c * f) = .ok (c * f) from rfl, res_ok_bind, res_ok_bind, a1, a1, a2, a2]
  unfold fitLyotStopMagClocking
  rw [e]

/-- The parameters which `fit_lyot_stop_mag_clocking` insists on. -/
structure LyotArgs (t : LyotTuning) : Prop where
  clockMax : 0 < t.clockMaxDeg
  clocks : 0 < t.nClock
  tol : 0 < t.deltaAmpMax ∧ t.deltaAmpMax < 1
  diam : 0 < t.diamPupil
  shrink : 0 < t.magShrinkFac ∧ t.magShrinkFac < 1
  delta : 0 < t.deltaMag
  mags : 0 < t.nMag
  rounds : 0 < t.nIterMag

theorem lyotChecks_ok (t : LyotTuning) (u : Unit) : lyotChecks t = .ok u ↔ LyotArgs t := by
  unfold lyotChecks
  constructor
  · intro h
    split_ifs at h with h1 h2 h3 h4 h5
    push Not at h1 h2 h3 h4 h5
    exact ⟨h1.1, h1.2.1, ⟨h1.2.2.1, h2⟩, h1.2.2.2, ⟨h3, h4⟩, h5.1, h5.2.1, h5.2.2⟩
  · intro h
    rw [if_neg (by have := h.clockMax; have := h.clocks; have := h.tol.1; have := h.diam; push Not; exact ⟨‹_›, ‹_›, ‹_›, ‹_›⟩),
      if_neg (not_le.mpr h.tol.2), if_neg (not_le.mpr h.shrink.1), if_neg (not_le.mpr h.shrink.2),
      if_neg (by push Not; exact ⟨h.delta, h.mags, h.rounds⟩)]

/-- **C78.** Images of different shapes raise `ValueError`.  Otherwise parameters which are not positive raise `TypeError`, and a tolerance or
shrink factor of 1 or more raises `ValueError`; in every such case there is no answer. -/
theorem C78_rejects (fuel : ℕ) (S : Solver) (Sp : ClampSpline) (R : Rotate) (t : LyotTuning) (U M : Arr2 ℝ) (xP yP : ℝ) :
    ((U.nr ≠ M.nr ∨ U.nc ≠ M.nc) → fitLyotStopMagClocking fuel S Sp R t U M xP yP = some (.error .valueError)) ∧
    (U.nr = M.nr → U.nc = M.nc → ¬ LyotArgs t →
      fitLyotStopMagClocking fuel S Sp R t U M xP yP = some (.error .typeError) ∨
      (fitLyotStopMagClocking fuel S Sp R t U M xP yP = some (.error .valueError) ∧ (1 ≤ t.deltaAmpMax ∨ 1 ≤ t.magShrinkFac))) := by
  unfold fitLyotStopMagClocking
  constructor
  · intro h
    rw [if_pos h]
  · intro hr hc hn
    have hs : lyotChecks t = .error .typeError ∨ (lyotChecks t = .error .valueError ∧ (1 ≤ t.deltaAmpMax ∨ 1 ≤ t.magShrinkFac)) := by
      have hno := fun u => mt (lyotChecks_ok t u).mp hn
      unfold lyotChecks at hno ⊢
      split_ifs with h1 h2 h3 h4 h5
      · exact Or.inl rfl
      · exact Or.inr ⟨rfl, Or.inl h2⟩
      · exact Or.inl rfl
      · exact Or.inr ⟨rfl, Or.inr h4⟩
      · exact Or.inl rfl
      · rw [if_neg h1, if_neg h2, if_neg h3, if_neg h4, if_neg h5] at hno
        exact absurd rfl (hno ())
    rw [if_neg (by rintro (h | h); exacts [h hr, h hc])]
    unfold lyotStart
    rcases hs with h | ⟨h, h'⟩
    · left
      rw [h]
      rfl
    · right
      refine ⟨?_, h'⟩
      rw [h]
      rfl

/-- The windows about the coarse centre. -/
theorem lyotCrop (w : Arr2 ℝ) (nr nc : ℕ) (hr : w.nr = nr) (hc : w.nc = nc) (x1 y1 : ℤ) (a : Arr2 ℝ)
    (h : offcenterCrop w 0 ((max nr nc : ℕ) : ℤ) (((y1 + ((nr / 2 : ℕ) : ℤ) : ℤ)) : ℝ) (((x1 + ((nc / 2 : ℕ) : ℤ) : ℤ)) : ℝ) = .ok a) :
    a.nr = max nr nc ∧ a.nc = max nr nc ∧ ∀ p ∈ window (max nr nc), ∀ q ∈ window (max nr nc), at0 a p q = at0 w (p + y1) (q + x1) := by
  have hn : 0 < max nr nc := by
    by_contra h0
    have h0 : max nr nc = 0 := by omega
    rw [h0] at h
    unfold offcenterCrop at h
    cases h
  subst hr hc
  have e := recentre_at0 w (max w.nr w.nc) hn y1 x1
  rw [add_comm (((w.nr / 2 : ℕ) : ℤ)), add_comm (((w.nc / 2 : ℕ) : ℤ))] at e
  rw [e] at h
  cases h
  exact ⟨rfl, rfl, fun p hp q hq => at0_window _ (fun p q => at0 w (p + y1) (q + x1)) p q hp hq⟩

/-- **C78.** What an answer `(mag, clock)` means.  Both images are in units of the bright level `f` of the unmasked one.  The search starts
from `mag0`, the square root of the ratio of the light in the masked image to the light which the nominal mask would pass.  The clocking is
that found by `compute_clocking` (C76) for the amplitude of the masked image with the stop at `(x, y)`, the pupil centre plus the displacement
that the lateral search finds.  The magnification is the last of
`nIterMag` estimates; each is made from the numbers of matching pixels on a grid about the one before.  The half width of the grid is
`magShrinkFac * deltaMag` in every round, the first included: it is not shrunk again from one round to the next.  The first round of several
takes the best grid point, the others the vertex of the fit to the squared deficits, or 1 if that fit is flat. -/
theorem C78_search (fuel : ℕ) (S : Solver) (Sp : ClampSpline) (R : Rotate) (t : LyotTuning) (U M : Arr2 ℝ) (xP yP mag clock : ℝ)
    (h : fitLyotStopMagClocking fuel S Sp R t U M xP yP = some (.ok (mag, clock))) :
    LyotArgs t ∧ ∃ f mag0 x y, NormBy U U t.percentile f ∧ LyotStart Sp R t U M xP yP f mag0 ∧
      LyotPlaced fuel S Sp R t U M xP yP f mag0 x y ∧
      computeClocking S Sp R (amplitude M f).toC (mag0 * t.diamPupil) t.mask t.diamHighRes x y t.clockMaxDeg t.nClock t.percentile t.deltaAmpMax
        false = .ok clock ∧
      ∃ est : ℕ → ℝ, est 0 = mag0 ∧ est t.nIterMag.toNat = mag ∧ ∀ k < t.nIterMag.toNat, ∃ F : ℝ → ℕ,
        (∀ m ∈ magGrid t (est k), LyotMatches Sp R t (amplitude M f) clock x y m (F m)) ∧
        if k = 0 ∧ 1 < t.nIterMag then IsLinePeak (magGrid t (est k)) F (est (k + 1)) else IsDeficitVertex (magGrid t (est k)) F 1 (est (k + 1)) := by
  unfold fitLyotStopMagClocking at h
  split_ifs at h with hs
  · cases h
  cases hst : lyotStart Sp R t U M xP yP with
  | error e => rw [hst] at h; cases h
  | ok st =>
    obtain ⟨ampU, ampM, mag0, ampRef⟩ := st
    rw [hst] at h
    simp only at h
    cases hco : coarselyLocate fuel ampM (mag0 * t.diamPupil * t.odLs) 3 with
    | none => rw [hco] at h; cases h
    | some co =>
      rw [hco] at h
      cases co with
      | error e => cases h
      | ok co =>
        obtain ⟨⟨x1, y1⟩, steps⟩ := co
        have h := Option.some.inj h
        unfold lyotStart at hst
        obtain ⟨u, hu, hst⟩ := res_bind_ok hst
        have hargs := (lyotChecks_ok t u).mp hu
        obtain ⟨f, hf, hst⟩ := res_bind_ok hst
        obtain ⟨ref0, href0, hst⟩ := res_bind_ok hst
        obtain ⟨thrM, hthrM, hst⟩ := res_bind_ok hst
        obtain ⟨thrU, hthrU, hst⟩ := res_bind_ok hst
        obtain ⟨ref1, href1, hst⟩ := res_bind_ok hst
        simp only [Except.ok.injEq, Prod.mk.injEq] at hst
        obtain ⟨rfl, rfl, rfl, rfl⟩ := hst
        unfold lyotFinish at h
        obtain ⟨a, ha, h⟩ := res_bind_ok h
        obtain ⟨b, hb, h⟩ := res_bind_ok h
        obtain ⟨d, hd, h⟩ := res_bind_ok h
        obtain ⟨clock', hclock, h⟩ := res_bind_ok h
        obtain ⟨mag', hmag, h⟩ := res_bind_ok h
        simp only [Except.ok.injEq, Prod.mk.injEq] at h
        obtain ⟨rfl, rfl⟩ := h
        refine ⟨hargs, f, Real.sqrt (sumWhere (imageToAmp M f) thrM / sumWhere ((imageToAmp U f).mulZ ref0) thrU), d.2 + xP, d.1 + yP, (normFactorOf_iff _ _ _ _).mp hf, ?_, ?_, ?_, ?_⟩
        · refine ⟨ref0, thrM, thrU, (imageToAmp U f).mulZ ref0, (referenceOn_iff _ _ _ _ _ _ _ _ _ _ _).mp href0, ?_, ?_, ⟨rfl, rfl, ?_⟩, ?_⟩
          · rw [← inUnits_eq]; exact hthrM
          · rw [← inUnits_eq]; exact hthrU
          · intro p q
            rw [← amplitude_eq]
            exact mulZ_zext _ _ p q
          · rw [sumWhere_eq, sumWhere_eq, amplitude_eq]
        · push Not at hs
          have href := (referenceOn_iff _ _ _ _ _ _ _ _ _ _ _).mp href1
          have hshape : ref1.nr = U.nr ∧ ref1.nc = U.nc := by
            obtain ⟨_, -, hd'⟩ := href
            obtain ⟨s1, s2⟩ := padCrop_shape_of_ok hd'
            exact ⟨by exact_mod_cast s1, by exact_mod_cast s2⟩
          refine ⟨x1, y1, steps, ref1, a, b, d.2, d.1, ?_, href, ?_, ?_, hd, add_comm _ _, add_comm _ _⟩
          · rw [← amplitude_eq]; exact hco
          · have e := lyotCrop (imageToAmp M f) U.nr U.nc hs.1.symm hs.2.symm x1 y1 a ha
            refine ⟨e.1, e.2.1, fun p hp q hq => ?_⟩
            rw [e.2.2 p hp q hq, at0_imageToAmp]
          · have e := lyotCrop (ref1.mulZ (imageToAmp U f)) U.nr U.nc hshape.1 hshape.2 x1 y1 b hb
            refine ⟨e.1, e.2.1, fun p hp q hq => ?_⟩
            rw [e.2.2 p hp q hq, at0_mulZ ref1 (imageToAmp U f) hshape.1.symm hshape.2.symm, at0_imageToAmp, mul_comm]
        · rw [← amplitude_eq]
          exact hclock
        · obtain ⟨est, e0, e1, e2⟩ := magLoop_rounds S _ _ _ _ _ _ _ _ _ hmag
          refine ⟨est, e0, e1, fun k hk => ?_⟩
          obtain ⟨G, hG, hest⟩ := e2 k hk
          have hG' : ∀ m ∈ magGrid t (est k), ∃ N : ℕ, LyotMatches Sp R t (amplitude M f) clock' (d.2 + xP) (d.1 + yP) m N ∧ G m = N := by
            intro m hm
            have := (lyotOverlap_iff _ _ _ _ _ _ _ _ _).mp (hG m hm)
            rwa [amplitude_eq] at this
          classical
          let F : ℝ → ℕ := fun m => if hm : m ∈ magGrid t (est k) then (hG' m hm).choose else 0
          have hF : ∀ m ∈ magGrid t (est k), LyotMatches Sp R t (amplitude M f) clock' (d.2 + xP) (d.1 + yP) m (F m) ∧ G m = F m := by
            intro m hm
            simp only [F, dif_pos hm]
            exact (hG' m hm).choose_spec
          have hmap : (magGrid t (est k)).map G = (magGrid t (est k)).map fun m => (F m : ℝ) := List.map_congr_left fun m hm => (hF m hm).2
          refine ⟨F, fun m hm => (hF m hm).1, ?_⟩
          have hest' : est (k + 1) = (if 0 + k = 0 ∧ t.nIterMag.toNat > 1 then lineArgmax (magGrid t (est k)) ((magGrid t (est k)).map G)
            else deficitVertex S (magGrid t (est k)) ((magGrid t (est k)).map G) 1) := by
            rw [hest]
            rfl
          rw [hmap, zero_add] at hest'
          have hne := magGrid_ne_nil t (est k) hargs.mags
          by_cases hk1 : k = 0 ∧ 1 < t.nIterMag
          · rw [if_pos hk1]
            rw [if_pos (by omega)] at hest'
            obtain ⟨p1, p2⟩ := lineArgmax_spec (fun m => (F m : ℝ)) _ hne
            rw [← hest'] at p1 p2
            exact ⟨p1, fun m hm => by exact_mod_cast p2 m hm⟩
          · rw [if_neg hk1]
            rw [if_neg (by omega)] at hest'
            rw [hest']
            exact deficitVertex_isVertex S F _ 1 hne

/-- A fit through three points determines the parabola. -/
theorem isDeficitVertex_exact (l : List ℝ) (F : ℝ → ℕ) (fb m' top a b c : ℝ) (h3 : ThreeValues l) (h : IsDeficitVertex l F fb m')
    (htop : ∃ m ∈ l, (F m : ℝ) = top) (hle : ∀ m ∈ l, (F m : ℝ) ≤ top) (hF : ∀ m ∈ l, ((F m : ℝ) - top) ^ 2 = a * m ^ 2 + b * m + c) :
    (a = 0 ∧ m' = fb) ∨ (a ≠ 0 ∧ 2 * a * m' + b = 0) := by
  obtain ⟨top', a', b', c', ⟨m1, hm1, e1⟩, hle', hls, hv⟩ := h
  obtain ⟨m2, hm2, e2⟩ := htop
  have ht : top' = top := le_antisymm (by rw [← e1]; exact hle m1 hm1) (by rw [← e2]; exact hle' m2 hm2)
  subst ht
  have hzero : (l.map fun m : ℝ => (a * m ^ 2 + b * m + c - ((F m : ℝ) - top') ^ 2) ^ 2).sum = 0 := by
    rw [List.map_congr_left (g := fun _ => (0 : ℝ)) (fun m hm => by rw [hF m hm]; ring)]
    simp
  have hle0 := (hls a b c).trans_eq hzero
  have hall : ∀ m ∈ l, a' * m ^ 2 + b' * m + c' = a * m ^ 2 + b * m + c := by
    intro m hm
    have h1 : (a' * m ^ 2 + b' * m + c' - ((F m : ℝ) - top') ^ 2) ^ 2 ≤ 0 :=
      (List.single_le_sum (l := l.map fun m : ℝ => (a' * m ^ 2 + b' * m + c' - ((F m : ℝ) - top') ^ 2) ^ 2) (by
        intro x hx
        obtain ⟨m, -, rfl⟩ := List.mem_map.mp hx
        positivity) _ (List.mem_map.mpr ⟨m, hm, rfl⟩)).trans hle0
    have h2 := pow_eq_zero_iff (two_ne_zero) |>.mp (le_antisymm h1 (sq_nonneg _))
    rw [hF m hm] at h2
    linarith
  obtain ⟨x, hx, y, hy, z, hz, hxy, hxz, hyz⟩ := h3
  have ex := hall x hx
  have ey := hall y hy
  have ez := hall z hz
  have d1 : (a' - a) * (x + y) + (b' - b) = 0 := by
    have : (x - y) * ((a' - a) * (x + y) + (b' - b)) = 0 := by linear_combination ex - ey
    exact (mul_eq_zero.mp this).resolve_left (sub_ne_zero.mpr hxy)
  have d2 : (a' - a) * (x + z) + (b' - b) = 0 := by
    have : (x - z) * ((a' - a) * (x + z) + (b' - b)) = 0 := by linear_combination ex - ez
    exact (mul_eq_zero.mp this).resolve_left (sub_ne_zero.mpr hxz)
  have d3 : a' - a = 0 := by
    have : (y - z) * (a' - a) = 0 := by linear_combination d1 - d2
    exact (mul_eq_zero.mp this).resolve_left (sub_ne_zero.mpr hyz)
  obtain rfl : a' = a := by linarith
  obtain rfl : b' = b := by rw [d3] at d1; linarith
  exact hv

theorem magGrid_three (t : LyotTuning) (h : LyotArgs t) (h3 : 3 ≤ t.nMag) (m : ℝ) : ThreeValues (magGrid t m) := by
  have hn : (3 : ℝ) ≤ (t.nMag.toNat : ℝ) := by
    have : 3 ≤ t.nMag.toNat := by omega
    exact_mod_cast this
  have := three_of_affine t.nMag.toNat (by omega) (t.magShrinkFac * (2 * t.deltaMag / ((t.nMag.toNat : ℝ) - 1))) (m - t.magShrinkFac * t.deltaMag)
    (mul_ne_zero h.shrink.1.ne' (div_ne_zero (mul_ne_zero two_ne_zero h.delta.ne') (by linarith)))
  have e : magGrid t m = (List.range t.nMag.toNat).map fun k : ℕ =>
      (k : ℝ) * (t.magShrinkFac * (2 * t.deltaMag / ((t.nMag.toNat : ℝ) - 1))) + (m - t.magShrinkFac * t.deltaMag) := by
    unfold magGrid spread
    rw [List.map_map]
    refine List.map_congr_left fun k _ => ?_
    simp only [Function.comp]
    ring
  rw [e]
  exact this

/-- With an odd number of magnifications the centre is one of them. -/
theorem mem_magGrid_self (t : LyotTuning) (h : 0 < t.nMag) (hodd : t.nMag % 2 = 1) (h3 : 3 ≤ t.nMag) (m : ℝ) : m ∈ magGrid t m := by
  unfold magGrid spread
  obtain ⟨j, hj⟩ : ∃ j : ℕ, t.nMag.toNat = 2 * j + 1 := ⟨t.nMag.toNat / 2, by omega⟩
  refine List.mem_map.mpr ⟨0, List.mem_map.mpr ⟨j, List.mem_range.mpr (by omega), ?_⟩, by ring⟩
  have hj0 : (j : ℝ) ≠ 0 := by
    have : 1 ≤ j := by omega
    have : (1 : ℝ) ≤ j := by exact_mod_cast this
    linarith
  rw [hj]
  push_cast
  field_simp
  ring

/-- **C78.** If the number of matching pixels falls off linearly on both sides of a magnification `m0` of the first grid (and, when there are
several rounds, the number of magnifications is odd), the answer is exactly `m0`, for every number of rounds. -/
theorem C78_recovers (fuel : ℕ) (S : Solver) (Sp : ClampSpline) (R : Rotate) (t : LyotTuning) (U M : Arr2 ℝ) (xP yP mag clock : ℝ)
    (h : fitLyotStopMagClocking fuel S Sp R t U M xP yP = some (.ok (mag, clock))) (h3 : 3 ≤ t.nMag) (hodd : 1 < t.nIterMag → t.nMag % 2 = 1) :
    ∃ f mag0 x y, NormBy U U t.percentile f ∧ LyotStart Sp R t U M xP yP f mag0 ∧ LyotPlaced fuel S Sp R t U M xP yP f mag0 x y ∧ ∀ m0 N k : ℝ, 0 < k → m0 ∈ magGrid t mag0 →
      (∀ m, (m ∈ magGrid t mag0 ∨ m ∈ magGrid t m0) → ∃ n : ℕ, LyotMatches Sp R t (amplitude M f) clock x y m n ∧ (n : ℝ) = N - k * |m - m0|) →
      mag = m0 := by
  obtain ⟨hargs, f, mag0, x, y, hf, hst, hpl, -, est, e0, e1, e2⟩ := C78_search fuel S Sp R t U M xP yP mag clock h
  refine ⟨f, mag0, x, y, hf, hst, hpl, fun m0 N k hk hm0 htent => ?_⟩
  have hN := hargs.rounds
  have step : ∀ e F m', (e = mag0 ∨ e = m0) → m0 ∈ magGrid t e → (∀ m ∈ magGrid t e, LyotMatches Sp R t (amplitude M f) clock x y m (F m)) →
      (IsLinePeak (magGrid t e) F m' ∨ IsDeficitVertex (magGrid t e) F 1 m') → m' = m0 := by
    intro e F m' he hme hF hp
    have hFt : ∀ m ∈ magGrid t e, (F m : ℝ) = N - k * |m - m0| := by
      intro m hm
      obtain ⟨n, hn, hn'⟩ := htent m (by rcases he with rfl | rfl; exacts [Or.inl hm, Or.inr hm])
      rw [lyotMatches_unique _ _ _ _ _ _ _ _ _ _ (hF m hm) hn, hn']
    rcases hp with ⟨p1, p2⟩ | hv
    · have h1 : (F m0 : ℝ) ≤ F m' := by exact_mod_cast p2 m0 hme
      rw [hFt m0 hme, hFt m' p1, sub_self, abs_zero] at h1
      have h2 : |m' - m0| ≤ 0 := by nlinarith [abs_nonneg (m' - m0)]
      have := abs_nonpos_iff.mp h2
      linarith
    · have := isDeficitVertex_exact (magGrid t e) F 1 m' N (k ^ 2) (-2 * k ^ 2 * m0) (k ^ 2 * m0 ^ 2) (magGrid_three t hargs h3 e) hv
        ⟨m0, hme, by rw [hFt m0 hme]; simp⟩ (fun m hm => by rw [hFt m hm]; nlinarith [abs_nonneg (m - m0)]) (fun m hm => by
          rw [hFt m hm]
          have := sq_abs (m - m0)
          linear_combination k ^ 2 * this)
      rcases this with ⟨h, -⟩ | ⟨-, h⟩
      · exact absurd h (by positivity)
      · have hk2 : k ^ 2 * (m' - m0) = 0 := by linarith
        have := (mul_eq_zero.mp hk2).resolve_left (by positivity)
        linarith
  have main : ∀ k, k < t.nIterMag.toNat → est (k + 1) = m0 := by
    intro j
    induction j with
    | zero =>
      intro hj
      obtain ⟨F, hF, hr⟩ := e2 0 hj
      refine step (est 0) F _ (Or.inl e0) (by rw [e0]; exact hm0) hF ?_
      by_cases hc : 0 = 0 ∧ 1 < t.nIterMag
      · rw [if_pos hc] at hr
        exact Or.inl hr
      · rw [if_neg hc] at hr
        exact Or.inr hr
    | succ j ih =>
      intro hj
      have he := ih (by omega)
      obtain ⟨F, hF, hr⟩ := e2 (j + 1) hj
      refine step (est (j + 1)) F _ (Or.inr he) (by rw [he]; exact mem_magGrid_self t hargs.mags (hodd (by omega)) h3 m0) hF ?_
      rw [if_neg (by omega)] at hr
      exact Or.inr hr
  have := main (t.nIterMag.toNat - 1) (by omega)
  rw [show t.nIterMag.toNat - 1 + 1 = t.nIterMag.toNat by omega, e1] at this
  exact this

/-- **C78** (limits of the fit, with one round of three magnifications `mag0 - d`, `mag0`, `mag0 + d`).  If all match equally well the answer
is 1, whatever the estimate was.  If only `mag0 + d` matches better than the others the answer is `mag0 - d / 2`, on the wrong side. -/
theorem C78_limits (fuel : ℕ) (S : Solver) (Sp : ClampSpline) (R : Rotate) (t : LyotTuning) (U M : Arr2 ℝ) (xP yP mag clock : ℝ)
    (h : fitLyotStopMagClocking fuel S Sp R t U M xP yP = some (.ok (mag, clock))) (h3 : t.nMag = 3) (h1 : t.nIterMag = 1) :
    ∃ f mag0 x y, NormBy U U t.percentile f ∧ LyotStart Sp R t U M xP yP f mag0 ∧ LyotPlaced fuel S Sp R t U M xP yP f mag0 x y ∧ ∀ n n' : ℕ,
      LyotMatches Sp R t (amplitude M f) clock x y (mag0 - t.magShrinkFac * t.deltaMag) n →
      LyotMatches Sp R t (amplitude M f) clock x y mag0 n →
      LyotMatches Sp R t (amplitude M f) clock x y (mag0 + t.magShrinkFac * t.deltaMag) n' →
      (n' = n → mag = 1) ∧ (n < n' → mag = mag0 - t.magShrinkFac * t.deltaMag / 2) := by
  obtain ⟨hargs, f, mag0, x, y, hf, hst, hpl, -, est, e0, e1, e2⟩ := C78_search fuel S Sp R t U M xP yP mag clock h
  refine ⟨f, mag0, x, y, hf, hst, hpl, fun n n' hl hc hr => ?_⟩
  rw [h1] at e1 e2
  obtain ⟨F, hF, hv⟩ := e2 0 (by norm_num)
  rw [if_neg (by norm_num), e0] at hv
  rw [e0] at hF
  have e1' : est (0 + 1) = mag := e1
  rw [e1'] at hv
  have hd : 0 < t.magShrinkFac * t.deltaMag := mul_pos hargs.shrink.1 hargs.delta
  have hg : magGrid t mag0 = [mag0 - t.magShrinkFac * t.deltaMag, mag0, mag0 + t.magShrinkFac * t.deltaMag] := by
    unfold magGrid spread
    rw [h3, show (3 : ℤ).toNat = 3 from rfl]
    simp only [List.range, List.range.loop, List.map_cons, List.map_nil]
    norm_num
    refine ⟨by ring, Or.inr ?_, Or.inl ?_⟩ <;> ring
  generalize t.magShrinkFac * t.deltaMag = d at *
  have f1 := lyotMatches_unique _ _ _ _ _ _ _ _ _ _ (hF (mag0 - d) (by rw [hg]; simp)) hl
  have f2 := lyotMatches_unique _ _ _ _ _ _ _ _ _ _ (hF mag0 (by rw [hg]; simp)) hc
  have f3 := lyotMatches_unique _ _ _ _ _ _ _ _ _ _ (hF (mag0 + d) (by rw [hg]; simp)) hr
  have three := magGrid_three t hargs (by omega) mag0
  constructor
  · intro hn
    have := isDeficitVertex_exact (magGrid t mag0) F 1 mag n 0 0 0 three hv ⟨mag0, by rw [hg]; simp, by rw [f2]⟩ (fun m hm => by
        rw [hg] at hm
        simp only [List.mem_cons, List.not_mem_nil, or_false] at hm
        rcases hm with rfl | rfl | rfl
        · rw [f1]
        · rw [f2]
        · rw [f3, hn]) (fun m hm => by
        rw [hg] at hm
        simp only [List.mem_cons, List.not_mem_nil, or_false] at hm
        rcases hm with rfl | rfl | rfl
        · rw [f1]; ring
        · rw [f2]; ring
        · rw [f3, hn]; ring)
    rcases this with ⟨-, h⟩ | ⟨h, -⟩
    · exact h
    · exact absurd rfl h
  · intro hn
    have hn' : (n : ℝ) < n' := by exact_mod_cast hn
    have hk : 0 < ((n : ℝ) - n') ^ 2 := by
      have : (n : ℝ) - n' ≠ 0 := by linarith
      positivity
    have := isDeficitVertex_exact (magGrid t mag0) F 1 mag n' (-((n : ℝ) - n') ^ 2 / (2 * d ^ 2))
      (-((n : ℝ) - n') ^ 2 / (2 * d) + ((n : ℝ) - n') ^ 2 / d ^ 2 * mag0)
      (((n : ℝ) - n') ^ 2 + ((n : ℝ) - n') ^ 2 / (2 * d) * mag0 - ((n : ℝ) - n') ^ 2 / (2 * d ^ 2) * mag0 ^ 2) three hv
      ⟨mag0 + d, by rw [hg]; simp, by rw [f3]⟩ (fun m hm => by
        rw [hg] at hm
        simp only [List.mem_cons, List.not_mem_nil, or_false] at hm
        rcases hm with rfl | rfl | rfl
        · rw [f1]; exact hn'.le
        · rw [f2]; exact hn'.le
        · rw [f3]) (fun m hm => by
        rw [hg] at hm
        simp only [List.mem_cons, List.not_mem_nil, or_false] at hm
        rcases hm with rfl | rfl | rfl
        · rw [f1]; field_simp; ring
        · rw [f2]; field_simp; ring
        · rw [f3]; field_simp; ring)
    rcases this with ⟨h, -⟩ | ⟨-, h⟩
    · exfalso
      have : 0 < ((n : ℝ) - n') ^ 2 / (2 * d ^ 2) := by positivity
      rw [neg_div] at h
      linarith
    · field_simp at h
      nlinarith

end Coralign.Props
