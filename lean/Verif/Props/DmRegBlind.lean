import Verif.Props.DmRegCases

/-!
# C75 at the level of the call: what `calc_scale` cannot see in an image that is not square
-/

namespace Coralign.Props

open Coralign Coralign.Spec

/-- Whether and how `dmhtoph` fails does not depend on the heights. -/
theorem dmh_error_shape (Sp : Spline) (R : Rotate) (T : Shift) (nrow ncol : ℤ) {a b : Arr2 ℝ} (hr : a.nr = b.nr) (hc : a.nc = b.nc) (n : ℤ) (w : Arr2 ℝ) (P : ℤ)
    (cx cy dx dy th : ℝ) (fl : Bool) (h : ¬ DmhArgs nrow ncol a n w P cx cy) :
    dmhtoph Sp R T nrow ncol a n w P cx cy dx dy th fl = dmhtoph Sp R T nrow ncol b n w P cx cy dx dy th fl := by
  by_cases h1 : nrow ≤ 0 ∨ ncol ≤ 0 ∨ n ≤ 0 ∨ P ≤ 0 ∨ cx ≤ 0 ∨ cy ≤ 0
  · unfold dmhtoph; rw [if_pos h1, if_pos h1]
  by_cases h2 : n * P ≤ w.nr ∨ n * P ≤ w.nc
  · unfold dmhtoph; rw [if_neg h1, if_neg h1, if_pos h2, if_pos h2]
  by_cases h3 : (a.nr : ℤ) ≠ n ∨ (a.nc : ℤ) ≠ n
  · unfold dmhtoph; rw [if_neg h1, if_neg h1, if_neg h2, if_neg h2, if_pos h3, if_pos (by rw [← hr, ← hc]; exact h3)]
  have h3' : ¬ ((b.nr : ℤ) ≠ n ∨ (b.nc : ℤ) ≠ n) := by rw [← hr, ← hc]; exact h3
  by_cases h4 : P < cx ∨ P < cy
  · unfold dmhtoph; rw [if_neg h1, if_neg h1, if_neg h2, if_neg h2, if_neg h3, if_neg h3', if_pos h4, if_pos h4]
  by_cases h5 : w.nr ≠ w.nc
  · unfold dmhtoph; rw [if_neg h1, if_neg h1, if_neg h2, if_neg h2, if_neg h3, if_neg h3', if_neg h4, if_neg h4, if_pos h5, if_pos h5]
  by_cases h6 : w.nr % 2 ≠ 1
  · unfold dmhtoph; rw [if_neg h1, if_neg h1, if_neg h2, if_neg h2, if_neg h3, if_neg h3', if_neg h4, if_neg h4, if_neg h5, if_neg h5, if_pos h6, if_pos h6]
  have k1 := h1; have k2 := h2; have k3 := h3; have k4 := h4; have k5 := h5; have k6 := h6
  push Not at k1 k2 k3 k4 k5 k6
  have hs := conv_size n P k1.2.2.1 k1.2.2.2.1
  have h7 : ¬ 4 ≤ (n - 1) * P + w.nr := fun h7 => h ⟨k1.1, k1.2.1, k1.2.2.1, k1.2.2.2.1, k1.2.2.2.2.1, k1.2.2.2.2.2, k2, k3, k4, k5, k6, h7⟩
  unfold dmhtoph
  rw [if_neg h1, if_neg h1, if_neg h2, if_neg h2, if_neg h3, if_neg h3', if_neg h4, if_neg h4, if_neg h5, if_neg h5, if_neg h6, if_neg h6]
  simp only
  have ha := hs a w
  have hb := hs b w
  have ha' : (fullConvolve (spreadPokes n.toNat P.toNat a) w).nr < 4 := by omega
  have hb' : (fullConvolve (spreadPokes n.toNat P.toNat b) w).nr < 4 := by omega
  rw [if_pos ha', if_pos hb']

/-- Removing the plane uses the values on the mask only. -/
theorem ptt_congr (S : Solver) {a b : Arr2 ℝ} {m : Arr2 Bool} (hr : a.nr = m.nr) (hc : a.nc = m.nc) (hr' : b.nr = m.nr) (hc' : b.nc = m.nc)
    (h : ∀ (i : Fin m.nr) (j : Fin m.nc), m.val i j = true → a.zext (i : ℕ) (j : ℕ) = b.zext (i : ℕ) (j : ℕ)) :
    removePistonTipTilt S a m = removePistonTipTilt S b m := by
  obtain ⟨n, k, v⟩ := m
  obtain ⟨n1, k1, f⟩ := a
  obtain ⟨n2, k2, g⟩ := b
  simp only at hr hc hr' hc' h
  subst hr hc hr' hc'
  have hv : ∀ i j, v i j = true → f i j = g i j := by
    intro i j hij
    have := h i j hij
    rwa [Arr2.zext_val, Arr2.zext_val] at this
  unfold removePistonTipTilt
  rw [dif_pos ⟨rfl, rfl⟩, dif_pos ⟨rfl, rfl⟩]
  have hcoef : pttCoeffs S f (fun i j => v i j) = pttCoeffs S g (fun i j => v i j) := by
    unfold pttCoeffs
    congr 1
    funext q
    exact hv _ _ q.2
  simp only [Fin.cast_eq_self]
  congr 2
  funext i j
  unfold pttValues
  simp only
  rw [hcoef]
  by_cases hij : v i j = true
  · rw [if_pos hij, if_pos hij, hv i j hij]
  · rw [if_neg hij, if_neg hij]

/-- The misfit does not depend on the pokes if no usable pixel lies in the largest centred square. -/
theorem scaleCost_blind (Sp : Spline) (R : Rotate) (T : Shift) (S : Solver) (usable : Arr2 Bool) (meas : Arr2 ℝ) {a b : Arr2 ℝ} (hr : a.nr = b.nr)
    (hc : a.nc = b.nc) (c : DmReg) (dx dy th cx cy : ℝ)
    (hout : ∀ k l, usable.centered k l = some true → ¬ Reaches (min usable.nr usable.nc : ℤ) (min usable.nr usable.nc : ℤ) k l) :
    scaleCost Sp R T S usable meas a c dx dy th cx cy = scaleCost Sp R T S usable meas b c dx dy th cx cy := by
  by_cases hA : DmhArgs usable.nc usable.nr a c.nact c.inf c.ppactD cx cy
  · have hB : DmhArgs usable.nc usable.nr b c.nact c.inf c.ppactD cx cy :=
      ⟨hA.rows, hA.cols, hA.nact, hA.samples, hA.posX, hA.posY, hA.smaller, by rw [← hr, ← hc]; exact hA.shape, hA.sampled, hA.square, hA.odd, hA.enough⟩
    have key : ∀ e : Arr2 ℝ, DmhArgs usable.nc usable.nr e c.nact c.inf c.ppactD cx cy → ∃ sim, scaleSim Sp R T usable.nr usable.nc e c dx dy th cx cy = .ok sim := by
      intro e he
      obtain ⟨s, hs⟩ := (C62_shape Sp R T usable.nc usable.nr e c.nact c.inf c.ppactD cx cy dx dy th false).1.mpr he
      unfold scaleSim
      rw [hs, res_ok_bind, padCrop_eq _ _ _ _ he.cols he.rows]
      exact ⟨_, rfl⟩
    obtain ⟨s, hs⟩ := key a hA
    obtain ⟨s', hs'⟩ := key b hB
    obtain ⟨p1, p2, p3⟩ := C75_nonsquare_blank Sp R T _ _ _ _ _ _ _ _ _ _ hs
    obtain ⟨q1, q2, q3⟩ := C75_nonsquare_blank Sp R T _ _ _ _ _ _ _ _ _ _ hs'
    have hz : ∀ (e : Arr2 ℝ), e.nr = usable.nr → e.nc = usable.nc →
        (∀ k l, Reaches usable.nr usable.nc k l → ¬ Reaches (min usable.nr usable.nc : ℤ) (min usable.nr usable.nc : ℤ) k l → e.centered k l = some 0) →
        ∀ (i : Fin usable.nr) (j : Fin usable.nc), usable.val i j = true → e.zext (i : ℕ) (j : ℕ) = 0 := by
      intro e e1 e2 e3 i j hij
      have hcen : ∀ (α : Type) (u : Arr2 α), u.nr = usable.nr → u.nc = usable.nc →
          u.centered ((i : ℕ) - (usable.nr : ℤ) / 2) ((j : ℕ) - (usable.nc : ℤ) / 2) = u.px (i : ℕ) (j : ℕ) := by
        intro α u u1 u2
        unfold Arr2.centered
        rw [u1, u2]
        congr 1 <;> ring
      have hR : Reaches usable.nr usable.nc ((i : ℕ) - (usable.nr : ℤ) / 2) ((j : ℕ) - (usable.nc : ℤ) / 2) := by
        have := i.2; have := j.2
        unfold Reaches; omega
      have hu : usable.centered ((i : ℕ) - (usable.nr : ℤ) / 2) ((j : ℕ) - (usable.nc : ℤ) / 2) = some true := by
        rw [hcen _ usable rfl rfl, Arr2.px_val, hij]
      have := e3 _ _ hR (hout _ _ hu)
      rw [hcen _ e e1 e2] at this
      unfold Arr2.zext
      rw [this]
      rfl
    unfold scaleCost
    rw [hs, hs', res_ok_bind, res_ok_bind, ptt_congr S (by exact_mod_cast p1) (by exact_mod_cast p2) (by exact_mod_cast q1) (by exact_mod_cast q2)
      (fun i j hij => by rw [hz s (by exact_mod_cast p1) (by exact_mod_cast p2) p3 i j hij, hz s' (by exact_mod_cast q1) (by exact_mod_cast q2) q3 i j hij])]
  · unfold scaleCost scaleSim
    rw [dmh_error_shape Sp R T usable.nc usable.nr hr hc c.nact c.inf c.ppactD cx cy dx dy th false hA]

/-- The part of `calc_scale` after the checks. -/
theorem scaleTail_blind (Sp : Spline) (R : Rotate) (T : Shift) (S : Solver) (d : PhaseData) (v v' : Arr2 ℝ) (c : DmReg)
    (t : ScaleTuning) (lam xo yo th : ℝ) (hl : ¬ lam ≤ 0) (hr : v.nr = v'.nr) (hc : v.nc = v'.nc)
    (hout : ∀ k l, d.usable.centered k l = some true → ¬ Reaches (min d.usable.nr d.usable.nc : ℤ) (min d.usable.nr d.usable.nc : ℤ) k l)
    (F : (ℝ → ℝ → Res ℝ) → Res (ℝ × ℝ)) :
    (voltsToDmh c.gain v lam >>= fun dmrad => measuredDiff S d >>= fun meas =>
      F fun x y => scaleCost Sp R T S d.usable meas dmrad c xo yo th (x * c.cx) (y * c.cy)) =
    (voltsToDmh c.gain v' lam >>= fun dmrad => measuredDiff S d >>= fun meas =>
      F fun x y => scaleCost Sp R T S d.usable meas dmrad c xo yo th (x * c.cx) (y * c.cy)) := by
  have hcost : ∀ meas w w' c, w.nr = w'.nr → w.nc = w'.nc →
      (fun x y : ℝ => scaleCost Sp R T S d.usable meas w c xo yo th (x * c.cx) (y * c.cy)) =
      fun x y : ℝ => scaleCost Sp R T S d.usable meas w' c xo yo th (x * c.cx) (y * c.cy) := fun meas w w' c h1 h2 =>
    funext fun x => funext fun y => scaleCost_blind Sp R T S d.usable meas h1 h2 c xo yo th _ _ hout
  by_cases g6 : v.nr = c.gain.nr ∧ v.nc = c.gain.nc
  · have g6' : v'.nr = c.gain.nr ∧ v'.nc = c.gain.nc := by rw [← hr, ← hc]; exact g6
    have e : ∀ u : Arr2 ℝ, u.nr = c.gain.nr ∧ u.nc = c.gain.nc → ∃ w, voltsToDmh c.gain u lam = .ok w ∧ w.nr = u.nr ∧ w.nc = u.nc := by
      intro u hu
      unfold voltsToDmh
      rw [if_neg hl, dif_pos hu]
      exact ⟨_, rfl, rfl, rfl⟩
    obtain ⟨w, hw, w1, w2⟩ := e v g6
    obtain ⟨w', hw', w1', w2'⟩ := e v' g6'
    rw [hw, hw', res_ok_bind, res_ok_bind]
    congr 1
    funext meas
    rw [hcost meas w w' c (by rw [w1, w1', hr]) (by rw [w2, w2', hc])]
  · have e : ∀ u : Arr2 ℝ, ¬ (u.nr = c.gain.nr ∧ u.nc = c.gain.nc) → voltsToDmh c.gain u lam = .error .typeError := by
      intro u hu
      unfold voltsToDmh
      rw [if_neg hl, dif_neg hu]
    rw [e v g6, e v' (by rw [← hr, ← hc]; exact g6)]

/-- **C75**, the failure seen from outside: in an image that is not square, `calc_scale` ignores everything outside the largest centred square.  If all
usable pixels lie there, its answer is the same whatever voltages were applied. -/
theorem C75_blind (Sp : Spline) (R : Rotate) (T : Shift) (S : Solver) (d : PhaseData) (whichDM : ℤ) (v v' : Arr2 ℝ) (dm1 dm2 : DmReg)
    (t : ScaleTuning) (lam xo yo th : ℝ) (hr : v.nr = v'.nr) (hc : v.nc = v'.nc)
    (hout : ∀ k l, d.usable.centered k l = some true → ¬ Reaches (min d.usable.nr d.usable.nc : ℤ) (min d.usable.nr d.usable.nc : ℤ) k l) :
    calcScale Sp R T S d whichDM v dm1 dm2 t lam xo yo th = calcScale Sp R T S d whichDM v' dm1 dm2 t lam xo yo th := by
  by_cases g1 : d.shapesDiffer
  · unfold calcScale; rw [if_pos g1, if_pos g1]
  by_cases g2 : ¬ (whichDM = 1 ∨ whichDM = 2)
  · unfold calcScale; rw [if_neg g1, if_neg g1, if_pos g2, if_pos g2]
  by_cases g3 : v.nr ≠ v.nc
  · unfold calcScale; rw [if_neg g1, if_neg g1, if_neg g2, if_neg g2, if_pos g3, if_pos (by rw [← hr, ← hc]; exact g3)]
  have g3' : ¬ v'.nr ≠ v'.nc := by rw [← hr, ← hc]; exact g3
  unfold calcScale
  rw [if_neg g1, if_neg g1, if_neg g2, if_neg g2, if_neg g3, if_neg g3']
  by_cases g4 : lam ≤ 0
  · rw [if_pos g4, if_pos g4]
  by_cases g5 : t.nScale ≤ 0 ∨ t.nIter ≤ 0 ∨ t.shrinkFac ≤ 0 ∨ t.shrinkFac > 1
  · rw [if_neg g4, if_neg g4, if_pos g5, if_pos g5]
  rw [if_neg g4, if_neg g4, if_neg g5, if_neg g5]
  simp only
  generalize (if whichDM = 1 then dm1 else dm2) = c
  exact scaleTail_blind Sp R T S d v v' c t lam xo yo th g4 hr hc hout fun cost =>
    scaleLoop S cost t t.nIter.toNat 0 t.maxDelta (1, 1) >>= fun r => .ok (r.1 * c.cx, r.2 * c.cy)

/-- A 3 x 5 image whose usable pixels are its left and right columns: the answer is the same for no voltage and for the poke at the end. -/
example (Sp : Spline) (R : Rotate) (T : Shift) (S : Solver) (c : DmReg) (t : ScaleTuning) (ph : Arr2 ℝ) :
    let d : PhaseData := ⟨Arr2.full 3 5 1, Arr2.full 3 5 0, Arr2.full 3 5 1, ph, ⟨3, 5, fun _ j => decide (j = 0 ∨ j = 4)⟩⟩
    calcScale Sp R T S d 1 endPoke c c t 1 0 0 0 = calcScale Sp R T S d 1 (Arr2.full 5 5 0) c c t 1 0 0 0 := by
  refine C75_blind Sp R T S _ 1 _ _ c c t 1 0 0 0 rfl rfl fun k l h hR => ?_
  unfold Reaches at hR
  norm_num at hR
  unfold Arr2.centered at h
  rw [Arr2.px_of_inB _ (by simp only; omega)] at h
  simp only [Option.some.injEq, decide_eq_true_eq, Fin.ext_iff] at h
  norm_num at h
  omega

end Coralign.Props
