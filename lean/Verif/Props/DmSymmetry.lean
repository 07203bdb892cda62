import Verif.Base.Symmetric
import Verif.Props.Dmhtoph

/-!
# C123: mirrored, transposed and turned mirrors
-/

namespace Coralign.Props

open Coralign Finset

/-! ### The steps of `dmhtoph` -/

theorem rev_val {n : ℕ} (j : Fin n) : (((Fin.rev j : Fin n) : ℕ) : ℤ) = (n : ℤ) - 1 - (j : ℕ) := by
  have := j.isLt
  rw [Fin.val_rev]; omega

theorem tr_zext (a : Arr2 ℝ) (i j : ℤ) : a.tr.zext i j = a.zext j i := by
  unfold Arr2.zext
  rw [tr_px]

theorem spread_fliplr (n P : ℕ) (hn : 1 ≤ n) (hP : 1 ≤ P) (dm : Arr2 ℝ) (hd : dm.nc = n) :
    spreadPokes n P dm.fliplr = (spreadPokes n P dm).fliplr := by
  unfold spreadPokes
  show (⟨_, _, _⟩ : Arr2 ℝ) = ⟨_, _, _⟩
  congr 1
  refine funext fun (i : Fin ((n - 1) * P + 1)) => funext fun (j : Fin ((n - 1) * P + 1)) => ?_
  have hj := j.isLt
  have hr : ((Fin.rev j : Fin ((n - 1) * P + 1)) : ℕ) = (n - 1) * P - j := by rw [Fin.val_rev]; omega
  show _ = if (i : ℕ) % P = 0 ∧ ((Fin.rev j : Fin ((n - 1) * P + 1)) : ℕ) % P = 0 then _ else _
  rw [hr]
  by_cases hm : (j : ℕ) % P = 0
  · obtain ⟨q, hq⟩ := Nat.dvd_of_mod_eq_zero hm
    have hqn : q ≤ n - 1 := by
      by_contra hc
      have : P * n ≤ P * q := Nat.mul_le_mul_left _ (by omega)
      have e : (n - 1) * P + P = P * n := by rw [← Nat.succ_mul, Nat.succ_eq_add_one, Nat.sub_add_cancel hn, Nat.mul_comm]
      omega
    have e2 : (n - 1) * P - j = P * (n - 1 - q) := by rw [hq, Nat.mul_sub, Nat.mul_comm (n - 1) P]
    rw [e2, hq, Nat.mul_mod_right, Nat.mul_mod_right, Nat.mul_div_cancel_left _ (by omega), Nat.mul_div_cancel_left _ (by omega)]
    congr 1
    rw [fliplr_zext, hd]
    congr 1
    omega
  · have hm2 : ¬ ((n - 1) * P - j) % P = 0 := by
      intro hc
      apply hm
      have h1 : P ∣ (n - 1) * P - j := Nat.dvd_of_mod_eq_zero hc
      have h2 : P ∣ (n - 1) * P := Dvd.intro_left _ rfl
      have := (Nat.dvd_sub_iff_right (show (j : ℕ) ≤ (n - 1) * P by omega) h2).mp h1
      exact Nat.mod_eq_zero_of_dvd this
    rw [if_neg fun h => hm h.2, if_neg fun h => hm2 h.2]

theorem spread_tr (n P : ℕ) (dm : Arr2 ℝ) : spreadPokes n P dm.tr = (spreadPokes n P dm).tr := by
  unfold spreadPokes
  show (⟨_, _, _⟩ : Arr2 ℝ) = ⟨_, _, _⟩
  congr 1
  funext i j
  rw [tr_zext]
  simp only [and_comm]

theorem convolve_fliplr (a w : Arr2 ℝ) (ha : 1 ≤ a.nc) : fullConvolve a.fliplr w.fliplr = (fullConvolve a w).fliplr := by
  show (⟨_, _, _⟩ : Arr2 ℝ) = ⟨_, _, _⟩
  congr 1
  refine funext fun (i : Fin (a.nr + w.nr - 1)) => funext fun (j : Fin (a.nc + w.nc - 1)) => ?_
  show ∑ p : Fin w.nr, ∑ q : Fin w.nc, w.val p (Fin.rev q) * a.fliplr.zext _ _ = ∑ p : Fin w.nr, ∑ q : Fin w.nc, _
  refine Finset.sum_congr rfl fun p _ => ?_
  rw [← Equiv.sum_comp Fin.revPerm]
  refine Finset.sum_congr rfl fun q _ => ?_
  rw [Fin.revPerm_apply, Fin.rev_rev, fliplr_zext]
  show w.val p q * a.zext _ ((a.nc : ℤ) - 1 - (((j : ℕ) : ℤ) - (((Fin.rev q : Fin w.nc) : ℕ) : ℤ))) =
    w.val p q * a.zext _ ((((Fin.rev j : Fin (a.nc + w.nc - 1)) : ℕ) : ℤ) - ((q : ℕ) : ℤ))
  have := j.isLt
  rw [rev_val q, rev_val j]
  congr 2
  omega

theorem convolve_tr (a w : Arr2 ℝ) : fullConvolve a.tr w.tr = (fullConvolve a w).tr := by
  show (⟨_, _, _⟩ : Arr2 ℝ) = ⟨_, _, _⟩
  congr 1
  funext i j
  show ∑ q : Fin w.nc, ∑ p : Fin w.nr, w.val p q * a.tr.zext _ _ = ∑ p : Fin w.nr, ∑ q : Fin w.nc, _
  rw [Finset.sum_comm]
  refine Finset.sum_congr rfl fun p _ => Finset.sum_congr rfl fun q _ => ?_
  rw [tr_zext]

theorem infCoord_rev (n : ℕ) (P : ℝ) (k : ℕ) (hk : k < n) : infCoord n P k = -infCoord n P (n - 1 - k) := by
  unfold infCoord
  rw [show ((n - 1 - k : ℕ) : ℝ) = (n : ℝ) - 1 - k by rw [Nat.cast_sub (by omega), Nat.cast_sub (by omega)]; simp, ← neg_div]
  congr 1
  ring

theorem camera_fliplr (S : Spline) (hS : S.Symmetric) (c : Arr2 ℝ) (hc : c.nr = c.nc) (hpos : 1 ≤ c.nr) (P : ℝ) (hP : 0 < P) (M : ℤ) (hM : M % 2 = 1) (hM0 : 0 < M)
    (cx cy : ℝ) : cameraGrid S c.fliplr P M cx cy = (cameraGrid S c P M cx cy).fliplr := by
  classical
  show (⟨_, _, _⟩ : Arr2 ℝ) = ⟨_, _, _⟩
  congr 1
  refine funext fun (i : Fin M.toNat) => funext fun (j : Fin M.toNat) => ?_
  have hj := j.isLt
  have hx : ((((((Fin.rev j : Fin M.toNat) : ℕ) : ℤ) - M / 2 : ℤ)) : ℝ) / cx = -(((((j : ℕ) : ℤ) - M / 2 : ℤ)) / cx) := by
    rw [← neg_div]
    congr 1
    rw [rev_val]
    have : ((M.toNat : ℕ) : ℤ) - 1 - (j : ℕ) - M / 2 = -(((j : ℕ) : ℤ) - M / 2) := by omega
    rw [this]; push_cast; ring
  have h0 : infCoord c.nr P 0 = -infCoord c.nr P (c.nr - 1) := by
    have := infCoord_rev c.nr P 0 (by omega)
    simpa using this
  show (if (infCoord c.nr P 0 ≤ (((((j : ℕ) : ℤ) - M / 2 : ℤ)) : ℝ) / cx ∧ (((((j : ℕ) : ℤ) - M / 2 : ℤ)) : ℝ) / cx ≤ infCoord c.nr P (c.nr - 1)) ∧
      (infCoord c.nr P 0 ≤ (((((i : ℕ) : ℤ) - M / 2 : ℤ)) : ℝ) / cy ∧ (((((i : ℕ) : ℤ) - M / 2 : ℤ)) : ℝ) / cy ≤ infCoord c.nr P (c.nr - 1)) then
      S.eval (infCoord c.nr P) (infCoord c.nr P) c.fliplr ((((((i : ℕ) : ℤ) - M / 2 : ℤ)) : ℝ) / cy) ((((((j : ℕ) : ℤ) - M / 2 : ℤ)) : ℝ) / cx) else 0) =
    (if (infCoord c.nr P 0 ≤ ((((((Fin.rev j : Fin M.toNat) : ℕ) : ℤ) - M / 2 : ℤ)) : ℝ) / cx ∧ ((((((Fin.rev j : Fin M.toNat) : ℕ) : ℤ) - M / 2 : ℤ)) : ℝ) / cx ≤ infCoord c.nr P (c.nr - 1)) ∧
      (infCoord c.nr P 0 ≤ (((((i : ℕ) : ℤ) - M / 2 : ℤ)) : ℝ) / cy ∧ (((((i : ℕ) : ℤ) - M / 2 : ℤ)) : ℝ) / cy ≤ infCoord c.nr P (c.nr - 1)) then
      S.eval (infCoord c.nr P) (infCoord c.nr P) c ((((((i : ℕ) : ℤ) - M / 2 : ℤ)) : ℝ) / cy) (((((((Fin.rev j : Fin M.toNat) : ℕ) : ℤ) - M / 2 : ℤ)) : ℝ) / cx) else 0)
  rw [hx, h0]
  generalize (((((j : ℕ) : ℤ) - M / 2 : ℤ)) : ℝ) / cx = x
  generalize (((((i : ℕ) : ℤ) - M / 2 : ℤ)) : ℝ) / cy = y
  have hm := hS.mirrored (infCoord c.nr P) (infCoord c.nr P) (infCoord c.nr P) c y (-x) (infCoord_strictMono _ _ hP) (infCoord_strictMono _ _ hP) (infCoord_strictMono _ _ hP)
    (fun j hj => by rw [← hc] at hj ⊢; exact infCoord_rev _ _ _ hj)
  rw [neg_neg] at hm
  rw [hm]
  refine if_congr ?_ rfl rfl
  constructor
  · rintro ⟨⟨a, b⟩, d⟩; exact ⟨⟨by linarith, by linarith⟩, d⟩
  · rintro ⟨⟨a, b⟩, d⟩; exact ⟨⟨by linarith, by linarith⟩, d⟩

theorem camera_tr (S : Spline) (hS : S.Symmetric) (c : Arr2 ℝ) (hc : c.nr = c.nc) (P : ℝ) (hP : 0 < P) (M : ℤ) (cx cy : ℝ) :
    cameraGrid S c.tr P M cy cx = (cameraGrid S c P M cx cy).tr := by
  classical
  show (⟨_, _, _⟩ : Arr2 ℝ) = ⟨_, _, _⟩
  congr 1
  refine funext fun (i : Fin M.toNat) => funext fun (j : Fin M.toNat) => ?_
  have e : c.tr.nr = c.nr := hc.symm
  simp only [e]
  rw [hS.transposed _ _ _ _ _ (infCoord_strictMono _ _ hP) (infCoord_strictMono _ _ hP)]
  exact if_congr and_comm rfl rfl

theorem work_pos {nrow ncol : ℤ} {dm : Arr2 ℝ} {n : ℤ} {w : Arr2 ℝ} {P : ℤ} {cx cy : ℝ} (h : DmhArgs nrow ncol dm n w P cx cy) :
    0 < workSize n w.nr P cx cy := by
  have h2 := (C08_ceil_odd (Real.sqrt 2 * ((n : ℝ) + w.nr / (P : ℝ)) * max cx cy)).1.2
  have : (0 : ℝ) < Real.sqrt 2 * ((n : ℝ) + w.nr / (P : ℝ)) * max cx cy := by
    have a1 : (0 : ℝ) < n := by exact_mod_cast h.nact
    have a2 : (0 : ℝ) < P := by exact_mod_cast h.samples
    have a3 : (0 : ℝ) ≤ (w.nr : ℝ) / P := by positivity
    have a4 : 0 < max cx cy := lt_max_of_lt_left h.posX
    have a5 : 0 < Real.sqrt 2 := Real.sqrt_pos.mpr two_pos
    have a6 : 0 < (n : ℝ) + w.nr / P := by linarith
    positivity
  have : (0 : ℝ) < ((workSize n w.nr P cx cy : ℤ) : ℝ) := lt_of_lt_of_le this h2
  exact_mod_cast this

/-- The facesheet on the camera grid, before the registration. -/
noncomputable def raw (S : Spline) (dm : Arr2 ℝ) (n : ℤ) (w : Arr2 ℝ) (P : ℤ) (cx cy : ℝ) : Arr2 ℝ :=
  cameraGrid S (fullConvolve (spreadPokes n.toNat P.toNat dm) w) P (workSize n w.nr P cx cy) cx cy

theorem raw_fliplr (S : Spline) (hS : S.Symmetric) {nrow ncol : ℤ} {dm : Arr2 ℝ} {n : ℤ} {w : Arr2 ℝ} {P : ℤ} {cx cy : ℝ}
    (h : DmhArgs nrow ncol dm n w P cx cy) : raw S dm.fliplr n w.fliplr P cx cy = (raw S dm n w P cx cy).fliplr := by
  have hn := h.nact
  have hP := h.samples
  have hs := h.shape
  unfold raw
  have e1 : (spreadPokes n.toNat P.toNat dm).nc = (n.toNat - 1) * P.toNat + 1 := rfl
  rw [spread_fliplr n.toNat P.toNat (by omega) (by omega) dm (by omega), convolve_fliplr _ _ (by rw [e1]; omega)]
  have hM := (C08_ceil_odd (Real.sqrt 2 * ((n : ℝ) + w.nr / (P : ℝ)) * max cx cy)).1
  have hsize := conv_size n P hn hP dm w
  refine camera_fliplr S hS _ ?_ ?_ P (by exact_mod_cast hP) _ hM.1 ?_ cx cy
  · show _ + w.nr - 1 = _ + w.nc - 1
    rw [h.square]; rfl
  · have := h.enough; omega
  · exact work_pos h

theorem raw_tr (S : Spline) (hS : S.Symmetric) {nrow ncol : ℤ} {dm : Arr2 ℝ} {n : ℤ} {w : Arr2 ℝ} {P : ℤ} {cx cy : ℝ}
    (h : DmhArgs nrow ncol dm n w P cx cy) : raw S dm.tr n w.tr P cy cx = (raw S dm n w P cx cy).tr := by
  have hP := h.samples
  unfold raw
  rw [spread_tr, convolve_tr]
  have e : workSize n w.tr.nr P cy cx = workSize n w.nr P cx cy := by
    unfold workSize
    rw [max_comm, show w.tr.nr = w.nr from h.square.symm]
  rw [e]
  refine camera_tr S hS _ ?_ P (by exact_mod_cast hP) _ cx cy
  show _ + w.nr - 1 = _ + w.nc - 1
  rw [h.square]; rfl

theorem fliplr_fliplr {α : Type} (a : Arr2 α) : a.fliplr.fliplr = a := by
  obtain ⟨n, m, f⟩ := a
  show (⟨n, m, _⟩ : Arr2 α) = ⟨n, m, _⟩
  congr 1
  refine funext fun (i : Fin n) => funext fun (j : Fin m) => ?_
  show f i (Fin.rev (Fin.rev j)) = f i j
  rw [Fin.rev_rev]

/-! ### C123 -/

/-- **C123.** `flipx` is a mirrored mirror: the commands and the influence function mirrored left to right, with `flipx` set the other way, give exactly the
same answer, for every registration. -/
theorem C123_flipx (S : Spline) (hS : S.Symmetric) (R : Rotate) (T : Shift) (nrow ncol : ℤ) (dm : Arr2 ℝ) (n : ℤ) (w : Arr2 ℝ) (P : ℤ)
    (cx cy dx dy th : ℝ) (flipx : Bool) :
    dmhtoph S R T nrow ncol dm.fliplr n w.fliplr P cx cy dx dy th (!flipx) = dmhtoph S R T nrow ncol dm n w P cx cy dx dy th flipx := by
  by_cases h : DmhArgs nrow ncol dm n w P cx cy
  · have h' : DmhArgs nrow ncol dm.fliplr n w.fliplr P cx cy :=
      ⟨h.rows, h.cols, h.nact, h.samples, h.posX, h.posY, h.smaller, h.shape, h.sampled, h.square, h.odd, h.enough⟩
    rw [dmh_eq S R T nrow ncol dm n w P cx cy dx dy th flipx h, dmh_eq S R T nrow ncol dm.fliplr n w.fliplr P cx cy dx dy th (!flipx) h']
    have := raw_fliplr S hS h
    unfold raw at this
    rw [this]
    cases flipx
    · simp [fliplr_fliplr]
    · simp
  · have hno : ∀ out, dmhtoph S R T nrow ncol dm n w P cx cy dx dy th flipx ≠ .ok out := fun out ho => h (dmh_args ho)
    have hno' : ∀ out, dmhtoph S R T nrow ncol dm.fliplr n w.fliplr P cx cy dx dy th (!flipx) ≠ .ok out := fun out ho => h (by
      have h' := dmh_args ho
      exact ⟨h'.rows, h'.cols, h'.nact, h'.samples, h'.posX, h'.posY, h'.smaller, h'.shape, h'.sampled, h'.square, h'.odd, h'.enough⟩)
    have hcs : ((fullConvolve (spreadPokes n.toNat P.toNat dm.fliplr) w.fliplr).nr) = (fullConvolve (spreadPokes n.toNat P.toNat dm) w).nr := rfl
    unfold dmhtoph at hno hno' ⊢
    by_cases c1 : nrow ≤ 0 ∨ ncol ≤ 0 ∨ n ≤ 0 ∨ P ≤ 0 ∨ cx ≤ 0 ∨ cy ≤ 0
    · rw [if_pos c1, if_pos c1]
    rw [if_neg c1, if_neg c1]
    by_cases c2 : n * P ≤ w.nr ∨ n * P ≤ w.nc
    · rw [if_pos c2, if_pos (show n * P ≤ w.fliplr.nr ∨ n * P ≤ w.fliplr.nc from c2)]
    rw [if_neg c2, if_neg (show ¬ (n * P ≤ w.fliplr.nr ∨ n * P ≤ w.fliplr.nc) from c2)]
    by_cases c3 : (dm.nr : ℤ) ≠ n ∨ (dm.nc : ℤ) ≠ n
    · rw [if_pos c3, if_pos (show (dm.fliplr.nr : ℤ) ≠ n ∨ (dm.fliplr.nc : ℤ) ≠ n from c3)]
    rw [if_neg c3, if_neg (show ¬ ((dm.fliplr.nr : ℤ) ≠ n ∨ (dm.fliplr.nc : ℤ) ≠ n) from c3)]
    by_cases c4 : (P : ℝ) < cx ∨ (P : ℝ) < cy
    · rw [if_pos c4, if_pos c4]
    rw [if_neg c4, if_neg c4]
    by_cases c5 : w.nr ≠ w.nc
    · rw [if_pos c5, if_pos (show w.fliplr.nr ≠ w.fliplr.nc from c5)]
    rw [if_neg c5, if_neg (show ¬ w.fliplr.nr ≠ w.fliplr.nc from c5)]
    by_cases c6 : w.nr % 2 ≠ 1
    · rw [if_pos c6, if_pos (show w.fliplr.nr % 2 ≠ 1 from c6)]
    rw [if_neg c6, if_neg (show ¬ w.fliplr.nr % 2 ≠ 1 from c6)]
    simp only
    by_cases c7 : (fullConvolve (spreadPokes n.toNat P.toNat dm) w).nr < 4
    · rw [if_pos c7, if_pos (hcs ▸ c7)]
    · exfalso
      push Not at c1 c2 c3 c4 c5 c6
      obtain ⟨a1, a2, a3, a4, a5, a6⟩ := c1
      have hs := conv_size n P a3 a4 dm w
      exact h ⟨a1, a2, a3, a4, a5, a6, c2, c3, c4, c5, c6, by omega⟩

theorem fliplr_centered (a : Arr2 ℝ) (h : a.nc % 2 = 1) (k l : ℤ) : a.fliplr.centered k l = a.centered k (-l) := by
  unfold Arr2.centered
  rw [fliplr_px]
  show a.px _ ((a.nc : ℤ) - 1 - ((a.nc : ℤ) / 2 + l)) = a.px _ _
  congr 1
  omega

theorem tr_centered (a : Arr2 ℝ) (k l : ℤ) : a.tr.centered k l = a.centered l k := by
  unfold Arr2.centered
  rw [tr_px]
  rfl

theorem work_odd (n : ℤ) (N : ℕ) (P : ℤ) (cx cy : ℝ) (h : 0 < workSize n N P cx cy) : (workSize n N P cx cy).toNat % 2 = 1 := by
  have : (workSize n N P cx cy) % 2 = 1 := (C08_ceil_odd (Real.sqrt 2 * ((n : ℝ) + N / (P : ℝ)) * max cx cy)).1.1
  omega

/-- **C123.** A mirrored mirror, registered the mirrored way (rotation and shift along the rows reversed), gives the mirrored surface about the centre pixel. -/
theorem C123_mirrored (S : Spline) (hS : S.Symmetric) (R : Rotate) (hR : R.Symmetric) (T : Shift) (hT : T.Symmetric) (nrow ncol : ℤ) (dm : Arr2 ℝ) (n : ℤ)
    (w : Arr2 ℝ) (P : ℤ) (cx cy dx dy th : ℝ) (flipx : Bool) (out : Arr2 ℝ)
    (hok : dmhtoph S R T nrow ncol dm n w P cx cy dx dy th flipx = .ok out) :
    ∃ out', dmhtoph S R T nrow ncol dm.fliplr n w.fliplr P cx cy (-dx) dy (-th) flipx = .ok out' ∧
      ∀ k l : ℤ, Reaches nrow ncol k l → Reaches nrow ncol k (-l) → out'.centered k l = out.centered k (-l) := by
  have h := dmh_args hok
  have h' : DmhArgs nrow ncol dm.fliplr n w.fliplr P cx cy :=
    ⟨h.rows, h.cols, h.nact, h.samples, h.posX, h.posY, h.smaller, h.shape, h.sampled, h.square, h.odd, h.enough⟩
  obtain ⟨out', ho'⟩ := (C62_shape S R T nrow ncol dm.fliplr n w.fliplr P cx cy (-dx) dy (-th) flipx).1.mpr h'
  refine ⟨out', ho', fun k l hk hl => ?_⟩
  rw [dmh_eq S R T nrow ncol dm n w P cx cy dx dy th flipx h] at hok
  rw [dmh_eq S R T nrow ncol _ n _ P cx cy (-dx) dy (-th) flipx h'] at ho'
  obtain ⟨-, -, g⟩ := crop_at hok
  obtain ⟨-, -, g'⟩ := crop_at ho'
  have hr := raw_fliplr S hS h
  unfold raw at hr
  have hodd := work_odd n w.nr P cx cy (work_pos h)
  rw [g' k l hk, g k (-l) hl, hr]
  congr 1
  have key : ∀ s : Arr2 ℝ, s.nc = (workSize n w.nr P cx cy).toNat →
      T.run dy (-dx) (R.run (- -th) s.fliplr) = (T.run dy dx (R.run (-th) s)).fliplr := fun s _ => by
    rw [hR.mirrored (-th) s, hT.mirrored dy dx]
  have fin : ∀ s : Arr2 ℝ, s.nc = (workSize n w.nr P cx cy).toNat →
      ((T.run dy (-dx) (R.run (- -th) s.fliplr)).centered k l).getD 0 = ((T.run dy dx (R.run (-th) s)).centered k (-l)).getD 0 := fun s hs => by
    rw [key s hs, fliplr_centered _ (by rw [T.nc, R.nc, hs]; exact hodd)]
  cases flipx
  · simp only [Bool.false_eq_true, if_false]
    exact fin _ rfl
  · simp only [if_true]
    exact fin _ rfl

/-- **C123.** A transposed mirror, registered the transposed way (the two pixel scales, the two shifts and the two sizes exchanged, the rotation reversed), gives
the transposed surface. -/
theorem C123_transposed (S : Spline) (hS : S.Symmetric) (R : Rotate) (hR : R.Symmetric) (T : Shift) (hT : T.Symmetric) (nrow ncol : ℤ) (dm : Arr2 ℝ) (n : ℤ)
    (w : Arr2 ℝ) (P : ℤ) (cx cy dx dy th : ℝ) (out : Arr2 ℝ)
    (hok : dmhtoph S R T nrow ncol dm n w P cx cy dx dy th false = .ok out) :
    dmhtoph S R T ncol nrow dm.tr n w.tr P cy cx dy dx (-th) false = .ok out.tr := by
  have h := dmh_args hok
  have h' : DmhArgs ncol nrow dm.tr n w.tr P cy cx :=
    ⟨h.cols, h.rows, h.nact, h.samples, h.posY, h.posX, h.smaller.symm, h.shape.symm, h.sampled.symm, h.square.symm, (by rw [show w.tr.nr = w.nr from h.square.symm]; exact h.odd),
      (by rw [show w.tr.nr = w.nr from h.square.symm]; exact h.enough)⟩
  rw [dmh_eq S R T nrow ncol dm n w P cx cy dx dy th false h] at hok
  rw [dmh_eq S R T ncol nrow _ n _ P cy cx dy dx (-th) false h']
  have hr := raw_tr S hS h
  unfold raw at hr
  simp only [Bool.false_eq_true, if_false] at hok ⊢
  rw [hr, hR.transposed, hT.transposed]
  obtain ⟨o', ho'⟩ : ∃ o', padCrop (T.run dy dx (R.run (-th) (cameraGrid S (fullConvolve (spreadPokes n.toNat P.toNat dm) w) P (workSize n w.nr P cx cy) cx cy))).tr
      [ncol, nrow] 0 = .ok o' := ⟨_, padCrop_eq _ _ _ _ h.cols h.rows⟩
  rw [ho']
  congr 1
  obtain ⟨a1, a2, g⟩ := crop_at hok
  obtain ⟨b1, b2, g'⟩ := crop_at ho'
  have hr' : o'.nr = out.tr.nr := by show o'.nr = out.nc; omega
  have hc' : o'.nc = out.tr.nc := by show o'.nc = out.nr; omega
  refine Arr2.ext_px hr' hc' fun i j h1 h2 h3 h4 => ?_
  have hR1 : Reaches ncol nrow (i - ncol / 2) (j - nrow / 2) := by unfold Reaches; omega
  have e1 := g' _ _ hR1
  have e2 := g (j - nrow / 2) (i - ncol / 2) ⟨hR1.2, hR1.1⟩
  rw [tr_centered, ← e2] at e1
  have e3 : o'.centered (i - ncol / 2) (j - nrow / 2) = o'.px i j := by unfold Arr2.centered; rw [b1, b2]; congr 1 <;> omega
  have e4 : out.centered (j - nrow / 2) (i - ncol / 2) = out.px j i := by unfold Arr2.centered; rw [a1, a2]; congr 1 <;> omega
  rw [e3, e4] at e1
  rw [e1, tr_px]

/-- The commands turned by half a turn. -/
def turned {α : Type} (a : Arr2 α) : Arr2 α := ⟨a.nr, a.nc, fun i j => a.val (Fin.rev i) (Fin.rev j)⟩

/-- The commands turned by a quarter turn: row `i`, column `j` comes from row `last - j`, column `i`. -/
def quarterTurned {α : Type} (a : Arr2 α) : Arr2 α := ⟨a.nc, a.nr, fun i j => a.val (Fin.rev j) i⟩

/-- **C123.** A mirror turned by a quarter turn, with the scales, shifts and sizes turned along, gives the surface turned by a quarter turn about the centre
pixel; the rotation stays. -/
theorem C123_quarter_turn (S : Spline) (hS : S.Symmetric) (R : Rotate) (hR : R.Symmetric) (T : Shift) (hT : T.Symmetric) (nrow ncol : ℤ) (dm : Arr2 ℝ) (n : ℤ)
    (w : Arr2 ℝ) (P : ℤ) (cx cy dx dy th : ℝ) (out : Arr2 ℝ) (hok : dmhtoph S R T nrow ncol dm n w P cx cy dx dy th false = .ok out) :
    ∃ out', dmhtoph S R T ncol nrow (quarterTurned dm) n (quarterTurned w) P cy cx (-dy) dx th false = .ok out' ∧
      ∀ k l : ℤ, Reaches ncol nrow k l → Reaches ncol nrow k (-l) → out'.centered k l = out.centered (-l) k := by
  have h1 := C123_transposed S hS R hR T hT nrow ncol dm n w P cx cy dx dy th out hok
  obtain ⟨o, ho, hv⟩ := C123_mirrored S hS R hR T hT ncol nrow _ n _ P cy cx dy dx (-th) false _ h1
  rw [neg_neg] at ho
  exact ⟨o, ho, fun k l hk hl => by rw [hv k l hk hl, tr_centered]⟩

/-- **C123.** A mirror turned by half a turn, with the shifts reversed, gives the surface turned by half a turn about the centre pixel; the rotation stays. -/
theorem C123_half_turn (S : Spline) (hS : S.Symmetric) (R : Rotate) (hR : R.Symmetric) (T : Shift) (hT : T.Symmetric) (nrow ncol : ℤ) (dm : Arr2 ℝ) (n : ℤ)
    (w : Arr2 ℝ) (P : ℤ) (cx cy dx dy th : ℝ) (flipx : Bool) (out : Arr2 ℝ)
    (hok : dmhtoph S R T nrow ncol dm n w P cx cy dx dy th flipx = .ok out) :
    ∃ out', dmhtoph S R T nrow ncol (turned dm) n (turned w) P cx cy (-dx) (-dy) th flipx = .ok out' ∧
      ∀ k l : ℤ, Reaches nrow ncol k l → Reaches nrow ncol k (-l) → Reaches nrow ncol (-k) (-l) → out'.centered k l = out.centered (-k) (-l) := by
  have plain : ∀ (dm w out : Arr2 ℝ), dmhtoph S R T nrow ncol dm n w P cx cy dx dy th false = .ok out →
      ∃ out', dmhtoph S R T nrow ncol (turned dm) n (turned w) P cx cy (-dx) (-dy) th false = .ok out' ∧
      ∀ k l : ℤ, Reaches nrow ncol k l → Reaches nrow ncol k (-l) → Reaches nrow ncol (-k) (-l) → out'.centered k l = out.centered (-k) (-l) := by
    intro dm w out hok
    obtain ⟨o1, h1, v1⟩ := C123_quarter_turn S hS R hR T hT nrow ncol dm n w P cx cy dx dy th out hok
    obtain ⟨o2, h2, v2⟩ := C123_quarter_turn S hS R hR T hT ncol nrow _ n _ P cy cx (-dy) dx th o1 h1
    refine ⟨o2, h2, fun k l hk hl hkl => ?_⟩
    rw [v2 k l hk hl, v1 (-l) k ⟨hl.2, hk.1⟩ ⟨hkl.2, hkl.1⟩]
  cases flipx
  · exact plain dm w out hok
  · have h1 := C123_flipx S hS R T nrow ncol dm n w P cx cy dx dy th true
    simp only [Bool.not_true] at h1
    rw [hok] at h1
    obtain ⟨o, ho, hv⟩ := plain _ _ _ h1
    refine ⟨o, ?_, hv⟩
    have h2 := C123_flipx S hS R T nrow ncol (turned dm.fliplr) n (turned w.fliplr) P cx cy (-dx) (-dy) th false
    simp only [Bool.not_false] at h2
    rw [ho] at h2
    rw [← h2]
    have e : ∀ a : Arr2 ℝ, (turned a.fliplr).fliplr = turned a := by
      intro a
      obtain ⟨p, q, f⟩ := a
      show (⟨p, q, _⟩ : Arr2 ℝ) = ⟨p, q, _⟩
      congr 1
      refine funext fun (i : Fin p) => funext fun (j : Fin q) => ?_
      show f (Fin.rev i) (Fin.rev (Fin.rev (Fin.rev j))) = f (Fin.rev i) (Fin.rev j)
      rw [Fin.rev_rev]
    rw [e, e]

/-! ### Fitting -/

/-- Specification: the calibration of the mirror seen in a mirror. -/
def mirroredCal (dm : DmCal) : DmCal :=
  { dm with dx := -dm.dx, thact := -dm.thact, inf := dm.inf.fliplr, tie := dm.tie.fliplr, gain := dm.gain.fliplr }

/-- Specification: the calibration of the transposed mirror. -/
def transposedCal (dm : DmCal) : DmCal :=
  { dm with dx := dm.dy, dy := dm.dx, ppactCx := dm.ppactCy, ppactCy := dm.ppactCx, thact := -dm.thact, inf := dm.inf.tr, tie := dm.tie.tr, gain := dm.gain.tr }

theorem ndConvolve_fliplr (a w : Arr2 ℝ) (hw : w.nc % 2 = 1) : ndConvolve a.fliplr w.fliplr = (ndConvolve a w).fliplr := by
  show (⟨_, _, _⟩ : Arr2 ℝ) = ⟨_, _, _⟩
  congr 1
  refine funext fun (i : Fin a.nr) => funext fun (j : Fin a.nc) => ?_
  show ∑ p : Fin w.nr, ∑ q : Fin w.nc, w.val p (Fin.rev q) * a.fliplr.zext _ _ = ∑ p : Fin w.nr, ∑ q : Fin w.nc, _
  refine Finset.sum_congr rfl fun p _ => ?_
  rw [← Equiv.sum_comp Fin.revPerm]
  refine Finset.sum_congr rfl fun q _ => ?_
  rw [Fin.revPerm_apply, Fin.rev_rev, fliplr_zext]
  show w.val p q * a.zext _ ((a.nc : ℤ) - 1 - (((j : ℕ) : ℤ) - ((((Fin.rev q : Fin w.nc) : ℕ) : ℤ) - (w.nc : ℤ) / 2))) =
    w.val p q * a.zext _ ((((Fin.rev j : Fin a.nc) : ℕ) : ℤ) - (((q : ℕ) : ℤ) - (w.nc : ℤ) / 2))
  rw [rev_val q, rev_val j]
  congr 2
  omega

theorem ndConvolve_tr (a w : Arr2 ℝ) : ndConvolve a.tr w.tr = (ndConvolve a w).tr := by
  show (⟨_, _, _⟩ : Arr2 ℝ) = ⟨_, _, _⟩
  congr 1
  funext i j
  show ∑ q : Fin w.nc, ∑ p : Fin w.nr, w.val p q * a.tr.zext _ _ = ∑ p : Fin w.nr, ∑ q : Fin w.nc, _
  rw [Finset.sum_comm]
  refine Finset.sum_congr rfl fun p _ => Finset.sum_congr rfl fun q _ => ?_
  rw [tr_zext]
  rfl

theorem resample_fliplr (S : Spline) (hS : S.Symmetric) (w : Arr2 ℝ) (p q : ℝ) :
    resampleInfFunc S w.fliplr p q = (resampleInfFunc S w p q).map Arr2.fliplr := by
  classical
  unfold resampleInfFunc
  by_cases c1 : p ≤ 0
  · rw [if_pos c1, if_pos c1]; rfl
  rw [if_neg c1, if_neg c1]
  by_cases c2 : q ≤ 0
  · rw [if_pos c2, if_pos c2]; rfl
  rw [if_neg c2, if_neg c2]
  by_cases c3 : p ≠ q
  · rw [if_pos c3, if_pos c3]
    by_cases c4 : w.nr < 4 ∨ w.nc < 4
    · rw [if_pos c4, if_pos (show w.fliplr.nr < 4 ∨ w.fliplr.nc < 4 from c4)]; rfl
    rw [if_neg c4, if_neg (show ¬ (w.fliplr.nr < 4 ∨ w.fliplr.nc < 4) from c4)]
    show (Except.ok (⟨_, _, _⟩ : Arr2 ℝ) : Res _) = .ok ⟨_, _, _⟩
    congr 2
    refine funext fun (i : Fin (2 * ⌊(1 / 2 : ℝ) * w.nr * q / p⌋ + 1).toNat) => funext fun (j : Fin (2 * ⌊(1 / 2 : ℝ) * w.nc * q / p⌋ + 1).toNat) => ?_
    have hj := j.isLt
    have e : ((Fin.rev j : Fin (2 * ⌊(1 / 2 : ℝ) * w.nc * q / p⌋ + 1).toNat) : ℕ) = (2 * ⌊(1 / 2 : ℝ) * w.nc * q / p⌋ + 1).toNat - 1 - j := by
      rw [Fin.val_rev]; omega
    show S.eval (infCoord w.nr p) (infCoord w.nc p) w.fliplr (infCoord (2 * ⌊(1 / 2 : ℝ) * w.nr * q / p⌋ + 1).toNat q i)
        (infCoord (2 * ⌊(1 / 2 : ℝ) * w.nc * q / p⌋ + 1).toNat q j) =
      S.eval (infCoord w.nr p) (infCoord w.nc p) w (infCoord (2 * ⌊(1 / 2 : ℝ) * w.nr * q / p⌋ + 1).toNat q i)
        (infCoord (2 * ⌊(1 / 2 : ℝ) * w.nc * q / p⌋ + 1).toNat q ((Fin.rev j : Fin (2 * ⌊(1 / 2 : ℝ) * w.nc * q / p⌋ + 1).toNat) : ℕ))
    rw [e, infCoord_rev _ q j hj]
    exact hS.mirrored _ _ _ w _ _ (infCoord_strictMono _ _ (not_le.mp c1)) (infCoord_strictMono _ _ (not_le.mp c1)) (infCoord_strictMono _ _ (not_le.mp c1))
      fun j hj => infCoord_rev _ _ _ hj
  · rw [if_neg c3, if_neg c3]; rfl

theorem resample_tr (S : Spline) (hS : S.Symmetric) (w : Arr2 ℝ) (p q : ℝ) :
    resampleInfFunc S w.tr p q = (resampleInfFunc S w p q).map Arr2.tr := by
  classical
  unfold resampleInfFunc
  by_cases c1 : p ≤ 0
  · rw [if_pos c1, if_pos c1]; rfl
  rw [if_neg c1, if_neg c1]
  by_cases c2 : q ≤ 0
  · rw [if_pos c2, if_pos c2]; rfl
  rw [if_neg c2, if_neg c2]
  by_cases c3 : p ≠ q
  · rw [if_pos c3, if_pos c3]
    by_cases c4 : w.nr < 4 ∨ w.nc < 4
    · rw [if_pos c4, if_pos (show w.tr.nr < 4 ∨ w.tr.nc < 4 from c4.symm)]; rfl
    rw [if_neg c4, if_neg (show ¬ (w.tr.nr < 4 ∨ w.tr.nc < 4) from fun h => c4 h.symm)]
    show (Except.ok (⟨_, _, _⟩ : Arr2 ℝ) : Res _) = .ok ⟨_, _, _⟩
    congr 2
    funext i j
    exact hS.transposed _ _ w _ _ (infCoord_strictMono _ _ (not_le.mp c1)) (infCoord_strictMono _ _ (not_le.mp c1))
  · rw [if_neg c3, if_neg c3]; rfl

/-- The resampled influence function has odd sizes. -/
theorem resample_odd (S : Spline) (w v : Arr2 ℝ) (p q : ℝ) (hw : w.nc % 2 = 1) (hv : resampleInfFunc S w p q = .ok v) : v.nc % 2 = 1 := by
  classical
  unfold resampleInfFunc at hv
  by_cases c1 : p ≤ 0
  · rw [if_pos c1] at hv; cases hv
  rw [if_neg c1] at hv
  by_cases c2 : q ≤ 0
  · rw [if_pos c2] at hv; cases hv
  rw [if_neg c2] at hv
  by_cases c3 : p ≠ q
  · rw [if_pos c3] at hv
    by_cases c4 : w.nr < 4 ∨ w.nc < 4
    · rw [if_pos c4] at hv; cases hv
    rw [if_neg c4] at hv
    obtain rfl := Except.ok.inj hv
    show (2 * ⌊(1 / 2 : ℝ) * w.nc * q / p⌋ + 1).toNat % 2 = 1
    have : 0 ≤ ⌊(1 / 2 : ℝ) * w.nc * q / p⌋ := by
      apply Int.floor_nonneg.mpr
      have := not_le.mp c1
      have := not_le.mp c2
      positivity
    omega
  · rw [if_neg c3] at hv
    obtain rfl := Except.ok.inj hv
    exact hw

/-- The flattened position of the actuator in the mirrored column. -/
def mirrorIdx (n : ℕ) : Equiv.Perm (Fin (n * n)) :=
  Function.Involutive.toPerm (fun k => ⟨k / n * n + (n - 1 - k % n), by
    have hn : 0 < n := Nat.pos_of_ne_zero fun h => by subst h; exact absurd k.isLt (by simp)
    have h1 : (k : ℕ) / n < n := by rw [Nat.div_lt_iff_lt_mul hn]; exact k.isLt
    have : ((k : ℕ) / n + 1) * n ≤ n * n := Nat.mul_le_mul_right _ h1
    rw [Nat.add_mul, one_mul] at this
    omega⟩) (by
    intro k
    have hn : 0 < n := Nat.pos_of_ne_zero fun h => by subst h; exact absurd k.isLt (by simp)
    have hlt : n - 1 - (k : ℕ) % n < n := by omega
    have hm := Nat.mod_lt (k : ℕ) hn
    apply Fin.ext
    simp only
    rw [Nat.add_comm ((k : ℕ) / n * n), Nat.add_mul_div_right _ _ hn, Nat.div_eq_of_lt hlt, zero_add, Nat.add_mul_mod_self_right, Nat.mod_eq_of_lt hlt]
    have := Nat.div_add_mod (k : ℕ) n
    rw [Nat.mul_comm] at this
    omega)

/-- The flattened position of the actuator with row and column exchanged. -/
def swapIdx (n : ℕ) : Equiv.Perm (Fin (n * n)) :=
  Function.Involutive.toPerm (fun k => ⟨k % n * n + k / n, by
    have hn : 0 < n := Nat.pos_of_ne_zero fun h => by subst h; exact absurd k.isLt (by simp)
    have h1 : (k : ℕ) / n < n := by rw [Nat.div_lt_iff_lt_mul hn]; exact k.isLt
    have hm := Nat.mod_lt (k : ℕ) hn
    have : ((k : ℕ) % n + 1) * n ≤ n * n := Nat.mul_le_mul_right _ hm
    rw [Nat.add_mul, one_mul] at this
    omega⟩) (by
    intro k
    have hn : 0 < n := Nat.pos_of_ne_zero fun h => by subst h; exact absurd k.isLt (by simp)
    have h1 : (k : ℕ) / n < n := by rw [Nat.div_lt_iff_lt_mul hn]; exact k.isLt
    apply Fin.ext
    simp only
    rw [Nat.add_comm ((k : ℕ) % n * n), Nat.add_mul_div_right _ _ hn, Nat.div_eq_of_lt h1, zero_add, Nat.add_mul_mod_self_right, Nat.mod_eq_of_lt h1]
    have := Nat.div_add_mod (k : ℕ) n
    rw [Nat.mul_comm] at this
    omega)

theorem mirrorIdx_row {n : ℕ} (k : Fin (n * n)) : ((mirrorIdx n k : Fin (n * n)) : ℕ) / n = k / n := by
  have hn : 0 < n := Nat.pos_of_ne_zero fun h => by subst h; exact absurd k.isLt (by simp)
  show ((k : ℕ) / n * n + (n - 1 - k % n)) / n = _
  rw [Nat.add_comm, Nat.add_mul_div_right _ _ hn, Nat.div_eq_of_lt (by omega), zero_add]

theorem mirrorIdx_col {n : ℕ} (k : Fin (n * n)) : ((mirrorIdx n k : Fin (n * n)) : ℕ) % n = n - 1 - k % n := by
  have hn : 0 < n := Nat.pos_of_ne_zero fun h => by subst h; exact absurd k.isLt (by simp)
  show ((k : ℕ) / n * n + (n - 1 - k % n)) % n = _
  rw [Nat.add_comm, Nat.add_mul_mod_self_right, Nat.mod_eq_of_lt (by omega)]

theorem swapIdx_row {n : ℕ} (k : Fin (n * n)) : ((swapIdx n k : Fin (n * n)) : ℕ) / n = k % n := by
  have hn : 0 < n := Nat.pos_of_ne_zero fun h => by subst h; exact absurd k.isLt (by simp)
  have h1 : (k : ℕ) / n < n := by rw [Nat.div_lt_iff_lt_mul hn]; exact k.isLt
  show ((k : ℕ) % n * n + k / n) / n = _
  rw [Nat.add_comm, Nat.add_mul_div_right _ _ hn, Nat.div_eq_of_lt h1, zero_add]

theorem swapIdx_col {n : ℕ} (k : Fin (n * n)) : ((swapIdx n k : Fin (n * n)) : ℕ) % n = k / n := by
  have hn : 0 < n := Nat.pos_of_ne_zero fun h => by subst h; exact absurd k.isLt (by simp)
  have h1 : (k : ℕ) / n < n := by rw [Nat.div_lt_iff_lt_mul hn]; exact k.isLt
  show ((k : ℕ) % n * n + k / n) % n = _
  rw [Nat.add_comm, Nat.add_mul_mod_self_right, Nat.mod_eq_of_lt h1]

theorem flat_iff {n k a b : ℕ} (hn : 0 < n) (hb : b < n) : a * n + b = k ↔ a = k / n ∧ b = k % n := by
  constructor
  · rintro rfl
    rw [Nat.add_comm, Nat.add_mul_div_right _ _ hn, Nat.div_eq_of_lt hb, zero_add, Nat.add_mul_mod_self_right, Nat.mod_eq_of_lt hb]
    exact ⟨rfl, rfl⟩
  · rintro ⟨rfl, rfl⟩
    have := Nat.div_add_mod k n
    rw [Nat.mul_comm] at this
    exact this

theorem poke_fliplr (n : ℕ) (k : Fin (n * n)) : singlePoke n n (mirrorIdx n k) = (singlePoke n n k).fliplr := by
  have hn : 0 < n := Nat.pos_of_ne_zero fun h => by subst h; exact absurd k.isLt (by simp)
  show (⟨n, n, _⟩ : Arr2 ℝ) = ⟨n, n, _⟩
  congr 1
  refine funext fun (i : Fin n) => funext fun (j : Fin n) => ?_
  have hj := j.isLt
  have e : ((Fin.rev j : Fin n) : ℕ) = n - 1 - j := by rw [Fin.val_rev]; omega
  show (if (i : ℕ) * n + j = (mirrorIdx n k : Fin (n * n)) then (1 : ℝ) else 0) = if (i : ℕ) * n + ((Fin.rev j : Fin n) : ℕ) = k then 1 else 0
  have hm := Nat.mod_lt (k : ℕ) hn
  refine if_congr ?_ rfl rfl
  rw [flat_iff hn hj, mirrorIdx_row, mirrorIdx_col, flat_iff hn (Fin.rev j).isLt, e]
  omega

theorem poke_tr (n : ℕ) (k : Fin (n * n)) : singlePoke n n (swapIdx n k) = (singlePoke n n k).tr := by
  have hn : 0 < n := Nat.pos_of_ne_zero fun h => by subst h; exact absurd k.isLt (by simp)
  show (⟨n, n, _⟩ : Arr2 ℝ) = ⟨n, n, _⟩
  congr 1
  refine funext fun (i : Fin n) => funext fun (j : Fin n) => ?_
  show (if (i : ℕ) * n + j = (swapIdx n k : Fin (n * n)) then (1 : ℝ) else 0) = if (j : ℕ) * n + i = k then 1 else 0
  refine if_congr ?_ rfl rfl
  rw [flat_iff hn j.isLt, swapIdx_row, swapIdx_col, flat_iff hn i.isLt]
  exact and_comm

theorem prefilter_fliplr (S : Spline) (hS : S.Symmetric) (n : ℕ) (w : Arr2 ℝ) (hw : w.nc % 2 = 1) (p : ℝ) (A : Matrix (Fin (n * n)) (Fin (n * n)) ℝ)
    (hA : buildPrefilter S n n w p = .ok A) :
    buildPrefilter S n n w.fliplr p = .ok (A.submatrix (mirrorIdx n) (mirrorIdx n)) := by
  unfold buildPrefilter at hA ⊢
  by_cases c : (n : ℤ) ≤ 0 ∨ (n : ℤ) ≤ 0
  · rw [if_pos c] at hA; cases hA
  rw [if_neg c] at hA ⊢
  rw [resample_fliplr S hS]
  cases hv : resampleInfFunc S w p 1 with
  | error e => rw [hv] at hA; cases hA
  | ok v =>
    rw [hv] at hA
    have hodd := resample_odd S w v p 1 hw hv
    obtain rfl := Except.ok.inj hA
    show (Except.ok _ : Res _) = .ok _
    congr 1
    funext j k
    have hk := k.isLt
    have hm := Nat.mod_lt (k : ℕ) (show 0 < n by omega)
    show (ndConvolve (singlePoke n n j) v.fliplr).zext ((k : ℕ) / n : ℕ) ((k : ℕ) % n : ℕ) =
      (ndConvolve (singlePoke n n (mirrorIdx n j)) v).zext (((mirrorIdx n k : Fin (n * n)) : ℕ) / n : ℕ) (((mirrorIdx n k : Fin (n * n)) : ℕ) % n : ℕ)
    have e := ndConvolve_fliplr (singlePoke n n (mirrorIdx n j)) v hodd
    rw [poke_fliplr, fliplr_fliplr] at e
    rw [poke_fliplr, e, fliplr_zext, mirrorIdx_row, mirrorIdx_col]
    congr 1
    show ((n : ℕ) : ℤ) - 1 - _ = _
    omega

theorem prefilter_tr (S : Spline) (hS : S.Symmetric) (n : ℕ) (w : Arr2 ℝ) (p : ℝ) (A : Matrix (Fin (n * n)) (Fin (n * n)) ℝ)
    (hA : buildPrefilter S n n w p = .ok A) :
    buildPrefilter S n n w.tr p = .ok (A.submatrix (swapIdx n) (swapIdx n)) := by
  unfold buildPrefilter at hA ⊢
  by_cases c : (n : ℤ) ≤ 0 ∨ (n : ℤ) ≤ 0
  · rw [if_pos c] at hA; cases hA
  rw [if_neg c] at hA ⊢
  rw [resample_tr S hS]
  cases hv : resampleInfFunc S w p 1 with
  | error e => rw [hv] at hA; cases hA
  | ok v =>
    rw [hv] at hA
    obtain rfl := Except.ok.inj hA
    show (Except.ok _ : Res _) = .ok _
    congr 1
    funext j k
    show (ndConvolve (singlePoke n n j) v.tr).zext ((k : ℕ) / n : ℕ) ((k : ℕ) % n : ℕ) =
      (ndConvolve (singlePoke n n (swapIdx n j)) v).zext (((swapIdx n k : Fin (n * n)) : ℕ) / n : ℕ) (((swapIdx n k : Fin (n * n)) : ℕ) % n : ℕ)
    have e := ndConvolve_tr (singlePoke n n (swapIdx n j)) v
    rw [poke_tr] at e
    have e2 : (singlePoke n n (j : ℕ)).tr.tr = singlePoke n n j := rfl
    rw [e2] at e
    rw [poke_tr, e, tr_zext, swapIdx_row, swapIdx_col]

/-- Renumbering the actuators renumbers the solution. -/
theorem solve_renumbered (L : SpSolve) {N : ℕ} (s : Equiv.Perm (Fin N)) (A : Matrix (Fin N) (Fin N) ℝ) (hA : IsUnit A.det) (b : Fin N → ℝ) :
    L.solve (A.submatrix s s) (fun k => b (s k)) = fun k => L.solve A b (s k) := by
  apply L.unique
  · rw [Matrix.det_submatrix_equiv_self]; exact hA
  · have h := L.solves A b hA
    funext j
    have := congrFun h (s j)
    rw [← this]
    unfold Matrix.mulVec dotProduct
    simp only [Matrix.submatrix_apply]
    exact Equiv.sum_comp s fun k => A (s j) k * L.solve A b k

theorem fit_fliplr (L : SpSolve) (n : ℕ) (f : Fin n → Fin n → ℝ) (A : Matrix (Fin (n * n)) (Fin (n * n)) ℝ) (hA : IsUnit A.det) :
    fitSurfToDm L (Arr2.fliplr ⟨n, n, f⟩) (A.submatrix (mirrorIdx n) (mirrorIdx n)) = (fitSurfToDm L ⟨n, n, f⟩ A).map Arr2.fliplr := by
  unfold fitSurfToDm
  rw [if_neg (show ¬ n * n ≠ (Arr2.fliplr ⟨n, n, f⟩).nr * (Arr2.fliplr ⟨n, n, f⟩).nc from fun h => h rfl),
    if_neg (show ¬ n * n ≠ n * n from fun h => h rfl)]
  show (Except.ok (⟨n, n, _⟩ : Arr2 ℝ) : Res _) = .ok ⟨n, n, _⟩
  congr 2
  refine funext fun (i : Fin n) => funext fun (j : Fin n) => ?_
  have hi := i.isLt
  have hj := j.isLt
  have hn : 0 < n := by omega
  have hlt : ∀ a b : ℕ, a < n → b < n → a * n + b < n * n := fun a b ha hb => by
    have : (a + 1) * n ≤ n * n := Nat.mul_le_mul_right _ ha
    rw [Nat.add_mul, one_mul] at this
    omega
  have e : ((Fin.rev j : Fin n) : ℕ) = n - 1 - j := by rw [Fin.val_rev]; omega
  have hb : (fun k : Fin (n * n) => (Arr2.fliplr ⟨n, n, f⟩).zext (flatRow n k : ℕ) (flatCol n k : ℕ)) =
      fun k => (fun k : Fin (n * n) => (⟨n, n, f⟩ : Arr2 ℝ).zext (flatRow n k : ℕ) (flatCol n k : ℕ)) (mirrorIdx n k) := by
    funext k
    have hm := Nat.mod_lt (k : ℕ) hn
    unfold flatRow flatCol
    simp only
    rw [fliplr_zext, mirrorIdx_row, mirrorIdx_col]
    congr 1
    show ((n : ℕ) : ℤ) - 1 - _ = _
    omega
  have hs := solve_renumbered L (mirrorIdx n) A hA fun k : Fin (n * n) => (⟨n, n, f⟩ : Arr2 ℝ).zext (flatRow n k : ℕ) (flatCol n k : ℕ)
  rw [← hb] at hs
  refine (dif_pos (hlt i j hi hj)).trans (Eq.trans ?_ (dif_pos (hlt i (Fin.rev j) hi (by rw [e]; omega))).symm)
  refine (congrFun hs _).trans ?_
  congr 1
  apply Fin.ext
  show ((i : ℕ) * n + j) / n * n + (n - 1 - ((i : ℕ) * n + j) % n) = i * n + ((Fin.rev j : Fin n) : ℕ)
  rw [e, Nat.add_comm ((i : ℕ) * n), Nat.add_mul_div_right _ _ hn, Nat.div_eq_of_lt hj, zero_add, Nat.add_mul_mod_self_right, Nat.mod_eq_of_lt hj]

theorem fit_tr (L : SpSolve) (n : ℕ) (f : Fin n → Fin n → ℝ) (A : Matrix (Fin (n * n)) (Fin (n * n)) ℝ) (hA : IsUnit A.det) :
    fitSurfToDm L (Arr2.tr ⟨n, n, f⟩) (A.submatrix (swapIdx n) (swapIdx n)) = (fitSurfToDm L ⟨n, n, f⟩ A).map Arr2.tr := by
  unfold fitSurfToDm
  rw [if_neg (show ¬ n * n ≠ (Arr2.tr ⟨n, n, f⟩).nr * (Arr2.tr ⟨n, n, f⟩).nc from fun h => h rfl),
    if_neg (show ¬ n * n ≠ n * n from fun h => h rfl)]
  show (Except.ok (⟨n, n, _⟩ : Arr2 ℝ) : Res _) = .ok ⟨n, n, _⟩
  congr 2
  refine funext fun (i : Fin n) => funext fun (j : Fin n) => ?_
  have hi := i.isLt
  have hj := j.isLt
  have hn : 0 < n := by omega
  have hlt : ∀ a b : ℕ, a < n → b < n → a * n + b < n * n := fun a b ha hb => by
    have : (a + 1) * n ≤ n * n := Nat.mul_le_mul_right _ ha
    rw [Nat.add_mul, one_mul] at this
    omega
  have hb : (fun k : Fin (n * n) => (Arr2.tr ⟨n, n, f⟩).zext (flatRow n k : ℕ) (flatCol n k : ℕ)) =
      fun k => (fun k : Fin (n * n) => (⟨n, n, f⟩ : Arr2 ℝ).zext (flatRow n k : ℕ) (flatCol n k : ℕ)) (swapIdx n k) := by
    funext k
    unfold flatRow flatCol
    simp only
    rw [tr_zext, swapIdx_row, swapIdx_col]
  have hs := solve_renumbered L (swapIdx n) A hA fun k : Fin (n * n) => (⟨n, n, f⟩ : Arr2 ℝ).zext (flatRow n k : ℕ) (flatCol n k : ℕ)
  rw [← hb] at hs
  refine (dif_pos (hlt i j hi hj)).trans (Eq.trans ?_ (dif_pos (hlt j i hj hi)).symm)
  refine (congrFun hs _).trans ?_
  congr 1
  apply Fin.ext
  show ((i : ℕ) * n + j) % n * n + ((i : ℕ) * n + j) / n = j * n + i
  rw [Nat.add_comm ((i : ℕ) * n), Nat.add_mul_div_right _ _ hn, Nat.div_eq_of_lt hj, zero_add, Nat.add_mul_mod_self_right, Nat.mod_eq_of_lt hj]

theorem surfCoord_strict (n : ℕ) (p : ℝ) (hp : 0 < p) : StrictMono (surfCoord n p) := by
  intro a b h
  unfold surfCoord
  have : (a : ℝ) < b := by exact_mod_cast h
  split
  · exact div_lt_div_of_pos_right (by linarith) hp
  · exact div_lt_div_of_pos_right (by linarith) hp

theorem surfCoord_rev (n : ℕ) (p : ℝ) (k : ℕ) (hk : k < n) (hn : n % 2 = 1) : surfCoord n p k = -surfCoord n p (n - 1 - k) := by
  unfold surfCoord
  rw [if_neg (by omega), if_neg (by omega), show ((n - 1 - k : ℕ) : ℝ) = (n : ℝ) - 1 - k by rw [Nat.cast_sub (by omega), Nat.cast_sub (by omega)]; simp, ← neg_div]
  congr 1
  ring

/-- **C123.** Fitting a mirrored surface (odd in size) with the mirrored calibration gives the mirrored commands. -/
theorem C123_fit_mirrored (S : Spline) (hS : S.Symmetric) (R : Rotate) (hR : R.Symmetric) (L : SpSolve) (surf h : Arr2 ℝ) (dm : DmCal)
    (hreg : PokeRegular S dm) (hs : surf.nc % 2 = 1) (hw : dm.inf.nc % 2 = 1) (hok : convSurfToDmCmd S R L surf dm = .ok h) :
    convSurfToDmCmd S R L surf.fliplr (mirroredCal dm) = .ok h.fliplr := by
  classical
  unfold convSurfToDmCmd at hok ⊢
  by_cases c1 : dm.pitch ≤ 0 ∨ dm.ppactCx ≤ 0 ∨ dm.ppactCy ≤ 0 ∨ dm.nact ≤ 0 ∨ dm.ppactD ≤ 0
  · rw [if_pos c1] at hok; cases hok
  rw [if_neg c1] at hok
  rw [if_neg (show ¬ ((mirroredCal dm).pitch ≤ 0 ∨ (mirroredCal dm).ppactCx ≤ 0 ∨ (mirroredCal dm).ppactCy ≤ 0 ∨ (mirroredCal dm).nact ≤ 0 ∨
    (mirroredCal dm).ppactD ≤ 0) from c1)]
  by_cases c2 : dm.inf.nr ≠ dm.inf.nc
  · rw [if_pos c2] at hok; cases hok
  rw [if_neg c2] at hok
  rw [if_neg (show ¬ (mirroredCal dm).inf.nr ≠ (mirroredCal dm).inf.nc from c2)]
  push Not at c1
  simp only at hok ⊢
  obtain ⟨s1, hs1, hn1⟩ : ∃ s1, (if dm.flipx = true then surf.fliplr else surf) = s1 ∧ s1.nc = surf.nc := ⟨_, rfl, by split <;> rfl⟩
  have hs1' : (if (mirroredCal dm).flipx = true then surf.fliplr.fliplr else surf.fliplr) = s1.fliplr := by
    show (if dm.flipx = true then _ else _) = _
    rw [← hs1]; split <;> rfl
  rw [hs1] at hok
  rw [hs1', show (mirroredCal dm).thact = -dm.thact from rfl, hR.mirrored]
  have hnc : (R.run dm.thact s1).nc % 2 = 1 := by rw [R.nc, hn1]; exact hs
  generalize R.run dm.thact s1 = s2 at hok hnc ⊢
  by_cases c3 : s2.nr < 4 ∨ s2.nc < 4
  · rw [if_pos c3] at hok; cases hok
  rw [if_neg c3] at hok
  rw [if_neg (show ¬ (s2.fliplr.nr < 4 ∨ s2.fliplr.nc < 4) from c3)]
  cases hA : buildPrefilter S dm.nact.toNat dm.nact.toNat dm.inf (dm.pitch / (dm.pitch / dm.ppactD)) with
  | error e => rw [hA] at hok; cases hok
  | ok A =>
    rw [hA] at hok
    have hA' := prefilter_fliplr S hS dm.nact.toNat dm.inf hw _ A hA
    have hgrid : (⟨dm.nact.toNat, dm.nact.toNat, fun i j => S.eval (surfCoord s2.fliplr.nr dm.ppactCy) (surfCoord s2.fliplr.nc dm.ppactCx) s2.fliplr
          (dmAxis dm.nact.toNat i + dm.dy / dm.ppactCy) (dmAxis dm.nact.toNat j + -dm.dx / dm.ppactCx)⟩ : Arr2 ℝ) =
        Arr2.fliplr ⟨dm.nact.toNat, dm.nact.toNat, fun i j => S.eval (surfCoord s2.nr dm.ppactCy) (surfCoord s2.nc dm.ppactCx) s2
          (dmAxis dm.nact.toNat i + dm.dy / dm.ppactCy) (dmAxis dm.nact.toNat j + dm.dx / dm.ppactCx)⟩ := by
      show (⟨dm.nact.toNat, dm.nact.toNat, _⟩ : Arr2 ℝ) = ⟨dm.nact.toNat, dm.nact.toNat, _⟩
      congr 1
      refine funext fun (i : Fin dm.nact.toNat) => funext fun (j : Fin dm.nact.toNat) => ?_
      have hj := j.isLt
      have e : ((Fin.rev j : Fin dm.nact.toNat) : ℝ) = (dm.nact.toNat : ℝ) - 1 - (j : ℕ) := by
        have : ((Fin.rev j : Fin dm.nact.toNat) : ℕ) + (j : ℕ) + 1 = dm.nact.toNat := by rw [Fin.val_rev]; omega
        have h' : (((Fin.rev j : Fin dm.nact.toNat) : ℕ) : ℝ) + (j : ℕ) + 1 = dm.nact.toNat := by exact_mod_cast this
        linarith
      have ex : dmAxis dm.nact.toNat (j : ℕ) + -dm.dx / dm.ppactCx =
          -(dmAxis dm.nact.toNat ((Fin.rev j : Fin dm.nact.toNat) : ℕ) + dm.dx / dm.ppactCx) := by
        unfold dmAxis
        rw [e, neg_div]; ring
      show S.eval (surfCoord s2.nr dm.ppactCy) (surfCoord s2.nc dm.ppactCx) s2.fliplr _ (dmAxis dm.nact.toNat (j : ℕ) + -dm.dx / dm.ppactCx) =
        S.eval _ _ s2 _ (dmAxis dm.nact.toNat ((Fin.rev j : Fin dm.nact.toNat) : ℕ) + dm.dx / dm.ppactCx)
      rw [ex]
      exact hS.mirrored _ _ _ s2 _ _ (surfCoord_strict _ _ c1.2.2.1) (surfCoord_strict _ _ c1.2.1) (surfCoord_strict _ _ c1.2.1)
        fun j hj => surfCoord_rev _ _ _ hj hnc
    refine (congrArg (fun r : Res _ => r >>= fun A => fitSurfToDm L _ A) hA').trans ?_
    show fitSurfToDm L (⟨dm.nact.toNat, dm.nact.toNat, fun i j => S.eval (surfCoord s2.fliplr.nr dm.ppactCy) (surfCoord s2.fliplr.nc dm.ppactCx) s2.fliplr
          (dmAxis dm.nact.toNat i + dm.dy / dm.ppactCy) (dmAxis dm.nact.toNat j + -dm.dx / dm.ppactCx)⟩ : Arr2 ℝ)
        (A.submatrix (mirrorIdx dm.nact.toNat) (mirrorIdx dm.nact.toNat)) = _
    rw [hgrid, fit_fliplr L dm.nact.toNat _ A (hreg A hA)]
    have hok : fitSurfToDm L (⟨dm.nact.toNat, dm.nact.toNat, fun i j => S.eval (surfCoord s2.nr dm.ppactCy) (surfCoord s2.nc dm.ppactCx) s2
          (dmAxis dm.nact.toNat i + dm.dy / dm.ppactCy) (dmAxis dm.nact.toNat j + dm.dx / dm.ppactCx)⟩ : Arr2 ℝ) A = .ok h := hok
    rw [hok]
    rfl

/-- **C123.** Fitting a transposed surface with the transposed calibration gives the transposed commands. -/
theorem C123_fit_transposed (S : Spline) (hS : S.Symmetric) (R : Rotate) (hR : R.Symmetric) (L : SpSolve) (surf h : Arr2 ℝ) (dm : DmCal)
    (hreg : PokeRegular S dm) (hflip : dm.flipx = false) (hok : convSurfToDmCmd S R L surf dm = .ok h) :
    convSurfToDmCmd S R L surf.tr (transposedCal dm) = .ok h.tr := by
  classical
  unfold convSurfToDmCmd at hok ⊢
  by_cases c1 : dm.pitch ≤ 0 ∨ dm.ppactCx ≤ 0 ∨ dm.ppactCy ≤ 0 ∨ dm.nact ≤ 0 ∨ dm.ppactD ≤ 0
  · rw [if_pos c1] at hok; cases hok
  rw [if_neg c1] at hok
  push Not at c1
  have c1' : ¬ (dm.pitch ≤ 0 ∨ dm.ppactCy ≤ 0 ∨ dm.ppactCx ≤ 0 ∨ dm.nact ≤ 0 ∨ dm.ppactD ≤ 0) := by
    push Not; exact ⟨c1.1, c1.2.2.1, c1.2.1, c1.2.2.2⟩
  rw [if_neg (show ¬ ((transposedCal dm).pitch ≤ 0 ∨ (transposedCal dm).ppactCx ≤ 0 ∨ (transposedCal dm).ppactCy ≤ 0 ∨ (transposedCal dm).nact ≤ 0 ∨
    (transposedCal dm).ppactD ≤ 0) from c1')]
  by_cases c2 : dm.inf.nr ≠ dm.inf.nc
  · rw [if_pos c2] at hok; cases hok
  rw [if_neg c2] at hok
  rw [if_neg (show ¬ (transposedCal dm).inf.nr ≠ (transposedCal dm).inf.nc from fun hc => c2 hc.symm)]
  simp only at hok ⊢
  rw [hflip] at hok
  rw [show (transposedCal dm).flipx = false from hflip]
  simp only [Bool.false_eq_true, if_false] at hok ⊢
  rw [show (transposedCal dm).thact = -dm.thact from rfl, hR.transposed]
  generalize R.run dm.thact surf = s2 at hok ⊢
  by_cases c3 : s2.nr < 4 ∨ s2.nc < 4
  · rw [if_pos c3] at hok; cases hok
  rw [if_neg c3] at hok
  rw [if_neg (show ¬ (s2.tr.nr < 4 ∨ s2.tr.nc < 4) from fun hc => c3 hc.symm)]
  cases hA : buildPrefilter S dm.nact.toNat dm.nact.toNat dm.inf (dm.pitch / (dm.pitch / dm.ppactD)) with
  | error e => rw [hA] at hok; cases hok
  | ok A =>
    rw [hA] at hok
    have hA' := prefilter_tr S hS dm.nact.toNat dm.inf _ A hA
    refine (congrArg (fun r : Res _ => r >>= fun A => fitSurfToDm L _ A) hA').trans ?_
    have hgrid : (⟨dm.nact.toNat, dm.nact.toNat, fun i j => S.eval (surfCoord s2.tr.nr dm.ppactCx) (surfCoord s2.tr.nc dm.ppactCy) s2.tr
          (dmAxis dm.nact.toNat i + dm.dx / dm.ppactCx) (dmAxis dm.nact.toNat j + dm.dy / dm.ppactCy)⟩ : Arr2 ℝ) =
        Arr2.tr ⟨dm.nact.toNat, dm.nact.toNat, fun i j => S.eval (surfCoord s2.nr dm.ppactCy) (surfCoord s2.nc dm.ppactCx) s2
          (dmAxis dm.nact.toNat i + dm.dy / dm.ppactCy) (dmAxis dm.nact.toNat j + dm.dx / dm.ppactCx)⟩ := by
      show (⟨dm.nact.toNat, dm.nact.toNat, _⟩ : Arr2 ℝ) = ⟨dm.nact.toNat, dm.nact.toNat, _⟩
      congr 1
      funext i j
      exact hS.transposed _ _ s2 _ _ (surfCoord_strict _ _ c1.2.2.1) (surfCoord_strict _ _ c1.2.1)
    show fitSurfToDm L (⟨dm.nact.toNat, dm.nact.toNat, fun i j => S.eval (surfCoord s2.tr.nr dm.ppactCx) (surfCoord s2.tr.nc dm.ppactCy) s2.tr
          (dmAxis dm.nact.toNat i + dm.dx / dm.ppactCx) (dmAxis dm.nact.toNat j + dm.dy / dm.ppactCy)⟩ : Arr2 ℝ)
        (A.submatrix (swapIdx dm.nact.toNat) (swapIdx dm.nact.toNat)) = _
    rw [hgrid, fit_tr L dm.nact.toNat _ A (hreg A hA)]
    have hok : fitSurfToDm L (⟨dm.nact.toNat, dm.nact.toNat, fun i j => S.eval (surfCoord s2.nr dm.ppactCy) (surfCoord s2.nc dm.ppactCx) s2
          (dmAxis dm.nact.toNat i + dm.dy / dm.ppactCy) (dmAxis dm.nact.toNat j + dm.dx / dm.ppactCx)⟩ : Arr2 ℝ) A = .ok h := hok
    rw [hok]
    rfl

/-! ### The hypotheses can be met -/

/-- All the contracts together, and a rotated, shifted, anamorphic mirror with any commands and any influence function of 3 x 3 samples. -/
example (f : Fin 4 → Fin 4 → ℝ) (g : Fin 3 → Fin 3 → ℝ) (flipx : Bool) :
    Spline.lookup.Symmetric ∧ Rotate.atPixels.Symmetric ∧ Shift.wholeOnly.Symmetric ∧
    ∃ out, dmhtoph Spline.lookup Rotate.atPixels Shift.wholeOnly 11 14 ⟨4, 4, f⟩ 4 ⟨3, 3, g⟩ 2 1.5 1.25 2 (-1) 30 flipx = .ok out := by
  refine ⟨Spline.lookup_symmetric, Rotate.atPixels_symmetric, Shift.wholeOnly_symmetric, ?_⟩
  refine (C62_shape _ _ _ 11 14 ⟨4, 4, f⟩ 4 ⟨3, 3, g⟩ 2 1.5 1.25 2 (-1) 30 flipx).1.mpr ⟨?_, ?_, ?_, ?_, ?_, ?_, ?_, ?_, ?_, ?_, ?_, ?_⟩ <;> norm_num

/-- A rotated and shifted mirror whose fit is regular, and a surface of odd size. -/
example (S : Spline) (R : Rotate) (L : SpSolve) (t : Arr2 ℤ) (ht : t.nr = 2 ∧ t.nc = 2) (f : Fin 5 → Fin 7 → ℝ) :
    ∃ dm : DmCal, dm.dx ≠ 0 ∧ dm.dy ≠ 0 ∧ dm.thact ≠ 0 ∧ dm.flipx = false ∧ PokeRegular S dm ∧ dm.inf.nc % 2 = 1 ∧
      ∃ h, convSurfToDmCmd S R L ⟨5, 7, f⟩ dm = .ok h := by
  refine ⟨{ sampleDm t with dx := 0.25, dy := -1, thact := 3, flipx := false }, by norm_num, by norm_num, by norm_num, rfl, ?_, by simp [sampleDm, crossInfluence], ?_⟩
  · intro A hA
    obtain ⟨A', hA', hdet⟩ := cross_regular S
    have hp : (sampleDm t).pitch / ((sampleDm t).pitch / (sampleDm t).ppactD) = ((1 : ℕ) : ℝ) := by norm_num [sampleDm]
    simp only at hA
    rw [hp] at hA
    have : (Except.ok A : Res _) = .ok A' := hA.symm.trans hA'
    rw [Except.ok.inj this]
    exact hdet
  · obtain ⟨h, hh, -⟩ := conv_ok S R L ⟨5, 7, f⟩ { sampleDm t with dx := 0.25, dy := -1, thact := 3, flipx := false } 2
      ⟨(sample_ok t ht).nact, (sample_ok t ht).pos, (sample_ok t ht).pitch, (sample_ok t ht).cx, (sample_ok t ht).cy, (sample_ok t ht).d, (sample_ok t ht).square,
        (sample_ok t ht).inf, (sample_ok t ht).tie, (sample_ok t ht).gain, (sample_ok t ht).width, (sample_ok t ht).rows, (sample_ok t ht).cols⟩ (by norm_num) (by norm_num)
    exact ⟨h, hh⟩

end Coralign.Props
