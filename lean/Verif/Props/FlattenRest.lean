import Verif.Props.FlattenModel
import Verif.Props.ZernikeFit

/-!
# C122: flattening comes to rest
-/

namespace Coralign.Props

open Coralign Coralign.Spec Finset

/-! ### Specification -/

/-- `u` marks the illuminated pixels: the amplitude map, brought to the size of the larger mirror's map and thresholded. -/
def LitPixels (amp : Arr2 ℝ) (dm1 dm2 : DmCal) (cfg : FlattenCfg) (u : Arr2 Bool) : Prop :=
  ∃ am, padCrop amp [max (wfeShape dm1).1 (wfeShape dm2).1, max (wfeShape dm1).2 (wfeShape dm2).2] 0 = .ok am ∧ ampthresh am cfg.nBin = .ok u

/-- No combination of the first `N` modes vanishes on all the illuminated pixels, except the empty one. -/
def ModesIndependent (u : Arr2 Bool) (N : ℕ) (diam xo yo : ℝ) : Prop :=
  ∀ d : Fin N → ℝ, (∀ k l : ℤ, u.centered k l = some true → zernPart (List.ofFn d) 1 N (diam / 2) (l - xo) (k - yo) = 0) → d = 0

/-- The first mode that the mirrors correct. -/
def firstMode (useFCM : Bool) : ℕ := if useFCM then 5 else 4

/-- The focus taken away, as a coefficient in radians, when the focus mechanism goes from `old` to `new`. -/
noncomputable def focusMoved (useFCM : Bool) (fc : FcmCal) (lam : ℝ) (old new : ℤ) : ℝ :=
  if useFCM then ((new : ℝ) - old) * fc.strokePerStep * fc.focusPerStroke * (2 * Real.pi / lam) else 0

/-- The instrument obeys: the phase `ph'` measured after a call of `flatten` is, at every illuminated pixel, what the call was told to leave of
`ph` (all of it if the mirrors are not used), less the focus that the focus mechanism has taken away. -/
def Obeys (useDMs useFCM highZern : Bool) {N : ℕ} (coefs : Fin N → ℝ) (moved : ℝ) (u : Arr2 Bool) (ph ph' : Arr2 ℝ) (diam xo yo : ℝ) : Prop :=
  ∀ k l : ℤ, u.centered k l = some true → (ph'.centered k l).getD 0 =
    (if useDMs then leftOver useFCM highZern coefs ph diam xo yo k l else (ph.centered k l).getD 0) -
      moved * mode 4 (diam / 2) (l - xo) (k - yo)

/-! ### Sums of modes -/

theorem zernPart_fin {N : ℕ} (d : Fin N → ℝ) (a b : ℕ) (ha : 1 ≤ a) (hb : b ≤ N) (r x y : ℝ) :
    zernPart (List.ofFn d) a b r x y = ∑ s : Fin N, (if a ≤ (s : ℕ) + 1 ∧ (s : ℕ) + 1 ≤ b then d s else 0) * mode ((s : ℕ) + 1) r x y := by
  have h1 : ∀ s : Fin N, (if a ≤ (s : ℕ) + 1 ∧ (s : ℕ) + 1 ≤ b then d s else 0) * mode ((s : ℕ) + 1) r x y =
      (fun k : ℕ => if a ≤ k + 1 ∧ k + 1 ≤ b then nollCoef (List.ofFn d) (k + 1) * mode (k + 1) r x y else 0) s := by
    intro s
    have : nollCoef (List.ofFn d) ((s : ℕ) + 1) = d s := by unfold nollCoef; simp
    simp only [this]
    split <;> simp
  rw [Finset.sum_congr rfl fun s _ => h1 s, Fin.sum_univ_eq_sum_range
    (fun k : ℕ => if a ≤ k + 1 ∧ k + 1 ≤ b then nollCoef (List.ofFn d) (k + 1) * mode (k + 1) r x y else 0), ← Finset.sum_filter]
  unfold zernPart
  symm
  refine Finset.sum_nbij' (fun k => k + 1) (fun j => j - 1) ?_ ?_ ?_ ?_ ?_
  · intro k hk; simp only [Finset.mem_filter, Finset.mem_range, Finset.mem_Icc] at hk ⊢; omega
  · intro j hj; simp only [Finset.mem_filter, Finset.mem_range, Finset.mem_Icc] at hj ⊢; omega
  · intro k _; simp
  · intro j hj; simp only [Finset.mem_Icc] at hj; omega
  · intro k _; rfl

theorem zernPart_all {N : ℕ} (d : Fin N → ℝ) (r x y : ℝ) :
    zernPart (List.ofFn d) 1 N r x y = ∑ s : Fin N, d s * mode ((s : ℕ) + 1) r x y := by
  rw [zernPart_fin d 1 N le_rfl le_rfl]
  refine Finset.sum_congr rfl fun s _ => ?_
  rw [if_pos ⟨by omega, by have := s.isLt; omega⟩]

/-! ### The fit -/

theorem centered_at_pixel {α : Type} {n m : ℕ} (f : Fin n → Fin m → α) (i : Fin n) (j : Fin m) :
    (⟨n, m, f⟩ : Arr2 α).centered (((i : ℕ) : ℤ) - ((n : ℕ) : ℤ) / 2) (((j : ℕ) : ℤ) - ((m : ℕ) : ℤ) / 2) = some (f i j) := by
  unfold Arr2.centered
  simp only
  rw [show ((n : ℕ) : ℤ) / 2 + (((i : ℕ) : ℤ) - ((n : ℕ) : ℤ) / 2) = (i : ℕ) by omega,
    show ((m : ℕ) : ℤ) / 2 + (((j : ℕ) : ℤ) - ((m : ℕ) : ℤ) / 2) = (j : ℕ) by omega]
  exact Arr2.px_val (⟨n, m, f⟩ : Arr2 α) i j

/-- If the second wavefront is the first less a combination `e` of the modes, or if it is the combination `c - e`, the coefficients of its fit are those of
the first less `e`. -/
theorem refit (S : Solver) {w w' : Arr2 ℝ} {u : Arr2 Bool} {N : ℕ} (hN : 0 < N) {diam xo yo : ℝ} (hb : 0 < diam)
    (hs : w.nr = u.nr ∧ w.nc = u.nc) (hs' : w'.nr = u.nr ∧ w'.nc = u.nc)
    {c c' : Fin N → ℝ} (h : fitZernikes S w u N diam xo yo = .ok c) (h' : fitZernikes S w' u N diam xo yo = .ok c')
    (hind : ModesIndependent u N diam xo yo) (e : Fin N → ℝ)
    (he : (∀ k l : ℤ, u.centered k l = some true → (w'.centered k l).getD 0 = (w.centered k l).getD 0 -
        ∑ s : Fin N, e s * mode ((s : ℕ) + 1) (diam / 2) (l - xo) (k - yo)) ∨
      (∀ k l : ℤ, u.centered k l = some true → (w'.centered k l).getD 0 =
        ∑ s : Fin N, (c s - e s) * mode ((s : ℕ) + 1) (diam / 2) (l - xo) (k - yo))) :
    c' = fun s => c s - e s := by
  obtain ⟨n, m, w⟩ := w
  obtain ⟨n', m', w'⟩ := w'
  obtain ⟨p, q, u⟩ := u
  obtain ⟨rfl, rfl⟩ := hs
  obtain ⟨h1, h2⟩ := hs'
  simp only at h1 h2
  subst h1
  subst h2
  rw [fit_eq S _ _ _ _ N hN diam xo yo hb] at h h'
  have hc := Except.ok.inj h
  have hc' := Except.ok.inj h'
  set A := fun (z : Selected u) (s : Fin N) => fitBasis n' m' diam xo yo s z.1.1 z.1.2 with hA
  have l1 : IsLeastSq A (fun z : Selected u => w z.1.1 z.1.2) c := by
    have := S.isLeastSq A (fun z : Selected u => w z.1.1 z.1.2); rwa [hc] at this
  have l2 : IsLeastSq A (fun z : Selected u => w' z.1.1 z.1.2) c' := by
    have := S.isLeastSq A (fun z : Selected u => w' z.1.1 z.1.2); rwa [hc'] at this
  have hfit : ∀ (d : Fin N → ℝ) (i : Fin n') (j : Fin m'),
      (∑ s : Fin N, d s * mode ((s : ℕ) + 1) (diam / 2) (((((j : ℕ) : ℤ) - ((m' : ℕ) : ℤ) / 2 : ℤ) : ℝ) - xo) (((((i : ℕ) : ℤ) - ((n' : ℕ) : ℤ) / 2 : ℤ) : ℝ) - yo)) =
      ∑ s : Fin N, fitBasis n' m' diam xo yo s i j * d s := by
    intro d i j
    refine Finset.sum_congr rfl fun s _ => ?_
    unfold fitBasis
    have e1 : (((((j : ℕ) : ℤ) - ((m' : ℕ) : ℤ) / 2 : ℤ) : ℝ)) = (j : ℕ) - ((m' / 2 : ℕ) : ℝ) := by
      rw [show ((((j : ℕ) : ℤ) - ((m' : ℕ) : ℤ) / 2 : ℤ)) = ((j : ℕ) : ℤ) - ((m' / 2 : ℕ) : ℤ) by omega]; push_cast; rfl
    have e2 : (((((i : ℕ) : ℤ) - ((n' : ℕ) : ℤ) / 2 : ℤ) : ℝ)) = (i : ℕ) - ((n' / 2 : ℕ) : ℝ) := by
      rw [show ((((i : ℕ) : ℤ) - ((n' : ℕ) : ℤ) / 2 : ℤ)) = ((i : ℕ) : ℤ) - ((n' / 2 : ℕ) : ℤ) by omega]; push_cast; rfl
    rw [e1, e2, mul_comm]
  have l3 : IsLeastSq A (fun z : Selected u => w' z.1.1 z.1.2) fun s => c s - e s := by
    apply isLeastSq_of_orthogonal
    intro y
    rcases he with he | he
    · rw [← l1.orthogonal y]
      refine Finset.sum_congr rfl fun z _ => ?_
      have := he _ _ ((centered_at_pixel u z.1.1 z.1.2).trans (congrArg some z.2))
      rw [centered_at_pixel, centered_at_pixel, hfit] at this
      simp only [Option.getD_some] at this
      rw [fitted_sub, this]
      simp only [fitted, hA]
      ring
    · refine Finset.sum_eq_zero fun z _ => ?_
      have := he _ _ ((centered_at_pixel u z.1.1 z.1.2).trans (congrArg some z.2))
      rw [centered_at_pixel, hfit] at this
      simp only [Option.getD_some] at this
      rw [this]
      simp only [fitted, hA, sub_self, zero_mul]
  have h0 := hind (fun s => c' s - (c s - e s)) (by
    intro k l hkl
    rw [zernPart_all]
    have hr := centered_reaches hkl
    unfold Reaches at hr
    simp only at hr
    set i : Fin n' := ⟨(((n' : ℕ) : ℤ) / 2 + k).toNat, by omega⟩ with hi
    set j : Fin m' := ⟨(((m' : ℕ) : ℤ) / 2 + l).toNat, by omega⟩ with hj
    have ek : k = ((i : ℕ) : ℤ) - ((n' : ℕ) : ℤ) / 2 := by rw [hi]; simp only; omega
    have el : l = ((j : ℕ) : ℤ) - ((m' : ℕ) : ℤ) / 2 := by rw [hj]; simp only; omega
    rw [ek, el] at hkl ⊢
    rw [centered_at_pixel] at hkl
    rw [hfit]
    have := l2.fitted_unique l3 ⟨(i, j), Option.some.inj hkl⟩
    simp only [fitted, hA] at this
    simp only [mul_sub] at this ⊢
    simp only [Finset.sum_sub_distrib] at this ⊢
    linarith)
  funext s
  have := congrFun h0 s
  simp only [Pi.zero_apply] at this
  linarith

/-! ### Nothing to do for the mirrors -/

theorem arr_ext_zext {a b : Arr2 ℝ} (hr : a.nr = b.nr) (hc : a.nc = b.nc) (hz : ∀ i j, a.zext i j = b.zext i j) : a = b := by
  refine Arr2.ext_px hr hc fun i j b1 b2 b3 b4 => ?_
  have hz := hz i j
  have hb : (0 ≤ i ∧ i < a.nr) ∧ (0 ≤ j ∧ j < a.nc) := ⟨⟨b1, b2⟩, b3, b4⟩
  have hb' : (0 ≤ i ∧ i < b.nr) ∧ (0 ≤ j ∧ j < b.nc) := by omega
  rw [zext_in hb, zext_in hb'] at hz
  rw [Arr2.px_of_inB a hb, Arr2.px_of_inB b hb', hz]

/-- An array that shows zero at every pixel, by distance from the centre. -/
theorem eq_full_zero {a : Arr2 ℝ} {n m : ℤ} (hr : (a.nr : ℤ) = n) (hc : (a.nc : ℤ) = m) (h : ∀ k l, Reaches n m k l → a.centered k l = some 0) :
    a = Arr2.full n.toNat m.toNat 0 := by
  refine Arr2.ext_px (by simp; omega) (by simp; omega) fun i j h1 h2 h3 h4 => ?_
  have := h (i - n / 2) (j - m / 2) (by unfold Reaches; omega)
  unfold Arr2.centered at this
  rw [hr, hc, show n / 2 + (i - n / 2) = i by omega, show m / 2 + (j - m / 2) = j by omega] at this
  have hf : (Arr2.full n.toNat m.toNat (0 : ℝ)).px i j = some 0 := Arr2.px_full_in 0 (by omega)
  rw [this, hf]

theorem full_zero_zext (n m : ℕ) (i j : ℤ) : (Arr2.full n m (0 : ℝ)).zext i j = 0 := by
  unfold Arr2.zext
  rw [Arr2.px_full]
  split <;> rfl

/-- If the fitted modes that the mirrors correct have coefficient zero and, with the high orders, nothing else is left on the illuminated pixels, the
commands do not change. -/
theorem unchanged (E : FlattenEnv) {cmd1 cmd2 : Arr2 ℝ} {cmdFCM : ℤ} {useDMs useFCM highZern : Bool} {lam : ℝ}
    {amp ph : Arr2 ℝ} {diam xo yo : ℝ} {dm1 dm2 : DmCal} {fc : FcmCal} {cfg : FlattenCfg} {out : FlattenOut cfg.maxNoll.toNat}
    (hok : flatten E cmd1 cmd2 cmdFCM useDMs useFCM highZern lam amp ph diam xo yo dm1 dm2 fc cfg = .ok out)
    (hr1 : PokeRegular E.spline dm1) (hr2 : PokeRegular E.spline dm2) (hg1 : NoZeroGain dm1) (hg2 : NoZeroGain dm2)
    (h6 : max (max (wfeShape dm1).1 (wfeShape dm2).1) (max (wfeShape dm1).2 (wfeShape dm2).2) ≠ 1000000)
    {u : Arr2 Bool} (hu : LitPixels amp dm1 dm2 cfg u)
    (hz : useDMs = true → ∀ s : Fin cfg.maxNoll.toNat, firstMode useFCM ≤ (s : ℕ) + 1 → out.coefs s = 0)
    (hrest : useDMs = true → highZern = true → ∀ k l : ℤ, u.centered k l = some true → (ph.centered k l).getD 0 =
      ∑ s : Fin cfg.maxNoll.toNat, out.coefs s * mode ((s : ℕ) + 1) (diam / 2) (l - xo) (k - yo)) :
    out.cmd1 = cmd1 ∧ out.cmd2 = cmd2 := by
  cases useDMs with
  | false => exact C48_dms_unused E cmd1 cmd2 cmdFCM useFCM highZern lam amp ph diam xo yo dm1 dm2 fc cfg out hok hr1 hr2 hg1 hg2
  | true =>
  have hz := hz rfl
  have hrest := hrest rfl
  obtain ⟨am, ham, hu⟩ := hu
  obtain ⟨hl, wk, h1, h2, hh, d1, d2, e1, e2, e3, e4, e5, e6, e7, e8, e9, e10, -⟩ := flatten_inv hok
  rw [e10] at hz hrest
  obtain ⟨hd, hN, wfeIn, ampIn, u', z1, z4, z5, ps, f1, f2, f3, f4, f5, f6, f7, f8, f9⟩ := surfaces_inv e1
  rw [ham] at f2
  obtain rfl := Except.ok.inj f2
  rw [hu] at f3
  obtain rfl := Except.ok.inj f3
  obtain ⟨m1, m2, -⟩ := crop_at f7
  generalize hny : max (wfeShape dm1).1 (wfeShape dm2).1 = ny at *
  generalize hnx : max (wfeShape dm1).2 (wfeShape dm2).2 = nx at *
  obtain ⟨pny, pnx⟩ := padCrop_pos f1
  obtain ⟨w1, w2, w3⟩ := crop_at f1
  obtain ⟨a1, a2, a3⟩ := crop_at ham
  obtain ⟨u1, u2⟩ := ampthresh_size hu
  have hacc := (C50_accepts_iff _ _ _ _ _ _ _ _).mp ⟨_, f5⟩
  have hNN : ((cfg.maxNoll.toNat : ℕ) : ℤ) = cfg.maxNoll := Int.toNat_of_nonneg hN.le
  have hlow : (if useFCM then 5 else 4) ≤ cfg.maxNoll.toNat := by
    have := hacc.1
    cases useFCM <;> simp at this ⊢ <;> omega
  obtain ⟨b1, b4, b5, g5', ⟨g1, g1'⟩, ⟨g4, g4'⟩, ⟨g5, g5''⟩, hv⟩ :=
    split_eq useFCM cfg.maxNoll.toNat (List.ofFn wk.coefs) diam ny nx xo yo hlow hd pny pnx
  rw [hNN, f5] at g5'
  simp only [Except.ok.injEq, Prod.mk.injEq] at g5'
  obtain ⟨rfl, rfl, rfl⟩ := g5'
  have hv := hv h6
  have z0 : ∀ r x y : ℝ, zernPart (List.ofFn wk.coefs) (if useFCM then 5 else 4) cfg.maxNoll.toNat r x y = 0 := by
    intro r x y
    rw [zernPart_fin _ _ _ (by split <;> omega) le_rfl]
    refine Finset.sum_eq_zero fun s _ => ?_
    by_cases hs : (if useFCM then 5 else 4) ≤ (s : ℕ) + 1 ∧ (s : ℕ) + 1 ≤ cfg.maxNoll.toNat
    · rw [if_pos hs, hz s hs.1, zero_mul]
    · rw [if_neg hs, zero_mul]
  have e5z : z5 = Arr2.full ny.toNat nx.toNat 0 := eq_full_zero g5 g5'' fun k l hkl => by rw [(hv k l hkl).2.2, z0]
  have hps : ps = (Arr2.full ny.toNat nx.toNat 0, Arr2.full ny.toNat nx.toNat 0) := by
    unfold splitPhase at f6
    simp only [if_true] at f6
    cases highZern with
    | false =>
      simp only [Bool.false_eq_true, if_false] at f6
      rw [← Except.ok.inj f6, e5z]
      have : ((Arr2.full ny.toNat nx.toNat (0 : ℝ)).map fun v => 0.5 * v) = Arr2.full ny.toNat nx.toNat 0 := by
        unfold Arr2.map Arr2.full; simp
      rw [this]
    | true =>
      have hab : aboveZmax wfeIn z1 z4 z5 u = Arr2.full ny.toNat nx.toNat 0 := by
        refine eq_full_zero (by unfold aboveZmax; exact w1) (by unfold aboveZmax; exact w2) fun k l hkl => ?_
        have hb : (0 ≤ ny / 2 + k ∧ ny / 2 + k < wfeIn.nr) ∧ (0 ≤ nx / 2 + l ∧ nx / 2 + l < wfeIn.nc) := by
          unfold Reaches at hkl; omega
        have hpx : (aboveZmax wfeIn z1 z4 z5 u).centered k l = some ((wfeIn.zext (ny / 2 + k) (nx / 2 + l) - z5.zext (ny / 2 + k) (nx / 2 + l) -
            z4.zext (ny / 2 + k) (nx / 2 + l) - z1.zext (ny / 2 + k) (nx / 2 + l)) * boolVal u (ny / 2 + k) (nx / 2 + l)) := by
          unfold Arr2.centered aboveZmax
          simp only
          rw [w1, w2]
          refine (px_lit _ _ _ _ _ hb).trans ?_
          rw [zext_in (a := wfeIn) hb, Int.toNat_of_nonneg hb.1.1, Int.toNat_of_nonneg hb.2.1]
        rw [hpx]
        congr 1
        by_cases hut : u.centered k l = some true
        · obtain ⟨v1, v4, v5⟩ := hv k l hkl
          have vw := w3 k l hkl
          have z1v : z1.zext (ny / 2 + k) (nx / 2 + l) = zernPart (List.ofFn wk.coefs) 1 3 (diam / 2) (l - xo) (k - yo) := by
            unfold Arr2.centered at v1; rw [g1, g1'] at v1; unfold Arr2.zext; rw [v1]; rfl
          have z4v : z4.zext (ny / 2 + k) (nx / 2 + l) =
              if useFCM then zernPart (List.ofFn wk.coefs) 4 4 (diam / 2) (l - xo) (k - yo) else 0 := by
            unfold Arr2.centered at v4; rw [g4, g4'] at v4; unfold Arr2.zext; rw [v4]; rfl
          have z5v : z5.zext (ny / 2 + k) (nx / 2 + l) =
              zernPart (List.ofFn wk.coefs) (if useFCM then 5 else 4) cfg.maxNoll.toNat (diam / 2) (l - xo) (k - yo) := by
            unfold Arr2.centered at v5; rw [g5, g5''] at v5; unfold Arr2.zext; rw [v5]; rfl
          have wv : wfeIn.zext (ny / 2 + k) (nx / 2 + l) = (ph.centered k l).getD 0 := by
            unfold Arr2.centered at vw; rw [w1, w2] at vw; unfold Arr2.zext; rw [vw]; rfl
          rw [z1v, z4v, z5v, wv, hrest rfl k l hut, ← zernPart_all]
          have hN4 : 4 ≤ cfg.maxNoll.toNat := by split at hlow <;> omega
          cases useFCM with
          | true =>
            simp only [if_true] at hlow ⊢
            rw [← zernPart_split _ 1 4 cfg.maxNoll.toNat (by omega) (by omega), ← zernPart_split _ 1 3 4 (by omega) (by omega)]
            ring
          | false =>
            simp only [Bool.false_eq_true, if_false]
            rw [← zernPart_split _ 1 3 cfg.maxNoll.toNat (by omega) (by omega)]
            ring
        · have : boolVal u (ny / 2 + k) (nx / 2 + l) = 0 := by
            unfold Arr2.centered at hut; rw [u1, u2, a1, a2] at hut; unfold boolVal; rw [if_neg hut]
          rw [this, mul_zero]
      rw [hab, e5z] at f6
      simp only [if_true, gt_iff_lt, lt_irrefl, if_false] at f6
      rw [res_ok_bind] at f6
      rw [← Except.ok.inj f6]
      refine Prod.ext ?_ ?_
      · refine eq_full_zero (by simp; omega) (by simp; omega) fun k l hkl => ?_
        unfold Reaches at hkl
        unfold Arr2.centered
        simp only [Arr2.full_nr, Arr2.full_nc]
        rw [px_lit _ _ _ _ _ (by omega)]
        simp only [full_zero_zext]
        simp [Arr2.full]
      · simp [Arr2.full]
  rw [hps] at f8 f9
  rw [desired_zero ⟨m1, m2⟩ f8] at e2
  rw [desired_zero ⟨m1, m2⟩ f9] at e3
  have k1 := fun i j => conv_zero hr1 e2 i j
  have k2 := fun i j => conv_zero hr2 e3 i j
  obtain ⟨s0, -, -, s1, s2, hpx⟩ := reassign_px e4
  obtain ⟨v1, -, p1⟩ := volts_px e5
  obtain ⟨v2, -, p2⟩ := volts_px e6
  obtain ⟨o1, c1, q1⟩ := subCmd_px e7
  obtain ⟨o2, c2, q2⟩ := subCmd_px e8
  have hz : ∀ i j, hh.1.zext i j = 0 ∧ hh.2.zext i j = 0 := by
    intro i j
    by_cases hb : (0 ≤ i ∧ i < h1.nr) ∧ (0 ≤ j ∧ j < h1.nc)
    · have := hpx i j hb
      rw [k1, k2] at this
      simpa using this
    · rw [zext_out (a := hh.1) (by rw [s1.1, s1.2]; exact hb), zext_out (a := hh.2) (by rw [s2.1, s2.2]; exact hb)]
      exact ⟨rfl, rfl⟩
  exact ⟨arr_ext_zext o1.1 o1.2 fun i j => by rw [q1, p1, (hz i j).1]; simp,
    arr_ext_zext o2.1 o2.2 fun i j => by rw [q2, p2, (hz i j).2]; simp⟩

/-! ### The theorems -/

theorem fits_lit {E : FlattenEnv} {cmd1 cmd2 : Arr2 ℝ} {cmdFCM : ℤ} {useDMs useFCM highZern : Bool} {lam : ℝ}
    {amp ph : Arr2 ℝ} {diam xo yo : ℝ} {dm1 dm2 : DmCal} {fc : FcmCal} {cfg : FlattenCfg} {out : FlattenOut cfg.maxNoll.toNat}
    (hok : flatten E cmd1 cmd2 cmdFCM useDMs useFCM highZern lam amp ph diam xo yo dm1 dm2 fc cfg = .ok out)
    {u : Arr2 Bool} (hu : LitPixels amp dm1 dm2 cfg u) :
    0 < lam ∧ 0 < diam ∧ firstMode useFCM ≤ cfg.maxNoll.toNat ∧
    fcmStep useFCM cmdFCM (((List.ofFn out.coefs)[3]?).getD 0) lam fc = .ok out.fcm ∧
    ∃ wfe : Arr2 ℝ, (wfe.nr = u.nr ∧ wfe.nc = u.nc) ∧ (∀ k l, u.centered k l = some true → (wfe.centered k l).getD 0 = (ph.centered k l).getD 0) ∧
      fitZernikes E.lstsq wfe u (cfg.maxNoll.toNat : ℕ) diam xo yo = .ok out.coefs := by
  obtain ⟨am, ham, hu⟩ := hu
  obtain ⟨hl, wk, h1, h2, hh, d1, d2, e1, e2, e3, e4, e5, e6, e7, e8, e9, e10, -⟩ := flatten_inv hok
  obtain ⟨hd, hN, wfeIn, ampIn, u', z1, z4, z5, ps, f1, f2, f3, f4, f5, f6, f7, f8, f9⟩ := surfaces_inv e1
  rw [ham] at f2
  obtain rfl := Except.ok.inj f2
  rw [hu] at f3
  obtain rfl := Except.ok.inj f3
  obtain ⟨w1, w2, w3⟩ := crop_at f1
  obtain ⟨a1, a2, a3⟩ := crop_at ham
  obtain ⟨u1, u2⟩ := ampthresh_size hu
  have hacc := (C50_accepts_iff _ _ _ _ _ _ _ _).mp ⟨_, f5⟩
  have hNN : ((cfg.maxNoll.toNat : ℕ) : ℤ) = cfg.maxNoll := Int.toNat_of_nonneg hN.le
  refine ⟨hl, hd, ?_, by rw [e10]; exact e9, wfeIn, ⟨by omega, by omega⟩, fun k l hkl => ?_, ?_⟩
  · have := hacc.1
    unfold firstMode
    cases useFCM <;> simp at this ⊢ <;> omega
  · have hr := centered_reaches hkl
    rw [w3 k l (by unfold Reaches at hr ⊢; omega)]
    rfl
  · rw [e10]
    have : ∀ (M : ℤ), 0 ≤ M → ∀ c : Fin M.toNat → ℝ, fitZernikes E.lstsq wfeIn u M diam xo yo = .ok c →
        fitZernikes E.lstsq wfeIn u ((M.toNat : ℕ) : ℤ) diam xo yo = .ok c := by
      intro M hM c h
      obtain ⟨n, rfl⟩ := Int.eq_ofNat_of_zero_le hM
      exact h
    exact this _ hN.le _ f4

/-- **C122.** At rest.  If at the illuminated pixels the phase is a combination of the modes which the mirrors do not correct (piston, tip and tilt, and
focus when the focus mechanism takes it), both mirrors keep their commands, and the coefficients reported are those of the combination. -/
theorem C122_at_rest (E : FlattenEnv) (cmd1 cmd2 : Arr2 ℝ) (cmdFCM : ℤ) (useDMs useFCM highZern : Bool) (lam : ℝ)
    (amp ph : Arr2 ℝ) (diam xo yo : ℝ) (dm1 dm2 : DmCal) (fc : FcmCal) (cfg : FlattenCfg) (out : FlattenOut cfg.maxNoll.toNat)
    (hok : flatten E cmd1 cmd2 cmdFCM useDMs useFCM highZern lam amp ph diam xo yo dm1 dm2 fc cfg = .ok out)
    (hr1 : PokeRegular E.spline dm1) (hr2 : PokeRegular E.spline dm2) (hg1 : NoZeroGain dm1) (hg2 : NoZeroGain dm2)
    (h6 : max (max (wfeShape dm1).1 (wfeShape dm2).1) (max (wfeShape dm1).2 (wfeShape dm2).2) ≠ 1000000)
    (u : Arr2 Bool) (hu : LitPixels amp dm1 dm2 cfg u) (hind : ModesIndependent u cfg.maxNoll.toNat diam xo yo)
    (c : Fin cfg.maxNoll.toNat → ℝ) (hc : ∀ s : Fin cfg.maxNoll.toNat, firstMode useFCM ≤ (s : ℕ) + 1 → c s = 0)
    (hph : ∀ k l : ℤ, u.centered k l = some true → (ph.centered k l).getD 0 =
      ∑ s : Fin cfg.maxNoll.toNat, c s * mode ((s : ℕ) + 1) (diam / 2) (l - xo) (k - yo)) :
    out.cmd1 = cmd1 ∧ out.cmd2 = cmd2 ∧ out.coefs = c := by
  obtain ⟨hl, hd, hN, -, wfe, hs, hw, hfit⟩ := fits_lit hok hu
  have hN0 : 0 < cfg.maxNoll.toNat := by unfold firstMode at hN; split at hN <;> omega
  have hcoef : out.coefs = c := by
    have := refit E.lstsq hN0 hd hs hs hfit hfit hind (fun s => out.coefs s - c s) (Or.inr fun k l hkl => by
      rw [hw k l hkl, hph k l hkl]
      refine Finset.sum_congr rfl fun s _ => ?_
      rw [sub_sub_cancel])
    funext s
    have := congrFun this s
    simp only [sub_sub_cancel] at this
    exact this
  have := unchanged E hok hr1 hr2 hg1 hg2 h6 hu (fun _ s hs => by rw [hcoef]; exact hc s hs) (fun _ _ k l hkl => by rw [hcoef]; exact hph k l hkl)
  exact ⟨this.1, this.2, hcoef⟩

/-- The second call, in detail. -/
theorem settles_core (E : FlattenEnv) (cmd1 cmd2 : Arr2 ℝ) (cmdFCM : ℤ) (useDMs useFCM highZern : Bool) (lam : ℝ)
    (amp ph ph' : Arr2 ℝ) (diam xo yo : ℝ) (dm1 dm2 : DmCal) (fc : FcmCal) (cfg : FlattenCfg) (out out' : FlattenOut cfg.maxNoll.toNat)
    (hok : flatten E cmd1 cmd2 cmdFCM useDMs useFCM highZern lam amp ph diam xo yo dm1 dm2 fc cfg = .ok out)
    (hok' : flatten E out.cmd1 out.cmd2 out.fcm useDMs useFCM highZern lam amp ph' diam xo yo dm1 dm2 fc cfg = .ok out')
    (hr1 : PokeRegular E.spline dm1) (hr2 : PokeRegular E.spline dm2) (hg1 : NoZeroGain dm1) (hg2 : NoZeroGain dm2)
    (h6 : max (max (wfeShape dm1).1 (wfeShape dm2).1) (max (wfeShape dm1).2 (wfeShape dm2).2) ≠ 1000000)
    (u : Arr2 Bool) (hu : LitPixels amp dm1 dm2 cfg u) (hind : ModesIndependent u cfg.maxNoll.toNat diam xo yo)
    (hobey : Obeys useDMs useFCM highZern out.coefs (focusMoved useFCM fc lam cmdFCM out.fcm) u ph ph' diam xo yo) :
    out'.cmd1 = out.cmd1 ∧ out'.cmd2 = out.cmd2 ∧ out'.fcm = out.fcm ∧
    (useDMs = true → ∀ s : Fin cfg.maxNoll.toNat, firstMode useFCM ≤ (s : ℕ) + 1 → out'.coefs s = 0) ∧
    (useDMs = true → highZern = true → ∀ k l : ℤ, u.centered k l = some true → (ph'.centered k l).getD 0 =
      ∑ s : Fin cfg.maxNoll.toNat, out'.coefs s * mode ((s : ℕ) + 1) (diam / 2) (l - xo) (k - yo)) := by
  obtain ⟨hl, hd, hN, hf, wfe, hs, hw, hfit⟩ := fits_lit hok hu
  obtain ⟨-, -, -, hf', wfe', hs', hw', hfit'⟩ := fits_lit hok' hu
  set mv := focusMoved useFCM fc lam cmdFCM out.fcm with hmv
  have hN4 : 4 ≤ cfg.maxNoll.toNat := by unfold firstMode at hN; split at hN <;> omega
  have hlow : (if useFCM then 5 else 4) ≤ cfg.maxNoll.toNat := hN
  set e : Fin cfg.maxNoll.toNat → ℝ := fun s => (if useDMs = true ∧ firstMode useFCM ≤ (s : ℕ) + 1 then out.coefs s else 0) +
    (if (s : ℕ) + 1 = 4 then mv else 0) with he
  have hfocus : ∀ r x y : ℝ, ∑ s : Fin cfg.maxNoll.toNat, (if (s : ℕ) + 1 = 4 then mv else 0) * mode ((s : ℕ) + 1) r x y = mv * mode 4 r x y := by
    intro r x y
    rw [Finset.sum_eq_single (⟨3, by omega⟩ : Fin cfg.maxNoll.toNat)]
    · simp
    · intro s _ hne
      have : ¬ ((s : ℕ) + 1 = 4) := fun h => hne (Fin.ext (by simp only; omega))
      rw [if_neg this, zero_mul]
    · intro h; exact absurd (Finset.mem_univ _) h
  have hup : useDMs = true → ∀ r x y : ℝ, ∑ s : Fin cfg.maxNoll.toNat, e s * mode ((s : ℕ) + 1) r x y =
      zernPart (List.ofFn out.coefs) (if useFCM then 5 else 4) cfg.maxNoll.toNat r x y + mv * mode 4 r x y := by
    intro hD r x y
    rw [← hfocus, zernPart_fin _ _ _ (by split <;> omega) le_rfl, ← Finset.sum_add_distrib]
    refine Finset.sum_congr rfl fun s _ => ?_
    simp only [he, hD, true_and]
    rw [← add_mul]
    congr 2
    have : (firstMode useFCM ≤ (s : ℕ) + 1) ↔ ((if useFCM then 5 else 4) ≤ (s : ℕ) + 1 ∧ (s : ℕ) + 1 ≤ cfg.maxNoll.toNat) := by
      have := s.isLt
      unfold firstMode
      constructor
      · intro h; exact ⟨h, by omega⟩
      · exact fun h => h.1
    exact if_congr this rfl rfl
  have hright : useDMs = true → highZern = true → ∀ k l : ℤ, u.centered k l = some true → (ph'.centered k l).getD 0 =
      ∑ s : Fin cfg.maxNoll.toNat, (out.coefs s - e s) * mode ((s : ℕ) + 1) (diam / 2) (l - xo) (k - yo) := by
    intro hD hH k l hkl
    rw [hobey k l hkl, hD, hH]
    simp only [sub_mul, Finset.sum_sub_distrib]
    rw [hup hD, ← zernPart_all]
    simp only [if_true, leftOver]
    cases hF : useFCM with
    | true =>
      simp only [if_true]
      rw [← zernPart_split _ 1 4 cfg.maxNoll.toNat (by omega) (by omega)]
      ring
    | false =>
      simp only [Bool.false_eq_true, if_false]
      rw [← zernPart_split _ 1 3 cfg.maxNoll.toNat (by omega) (by omega)]
      ring
  have hcoef : out'.coefs = fun s => out.coefs s - e s := by
    refine refit E.lstsq (by omega) hd hs hs' hfit hfit' hind e ?_
    cases hD : useDMs with
    | false =>
      left
      intro k l hkl
      rw [hw k l hkl, hw' k l hkl, hobey k l hkl, hD]
      simp only [Bool.false_eq_true, if_false]
      congr 1
      rw [← hfocus]
      refine Finset.sum_congr rfl fun s _ => ?_
      simp [he, hD]
    | true =>
      cases hH : highZern with
      | false =>
        left
        intro k l hkl
        rw [hw k l hkl, hw' k l hkl, hobey k l hkl, hD, hH, hup hD]
        simp only [if_true, leftOver, Bool.false_eq_true, if_false]
        ring
      | true =>
        right
        intro k l hkl
        rw [hw' k l hkl]
        exact hright hD hH k l hkl
  have hzero : useDMs = true → ∀ s : Fin cfg.maxNoll.toNat, firstMode useFCM ≤ (s : ℕ) + 1 → out'.coefs s = 0 := by
    intro hD s hs
    rw [hcoef]
    simp only [he, hD, hs, and_self, if_true]
    by_cases h4 : (s : ℕ) + 1 = 4
    · rw [if_pos h4]
      have hF : useFCM = false := by
        cases hF : useFCM with
        | false => rfl
        | true => rw [hF] at hs; unfold firstMode at hs; simp at hs; omega
      have : mv = 0 := by rw [hmv]; unfold focusMoved; rw [hF]; rfl
      rw [this]; ring
    · rw [if_neg h4]; ring
  have hrest : useDMs = true → highZern = true → ∀ k l : ℤ, u.centered k l = some true → (ph'.centered k l).getD 0 =
      ∑ s : Fin cfg.maxNoll.toNat, out'.coefs s * mode ((s : ℕ) + 1) (diam / 2) (l - xo) (k - yo) := by
    intro hD hH k l hkl
    rw [hcoef]
    exact hright hD hH k l hkl
  have hun := unchanged E hok' hr1 hr2 hg1 hg2 h6 hu hzero hrest
  refine ⟨hun.1, hun.2, ?_, hzero, hrest⟩
  unfold fcmStep at hf hf'
  cases hF : useFCM with
  | false =>
    rw [hF] at hf'
    simp only [Bool.false_eq_true, if_false] at hf'
    exact (Except.ok.inj hf').symm
  | true =>
    rw [hF] at hf hf'
    simp only [if_true] at hf hf'
    by_cases h0 : fc.focusPerStroke = 0 ∨ fc.strokePerStep = 0
    · rw [if_pos h0] at hf; cases hf
    rw [if_neg h0] at hf hf'
    push Not at h0
    have e1 := Except.ok.inj hf
    have e2 := Except.ok.inj hf'
    have g : ∀ c : Fin cfg.maxNoll.toNat → ℝ, ((List.ofFn c)[3]?).getD 0 = c ⟨3, by omega⟩ := by
      intro c
      rw [List.getElem?_ofFn, dif_pos (by omega)]
      rfl
    rw [g] at e1 e2
    rw [← e2]
    refine Eq.trans ?_ e1
    congr 1
    rw [hcoef]
    have hm : mv = ((out.fcm : ℝ) - cmdFCM) * fc.strokePerStep * fc.focusPerStroke * (2 * Real.pi / lam) := by
      rw [hmv]; unfold focusMoved; rw [hF]; rfl
    have he3 : e ⟨3, by omega⟩ = mv := by
      simp only [he]
      rw [if_neg (by rw [hF]; unfold firstMode; simp)]
      simp
    simp only [he3, hm]
    have := h0.1
    have := h0.2
    have := hl.ne'
    have := Real.pi_ne_zero
    field_simp
    ring

/-- **C122.** Settling.  If the instrument obeys the commands of one call, a second call changes nothing, neither the mirrors nor the focus mechanism,
whatever the phase, the flags and the split between the mirrors. -/
theorem C122_settles (E : FlattenEnv) (cmd1 cmd2 : Arr2 ℝ) (cmdFCM : ℤ) (useDMs useFCM highZern : Bool) (lam : ℝ)
    (amp ph ph' : Arr2 ℝ) (diam xo yo : ℝ) (dm1 dm2 : DmCal) (fc : FcmCal) (cfg : FlattenCfg) (out out' : FlattenOut cfg.maxNoll.toNat)
    (hok : flatten E cmd1 cmd2 cmdFCM useDMs useFCM highZern lam amp ph diam xo yo dm1 dm2 fc cfg = .ok out)
    (hok' : flatten E out.cmd1 out.cmd2 out.fcm useDMs useFCM highZern lam amp ph' diam xo yo dm1 dm2 fc cfg = .ok out')
    (hr1 : PokeRegular E.spline dm1) (hr2 : PokeRegular E.spline dm2) (hg1 : NoZeroGain dm1) (hg2 : NoZeroGain dm2)
    (h6 : max (max (wfeShape dm1).1 (wfeShape dm2).1) (max (wfeShape dm1).2 (wfeShape dm2).2) ≠ 1000000)
    (u : Arr2 Bool) (hu : LitPixels amp dm1 dm2 cfg u) (hind : ModesIndependent u cfg.maxNoll.toNat diam xo yo)
    (hobey : Obeys useDMs useFCM highZern out.coefs (focusMoved useFCM fc lam cmdFCM out.fcm) u ph ph' diam xo yo) :
    out'.cmd1 = out.cmd1 ∧ out'.cmd2 = out.cmd2 ∧ out'.fcm = out.fcm := by
  obtain ⟨a, b, c, -⟩ := settles_core E cmd1 cmd2 cmdFCM useDMs useFCM highZern lam amp ph ph' diam xo yo dm1 dm2 fc cfg out out' hok hok' hr1 hr2 hg1 hg2 h6 u hu hind hobey
  exact ⟨a, b, c⟩

/-- **C122.** Any number of calls.  In a history of calls, each with the commands of the one before and with the phase that the obedient instrument then
shows, the commands of both mirrors and of the focus mechanism, and the phase at the illuminated pixels, stay as they are after the first call. -/
theorem C122_history (E : FlattenEnv) (useDMs useFCM highZern : Bool) (lam : ℝ) (amp : Arr2 ℝ) (diam xo yo : ℝ) (dm1 dm2 : DmCal) (fc : FcmCal)
    (cfg : FlattenCfg) (cmd1 cmd2 ph : ℕ → Arr2 ℝ) (fcm : ℕ → ℤ) (out : ℕ → FlattenOut cfg.maxNoll.toNat)
    (hcall : ∀ t, flatten E (cmd1 t) (cmd2 t) (fcm t) useDMs useFCM highZern lam amp (ph t) diam xo yo dm1 dm2 fc cfg = .ok (out t))
    (hnext : ∀ t, cmd1 (t + 1) = (out t).cmd1 ∧ cmd2 (t + 1) = (out t).cmd2 ∧ fcm (t + 1) = (out t).fcm)
    (hr1 : PokeRegular E.spline dm1) (hr2 : PokeRegular E.spline dm2) (hg1 : NoZeroGain dm1) (hg2 : NoZeroGain dm2)
    (h6 : max (max (wfeShape dm1).1 (wfeShape dm2).1) (max (wfeShape dm1).2 (wfeShape dm2).2) ≠ 1000000)
    (u : Arr2 Bool) (hu : LitPixels amp dm1 dm2 cfg u) (hind : ModesIndependent u cfg.maxNoll.toNat diam xo yo)
    (hobey : ∀ t, Obeys useDMs useFCM highZern (out t).coefs (focusMoved useFCM fc lam (fcm t) (fcm (t + 1))) u (ph t) (ph (t + 1)) diam xo yo)
    (t : ℕ) (ht : 1 ≤ t) :
    cmd1 t = cmd1 1 ∧ cmd2 t = cmd2 1 ∧ fcm t = fcm 1 ∧
      ∀ k l : ℤ, u.centered k l = some true → ((ph t).centered k l).getD 0 = ((ph 1).centered k l).getD 0 := by
  induction t, ht using Nat.le_induction with
  | base => exact ⟨rfl, rfl, rfl, fun _ _ _ => rfl⟩
  | succ t ht ih =>
    obtain ⟨s, rfl⟩ := Nat.exists_eq_add_of_le' ht
    obtain ⟨n1, n2, n3⟩ := hnext s
    have hc := hcall (s + 1)
    rw [n1, n2, n3] at hc
    have ho := hobey s
    rw [n3] at ho
    obtain ⟨a, b, c, hzero, hrest⟩ := settles_core E (cmd1 s) (cmd2 s) (fcm s) useDMs useFCM highZern lam amp (ph s) (ph (s + 1)) diam xo yo dm1 dm2 fc cfg
      (out s) (out (s + 1)) (hcall s) hc hr1 hr2 hg1 hg2 h6 u hu hind ho
    obtain ⟨m1, m2, m3⟩ := hnext (s + 1)
    refine ⟨by rw [m1, a, ← n1]; exact ih.1, by rw [m2, b, ← n2]; exact ih.2.1, by rw [m3, c, ← n3]; exact ih.2.2.1, fun k l hkl => ?_⟩
    rw [← ih.2.2.2 k l hkl, hobey (s + 1) k l hkl]
    have hm : focusMoved useFCM fc lam (fcm (s + 1)) (fcm (s + 1 + 1)) = 0 := by
      rw [m3, c, ← n3]; unfold focusMoved; simp
    rw [hm, zero_mul, sub_zero]
    obtain ⟨-, -, hN, -⟩ := fits_lit (hcall s) hu
    cases hD : useDMs with
    | false => rfl
    | true =>
      simp only [if_true, leftOver]
      have hlow : (if useFCM then 5 else 4) ≤ cfg.maxNoll.toNat := hN
      have z0 : zernPart (List.ofFn (out (s + 1)).coefs) (if useFCM then 5 else 4) cfg.maxNoll.toNat (diam / 2) (l - xo) (k - yo) = 0 := by
        rw [zernPart_fin _ _ _ (by split <;> omega) le_rfl]
        refine Finset.sum_eq_zero fun q _ => ?_
        by_cases hq : (if useFCM then 5 else 4) ≤ (q : ℕ) + 1 ∧ (q : ℕ) + 1 ≤ cfg.maxNoll.toNat
        · rw [if_pos hq, hzero hD q hq.1, zero_mul]
        · rw [if_neg hq, zero_mul]
      cases hH : highZern with
      | false =>
        simp only [Bool.false_eq_true, if_false]
        rw [z0, sub_zero]
      | true =>
        simp only [if_true]
        rw [hrest hD hH k l hkl, ← zernPart_all]
        cases hF : useFCM with
        | true =>
          rw [hF] at z0 hlow
          simp only [if_true] at z0 hlow ⊢
          rw [← zernPart_split _ 1 4 cfg.maxNoll.toNat (by omega) (by omega), z0, add_zero]
        | false =>
          rw [hF] at z0 hlow
          simp only [Bool.false_eq_true, if_false] at z0 hlow ⊢
          rw [← zernPart_split _ 1 3 cfg.maxNoll.toNat (by omega) (by omega), z0, add_zero]

/-- **C122.** When the condition on the pixels is met: the first `N` modes are independent on the illuminated pixels if these contain all crossings of
`d + 1` rows and `d + 1` columns, where `d` is the radial order of the last mode. -/
theorem C122_enough_pixels (u : Arr2 Bool) (N d : ℕ) (hd : N ≤ (d + 1) * (d + 2) / 2) (diam xo yo : ℝ) (hb : 0 < diam) (rows cols : Finset ℤ)
    (hr : d < rows.card) (hc : d < cols.card) (hu : ∀ k ∈ rows, ∀ l ∈ cols, u.centered k l = some true) : ModesIndependent u N diam xo yo := by
  intro c hz
  have inj : ∀ o : ℝ, Function.Injective fun k : ℤ => (k : ℝ) - o := by
    intro o a b h
    have h : (a : ℝ) - o = (b : ℝ) - o := h
    exact_mod_cast (sub_left_inj.mp h)
  refine expansion_zero N d hd (diam / 2) (by linarith) c (cols.image fun l : ℤ => (l : ℝ) - xo) (rows.image fun k : ℤ => (k : ℝ) - yo)
    (by rwa [Finset.card_image_of_injective _ (inj _)]) (by rwa [Finset.card_image_of_injective _ (inj _)]) ?_
  intro x hx y hy
  obtain ⟨l, hl, rfl⟩ := Finset.mem_image.mp hx
  obtain ⟨k, hk, rfl⟩ := Finset.mem_image.mp hy
  have := hz k l (hu k hk l hl)
  rw [zernPart_all] at this
  rw [← this]
  refine Finset.sum_congr rfl fun s _ => ?_
  have hm := zernSample_mode ((s : ℕ) + 1) (by omega)
  push_cast at hm
  rw [hm]

/-! ### The hypotheses can be met

The sample mirrors and the sample pupil of `Props/Conjugate`, with the first ten modes. -/

theorem sample_lit (t1 t2 : Arr2 ℤ) : ∃ u, LitPixels sampleAmp (sampleDm t1) (sampleDm t2) ⟨10, 3, 10, 1⟩ u ∧ (u.nr = 8 ∧ u.nc = 8) ∧
    ∀ k l : ℤ, u.centered k l = some true ↔ ((-2 ≤ k ∧ k ≤ 1) ∧ (-2 ≤ l ∧ l ≤ 1)) := by
  obtain ⟨u, hu, u1, u2, hpx⟩ := C12_two_level sampleAmp 10 0 1 one_pos (by norm_num)
    (by
      intro v hv
      obtain ⟨i, j, hij⟩ := (mem_pixels _ _).mp hv
      by_cases hb : (0 ≤ i ∧ i < (8 : ℕ)) ∧ (0 ≤ j ∧ j < (8 : ℕ))
      · unfold sampleAmp at hij
        rw [px_lit _ _ _ _ _ hb] at hij
        rw [← Option.some.inj hij]
        simp only
        split <;> simp
      · rw [Arr2.px_of_not_inB sampleAmp hb] at hij; cases hij)
    ((mem_pixels _ _).mpr ⟨0, 0, by rw [sampleAmp, px_lit _ _ _ _ _ (by decide)]; norm_num⟩)
    ((mem_pixels _ _).mpr ⟨4, 4, by rw [sampleAmp, px_lit _ _ _ _ _ (by decide)]; simp⟩)
  have hcrop : padCrop sampleAmp [8, 8] 0 = .ok sampleAmp := by
    obtain ⟨o, ho, o1, o2, o3⟩ := C01_pad_crop_registered sampleAmp 8 8 0 (by norm_num) (by norm_num)
    rw [ho]
    congr 1
    refine Arr2.ext_px (by have : sampleAmp.nr = 8 := rfl; omega) (by have : sampleAmp.nc = 8 := rfl; omega) fun i j e1 e2 e3 e4 => ?_
    have := o3 (i - 4) (j - 4) (by unfold Reaches; omega)
    unfold Arr2.centered at this
    rw [o1, o2, show ((sampleAmp.nr : ℕ) : ℤ) = 8 from rfl, show ((sampleAmp.nc : ℕ) : ℤ) = 8 from rfl,
      show (8 : ℤ) / 2 + (i - 4) = i by omega, show (8 : ℤ) / 2 + (j - 4) = j by omega] at this
    rw [this, Arr2.px_of_inB sampleAmp (by have h1 : sampleAmp.nr = 8 := rfl; have h2 : sampleAmp.nc = 8 := rfl; omega)]
  have r1 : u.nr = 8 := u1
  have r2 : u.nc = 8 := u2
  refine ⟨u, ⟨sampleAmp, by rw [sample_shape, sample_shape]; exact hcrop, hu⟩, ⟨r1, r2⟩, fun k l => ?_⟩
  unfold Arr2.centered
  rw [hpx, r1, r2]
  by_cases hb : (0 ≤ (4 : ℤ) + k ∧ (4 : ℤ) + k < (8 : ℕ)) ∧ (0 ≤ (4 : ℤ) + l ∧ (4 : ℤ) + l < (8 : ℕ))
  · rw [show ((8 : ℕ) : ℤ) / 2 = 4 by norm_num, sampleAmp, px_lit _ _ _ _ _ hb]
    simp only [Option.map_some, Option.some.injEq, decide_eq_true_eq]
    split
    · next h => simp; omega
    · next h => simp; omega
  · rw [show ((8 : ℕ) : ℤ) / 2 = 4 by norm_num, Arr2.px_of_not_inB sampleAmp hb]
    simp
    omega

theorem sample_regular (S : Spline) (t : Arr2 ℤ) : PokeRegular S (sampleDm t) ∧ NoZeroGain (sampleDm t) := by
  refine ⟨?_, fun i j => one_ne_zero⟩
  intro A hA
  obtain ⟨A', hA', hdet⟩ := cross_regular S
  have hp : (sampleDm t).pitch / ((sampleDm t).pitch / (sampleDm t).ppactD) = ((1 : ℕ) : ℝ) := by norm_num [sampleDm]
  rw [hp] at hA
  have : (Except.ok A : Res _) = .ok A' := hA.symm.trans hA'
  rw [Except.ok.inj this]
  exact hdet

theorem sample_independent (u : Arr2 Bool)
    (hl : ∀ k l : ℤ, u.centered k l = some true ↔ ((-2 ≤ k ∧ k ≤ 1) ∧ (-2 ≤ l ∧ l ≤ 1))) : ModesIndependent u 10 4 0.25 (-0.5) :=
  C122_enough_pixels u 10 3 (by norm_num) 4 0.25 (-0.5) (by norm_num) (Finset.Icc (-2) 1) (Finset.Icc (-2) 1) (by simp) (by simp)
    fun k hk l hl' => (hl k l).mpr ⟨Finset.mem_Icc.mp hk, Finset.mem_Icc.mp hl'⟩

/-- Whatever the state of the mirrors and the phase, there is a call of `flatten` and a phase that obeys it. -/
theorem sample_step (E : FlattenEnv) (t1 t2 : Arr2 ℤ) (h1 : t1.nr = 2 ∧ t1.nc = 2) (h2 : t2.nr = 2 ∧ t2.nc = 2) (b1 b2 b3 : Bool) (u : Arr2 Bool)
    (hu : LitPixels sampleAmp (sampleDm t1) (sampleDm t2) ⟨10, 3, 10, 1⟩ u)
    (hl : ∀ k l : ℤ, u.centered k l = some true ↔ ((-2 ≤ k ∧ k ≤ 1) ∧ (-2 ≤ l ∧ l ≤ 1)))
    (s : Arr2 ℝ × Arr2 ℝ × ℤ × Arr2 ℝ) (hs1 : s.1.nr = 2 ∧ s.1.nc = 2) (hs2 : s.2.1.nr = 2 ∧ s.2.1.nc = 2) :
    ∃ (out : FlattenOut 10) (ph' : Arr2 ℝ), flatten E s.1 s.2.1 s.2.2.1 b1 b2 b3 1 sampleAmp s.2.2.2 4 0.25 (-0.5) (sampleDm t1) (sampleDm t2) ⟨1, 2⟩
        ⟨10, 3, 10, 1⟩ = .ok out ∧ (out.cmd1.nr = 2 ∧ out.cmd1.nc = 2) ∧ (out.cmd2.nr = 2 ∧ out.cmd2.nc = 2) ∧
      Obeys b1 b2 b3 out.coefs (focusMoved b2 ⟨1, 2⟩ 1 s.2.2.1 out.fcm) u s.2.2.2 ph' 4 0.25 (-0.5) := by
  obtain ⟨am, ham, hua⟩ := hu
  have h5 : ceilOdd ((1 : ℝ) * 4) = 5 := by
    have : ⌈(1 : ℝ) * 4⌉ = 4 := by rw [one_mul]; exact_mod_cast Int.ceil_intCast (R := ℝ) 4
    unfold ceilOdd
    simp only [this]
    norm_num
  obtain ⟨out, ho⟩ := C48_returns E s.1 s.2.1 s.2.2.1 b1 b2 b3 1 sampleAmp s.2.2.2 4 0.25 (-0.5) _ _ ⟨1, 2⟩ ⟨10, 3, 10, 1⟩ 2 one_pos (by norm_num) hs1 hs2
    (sample_ok t1 h1) (sample_ok t2 h2) ⟨one_ne_zero, two_ne_zero⟩ (by norm_num) (by norm_num) (by norm_num) one_pos (by norm_num)
    am u ham hua ⟨0, 0, (hl 0 0).mpr (by norm_num), by unfold Reaches; simp only [h5]; norm_num⟩
  obtain ⟨-, wk, q1, q2, hh, d1, d2, e1, e2, e3, e4, e5, e6, e7, e8, -⟩ := flatten_inv ho
  obtain ⟨o1, -, -⟩ := subCmd_px e7
  obtain ⟨o2, -, -⟩ := subCmd_px e8
  let g : ℤ → ℤ → ℝ := fun k l => (if b1 then leftOver b2 b3 out.coefs s.2.2.2 4 0.25 (-0.5) k l else (s.2.2.2.centered k l).getD 0) -
      focusMoved b2 ⟨1, 2⟩ 1 s.2.2.1 out.fcm * mode 4 (4 / 2) (l - 0.25) (k - (-0.5))
  refine ⟨out, ⟨8, 8, fun i j => g ((i : ℕ) - 4) ((j : ℕ) - 4)⟩, ho, ⟨o1.1.trans hs1.1, o1.2.trans hs1.2⟩, ⟨o2.1.trans hs2.1, o2.2.trans hs2.2⟩, ?_⟩
  intro k l hkl
  have hb := (hl k l).mp hkl
  unfold Arr2.centered
  simp only
  rw [px_lit _ _ _ _ _ (by omega)]
  simp only [Option.getD_some]
  have ek : ((((8 : ℕ) : ℤ) / 2 + k).toNat : ℤ) - 4 = k := by omega
  have el : ((((8 : ℕ) : ℤ) / 2 + l).toNat : ℤ) - 4 = l := by omega
  rw [ek, el]
  rfl

/-- A history that meets the hypotheses of `C122_history` (and so of `C122_settles`) exists for every first phase, all flags and tie maps: the pupil
covers 4 x 4 pixels, is fitted with ten modes about a point off the centre, and the focus mechanism is used or not. -/
example (E : FlattenEnv) (t1 t2 : Arr2 ℤ) (h1 : t1.nr = 2 ∧ t1.nc = 2) (h2 : t2.nr = 2 ∧ t2.nc = 2) (b1 b2 b3 : Bool) (ph0 : Arr2 ℝ) (fcm0 : ℤ) :
    ∃ (u : Arr2 Bool) (cmd1 cmd2 ph : ℕ → Arr2 ℝ) (fcm : ℕ → ℤ) (out : ℕ → FlattenOut 10), ph 0 = ph0 ∧ fcm 0 = fcm0 ∧
      (∀ t, flatten E (cmd1 t) (cmd2 t) (fcm t) b1 b2 b3 1 sampleAmp (ph t) 4 0.25 (-0.5) (sampleDm t1) (sampleDm t2) ⟨1, 2⟩ ⟨10, 3, 10, 1⟩ = .ok (out t)) ∧
      (∀ t, cmd1 (t + 1) = (out t).cmd1 ∧ cmd2 (t + 1) = (out t).cmd2 ∧ fcm (t + 1) = (out t).fcm) ∧
      LitPixels sampleAmp (sampleDm t1) (sampleDm t2) ⟨10, 3, 10, 1⟩ u ∧ ModesIndependent u 10 4 0.25 (-0.5) ∧
      (∀ t, Obeys b1 b2 b3 (out t).coefs (focusMoved b2 ⟨1, 2⟩ 1 (fcm t) (fcm (t + 1))) u (ph t) (ph (t + 1)) 4 0.25 (-0.5)) := by
  obtain ⟨u, hu, hs, hl⟩ := sample_lit t1 t2
  let St := {s : Arr2 ℝ × Arr2 ℝ × ℤ × Arr2 ℝ // (s.1.nr = 2 ∧ s.1.nc = 2) ∧ (s.2.1.nr = 2 ∧ s.2.1.nc = 2)}
  have step : ∀ s : St, ∃ p : FlattenOut 10 × Arr2 ℝ, flatten E s.1.1 s.1.2.1 s.1.2.2.1 b1 b2 b3 1 sampleAmp s.1.2.2.2 4 0.25 (-0.5) (sampleDm t1)
        (sampleDm t2) ⟨1, 2⟩ ⟨10, 3, 10, 1⟩ = .ok p.1 ∧ ((p.1.cmd1.nr = 2 ∧ p.1.cmd1.nc = 2) ∧ (p.1.cmd2.nr = 2 ∧ p.1.cmd2.nc = 2)) ∧
      Obeys b1 b2 b3 p.1.coefs (focusMoved b2 ⟨1, 2⟩ 1 s.1.2.2.1 p.1.fcm) u s.1.2.2.2 p.2 4 0.25 (-0.5) := by
    intro s
    obtain ⟨o, p, a, b, c, d⟩ := sample_step E t1 t2 h1 h2 b1 b2 b3 u hu hl s.1 s.2.1 s.2.2
    exact ⟨(o, p), a, ⟨b, c⟩, d⟩
  choose f hf1 hf2 hf3 using step
  let st : ℕ → St := fun t => Nat.rec (⟨(Arr2.full 2 2 0, Arr2.full 2 2 0, fcm0, ph0), ⟨rfl, rfl⟩, rfl, rfl⟩ : St)
    (fun _ s => ⟨((f s).1.cmd1, (f s).1.cmd2, (f s).1.fcm, (f s).2), hf2 s⟩) t
  exact ⟨u, fun t => (st t).1.1, fun t => (st t).1.2.1, fun t => (st t).1.2.2.2, fun t => (st t).1.2.2.1, fun t => (f (st t)).1, rfl, rfl,
    fun t => hf1 (st t), fun t => ⟨rfl, rfl, rfl⟩, hu, sample_independent u hl, fun t => hf3 (st t)⟩

/-- The other hypotheses, and the phase of `C122_at_rest`: a tilted plane. -/
example (S : Spline) (t1 t2 : Arr2 ℤ) : (PokeRegular S (sampleDm t1) ∧ NoZeroGain (sampleDm t1)) ∧
    max (max (wfeShape (sampleDm t1)).1 (wfeShape (sampleDm t2)).1) (max (wfeShape (sampleDm t1)).2 (wfeShape (sampleDm t2)).2) ≠ 1000000 ∧
    ∃ c : Fin 10 → ℝ, c ≠ 0 ∧ ∀ s : Fin 10, firstMode false ≤ (s : ℕ) + 1 → c s = 0 := by
  refine ⟨sample_regular S t1, by rw [sample_shape, sample_shape]; norm_num, fun s => if (s : ℕ) = 1 then 1 else 0, ?_, ?_⟩
  · intro h
    have := congrFun h 1
    simp at this
  · intro s hs
    unfold firstMode at hs
    simp only [Bool.false_eq_true, if_false] at hs
    exact if_neg (by omega)

end Coralign.Props
