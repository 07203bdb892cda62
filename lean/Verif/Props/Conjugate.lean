import Verif.Props.ConjugateSplit
import Verif.Props.AmpThresh
import Verif.Props.DmShapes

/-!
# Properties C47 and C48: flattening the wavefront
-/

namespace Coralign.Props

open Coralign Finset

/-! ### Taking `flatten` apart -/

theorem flatten_inv {E : FlattenEnv} {cmd1 cmd2 : Arr2 ℝ} {cmdFCM : ℤ} {useDMs useFCM highZern : Bool} {lam : ℝ}
    {amp ph : Arr2 ℝ} {diam xo yo : ℝ} {dm1 dm2 : DmCal} {fc : FcmCal} {cfg : FlattenCfg} {out : FlattenOut cfg.maxNoll.toNat}
    (h : flatten E cmd1 cmd2 cmdFCM useDMs useFCM highZern lam amp ph diam xo yo dm1 dm2 fc cfg = .ok out) :
    0 < lam ∧ ∃ wk h1 h2 hh d1 d2,
      flattenSurfaces E useDMs useFCM highZern amp ph diam xo yo dm1 dm2 cfg = .ok wk ∧
      convSurfToDmCmd E.spline E.rotate E.spsolve wk.surf1 dm1 = .ok h1 ∧
      convSurfToDmCmd E.spline E.rotate E.spsolve wk.surf2 dm2 = .ok h2 ∧
      reassign h1 h2 dm1.nact.toNat dm2.nact.toNat dm1.tie dm2.tie = .ok hh ∧
      dmhToVolts dm1.gain hh.1 lam = .ok d1 ∧ dmhToVolts dm2.gain hh.2 lam = .ok d2 ∧
      subCmd cmd1 d1 = .ok out.cmd1 ∧ subCmd cmd2 d2 = .ok out.cmd2 ∧
      fcmStep useFCM cmdFCM (((List.ofFn wk.coefs)[3]?).getD 0) lam fc = .ok out.fcm ∧ out.coefs = wk.coefs ∧
      cmd1.nr = cmd1.nc ∧ cmd2.nr = cmd2.nc := by
  unfold flatten at h
  by_cases hc : cmd1.nr ≠ cmd1.nc ∨ cmd2.nr ≠ cmd2.nc ∨ lam ≤ 0
  · rw [if_pos hc] at h; cases h
  rw [if_neg hc] at h
  push Not at hc
  obtain ⟨wk, e1, h⟩ := res_bind_ok h
  obtain ⟨h1, e2, h⟩ := res_bind_ok h
  obtain ⟨h2, e3, h⟩ := res_bind_ok h
  obtain ⟨hh, e4, h⟩ := res_bind_ok h
  obtain ⟨d1, e5, h⟩ := res_bind_ok h
  obtain ⟨d2, e6, h⟩ := res_bind_ok h
  obtain ⟨o1, e7, h⟩ := res_bind_ok h
  obtain ⟨o2, e8, h⟩ := res_bind_ok h
  obtain ⟨f, e9, h⟩ := res_bind_ok h
  obtain rfl := Except.ok.inj h
  exact ⟨hc.2.2, wk, h1, h2, hh, d1, d2, e1, e2, e3, e4, e5, e6, e7, e8, e9, rfl, hc.1, hc.2.1⟩

theorem conv_shape {S : Spline} {R : Rotate} {L : SpSolve} {surf h : Arr2 ℝ} {dm : DmCal}
    (hok : convSurfToDmCmd S R L surf dm = .ok h) : h.nr = dm.nact.toNat ∧ h.nc = dm.nact.toNat ∧ 0 < dm.nact := by
  unfold convSurfToDmCmd at hok
  by_cases c1 : dm.pitch ≤ 0 ∨ dm.ppactCx ≤ 0 ∨ dm.ppactCy ≤ 0 ∨ dm.nact ≤ 0 ∨ dm.ppactD ≤ 0
  · rw [if_pos c1] at hok; cases hok
  rw [if_neg c1] at hok
  push Not at c1
  by_cases c2 : dm.inf.nr ≠ dm.inf.nc
  · rw [if_pos c2] at hok; cases hok
  rw [if_neg c2] at hok
  simp only at hok
  generalize R.run dm.thact (if dm.flipx = true then surf.fliplr else surf) = s2 at hok
  by_cases c3 : s2.nr < 4 ∨ s2.nc < 4
  · rw [if_pos c3] at hok; cases hok
  · rw [if_neg c3] at hok
    obtain ⟨A, -, hok⟩ := res_bind_ok hok
    unfold fitSurfToDm at hok
    split at hok
    · cases hok
    · obtain rfl := Except.ok.inj hok
      exact ⟨rfl, rfl, c1.2.2.2.1⟩

theorem subCmd_px {cmd d o : Arr2 ℝ} (h : subCmd cmd d = .ok o) : (o.nr = cmd.nr ∧ o.nc = cmd.nc) ∧ (d.nr = cmd.nr ∧ d.nc = cmd.nc) ∧
    ∀ i j, o.zext i j = cmd.zext i j - d.zext i j := by
  unfold subCmd at h
  split at h
  · next hs =>
    obtain rfl := Except.ok.inj h
    refine ⟨⟨rfl, rfl⟩, ⟨hs.1.symm, hs.2.symm⟩, fun i j => ?_⟩
    by_cases hb : (0 ≤ i ∧ i < cmd.nr) ∧ (0 ≤ j ∧ j < cmd.nc)
    · rw [zext_in (a := cmd) hb, zext_in (a := d) (by omega)]
      refine Eq.trans (zext_in ?_) ?_
      · exact hb
      · rfl
    · rw [zext_out (a := cmd) hb, zext_out (a := d) (by omega)]
      refine Eq.trans (zext_out ?_) (by simp)
      exact hb
  · cases h

theorem volts_px {g h d : Arr2 ℝ} {lam : ℝ} (hok : dmhToVolts g h lam = .ok d) :
    (d.nr = h.nr ∧ d.nc = h.nc) ∧ (g.nr = h.nr ∧ g.nc = h.nc) ∧
    ∀ i j, d.zext i j = h.zext i j * lam / (2 * Real.pi) / g.zext i j := by
  unfold dmhToVolts at hok
  split at hok
  · cases hok
  · split at hok
    · next hs =>
      obtain rfl := Except.ok.inj hok
      refine ⟨⟨rfl, rfl⟩, ⟨hs.1.symm, hs.2.symm⟩, fun i j => ?_⟩
      by_cases hb : (0 ≤ i ∧ i < h.nr) ∧ (0 ≤ j ∧ j < h.nc)
      · rw [zext_in (a := h) hb, zext_in (a := g) (by omega)]
        refine Eq.trans (zext_in ?_) ?_
        · exact hb
        · rfl
      · rw [zext_out (a := h) hb, zext_out (a := g) (by omega)]
        refine Eq.trans (zext_out ?_) (by simp)
        exact hb
    · cases hok

theorem px_lit {α : Type} (n m : ℕ) (f : Fin n → Fin m → α) (i j : ℤ) (h : (0 ≤ i ∧ i < n) ∧ (0 ≤ j ∧ j < m)) :
    (⟨n, m, f⟩ : Arr2 α).px i j = some (f ⟨i.toNat, by omega⟩ ⟨j.toNat, by omega⟩) := Arr2.px_of_inB ⟨n, m, f⟩ h

theorem zext_mk (n m : ℕ) (f : ℤ → ℤ → ℝ) (i j : ℤ) :
    (⟨n, m, fun a b => f (a : ℕ) (b : ℕ)⟩ : Arr2 ℝ).zext i j = if (0 ≤ i ∧ i < n) ∧ (0 ≤ j ∧ j < m) then f i j else 0 := by
  split
  · next h =>
    rw [zext_in (a := ⟨n, m, _⟩) h]
    simp only
    rw [Int.toNat_of_nonneg h.1.1, Int.toNat_of_nonneg h.2.1]
  · next h => rw [zext_out (a := ⟨n, m, _⟩) h]

theorem val_zext (a : Arr2 ℝ) : a = ⟨a.nr, a.nc, fun i j => a.zext (i : ℕ) (j : ℕ)⟩ := by
  obtain ⟨n, m, v⟩ := a
  congr
  funext i j
  exact (Arr2.zext_val ⟨n, m, v⟩ i j).symm

theorem reassign_px {h1 h2 : Arr2 ℝ} {n1 n2 : ℕ} {t1 t2 : Arr2 ℤ} {hh : Arr2 ℝ × Arr2 ℝ}
    (hok : reassign h1 h2 n1 n2 t1 t2 = .ok hh) :
    (h1.nr = h2.nr ∧ h1.nc = h2.nc) ∧ (t1.nr = n1 ∧ t1.nc = n1) ∧ (t2.nr = n2 ∧ t2.nc = n2) ∧
    (hh.1.nr = h1.nr ∧ hh.1.nc = h1.nc) ∧ (hh.2.nr = h1.nr ∧ hh.2.nc = h1.nc) ∧
    ∀ i j : ℤ, (0 ≤ i ∧ i < h1.nr) ∧ (0 ≤ j ∧ j < h1.nc) →
      hh.1.zext i j = (if isDead t1 i j then 0 else h1.zext i j + if isDead t2 i j then h2.zext i j else 0) ∧
      hh.2.zext i j = (if isDead t2 i j then 0 else h2.zext i j + if isDead t1 i j then h1.zext i j else 0) := by
  unfold reassign at hok
  by_cases c1 : ¬ (t1.nr = n1 ∧ t1.nc = n1)
  · rw [if_pos c1] at hok; cases hok
  rw [if_neg c1] at hok
  by_cases c2 : ¬ (h1.nr = h2.nr ∧ h1.nc = h2.nc)
  · rw [if_pos c2] at hok; cases hok
  rw [if_neg c2] at hok
  by_cases c3 : ¬ (t2.nr = n2 ∧ t2.nc = n2)
  · rw [if_pos c3] at hok; cases hok
  rw [if_neg c3] at hok
  obtain rfl := Except.ok.inj hok
  refine ⟨not_not.mp c2, not_not.mp c1, not_not.mp c3, ⟨rfl, rfl⟩, ⟨(not_not.mp c2).1.symm, (not_not.mp c2).2.symm⟩, ?_⟩
  intro i j hb
  have hs := not_not.mp c2
  have b2 : (0 ≤ i ∧ i < h2.nr) ∧ (0 ≤ j ∧ j < h2.nc) := by omega
  have i0 : ((i.toNat : ℕ) : ℤ) = i := Int.toNat_of_nonneg hb.1.1
  have j0 : ((j.toNat : ℕ) : ℤ) = j := Int.toNat_of_nonneg hb.2.1
  have e2 : ∀ f : Fin h2.nr → Fin h2.nc → ℝ, (⟨h2.nr, h2.nc, f⟩ : Arr2 ℝ).zext i j = f ⟨i.toNat, by omega⟩ ⟨j.toNat, by omega⟩ :=
    fun f => zext_in (a := ⟨h2.nr, h2.nc, f⟩) b2
  have e1 : ∀ f : Fin h1.nr → Fin h1.nc → ℝ, (⟨h1.nr, h1.nc, f⟩ : Arr2 ℝ).zext i j = f ⟨i.toNat, by omega⟩ ⟨j.toNat, by omega⟩ :=
    fun f => zext_in (a := ⟨h1.nr, h1.nc, f⟩) hb
  have v1 : h1.zext i j = h1.val ⟨i.toNat, by omega⟩ ⟨j.toNat, by omega⟩ := zext_in hb
  have v2 : h2.zext i j = h2.val ⟨i.toNat, by omega⟩ ⟨j.toNat, by omega⟩ := zext_in b2
  constructor
  · have e2' := e2 (fun i j => h2.val i j + (if isDead t1 (i : ℕ) (j : ℕ) = true then 1 else 0) * h1.zext (i : ℕ) (j : ℕ))
    refine (e1 _).trans ?_
    simp only [i0, j0] at e2' ⊢
    rw [e2', ← v1, ← v2]
    by_cases d1 : isDead t1 i j = true <;> by_cases d2 : isDead t2 i j = true <;> simp [d1, d2]
  · refine (e2 _).trans ?_
    simp only [i0, j0]
    rw [← v2]
    by_cases d1 : isDead t1 i j = true <;> by_cases d2 : isDead t2 i j = true <;> simp [d1, d2]

theorem reassign_ok {h1 h2 : Arr2 ℝ} {n1 n2 : ℕ} {t1 t2 : Arr2 ℤ} (s0 : h1.nr = h2.nr ∧ h1.nc = h2.nc)
    (s1 : t1.nr = n1 ∧ t1.nc = n1) (s2 : t2.nr = n2 ∧ t2.nc = n2) : ∃ hh, reassign h1 h2 n1 n2 t1 t2 = .ok hh := by
  unfold reassign
  rw [if_neg (not_not.mpr s1), if_neg (not_not.mpr s0), if_neg (not_not.mpr s2)]
  exact ⟨_, rfl⟩

/-! ### C47 -/

/-- Specification: actuator `(i, j)` of a mirror is dead. -/
def Dead (dm : DmCal) (i j : ℤ) : Prop := dm.tie.px i j = some (-1)

/-- The same mirror with no dead actuator. -/
def _root_.Coralign.DmCal.healed (dm : DmCal) : DmCal := { dm with tie := dm.tie.map fun _ => 0 }

/-- Specification: the phase, in radians, by which a change of command moves actuator `(i, j)`: command change times gain, in
wavelengths, times 2 pi. -/
noncomputable def strokeAt (dm : DmCal) (lam : ℝ) (before after : Arr2 ℝ) (i j : ℤ) : ℝ :=
  (before.zext i j - after.zext i j) * dm.gain.zext i j * (2 * Real.pi) / lam

theorem healed_shape (dm : DmCal) : wfeShape dm.healed = wfeShape dm := rfl

theorem healed_width (dm : DmCal) : smoothWidth dm.healed = smoothWidth dm := rfl

theorem healed_surfaces (E : FlattenEnv) (useDMs useFCM highZern : Bool) (amp ph : Arr2 ℝ) (diam xo yo : ℝ) (dm1 dm2 : DmCal)
    (cfg : FlattenCfg) : flattenSurfaces E useDMs useFCM highZern amp ph diam xo yo dm1.healed dm2.healed cfg =
      flattenSurfaces E useDMs useFCM highZern amp ph diam xo yo dm1 dm2 cfg := by
  unfold flattenSurfaces
  simp only [healed_shape, healed_width]

theorem healed_conv (S : Spline) (R : Rotate) (L : SpSolve) (s : Arr2 ℝ) (dm : DmCal) :
    convSurfToDmCmd S R L s dm.healed = convSurfToDmCmd S R L s dm := by
  unfold convSurfToDmCmd DmCal.healed
  rfl

theorem isDead_iff (dm : DmCal) (i j : ℤ) : isDead dm.tie i j = true ↔ Dead dm i j := by
  unfold isDead Dead; exact decide_eq_true_iff

theorem healed_alive (dm : DmCal) (i j : ℤ) : isDead dm.healed.tie i j = false := by
  rw [Bool.eq_false_iff]
  intro h
  rw [isDead_iff] at h
  unfold Dead DmCal.healed at h
  simp only [Arr2.px_map] at h
  cases hp : dm.tie.px i j <;> rw [hp] at h <;> simp at h

theorem stroke_eq {cmd d o g h : Arr2 ℝ} {lam : ℝ} (dm : DmCal) (hg : dm.gain = g) (hl : 0 < lam) (hv : dmhToVolts g h lam = .ok d)
    (hs : subCmd cmd d = .ok o) {i j : ℤ} (hne : g.zext i j ≠ 0) : strokeAt dm lam cmd o i j = h.zext i j := by
  unfold strokeAt
  obtain ⟨-, -, e1⟩ := subCmd_px hs
  obtain ⟨-, -, e2⟩ := volts_px hv
  rw [e1, e2, hg]
  have := Real.pi_ne_zero
  have := hl.ne'
  field_simp
  ring

theorem volts_ok {g h : Arr2 ℝ} {lam : ℝ} (hl : 0 < lam) (hs : g.nr = h.nr ∧ g.nc = h.nc) : ∃ d, dmhToVolts g h lam = .ok d := by
  unfold dmhToVolts
  rw [if_neg (by linarith), dif_pos ⟨hs.1.symm, hs.2.symm⟩]
  exact ⟨_, rfl⟩

theorem subCmd_ok {c d : Arr2 ℝ} (hs : c.nr = d.nr ∧ c.nc = d.nc) : ∃ o, subCmd c d = .ok o := by
  unfold subCmd
  rw [dif_pos hs]
  exact ⟨_, rfl⟩

/-- **C47.** Commands of dead actuators are returned unchanged.
Partial: only where the gain map is not zero, see `C47_zero_gain_fails`. -/
theorem C47_dead_unchanged_partial (E : FlattenEnv) (cmd1 cmd2 : Arr2 ℝ) (cmdFCM : ℤ) (useDMs useFCM highZern : Bool) (lam : ℝ)
    (amp ph : Arr2 ℝ) (diam xo yo : ℝ) (dm1 dm2 : DmCal) (fc : FcmCal) (cfg : FlattenCfg) (out : FlattenOut cfg.maxNoll.toNat)
    (hok : flatten E cmd1 cmd2 cmdFCM useDMs useFCM highZern lam amp ph diam xo yo dm1 dm2 fc cfg = .ok out) (i j : ℤ) :
    (Dead dm1 i j → dm1.gain.zext i j ≠ 0 → out.cmd1.px i j = cmd1.px i j) ∧
    (Dead dm2 i j → dm2.gain.zext i j ≠ 0 → out.cmd2.px i j = cmd2.px i j) := by
  obtain ⟨hl, wk, h1, h2, hh, d1, d2, e1, e2, e3, e4, e5, e6, e7, e8, -⟩ := flatten_inv hok
  obtain ⟨s0, t1, t2, s1, s2, hpx⟩ := reassign_px e4
  obtain ⟨v1, g1, p1⟩ := volts_px e5
  obtain ⟨v2, g2, p2⟩ := volts_px e6
  obtain ⟨o1, c1, q1⟩ := subCmd_px e7
  obtain ⟨o2, c2, q2⟩ := subCmd_px e8
  have f1 := conv_shape e2
  have f2 := conv_shape e3
  have fin : ∀ a b : Arr2 ℝ, a.nr = b.nr → a.nc = b.nc → a.zext i j = b.zext i j → a.px i j = b.px i j := by
    intro a b hr hc hz
    by_cases hb : (0 ≤ i ∧ i < a.nr) ∧ (0 ≤ j ∧ j < a.nc)
    · have hb' : (0 ≤ i ∧ i < b.nr) ∧ (0 ≤ j ∧ j < b.nc) := by omega
      rw [zext_in hb, zext_in hb'] at hz
      rw [Arr2.px_of_inB a hb, Arr2.px_of_inB b hb', hz]
    · rw [Arr2.px_of_not_inB a hb, Arr2.px_of_not_inB b (by omega)]
  have key : ∀ dm : DmCal, ∀ n : ℕ, dm.tie.nr = n → dm.tie.nc = n → Dead dm i j → (0 ≤ i ∧ i < n) ∧ (0 ≤ j ∧ j < n) := by
    intro dm n hr hc hd
    unfold Dead at hd
    have : (dm.tie.px i j).isSome := by rw [hd]; rfl
    rw [Arr2.px_isSome] at this
    omega
  constructor
  · intro hd _
    have hb := key dm1 _ t1.1 t1.2 hd
    refine fin _ _ o1.1 o1.2 ?_
    rw [q1, p1, (hpx i j (by omega)).1, if_pos ((isDead_iff dm1 i j).mpr hd)]
    simp
  · intro hd _
    have hb := key dm2 _ t2.1 t2.2 hd
    refine fin _ _ o2.1 o2.2 ?_
    rw [q2, p2, (hpx i j (by omega)).2, if_pos ((isDead_iff dm2 i j).mpr hd)]
    simp

/-- **C47.** Compared with the same call on mirrors without dead actuators: wherever at least one of the two actuators is
alive, the two mirrors together move by the same stroke, and where both are alive each of them does. -/
theorem C47_stroke_conserved (E : FlattenEnv) (cmd1 cmd2 : Arr2 ℝ) (cmdFCM : ℤ) (useDMs useFCM highZern : Bool) (lam : ℝ)
    (amp ph : Arr2 ℝ) (diam xo yo : ℝ) (dm1 dm2 : DmCal) (fc : FcmCal) (cfg : FlattenCfg) (out : FlattenOut cfg.maxNoll.toNat)
    (hok : flatten E cmd1 cmd2 cmdFCM useDMs useFCM highZern lam amp ph diam xo yo dm1 dm2 fc cfg = .ok out) :
    ∃ out0, flatten E cmd1 cmd2 cmdFCM useDMs useFCM highZern lam amp ph diam xo yo dm1.healed dm2.healed fc cfg = .ok out0 ∧
      out0.fcm = out.fcm ∧
      ∀ i j : ℤ, dm1.gain.zext i j ≠ 0 → dm2.gain.zext i j ≠ 0 →
        (¬ (Dead dm1 i j ∧ Dead dm2 i j) →
          strokeAt dm1 lam cmd1 out.cmd1 i j + strokeAt dm2 lam cmd2 out.cmd2 i j =
            strokeAt dm1 lam cmd1 out0.cmd1 i j + strokeAt dm2 lam cmd2 out0.cmd2 i j) ∧
        (¬ Dead dm1 i j → ¬ Dead dm2 i j →
          strokeAt dm1 lam cmd1 out.cmd1 i j = strokeAt dm1 lam cmd1 out0.cmd1 i j ∧
          strokeAt dm2 lam cmd2 out.cmd2 i j = strokeAt dm2 lam cmd2 out0.cmd2 i j) := by
  obtain ⟨hl, wk, h1, h2, hh, d1, d2, e1, e2, e3, e4, e5, e6, e7, e8, e9, e10, sq1, sq2⟩ := flatten_inv hok
  obtain ⟨s0, t1, t2, s1, s2, hpx⟩ := reassign_px e4
  obtain ⟨v1, g1, -⟩ := volts_px e5
  obtain ⟨v2, g2, -⟩ := volts_px e6
  obtain ⟨o1, c1, -⟩ := subCmd_px e7
  obtain ⟨o2, c2, -⟩ := subCmd_px e8
  obtain ⟨hh0, k4⟩ : ∃ hh0, reassign h1 h2 dm1.healed.nact.toNat dm2.healed.nact.toNat dm1.healed.tie dm2.healed.tie = .ok hh0 := by
    exact reassign_ok s0 t1 t2
  obtain ⟨-, -, -, r1, r2, hpx0⟩ := reassign_px k4
  obtain ⟨d10, k5⟩ := volts_ok (g := dm1.gain) (h := hh0.1) hl ⟨(g1.1.trans s1.1).trans r1.1.symm, (g1.2.trans s1.2).trans r1.2.symm⟩
  obtain ⟨d20, k6⟩ := volts_ok (g := dm2.gain) (h := hh0.2) hl ⟨(g2.1.trans s2.1).trans r2.1.symm, (g2.2.trans s2.2).trans r2.2.symm⟩
  obtain ⟨w1, -, -⟩ := volts_px k5
  obtain ⟨w2, -, -⟩ := volts_px k6
  obtain ⟨o10, k7⟩ := subCmd_ok (c := cmd1) (d := d10)
    ⟨((c1.1.symm.trans v1.1).trans s1.1).trans (w1.1.trans r1.1).symm, ((c1.2.symm.trans v1.2).trans s1.2).trans (w1.2.trans r1.2).symm⟩
  obtain ⟨o20, k8⟩ := subCmd_ok (c := cmd2) (d := d20)
    ⟨((c2.1.symm.trans v2.1).trans s2.1).trans (w2.1.trans r2.1).symm, ((c2.2.symm.trans v2.2).trans s2.2).trans (w2.2.trans r2.2).symm⟩
  refine ⟨⟨o10, o20, out.fcm, wk.coefs⟩, ?_, rfl, ?_⟩
  · unfold flatten
    rw [if_neg (by push Not; exact ⟨sq1, sq2, hl⟩)]
    have a1 : flattenSurfaces E useDMs useFCM highZern amp ph diam xo yo dm1.healed dm2.healed cfg = .ok wk :=
      (healed_surfaces ..).trans e1
    have a2 : convSurfToDmCmd E.spline E.rotate E.spsolve wk.surf1 dm1.healed = .ok h1 := (healed_conv ..).trans e2
    have a3 : convSurfToDmCmd E.spline E.rotate E.spsolve wk.surf2 dm2.healed = .ok h2 := (healed_conv ..).trans e3
    have a5 : dmhToVolts dm1.healed.gain hh0.1 lam = .ok d10 := k5
    have a6 : dmhToVolts dm2.healed.gain hh0.2 lam = .ok d20 := k6
    rw [a1, res_ok_bind, a2, res_ok_bind, a3, res_ok_bind, k4, res_ok_bind, a5, res_ok_bind, a6, res_ok_bind, k7, res_ok_bind,
      k8, res_ok_bind, e9, res_ok_bind]
  · intro i j n1 n2
    have b1 : (0 ≤ i ∧ i < dm1.gain.nr) ∧ (0 ≤ j ∧ j < dm1.gain.nc) := by
      by_contra hc; exact n1 (zext_out hc)
    rw [g1.1.trans s1.1, g1.2.trans s1.2] at b1
    have hb := hpx i j b1
    have hb0 := hpx0 i j b1
    rw [healed_alive, healed_alive] at hb0
    simp only [Bool.false_eq_true, if_false, add_zero] at hb0
    rw [stroke_eq dm1 rfl hl e5 e7 n1, stroke_eq dm2 rfl hl e6 e8 n2, stroke_eq dm1 rfl hl k5 k7 n1, stroke_eq dm2 rfl hl k6 k8 n2, hb.1, hb.2, hb0.1, hb0.2]
    rw [← isDead_iff dm1, ← isDead_iff dm2]
    constructor
    · intro hnb
      by_cases x1 : isDead dm1.tie i j = true <;> by_cases x2 : isDead dm2.tie i j = true
      · exact absurd ⟨x1, x2⟩ hnb
      · rw [if_pos x1, if_neg x2, if_pos x1]; ring
      · rw [if_neg x1, if_pos x2, if_pos x2]; ring
      · rw [if_neg x1, if_neg x2, if_neg x2, if_neg x1]; ring
    · intro x1 x2
      rw [if_neg x1, if_neg x2, if_neg x2, if_neg x1, add_zero, add_zero]
      exact ⟨rfl, rfl⟩

/-! ### C48: the desired surfaces -/

theorem crop_at {α : Type} {a o : Arr2 α} {h w : ℤ} {ev : α} (he : padCrop a [h, w] ev = .ok o) :
    (o.nr : ℤ) = h ∧ (o.nc : ℤ) = w ∧
    ∀ k l, Reaches h w k l → o.centered k l = some ((a.centered k l).getD ev) := by
  obtain ⟨hh, hw⟩ := padCrop_pos he
  obtain ⟨o', ho', hr, hc, hv⟩ := C01_pad_crop_registered a h w ev hh hw
  rw [he] at ho'
  obtain rfl := Except.ok.inj ho'
  refine ⟨hr, hc, fun k l hkl => ?_⟩
  rw [hv k l hkl]
  cases a.centered k l <;> rfl

theorem centered_reaches {α : Type} {a : Arr2 α} {k l : ℤ} {v : α} (h : a.centered k l = some v) : Reaches a.nr a.nc k l := by
  unfold Arr2.centered at h
  have : (a.px ((a.nr : ℤ) / 2 + k) ((a.nc : ℤ) / 2 + l)).isSome := by rw [h]; rfl
  rw [Arr2.px_isSome] at this
  exact this

theorem mem_selectList {u : Arr2 Bool} {a : Arr2 ℝ} {i j : ℤ} (h : u.px i j = some true) : a.zext i j ∈ selectList u a := by
  have hb : (0 ≤ i ∧ i < u.nr) ∧ (0 ≤ j ∧ j < u.nc) := by
    rw [← Arr2.px_isSome, h]; rfl
  unfold selectList
  rw [List.mem_flatMap]
  refine ⟨⟨i.toNat, by omega⟩, List.mem_finRange _, ?_⟩
  rw [List.mem_filterMap]
  refine ⟨⟨j.toNat, by omega⟩, List.mem_finRange _, ?_⟩
  rw [Arr2.px_of_inB u hb] at h
  rw [if_pos (Option.some.inj h)]
  simp only
  rw [Int.toNat_of_nonneg hb.1.1, Int.toNat_of_nonneg hb.2.1]

theorem zext_map (f : ℝ → ℝ) (hf : f 0 = 0) (a : Arr2 ℝ) (i j : ℤ) : (a.map f).zext i j = f (a.zext i j) := by
  unfold Arr2.zext
  rw [Arr2.px_map]
  cases a.px i j <;> simp [hf]

theorem clamp_keeps {u : Arr2 Bool} {a o : Arr2 ℝ} (h : clampPhase u a = .ok o) (hs : u.nr = a.nr ∧ u.nc = a.nc) :
    (o.nr = a.nr ∧ o.nc = a.nc) ∧ ∀ i j, u.px i j = some true → o.zext i j = a.zext i j := by
  unfold clampPhase at h
  cases hlo : (selectList u a).min? with
  | none => rw [hlo] at h; cases h
  | some lo =>
    cases hhi : (selectList u a).max? with
    | none => rw [hlo, hhi] at h; cases h
    | some hi =>
      rw [hlo, hhi] at h
      obtain rfl := Except.ok.inj h
      refine ⟨⟨rfl, rfl⟩, fun i j hu => ?_⟩
      have hm := mem_selectList (a := a) hu
      have h1 := (List.min?_eq_some_iff.mp hlo).2 _ hm
      have h2 := (List.max?_eq_some_iff.mp hhi).2 _ hm
      have hb : (0 ≤ i ∧ i < a.nr) ∧ (0 ≤ j ∧ j < a.nc) := by
        have : (u.px i j).isSome := by rw [hu]; rfl
        rw [Arr2.px_isSome] at this; omega
      rw [zext_in (a := a.map _) hb]
      rw [zext_in hb] at h1 h2 ⊢
      simp only [Arr2.map]
      rw [if_neg (not_lt.mpr h1), if_neg (not_lt.mpr h2)]

theorem reset_zext (u : Arr2 Bool) (p s : Arr2 ℝ) (i j : ℤ) (hs : u.nr = s.nr ∧ u.nc = s.nc) :
    (resetPupil u p s).zext i j = if u.px i j = some true then p.zext i j / 2 else s.zext i j := by
  have e : resetPupil u p s = ⟨s.nr, s.nc, fun i j => (fun x y : ℤ => if u.px x y = some true then p.zext x y / 2 else s.zext x y)
      (i : ℕ) (j : ℕ)⟩ := by
    unfold resetPupil
    congr
    funext i j
    change _ = if u.px (i : ℕ) (j : ℕ) = some true then p.zext (i : ℕ) (j : ℕ) / 2 else s.zext (i : ℕ) (j : ℕ)
    rw [Arr2.zext_val]
  rw [e]
  rw [zext_mk s.nr s.nc (fun x y : ℤ => if u.px x y = some true then p.zext x y / 2 else s.zext x y) i j]
  by_cases hb : (0 ≤ i ∧ i < s.nr) ∧ (0 ≤ j ∧ j < s.nc)
  · rw [if_pos hb]
  · rw [if_neg hb, Arr2.px_of_not_inB u (by omega), zext_out hb]; simp

theorem smoothLoop_keeps {B : BoxSmooth} {u : Arr2 Bool} {p : Arr2 ℝ} {w : ℤ} (n : ℕ) (s o : Arr2 ℝ)
    (h : smoothLoop B u p w n s = .ok o) (hs : u.nr = s.nr ∧ u.nc = s.nc)
    (hv : ∀ i j, u.px i j = some true → s.zext i j = p.zext i j / 2) :
    (o.nr = s.nr ∧ o.nc = s.nc) ∧ ∀ i j, u.px i j = some true → o.zext i j = p.zext i j / 2 := by
  induction n generalizing s with
  | zero =>
    obtain rfl := Except.ok.inj h
    exact ⟨⟨rfl, rfl⟩, hv⟩
  | succ n ih =>
    unfold smoothLoop at h
    obtain ⟨t, ht, h⟩ := res_bind_ok h
    have hsh : t.nr = s.nr ∧ t.nc = s.nc := by
      unfold smoothSurface at ht
      split at ht
      · cases ht
      · have := crop_at ht; omega
    have := ih (resetPupil u p t) h (by unfold resetPupil; simp only; omega) (by
      intro i j hu
      rw [reset_zext u p t i j (by omega), if_pos hu])
    refine ⟨⟨this.1.1.trans hsh.1, this.1.2.trans hsh.2⟩, this.2⟩

/-- Inside the pupil the desired surface is half the phase, whatever happens outside. -/
theorem desired_keeps {B : BoxSmooth} {hz : Bool} {n : ℕ} {w m : ℤ} {u : Arr2 Bool} {phase s : Arr2 ℝ}
    (h : desiredSurface B hz n w m u phase = .ok s) (hu : (u.nr : ℤ) = m ∧ (u.nc : ℤ) = m) :
    ((s.nr : ℤ) = m ∧ (s.nc : ℤ) = m) ∧ ∀ k l v, u.centered k l = some true → phase.centered k l = some v →
      s.centered k l = some (v / 2) := by
  unfold desiredSurface at h
  obtain ⟨p, hp, h⟩ := res_bind_ok h
  obtain ⟨p0, hp0, h⟩ := res_bind_ok h
  obtain ⟨q1, q2, q3⟩ := crop_at hp
  obtain ⟨c1, c2⟩ := clamp_keeps hp0 (by omega)
  have c3 : ∀ i j, u.px i j = some true → (p0.map fun v => v / 2).zext i j = p0.zext i j / 2 := by
    intro i j _
    rw [zext_map _ (by norm_num)]
  have key : (s.nr = p0.nr ∧ s.nc = p0.nc) ∧ ∀ i j, u.px i j = some true → s.zext i j = p0.zext i j / 2 := by
    cases hz with
    | true =>
      simp only [if_true] at h
      exact smoothLoop_keeps n (p0.map fun v => v / 2) _ h (by simp only [Arr2.map_nr, Arr2.map_nc]; omega) c3
    | false =>
      simp only [Bool.false_eq_true, if_false] at h
      obtain rfl := Except.ok.inj h
      exact ⟨⟨rfl, rfl⟩, c3⟩
  refine ⟨by omega, fun k l v huk hv => ?_⟩
  have hr := centered_reaches huk
  rw [hu.1, hu.2] at hr
  have e := q3 k l hr
  rw [hv, Option.getD_some] at e
  unfold Arr2.centered at e huk ⊢
  have i1 : (s.nr : ℤ) = u.nr := by omega
  have i2 : (s.nc : ℤ) = u.nc := by omega
  have i3 : (p.nr : ℤ) = u.nr := by omega
  have i4 : (p.nc : ℤ) = u.nc := by omega
  rw [i3, i4] at e
  rw [i1, i2]
  have f := key.2 _ _ huk
  rw [c2 _ _ huk] at f
  unfold Reaches at hr
  unfold Arr2.zext at f
  rw [e, Option.getD_some] at f
  rw [Arr2.px_of_inB s (by omega)] at f ⊢
  rw [Option.getD_some] at f
  rw [f]

theorem split_sum {F : FminBound} {hz : Bool} {low high : Arr2 ℝ} {u : Arr2 Bool} {sh1 sh2 : ℤ × ℤ} {ps : Arr2 ℝ × Arr2 ℝ}
    (h : splitPhase F true hz low high u sh1 sh2 = .ok ps) :
    ((ps.1.nr = low.nr ∧ ps.1.nc = low.nc) ∧ ps.2.nr = low.nr ∧ ps.2.nc = low.nc) ∧
    ∀ i j a b, u.px i j = some true → low.px i j = some a → high.px i j = some b →
      ∃ x y, ps.1.px i j = some x ∧ ps.2.px i j = some y ∧ x + y = a + if hz then b else 0 := by
  unfold splitPhase at h
  simp only [if_true] at h
  cases hz with
  | true =>
    simp only [if_true] at h
    obtain ⟨al, -, h⟩ := res_bind_ok h
    obtain rfl := Except.ok.inj h
    refine ⟨⟨⟨rfl, rfl⟩, rfl, rfl⟩, fun i j a b hu ha hb => ?_⟩
    have hin : (0 ≤ i ∧ i < low.nr) ∧ (0 ≤ j ∧ j < low.nc) := by rw [← Arr2.px_isSome, ha]; rfl
    rw [Arr2.px_of_inB low hin] at ha
    refine ⟨_, _, px_lit _ _ _ i j hin, px_lit _ _ _ i j hin, ?_⟩
    rw [Int.toNat_of_nonneg hin.1.1, Int.toNat_of_nonneg hin.2.1, Option.some.inj ha]
    unfold boolVal Arr2.zext
    rw [hu, hb]
    simp
    ring
  | false =>
    simp only [Bool.false_eq_true, if_false] at h
    obtain rfl := Except.ok.inj h
    refine ⟨⟨⟨rfl, rfl⟩, rfl, rfl⟩, fun i j a b hu ha hb => ⟨0.5 * a, 0.5 * a, ?_, ?_, ?_⟩⟩
    · simp only [Arr2.px_map, ha]; rfl
    · simp only [Arr2.px_map, ha]; rfl
    · simp only [Bool.false_eq_true, if_false]; ring

theorem ampthresh_size {a : Arr2 ℝ} {n : ℤ} {u : Arr2 Bool} (h : ampthresh a n = .ok u) : u.nr = a.nr ∧ u.nc = a.nc := by
  unfold ampthresh at h
  split at h
  · cases h
  · split at h
    · cases h
    · obtain rfl := Except.ok.inj h
      exact ⟨rfl, rfl⟩

theorem surfaces_inv {E : FlattenEnv} {useDMs useFCM highZern : Bool} {amp ph : Arr2 ℝ} {diam xo yo : ℝ} {dm1 dm2 : DmCal}
    {cfg : FlattenCfg} {wk : FlattenWork cfg.maxNoll.toNat}
    (h : flattenSurfaces E useDMs useFCM highZern amp ph diam xo yo dm1 dm2 cfg = .ok wk) :
    0 < diam ∧ 0 < cfg.maxNoll ∧ ∃ wfeIn ampIn u z1 z4 z5 ps,
      padCrop ph [max (wfeShape dm1).1 (wfeShape dm2).1, max (wfeShape dm1).2 (wfeShape dm2).2] 0 = .ok wfeIn ∧
      padCrop amp [max (wfeShape dm1).1 (wfeShape dm2).1, max (wfeShape dm1).2 (wfeShape dm2).2] 0 = .ok ampIn ∧
      ampthresh ampIn cfg.nBin = .ok u ∧
      fitZernikes E.lstsq wfeIn u cfg.maxNoll diam xo yo = .ok wk.coefs ∧
      genSplitWfe useFCM cfg.maxNoll (List.ofFn wk.coefs) diam (max (wfeShape dm1).1 (wfeShape dm2).1)
        (max (wfeShape dm1).2 (wfeShape dm2).2) xo yo = .ok (z1, z4, z5) ∧
      splitPhase E.fmin useDMs highZern z5 (aboveZmax wfeIn z1 z4 z5 u) u (wfeShape dm1) (wfeShape dm2) = .ok ps ∧
      padCrop u [ceilOdd (cfg.arrayExtFac * diam), ceilOdd (cfg.arrayExtFac * diam)] false = .ok wk.usable ∧
      desiredSurface E.smooth highZern cfg.nIterSmooth.toNat (smoothWidth dm1) (ceilOdd (cfg.arrayExtFac * diam)) wk.usable ps.1
        = .ok wk.surf1 ∧
      desiredSurface E.smooth highZern cfg.nIterSmooth.toNat (smoothWidth dm2) (ceilOdd (cfg.arrayExtFac * diam)) wk.usable ps.2
        = .ok wk.surf2 := by
  unfold flattenSurfaces at h
  by_cases c1 : diam ≤ 0
  · rw [if_pos c1] at h; cases h
  rw [if_neg c1] at h
  by_cases c2 : cfg.maxNoll ≤ 0 ∨ cfg.nIterSmooth ≤ 0 ∨ cfg.nBin ≤ 0 ∨ cfg.arrayExtFac ≤ 0
  · rw [if_pos c2] at h; cases h
  rw [if_neg c2] at h
  push Not at c2
  obtain ⟨wfeIn, e1, h⟩ := res_bind_ok h
  obtain ⟨ampIn, e2, h⟩ := res_bind_ok h
  obtain ⟨u, e3, h⟩ := res_bind_ok h
  obtain ⟨c, e4, h⟩ := res_bind_ok h
  obtain ⟨⟨z1, z4, z5⟩, e5, h⟩ := res_bind_ok h
  obtain ⟨ps, e6, h⟩ := res_bind_ok h
  obtain ⟨uc, e7, h⟩ := res_bind_ok h
  obtain ⟨s1, e8, h⟩ := res_bind_ok h
  obtain ⟨s2, e9, h⟩ := res_bind_ok h
  obtain rfl := Except.ok.inj h
  exact ⟨not_le.mp c1, c2.1, wfeIn, ampIn, u, z1, z4, z5, ps, e1, e2, e3, e4, e5, e6, e7, e8, e9⟩

/-- When the mirrors are used, the two desired surfaces together - reflection counts twice - make up exactly the
requested correction at every usable pixel, whatever the split factor: with high orders, the measured phase less the fitted modes
that the mirrors do not correct (1-3, and 4 when the focus mechanism takes it); without, the remaining fitted modes. -/
theorem surfaces_sum (E : FlattenEnv) (useFCM highZern : Bool) (amp ph : Arr2 ℝ) (diam xo yo : ℝ) (dm1 dm2 : DmCal)
    (cfg : FlattenCfg) (wk : FlattenWork cfg.maxNoll.toNat)
    (hok : flattenSurfaces E true useFCM highZern amp ph diam xo yo dm1 dm2 cfg = .ok wk)
    (h6 : max (max (wfeShape dm1).1 (wfeShape dm2).1) (max (wfeShape dm1).2 (wfeShape dm2).2) ≠ 1000000)
    (k l : ℤ) (hu : wk.usable.centered k l = some true) :
    ∃ s1 s2, wk.surf1.centered k l = some s1 ∧ wk.surf2.centered k l = some s2 ∧
      2 * (s1 + s2) =
        if highZern then (ph.centered k l).getD 0 -
          zernPart (List.ofFn wk.coefs) 1 (if useFCM then 4 else 3) (diam / 2) (l - xo) (k - yo)
        else zernPart (List.ofFn wk.coefs) (if useFCM then 5 else 4) cfg.maxNoll.toNat (diam / 2) (l - xo) (k - yo) := by
  obtain ⟨hd, hN, wfeIn, ampIn, u, z1, z4, z5, ps, e1, e2, e3, e4, e5, e6, e7, e8, e9⟩ := surfaces_inv hok
  generalize hny : max (wfeShape dm1).1 (wfeShape dm2).1 = ny at *
  generalize hnx : max (wfeShape dm1).2 (wfeShape dm2).2 = nx at *
  obtain ⟨pny, pnx⟩ := padCrop_pos e1
  obtain ⟨w1, w2, w3⟩ := crop_at e1
  obtain ⟨a1, a2, a3⟩ := crop_at e2
  obtain ⟨u1, u2⟩ := ampthresh_size e3
  obtain ⟨m1, m2, m3⟩ := crop_at e7
  have hus := (crop_at e7).2.2 k l (by have := centered_reaches hu; rwa [m1, m2] at this)
  rw [hu] at hus
  have hut : u.centered k l = some true := by
    cases hc : u.centered k l with
    | none => rw [hc] at hus; simp at hus
    | some b => rw [hc] at hus; simp at hus; rw [← hus]
  have hr := centered_reaches hut
  have hrn : Reaches ny nx k l := by
    unfold Reaches at hr ⊢; omega
  have hacc := (C50_accepts_iff _ _ _ _ _ _ _ _).mp ⟨_, e5⟩
  have hNN : ((cfg.maxNoll.toNat : ℕ) : ℤ) = cfg.maxNoll := Int.toNat_of_nonneg hN.le
  have hlow : (if useFCM then 5 else 4) ≤ cfg.maxNoll.toNat := by
    have := hacc.1
    cases useFCM <;> simp at this ⊢ <;> omega
  obtain ⟨b1, b4, b5, f5, ⟨g1, g1'⟩, ⟨g4, g4'⟩, ⟨g5, g5'⟩, hv⟩ :=
    split_eq useFCM cfg.maxNoll.toNat (List.ofFn wk.coefs) diam ny nx xo yo hlow hd pny pnx
  rw [hNN, e5] at f5
  simp only [Except.ok.injEq, Prod.mk.injEq] at f5
  obtain ⟨rfl, rfl, rfl⟩ := f5
  obtain ⟨v1, v4, v5⟩ := hv h6 k l hrn
  have vw := w3 k l hrn
  obtain ⟨⟨⟨q1, q1'⟩, q2, q2'⟩, hsum⟩ := split_sum e6
  have hcomb := hsum (ny / 2 + k) (nx / 2 + l) _ ((wfeIn.zext (ny / 2 + k) (nx / 2 + l) - z5.zext (ny / 2 + k) (nx / 2 + l) -
      z4.zext (ny / 2 + k) (nx / 2 + l) - z1.zext (ny / 2 + k) (nx / 2 + l)) * boolVal u (ny / 2 + k) (nx / 2 + l))
    (by unfold Arr2.centered at hut; rwa [u1, u2, a1, a2] at hut) (by unfold Arr2.centered at v5; rwa [g5, g5'] at v5) (by
      have hb : (0 ≤ ny / 2 + k ∧ ny / 2 + k < wfeIn.nr) ∧ (0 ≤ nx / 2 + l ∧ nx / 2 + l < wfeIn.nc) := by
        unfold Reaches at hrn; omega
      unfold aboveZmax
      refine (px_lit _ _ _ _ _ hb).trans ?_
      rw [zext_in (a := wfeIn) hb, Int.toNat_of_nonneg hb.1.1, Int.toNat_of_nonneg hb.2.1])
  obtain ⟨x, y, hx, hy, hxy⟩ := hcomb
  have hx' : ps.1.centered k l = some x := by
    unfold Arr2.centered; rw [q1, q1', g5, g5']; exact hx
  have hy' : ps.2.centered k l = some y := by
    unfold Arr2.centered; rw [q2, q2', g5, g5']; exact hy
  refine ⟨x / 2, y / 2, (desired_keeps e8 ⟨m1, m2⟩).2 k l x hu hx', (desired_keeps e9 ⟨m1, m2⟩).2 k l y hu hy', ?_⟩
  rw [show 2 * (x / 2 + y / 2) = x + y by ring, hxy]
  cases highZern with
  | false => simp
  | true =>
    simp only [if_true]
    have z1v : z1.zext (ny / 2 + k) (nx / 2 + l) = zernPart (List.ofFn wk.coefs) 1 3 (diam / 2) (l - xo) (k - yo) := by
      unfold Arr2.centered at v1; rw [g1, g1'] at v1; unfold Arr2.zext; rw [v1]; rfl
    have z4v : z4.zext (ny / 2 + k) (nx / 2 + l) =
        if useFCM then zernPart (List.ofFn wk.coefs) 4 4 (diam / 2) (l - xo) (k - yo) else 0 := by
      unfold Arr2.centered at v4; rw [g4, g4'] at v4; unfold Arr2.zext; rw [v4]; rfl
    have z5v : z5.zext (ny / 2 + k) (nx / 2 + l) =
        zernPart (List.ofFn wk.coefs) (if useFCM then 5 else 4) cfg.maxNoll.toNat (diam / 2) (l - xo) (k - yo) := by
      unfold Arr2.centered at v5; rw [g5, g5'] at v5; unfold Arr2.zext; rw [v5]; rfl
    have wv : wfeIn.zext (ny / 2 + k) (nx / 2 + l) = (ph.centered k l).getD 0 := by
      unfold Arr2.centered at vw; rw [w1, w2] at vw; unfold Arr2.zext; rw [vw]; rfl
    have bv : boolVal u (ny / 2 + k) (nx / 2 + l) = 1 := by
      unfold Arr2.centered at hut; rw [u1, u2, a1, a2] at hut; unfold boolVal; rw [if_pos hut]
    rw [z1v, z4v, z5v, wv, bv]
    cases useFCM with
    | true =>
      simp only [if_true]
      rw [← zernPart_split _ 1 3 4 (by omega) (by omega)]; ring
    | false =>
      simp only [Bool.false_eq_true, if_false]; ring

/-! ### C48: leaving the mirrors or the focus mechanism alone -/

/-- Specification: the matrix of unit pokes used in fitting this mirror is non-singular. -/
def PokeRegular (S : Spline) (dm : DmCal) : Prop :=
  ∀ A, buildPrefilter S dm.nact.toNat dm.nact.toNat dm.inf (dm.pitch / (dm.pitch / dm.ppactD)) = .ok A → IsUnit A.det

theorem rotate_zero (R : Rotate) (th : ℝ) (n m : ℕ) : R.run th (Arr2.full n m 0) = Arr2.full n m 0 := by
  refine Arr2.ext_px (R.nr _ _) (R.nc _ _) fun i j h1 h2 h3 h4 => ?_
  have := R.linear th n m (fun _ _ => 0) (fun _ _ => 0) 0 0 i j
  simp only [mul_zero, add_zero, zero_mul] at this
  rw [R.nr] at h2
  rw [R.nc] at h4
  have hb : (0 ≤ i ∧ i < (R.run th (Arr2.full n m 0)).nr) ∧ (0 ≤ j ∧ j < (R.run th (Arr2.full n m 0)).nc) := by
    rw [R.nr, R.nc]; exact ⟨⟨h1, h2⟩, h3, h4⟩
  have hf : (Arr2.full n m (0 : ℝ)).px i j = some 0 := Arr2.px_full_in (nr := n) (nc := m) 0 ⟨⟨h1, h2⟩, h3, h4⟩
  rw [hf, Arr2.px_of_inB _ hb]
  have e : (⟨n, m, fun _ _ => 0⟩ : Arr2 ℝ) = Arr2.full n m 0 := rfl
  rw [e, Arr2.px_of_inB _ hb] at this
  exact congrArg some this

theorem conv_zero {S : Spline} {R : Rotate} {L : SpSolve} {n m : ℕ} {h : Arr2 ℝ} {dm : DmCal} (hreg : PokeRegular S dm)
    (hok : convSurfToDmCmd S R L (Arr2.full n m 0) dm = .ok h) (i j : ℤ) : h.zext i j = 0 := by
  unfold convSurfToDmCmd at hok
  by_cases c1 : dm.pitch ≤ 0 ∨ dm.ppactCx ≤ 0 ∨ dm.ppactCy ≤ 0 ∨ dm.nact ≤ 0 ∨ dm.ppactD ≤ 0
  · rw [if_pos c1] at hok; cases hok
  rw [if_neg c1] at hok
  by_cases c2 : dm.inf.nr ≠ dm.inf.nc
  · rw [if_pos c2] at hok; cases hok
  rw [if_neg c2] at hok
  have e1 : (if dm.flipx = true then (Arr2.full n m (0 : ℝ)).fliplr else Arr2.full n m 0) = Arr2.full n m 0 := by
    split <;> rfl
  simp only [e1, rotate_zero] at hok
  by_cases c3 : (Arr2.full n m (0 : ℝ)).nr < 4 ∨ (Arr2.full n m (0 : ℝ)).nc < 4
  · rw [if_pos c3] at hok; cases hok
  rw [if_neg c3] at hok
  obtain ⟨A, hA, hok⟩ := res_bind_ok hok
  have hdet := hreg A hA
  unfold fitSurfToDm at hok
  split at hok
  · cases hok
  · simp only at hok
    have e2 : (fun k : Fin (((dm.nact.toNat : ℕ) : ℤ).toNat * ((dm.nact.toNat : ℕ) : ℤ).toNat) =>
        (⟨dm.nact.toNat, dm.nact.toNat, fun i j => S.eval (surfCoord (Arr2.full n m (0 : ℝ)).nr dm.ppactCy)
          (surfCoord (Arr2.full n m (0 : ℝ)).nc dm.ppactCx) (Arr2.full n m 0) (dmAxis dm.nact.toNat i + dm.dy / dm.ppactCy)
          (dmAxis dm.nact.toNat j + dm.dx / dm.ppactCx)⟩ : Arr2 ℝ).zext (flatRow dm.nact.toNat k : ℕ) (flatCol dm.nact.toNat k : ℕ))
        = fun _ => 0 := by
      funext k
      have : ∀ r c, S.eval (surfCoord (Arr2.full n m (0 : ℝ)).nr dm.ppactCy) (surfCoord (Arr2.full n m (0 : ℝ)).nc dm.ppactCx)
          (Arr2.full n m 0) r c = 0 := fun r c => S.zero _ _ n m r c
      simp only [this]
      unfold Arr2.zext
      by_cases hb : (0 ≤ ((flatRow dm.nact.toNat k : ℕ) : ℤ) ∧ ((flatRow dm.nact.toNat k : ℕ) : ℤ) < dm.nact.toNat) ∧
          (0 ≤ ((flatCol dm.nact.toNat k : ℕ) : ℤ) ∧ ((flatCol dm.nact.toNat k : ℕ) : ℤ) < dm.nact.toNat)
      · rw [px_lit _ _ _ _ _ hb]; rfl
      · rw [Arr2.px_of_not_inB _ hb]; rfl
    have e3 : L.solve A (fun _ => 0) = fun _ => 0 := by
      apply L.unique A _ _ hdet
      funext k
      simp [Matrix.mulVec, dotProduct]
    simp only [e2, e3] at hok
    obtain rfl := Except.ok.inj hok
    unfold Arr2.zext
    by_cases hb : (0 ≤ i ∧ i < dm.nact.toNat) ∧ (0 ≤ j ∧ j < dm.nact.toNat)
    · rw [px_lit _ _ _ _ _ hb]; simp
    · rw [Arr2.px_of_not_inB _ hb]; rfl

theorem padCrop_zero {n m : ℕ} {h w : ℤ} {o : Arr2 ℝ} (he : padCrop (Arr2.full n m (0 : ℝ)) [h, w] 0 = .ok o) :
    o = Arr2.full h.toNat w.toNat 0 := by
  obtain ⟨hr, hc, hv⟩ := crop_at he
  refine Arr2.ext_px (by simp; omega) (by simp; omega) fun i j h1 h2 h3 h4 => ?_
  have := hv (i - h / 2) (j - w / 2) (by unfold Reaches; omega)
  unfold Arr2.centered at this
  rw [hr, hc, show h / 2 + (i - h / 2) = i by omega, show w / 2 + (j - w / 2) = j by omega] at this
  have hf : (Arr2.full h.toNat w.toNat (0 : ℝ)).px i j = some 0 := Arr2.px_full_in 0 (by omega)
  rw [this, hf, Arr2.px_full]
  split <;> rfl

theorem smoothLoop_zero {B : BoxSmooth} {u : Arr2 Bool} {w : ℤ} (k n m : ℕ) {o : Arr2 ℝ}
    (h : smoothLoop B u (Arr2.full n m 0) w k (Arr2.full n m 0) = .ok o) : o = Arr2.full n m 0 := by
  induction k with
  | zero => exact (Except.ok.inj h).symm
  | succ k ih =>
    unfold smoothLoop at h
    obtain ⟨t, ht, h⟩ := res_bind_ok h
    unfold smoothSurface at ht
    split at ht
    · cases ht
    · rw [B.zero] at ht
      have ht' := padCrop_zero ht
      simp only [Arr2.full_nr, Arr2.full_nc, Int.toNat_natCast] at ht'
      have hr : resetPupil u (Arr2.full n m 0) t = Arr2.full n m 0 := by
        rw [ht']
        unfold resetPupil Arr2.full
        congr
        funext i j
        have hz : (⟨n, m, fun _ _ => 0⟩ : Arr2 ℝ).zext (i : ℕ) (j : ℕ) = 0 := Arr2.zext_val (⟨n, m, fun _ _ => 0⟩ : Arr2 ℝ) i j
        rw [hz]
        split <;> simp
      rw [hr] at h
      exact ih h

theorem desired_zero {B : BoxSmooth} {hz : Bool} {k : ℕ} {w M : ℤ} {u : Arr2 Bool} {n m : ℕ} {s : Arr2 ℝ}
    (hu : (u.nr : ℤ) = M ∧ (u.nc : ℤ) = M)
    (h : desiredSurface B hz k w M u (Arr2.full n m 0) = .ok s) : s = Arr2.full M.toNat M.toNat 0 := by
  unfold desiredSurface at h
  obtain ⟨p, hp, h⟩ := res_bind_ok h
  obtain ⟨p0, hp0, h⟩ := res_bind_ok h
  rw [padCrop_zero hp] at hp0
  have e0 : p0 = Arr2.full M.toNat M.toNat 0 := by
    unfold clampPhase at hp0
    have hall : ∀ x ∈ selectList u (Arr2.full M.toNat M.toNat (0 : ℝ)), x = 0 := by
      intro x hx
      unfold selectList at hx
      rw [List.mem_flatMap] at hx
      obtain ⟨i, -, hx⟩ := hx
      rw [List.mem_filterMap] at hx
      obtain ⟨j, -, hx⟩ := hx
      split at hx
      · have := Option.some.inj hx
        rw [← this]
        unfold Arr2.zext
        rw [Arr2.px_full]
        split <;> rfl
      · cases hx
    cases hlo : (selectList u (Arr2.full M.toNat M.toNat (0 : ℝ))).min? with
    | none => rw [hlo] at hp0; cases hp0
    | some lo =>
      cases hhi : (selectList u (Arr2.full M.toNat M.toNat (0 : ℝ))).max? with
      | none => rw [hlo, hhi] at hp0; cases hp0
      | some hi =>
        rw [hlo, hhi] at hp0
        have l0 := hall _ (List.min?_eq_some_iff.mp hlo).1
        have h0 := hall _ (List.max?_eq_some_iff.mp hhi).1
        subst l0 h0
        obtain rfl := Except.ok.inj hp0
        unfold Arr2.map Arr2.full
        simp
  rw [e0] at h
  have e1 : ((Arr2.full M.toNat M.toNat (0 : ℝ)).map fun v => v / 2) = Arr2.full M.toNat M.toNat 0 := by
    unfold Arr2.map Arr2.full; simp
  rw [e1] at h
  cases hz with
  | true => simp only [if_true] at h; exact smoothLoop_zero _ _ _ h
  | false => simp only [Bool.false_eq_true, if_false] at h; exact (Except.ok.inj h).symm

/-- Specification: no actuator has gain zero. -/
def NoZeroGain (dm : DmCal) : Prop := ∀ i j, dm.gain.val i j ≠ 0

/-- **C48.** Without the mirrors, both DM commands are returned unchanged, if no actuator has gain zero (see C121 for the others). -/
theorem C48_dms_unused (E : FlattenEnv) (cmd1 cmd2 : Arr2 ℝ) (cmdFCM : ℤ) (useFCM highZern : Bool) (lam : ℝ)
    (amp ph : Arr2 ℝ) (diam xo yo : ℝ) (dm1 dm2 : DmCal) (fc : FcmCal) (cfg : FlattenCfg) (out : FlattenOut cfg.maxNoll.toNat)
    (hok : flatten E cmd1 cmd2 cmdFCM false useFCM highZern lam amp ph diam xo yo dm1 dm2 fc cfg = .ok out)
    (hr1 : PokeRegular E.spline dm1) (hr2 : PokeRegular E.spline dm2) (_hg1 : NoZeroGain dm1) (_hg2 : NoZeroGain dm2) : out.cmd1 = cmd1 ∧ out.cmd2 = cmd2 := by
  obtain ⟨hl, wk, h1, h2, hh, d1, d2, e1, e2, e3, e4, e5, e6, e7, e8, -⟩ := flatten_inv hok
  obtain ⟨hd, hN, wfeIn, ampIn, u, z1, z4, z5, ps, -, -, -, -, -, f6, f7, f8, f9⟩ := surfaces_inv e1
  obtain ⟨m1, m2, -⟩ := crop_at f7
  have hps : ps = (Arr2.full (wfeShape dm1).1.toNat (wfeShape dm1).2.toNat 0, Arr2.full (wfeShape dm2).1.toNat (wfeShape dm2).2.toNat 0) := by
    unfold splitPhase at f6
    simp only [Bool.false_eq_true, if_false] at f6
    split at f6
    · cases f6
    · exact (Except.ok.inj f6).symm
  rw [hps] at f8 f9
  rw [desired_zero ⟨m1, m2⟩ f8] at e2
  rw [desired_zero ⟨m1, m2⟩ f9] at e3
  have k1 := fun i j => conv_zero hr1 e2 i j
  have k2 := fun i j => conv_zero hr2 e3 i j
  obtain ⟨s0, -, -, s1, s2, hpx⟩ := reassign_px e4
  obtain ⟨v1, -, p1⟩ := volts_px e5
  obtain ⟨v2, -, p2⟩ := volts_px e6
  obtain ⟨o1, c1, q1⟩ := subCmd_px e7
  obtain ⟨o2, c2, q2⟩ := subCmd_px e8
  have fin : ∀ a b : Arr2 ℝ, a.nr = b.nr → a.nc = b.nc → (∀ i j, a.zext i j = b.zext i j) → a = b := by
    intro a b hr hc hz
    refine Arr2.ext_px hr hc fun i j b1 b2 b3 b4 => ?_
    have hz := hz i j
    have hb : (0 ≤ i ∧ i < a.nr) ∧ (0 ≤ j ∧ j < a.nc) := ⟨⟨b1, b2⟩, b3, b4⟩
    have hb' : (0 ≤ i ∧ i < b.nr) ∧ (0 ≤ j ∧ j < b.nc) := by omega
    rw [zext_in hb, zext_in hb'] at hz
    rw [Arr2.px_of_inB a hb, Arr2.px_of_inB b hb', hz]
  have hz : ∀ i j, hh.1.zext i j = 0 ∧ hh.2.zext i j = 0 := by
    intro i j
    by_cases hb : (0 ≤ i ∧ i < h1.nr) ∧ (0 ≤ j ∧ j < h1.nc)
    · have := hpx i j hb
      rw [k1, k2] at this
      simpa using this
    · rw [zext_out (a := hh.1) (by rw [s1.1, s1.2]; exact hb), zext_out (a := hh.2) (by rw [s2.1, s2.2]; exact hb)]
      exact ⟨rfl, rfl⟩
  exact ⟨fin _ _ o1.1 o1.2 fun i j => by rw [q1, p1, (hz i j).1]; simp,
    fin _ _ o2.1 o2.2 fun i j => by rw [q2, p2, (hz i j).2]; simp⟩

/-- **C48.** The focus mechanism: its command is returned unchanged when it is not used; otherwise the new command is an
integer nearest to the old one plus the steps that remove the fitted focus. -/
theorem C48_fcm (E : FlattenEnv) (cmd1 cmd2 : Arr2 ℝ) (cmdFCM : ℤ) (useDMs useFCM highZern : Bool) (lam : ℝ)
    (amp ph : Arr2 ℝ) (diam xo yo : ℝ) (dm1 dm2 : DmCal) (fc : FcmCal) (cfg : FlattenCfg) (out : FlattenOut cfg.maxNoll.toNat)
    (hok : flatten E cmd1 cmd2 cmdFCM useDMs useFCM highZern lam amp ph diam xo yo dm1 dm2 fc cfg = .ok out) :
    (useFCM = false → out.fcm = cmdFCM) ∧
    (useFCM = true → ∀ h4 : 3 < cfg.maxNoll.toNat,
      |(out.fcm : ℝ) - (cmdFCM + out.coefs ⟨3, h4⟩ * lam / (2 * Real.pi) / fc.focusPerStroke / fc.strokePerStep)| ≤ 1 / 2) := by
  obtain ⟨hl, wk, h1, h2, hh, d1, d2, e1, e2, e3, e4, e5, e6, e7, e8, e9, e10, -⟩ := flatten_inv hok
  unfold fcmStep at e9
  constructor
  · rintro rfl
    simp only [Bool.false_eq_true, if_false] at e9
    exact (Except.ok.inj e9).symm
  · rintro rfl h4
    simp only [if_true] at e9
    split at e9
    · cases e9
    · have e := Except.ok.inj e9
      have hc : (List.ofFn wk.coefs)[3]?.getD 0 = out.coefs ⟨3, h4⟩ := by
        rw [List.getElem?_ofFn, dif_pos h4, e10]; rfl
      rw [hc] at e
      rw [← e, abs_sub_comm]
      exact abs_sub_npRound_le _

/-- **C48.** The coefficients reported are those of the least-squares fit of the measured phase, over the pixels that the
amplitude map shows to be illuminated. -/
theorem C48_coefs (E : FlattenEnv) (cmd1 cmd2 : Arr2 ℝ) (cmdFCM : ℤ) (useDMs useFCM highZern : Bool) (lam : ℝ)
    (amp ph : Arr2 ℝ) (diam xo yo : ℝ) (dm1 dm2 : DmCal) (fc : FcmCal) (cfg : FlattenCfg) (out : FlattenOut cfg.maxNoll.toNat)
    (hok : flatten E cmd1 cmd2 cmdFCM useDMs useFCM highZern lam amp ph diam xo yo dm1 dm2 fc cfg = .ok out) :
    ∃ wfe am u, padCrop ph [max (wfeShape dm1).1 (wfeShape dm2).1, max (wfeShape dm1).2 (wfeShape dm2).2] 0 = .ok wfe ∧
      padCrop amp [max (wfeShape dm1).1 (wfeShape dm2).1, max (wfeShape dm1).2 (wfeShape dm2).2] 0 = .ok am ∧
      ampthresh am cfg.nBin = .ok u ∧ fitZernikes E.lstsq wfe u cfg.maxNoll diam xo yo = .ok out.coefs := by
  obtain ⟨hl, wk, h1, h2, hh, d1, d2, e1, e2, e3, e4, e5, e6, e7, e8, e9, e10, -⟩ := flatten_inv hok
  obtain ⟨hd, hN, wfeIn, ampIn, u, z1, z4, z5, ps, f1, f2, f3, f4, -⟩ := surfaces_inv e1
  exact ⟨wfeIn, ampIn, u, f1, f2, f3, by rw [e10]; exact f4⟩

/-! ### `flatten` returns -/

/-- What is needed of one mirror's calibration data. -/
structure DmOk (dm : DmCal) (n : ℕ) : Prop where
  nact : dm.nact = n
  pos : 0 < n
  pitch : 0 < dm.pitch
  cx : 0 < dm.ppactCx
  cy : 0 < dm.ppactCy
  d : 0 < dm.ppactD
  square : dm.inf.nr = dm.inf.nc
  inf : dm.ppactD = 1 ∨ 4 ≤ dm.inf.nr
  tie : dm.tie.nr = n ∧ dm.tie.nc = n
  gain : dm.gain.nr = n ∧ dm.gain.nc = n
  width : 1 ≤ smoothWidth dm
  rows : 1 ≤ (wfeShape dm).1
  cols : 1 ≤ (wfeShape dm).2

theorem conv_ok (S : Spline) (R : Rotate) (L : SpSolve) (surf : Arr2 ℝ) (dm : DmCal) (n : ℕ) (hdm : DmOk dm n) (hr : 4 ≤ surf.nr)
    (hc : 4 ≤ surf.nc) : ∃ h, convSurfToDmCmd S R L surf dm = .ok h ∧ h.nr = n ∧ h.nc = n := by
  suffices hs : ∃ h, convSurfToDmCmd S R L surf dm = .ok h by
    obtain ⟨h, hh⟩ := hs
    have := conv_shape hh
    rw [hdm.nact, Int.toNat_natCast] at this
    exact ⟨h, hh, this.1, this.2.1⟩
  unfold convSurfToDmCmd
  have := hdm.pos
  rw [if_neg (by rw [hdm.nact]; push Not; exact ⟨hdm.pitch, hdm.cx, hdm.cy, by exact_mod_cast this, hdm.d⟩),
    if_neg (not_not.mpr hdm.square)]
  simp only
  have hsh : 4 ≤ (R.run dm.thact (if dm.flipx = true then surf.fliplr else surf)).nr ∧
      4 ≤ (R.run dm.thact (if dm.flipx = true then surf.fliplr else surf)).nc := by
    rw [R.nr, R.nc]; split <;> exact ⟨hr, hc⟩
  rw [if_neg (by omega)]
  have hp : dm.pitch / (dm.pitch / dm.ppactD) = dm.ppactD := by
    have := hdm.pitch.ne'; have := hdm.d.ne'; field_simp
  obtain ⟨A, hA⟩ : ∃ A, buildPrefilter S dm.nact.toNat dm.nact.toNat dm.inf (dm.pitch / (dm.pitch / dm.ppactD)) = .ok A := by
    have hn : 0 < dm.nact.toNat := by rw [hdm.nact, Int.toNat_natCast]; exact this
    rw [hp]
    unfold buildPrefilter
    rw [if_neg (by omega)]
    obtain ⟨v, hv⟩ : ∃ v, resampleInfFunc S dm.inf dm.ppactD 1 = .ok v := by
      unfold resampleInfFunc
      rw [if_neg (not_le.mpr hdm.d), if_neg (by norm_num)]
      rcases hdm.inf with h1 | h4
      · rw [if_neg (not_not.mpr h1)]; exact ⟨_, rfl⟩
      · by_cases h1 : dm.ppactD ≠ 1
        · rw [if_pos h1, if_neg (by rw [← hdm.square]; omega)]; exact ⟨_, rfl⟩
        · rw [if_neg h1]; exact ⟨_, rfl⟩
    rw [hv, res_ok_bind]
    exact ⟨_, rfl⟩
  rw [hA, res_ok_bind]
  unfold fitSurfToDm
  rw [if_neg (by simp only [Int.toNat_natCast, ne_eq, not_true_eq_false, not_false_eq_true])]
  exact ⟨_, rfl⟩

theorem smoothLoop_ok (B : BoxSmooth) (u : Arr2 Bool) (p : Arr2 ℝ) (w : ℤ) (hw : 1 ≤ w) (n : ℕ) (s : Arr2 ℝ) (hr : 0 < s.nr) (hc : 0 < s.nc) :
    ∃ o, smoothLoop B u p w n s = .ok o := by
  induction n generalizing s with
  | zero => exact ⟨_, rfl⟩
  | succ n ih =>
    obtain ⟨t, ht, t1, t2, -⟩ := C01_pad_crop_registered (B.run w s) s.nr s.nc 0 (by omega) (by omega)
    have hs : smoothSurface B s w = .ok t := by
      unfold smoothSurface; rw [if_neg (by omega)]; exact ht
    unfold smoothLoop
    rw [hs, res_ok_bind]
    exact ih _ (by unfold resetPupil; simp only; omega) (by unfold resetPupil; simp only; omega)

theorem desired_ok (B : BoxSmooth) (hz : Bool) (n : ℕ) (w M : ℤ) (u : Arr2 Bool) (phase : Arr2 ℝ) (hw : 1 ≤ w) (hM : 0 < M)
    (hu : ∃ i j, u.px i j = some true) :
    ∃ o, desiredSurface B hz n w M u phase = .ok o := by
  unfold desiredSurface
  obtain ⟨p, hp, p1, p2, -⟩ := C01_pad_crop_registered phase M M 0 hM hM
  rw [hp, res_ok_bind]
  obtain ⟨i, j, hij⟩ := hu
  have hm := mem_selectList (a := p) hij
  obtain ⟨q, hq, q1, q2⟩ : ∃ q, clampPhase u p = .ok q ∧ q.nr = p.nr ∧ q.nc = p.nc := by
    unfold clampPhase
    cases hlo : (selectList u p).min? with
    | none => rw [List.min?_eq_none_iff] at hlo; rw [hlo] at hm; cases hm
    | some lo =>
      cases hhi : (selectList u p).max? with
      | none => rw [List.max?_eq_none_iff] at hhi; rw [hhi] at hm; cases hm
      | some hi => exact ⟨_, rfl, rfl, rfl⟩
  rw [hq, res_ok_bind]
  cases hz with
  | true =>
    simp only [if_true]
    exact smoothLoop_ok B u q w hw n _ (by simp only [Arr2.map_nr]; omega) (by simp only [Arr2.map_nc]; omega)
  | false => exact ⟨_, rfl⟩

theorem fitZ_ok (S : Solver) (wfe : Arr2 ℝ) (u : Arr2 Bool) (N : ℤ) (d dx dy : ℝ) (hs : wfe.nr = u.nr ∧ wfe.nc = u.nc) (hN : 0 < N)
    (hd : 0 < d) : ∃ c, fitZernikes S wfe u N d dx dy = .ok c := by
  obtain ⟨n, m, w⟩ := wfe
  obtain ⟨n', m', v⟩ := u
  obtain ⟨rfl, rfl⟩ := hs
  obtain ⟨k, rfl⟩ : ∃ k : ℕ, N = k := ⟨N.toNat, by omega⟩
  exact ⟨_, fit_eq S n m w v k (by omega) d dx dy hd⟩

/-- **C48.** `flatten` returns, for every measured phase and every setting of the flags, as soon as the calibration data are
consistent, enough Zernike modes are asked for, and the amplitude map shows a pupil inside the cropped array. -/
theorem C48_returns (E : FlattenEnv) (cmd1 cmd2 : Arr2 ℝ) (cmdFCM : ℤ) (useDMs useFCM highZern : Bool) (lam : ℝ)
    (amp ph : Arr2 ℝ) (diam xo yo : ℝ) (dm1 dm2 : DmCal) (fc : FcmCal) (cfg : FlattenCfg) (n : ℕ) (hl : 0 < lam) (hd : 0 < diam)
    (hc1 : cmd1.nr = n ∧ cmd1.nc = n) (hc2 : cmd2.nr = n ∧ cmd2.nc = n) (hdm1 : DmOk dm1 n) (hdm2 : DmOk dm2 n)
    (hf : fc.focusPerStroke ≠ 0 ∧ fc.strokePerStep ≠ 0) (hN : 5 ≤ cfg.maxNoll) (hit : 0 < cfg.nIterSmooth) (hb : 0 < cfg.nBin)
    (hext : 0 < cfg.arrayExtFac) (hsm : 3 < cfg.arrayExtFac * diam) (am : Arr2 ℝ) (u : Arr2 Bool)
    (ham : padCrop amp [max (wfeShape dm1).1 (wfeShape dm2).1, max (wfeShape dm1).2 (wfeShape dm2).2] 0 = .ok am)
    (hu : ampthresh am cfg.nBin = .ok u)
    (hin : ∃ k l, u.centered k l = some true ∧
      Reaches (ceilOdd (cfg.arrayExtFac * diam)) (ceilOdd (cfg.arrayExtFac * diam)) k l) :
    ∃ out, flatten E cmd1 cmd2 cmdFCM useDMs useFCM highZern lam amp ph diam xo yo dm1 dm2 fc cfg = .ok out := by
  have hM : 4 ≤ ceilOdd (cfg.arrayExtFac * diam) := by
    have : 3 < ⌈cfg.arrayExtFac * diam⌉ := Int.lt_ceil.mpr (by push_cast; exact hsm)
    unfold ceilOdd
    simp only
    split <;> omega
  obtain ⟨pny, pnx⟩ := padCrop_pos ham
  obtain ⟨wk, hwk⟩ : ∃ wk, flattenSurfaces E useDMs useFCM highZern amp ph diam xo yo dm1 dm2 cfg = .ok wk := by
    unfold flattenSurfaces
    rw [if_neg (not_le.mpr hd), if_neg (by push Not; exact ⟨by omega, by omega, by omega, hext⟩)]
    simp only
    obtain ⟨wfe, hw, w1, w2, -⟩ := C01_pad_crop_registered ph _ _ 0 pny pnx
    obtain ⟨a1, a2, -⟩ := crop_at ham
    obtain ⟨u1, u2⟩ := ampthresh_size hu
    obtain ⟨c, hcf⟩ := fitZ_ok E.lstsq wfe u cfg.maxNoll diam xo yo (by omega) (by omega) hd
    rw [hw, res_ok_bind, ham, res_ok_bind, hu, res_ok_bind, hcf, res_ok_bind]
    obtain ⟨⟨z1, z4, z5⟩, hz⟩ := (C50_accepts_iff useFCM cfg.maxNoll (List.ofFn c) diam _ _ xo yo).mpr
      ⟨by split <;> omega, hd, pny, pnx⟩
    obtain ⟨N, hN'⟩ : ∃ N : ℕ, cfg.maxNoll = N := ⟨cfg.maxNoll.toNat, by omega⟩
    have g5 : (z5.nr : ℤ) = max (wfeShape dm1).1 (wfeShape dm2).1 ∧ (z5.nc : ℤ) = max (wfeShape dm1).2 (wfeShape dm2).2 := by
      obtain ⟨b1, b4, b5, hb5, -, -, g5, -⟩ := split_eq useFCM N (List.ofFn c) diam _ _ xo yo (by split <;> omega) hd pny pnx
      have hz' := hz
      generalize List.ofFn c = cl at hz' hb5
      rw [hN', hb5] at hz'
      simp only [Except.ok.injEq, Prod.mk.injEq] at hz'
      obtain ⟨-, -, rfl⟩ := hz'
      exact g5
    rw [hz, res_ok_bind]
    simp only
    obtain ⟨ps, hps⟩ : ∃ ps, splitPhase E.fmin useDMs highZern z5 (aboveZmax wfe z1 z4 z5 u) u (wfeShape dm1) (wfeShape dm2) = .ok ps := by
      unfold splitPhase
      cases useDMs with
      | false =>
        have := hdm1.rows; have := hdm1.cols; have := hdm2.rows; have := hdm2.cols
        simp only [Bool.false_eq_true, if_false]
        rw [if_neg (by omega)]
        exact ⟨_, rfl⟩
      | true =>
        cases highZern with
        | false => exact ⟨_, rfl⟩
        | true =>
          simp only [if_true]
          obtain ⟨r, hr, -⟩ := E.fmin.inRange (fun a => phaseCost a z5 (aboveZmax wfe z1 z4 z5 u) u) 0 1 zero_le_one (by
            intro a h0 h1
            unfold phaseCost
            rw [if_neg (by push Not; exact ⟨h0, h1⟩), if_neg (not_not.mpr (by omega)),
              if_neg (not_not.mpr (by unfold aboveZmax; simp only; omega))]
            exact ⟨_, rfl⟩)
          split
          · rw [hr, res_ok_bind]; exact ⟨_, rfl⟩
          · exact ⟨_, rfl⟩
    rw [hps, res_ok_bind]
    obtain ⟨uc, huc, m1, m2, m3⟩ := C01_pad_crop_registered u (ceilOdd (cfg.arrayExtFac * diam)) (ceilOdd (cfg.arrayExtFac * diam))
      false (by omega) (by omega)
    rw [huc, res_ok_bind]
    have hpx : ∃ i j, uc.px i j = some true := by
      obtain ⟨k, l, hk, hkl⟩ := hin
      have := m3 k l hkl
      rw [hk] at this
      exact ⟨_, _, this⟩
    obtain ⟨s1, hs1⟩ := desired_ok E.smooth highZern cfg.nIterSmooth.toNat (smoothWidth dm1) (ceilOdd (cfg.arrayExtFac * diam)) uc ps.1 hdm1.width (by omega) hpx
    obtain ⟨s2, hs2⟩ := desired_ok E.smooth highZern cfg.nIterSmooth.toNat (smoothWidth dm2) (ceilOdd (cfg.arrayExtFac * diam)) uc ps.2 hdm2.width (by omega) hpx
    rw [hs1, res_ok_bind, hs2, res_ok_bind]
    exact ⟨_, rfl⟩
  obtain ⟨-, -, wfeIn, ampIn, u', z1, z4, z5, ps, f1, f2, f3, f4, f5, f6, f7, f8, f9⟩ := surfaces_inv hwk
  obtain ⟨m1, m2, -⟩ := crop_at f7
  have r1 := (desired_keeps f8 ⟨m1, m2⟩).1
  have r2 := (desired_keeps f9 ⟨m1, m2⟩).1
  obtain ⟨h1, e2, n1, n1'⟩ := conv_ok E.spline E.rotate E.spsolve wk.surf1 dm1 n hdm1 (by omega) (by omega)
  obtain ⟨h2, e3, n2, n2'⟩ := conv_ok E.spline E.rotate E.spsolve wk.surf2 dm2 n hdm2 (by omega) (by omega)
  obtain ⟨hh, e4⟩ := reassign_ok (h1 := h1) (h2 := h2) (n1 := n) (n2 := n) ⟨n1.trans n2.symm, n1'.trans n2'.symm⟩ hdm1.tie hdm2.tie
  obtain ⟨-, -, -, s1, s2, -⟩ := reassign_px e4
  obtain ⟨d1, e5⟩ := volts_ok (g := dm1.gain) (h := hh.1) hl
    ⟨hdm1.gain.1.trans (s1.1.trans n1).symm, hdm1.gain.2.trans (s1.2.trans n1').symm⟩
  obtain ⟨d2, e6⟩ := volts_ok (g := dm2.gain) (h := hh.2) hl
    ⟨hdm2.gain.1.trans (s2.1.trans n1).symm, hdm2.gain.2.trans (s2.2.trans n1').symm⟩
  obtain ⟨v1, -, -⟩ := volts_px e5
  obtain ⟨v2, -, -⟩ := volts_px e6
  obtain ⟨o1, e7⟩ := subCmd_ok (c := cmd1) (d := d1)
    ⟨hc1.1.trans (v1.1.trans (s1.1.trans n1)).symm, hc1.2.trans (v1.2.trans (s1.2.trans n1')).symm⟩
  obtain ⟨o2, e8⟩ := subCmd_ok (c := cmd2) (d := d2)
    ⟨hc2.1.trans (v2.1.trans (s2.1.trans n1)).symm, hc2.2.trans (v2.2.trans (s2.2.trans n1')).symm⟩
  obtain ⟨f, e9⟩ : ∃ f, fcmStep useFCM cmdFCM (((List.ofFn wk.coefs)[3]?).getD 0) lam fc = .ok f := by
    unfold fcmStep
    cases useFCM with
    | false => exact ⟨_, rfl⟩
    | true =>
      simp only [if_true]
      rw [if_neg (by push Not; exact hf)]
      exact ⟨_, rfl⟩
  refine ⟨⟨o1, o2, f, wk.coefs⟩, ?_⟩
  unfold flatten
  rw [if_neg (by push Not; exact ⟨hc1.1.trans hc1.2.symm, hc2.1.trans hc2.2.symm, hl⟩)]
  have a4 : reassign h1 h2 dm1.nact.toNat dm2.nact.toNat dm1.tie dm2.tie = .ok hh := by
    rw [hdm1.nact, hdm2.nact, Int.toNat_natCast]; exact e4
  rw [hwk, res_ok_bind, e2, res_ok_bind, e3, res_ok_bind, a4, res_ok_bind, e5, res_ok_bind, e6, res_ok_bind, e7, res_ok_bind,
    e8, res_ok_bind, e9, res_ok_bind]

/-! ### The hypotheses can be met

Two mirrors of 2 × 2 actuators, two pixels per actuator, with the cross-shaped influence function of `Props/FitSurf`; an 8 × 8
amplitude map that shows a 4 × 4 pupil. -/

noncomputable def sampleDm (tie : Arr2 ℤ) : DmCal where
  nact := 2
  pitch := 1
  ppactCx := 2
  ppactCy := 2
  dx := 0
  dy := 0
  thact := 0
  ppactD := 1
  flipx := false
  inf := crossInfluence
  tie := tie
  gain := Arr2.full 2 2 1

theorem sample_shape (t : Arr2 ℤ) : wfeShape (sampleDm t) = (8, 8) := by
  have : (2 : ℝ) * ((2 : ℤ) : ℝ) * 2 = ((8 : ℤ) : ℝ) := by norm_num
  unfold wfeShape sampleDm
  simp only [this, npRound_intCast]

theorem sample_ok (t : Arr2 ℤ) (h : t.nr = 2 ∧ t.nc = 2) : DmOk (sampleDm t) 2 where
  nact := rfl
  pos := by norm_num
  pitch := by norm_num [sampleDm]
  cx := by norm_num [sampleDm]
  cy := by norm_num [sampleDm]
  d := by norm_num [sampleDm]
  square := rfl
  inf := Or.inl rfl
  tie := h
  gain := ⟨rfl, rfl⟩
  width := by
    have : max (2 : ℝ) 2 = ((2 : ℤ) : ℝ) := by norm_num
    unfold smoothWidth sampleDm
    simp only [this, npRound_intCast]
    norm_num
  rows := by rw [sample_shape]; norm_num
  cols := by rw [sample_shape]; norm_num

theorem cross_regular (S : Spline) : FitRegular S 2 2 crossInfluence 1 := by
  have v : ∀ d e : ℤ, (-1 ≤ d ∧ d ≤ 1) → (-1 ≤ e ∧ e ≤ 1) → influenceAt crossInfluence 1 d e =
      if d = 0 ∧ e = 0 then 1 else if d = 0 ∨ e = 0 then 0.15 else 0 := by
    intro d e hd he
    unfold influenceAt
    rw [zext_in (by unfold crossInfluence; simp only; omega)]
    unfold crossInfluence
    simp only
    have h1 : ((((3 : ℕ) : ℤ) / 2 + ((1 : ℕ) : ℤ) * d).toNat = 1) ↔ d = 0 := by omega
    have h2 : ((((3 : ℕ) : ℤ) / 2 + ((1 : ℕ) : ℤ) * e).toNat = 1) ↔ e = 0 := by omega
    simp only [h1, h2]
  apply C45_regular_of_local S 2 2 (by norm_num) (by norm_num) crossInfluence 1 le_rfl rfl rfl (Or.inl rfl)
  intro r c
  fin_cases r <;> fin_cases c <;> simp [Fin.sum_univ_two, v] <;> norm_num [abs_of_pos]

/-- `C48_dms_unused` asks for a regular mirror without zero gains: this one is. -/
example (S : Spline) (t : Arr2 ℤ) : PokeRegular S (sampleDm t) ∧ NoZeroGain (sampleDm t) := by
  refine ⟨?_, fun i j => one_ne_zero⟩
  intro A hA
  obtain ⟨A', hA', hdet⟩ := cross_regular S
  have hp : (sampleDm t).pitch / ((sampleDm t).pitch / (sampleDm t).ppactD) = ((1 : ℕ) : ℝ) := by norm_num [sampleDm]
  rw [hp] at hA
  have : (Except.ok A : Res _) = .ok A' := hA.symm.trans hA'
  rw [Except.ok.inj this]
  exact hdet

noncomputable def sampleAmp : Arr2 ℝ :=
  ⟨8, 8, fun i j => if (2 ≤ (i : ℕ) ∧ (i : ℕ) ≤ 5) ∧ (2 ≤ (j : ℕ) ∧ (j : ℕ) ≤ 5) then 1 else 0⟩

/-- `flatten` returns on the sample, whatever the phase, the tie maps, the commands and the flags. -/
theorem sample_flattened (E : FlattenEnv) (t1 t2 : Arr2 ℤ) (h1 : t1.nr = 2 ∧ t1.nc = 2) (h2 : t2.nr = 2 ∧ t2.nc = 2) (cmd1 cmd2 : Arr2 ℝ)
    (c1 : cmd1.nr = 2 ∧ cmd1.nc = 2) (c2 : cmd2.nr = 2 ∧ cmd2.nc = 2) (ph : Arr2 ℝ) (b1 b2 b3 : Bool) (k : ℤ) :
    ∃ out, flatten E cmd1 cmd2 k b1 b2 b3 1 sampleAmp ph 4 0 0 (sampleDm t1) (sampleDm t2) ⟨1, 1⟩ ⟨22, 3, 10, 1⟩ = .ok out := by
  obtain ⟨u, hu, u1, u2, hpx⟩ := C12_two_level sampleAmp 10 0 1 one_pos (by norm_num)
    (by
      intro v hv
      obtain ⟨i, j, hij⟩ := (mem_pixels _ _).mp hv
      by_cases hb : (0 ≤ i ∧ i < (8 : ℕ)) ∧ (0 ≤ j ∧ j < (8 : ℕ))
      · unfold sampleAmp at hij
        rw [px_lit _ _ _ _ _ hb] at hij
        rw [← Option.some.inj hij]
        simp only
        split <;> simp
      · rw [Arr2.px_of_not_inB sampleAmp hb] at hij; cases hij)
    ((mem_pixels _ _).mpr ⟨0, 0, by rw [sampleAmp, px_lit _ _ _ _ _ (by decide)]; norm_num⟩)
    ((mem_pixels _ _).mpr ⟨4, 4, by rw [sampleAmp, px_lit _ _ _ _ _ (by decide)]; simp⟩)
  have hcrop : padCrop sampleAmp [8, 8] 0 = .ok sampleAmp := by
    obtain ⟨o, ho, o1, o2, o3⟩ := C01_pad_crop_registered sampleAmp 8 8 0 (by norm_num) (by norm_num)
    rw [ho]
    congr 1
    refine Arr2.ext_px (by have : sampleAmp.nr = 8 := rfl; omega) (by have : sampleAmp.nc = 8 := rfl; omega) fun i j e1 e2 e3 e4 => ?_
    have := o3 (i - 4) (j - 4) (by unfold Reaches; omega)
    unfold Arr2.centered at this
    rw [o1, o2, show ((sampleAmp.nr : ℕ) : ℤ) = 8 from rfl, show ((sampleAmp.nc : ℕ) : ℤ) = 8 from rfl,
      show (8 : ℤ) / 2 + (i - 4) = i by omega, show (8 : ℤ) / 2 + (j - 4) = j by omega] at this
    rw [this, Arr2.px_of_inB sampleAmp (by have h1 : sampleAmp.nr = 8 := rfl; have h2 : sampleAmp.nc = 8 := rfl; omega)]
  refine C48_returns E cmd1 cmd2 k b1 b2 b3 1 sampleAmp ph 4 0 0 _ _ ⟨1, 1⟩ ⟨22, 3, 10, 1⟩ 2 one_pos (by norm_num) c1 c2
    (sample_ok t1 h1) (sample_ok t2 h2) ⟨one_ne_zero, one_ne_zero⟩ (by norm_num) (by norm_num) (by norm_num) one_pos (by norm_num)
    sampleAmp u (by rw [sample_shape, sample_shape]; exact hcrop) hu ⟨0, 0, ?_, ?_⟩
  · unfold Arr2.centered
    rw [hpx, u1, u2, Arr2.px_of_inB sampleAmp (by decide)]
    simp [sampleAmp]
  · have : ceilOdd ((1 : ℝ) * 4) = 5 := by
      have : ⌈(1 : ℝ) * 4⌉ = 4 := by rw [one_mul]; exact_mod_cast Int.ceil_intCast (R := ℝ) 4
      unfold ceilOdd
      simp only [this]
      norm_num
    unfold Reaches
    simp only [this]
    norm_num

end Coralign.Props
