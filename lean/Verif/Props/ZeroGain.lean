import Verif.Model.ZeroGain
import Verif.Props.Conjugate
import Verif.Props.GainMap

/-!
# Property C121 (and C47): zero gains and commands that are not numbers
-/

namespace Coralign.Props

open Coralign

/-- Specification: the commands `c`, except that those of actuators whose gain is zero are not numbers. -/
noncomputable def lostAtZero (g c : Arr2 ℝ) : Arr2 (Fl ℝ) :=
  open Classical in ⟨c.nr, c.nc, fun i j => if g.px (i : ℕ) (j : ℕ) = some 0 then .nan else .num (c.val i j)⟩

theorem lostAtZero_px (g c : Arr2 ℝ) (i j : ℤ) :
    (lostAtZero g c).px i j = open Classical in (c.px i j).map fun x => if g.px i j = some 0 then .nan else .num x := by
  classical
  by_cases hb : (0 ≤ i ∧ i < c.nr) ∧ (0 ≤ j ∧ j < c.nc)
  · rw [Arr2.px_of_inB _ hb, Arr2.px_of_inB (lostAtZero g c) hb]
    have e1 : ((i.toNat : ℕ) : ℤ) = i := Int.toNat_of_nonneg hb.1.1
    have e2 : ((j.toNat : ℕ) : ℤ) = j := Int.toNat_of_nonneg hb.2.1
    show some (if g.px ((i.toNat : ℕ) : ℤ) ((j.toNat : ℕ) : ℤ) = some 0 then _ else _) = _
    rw [e1, e2]
    rfl
  · rw [Arr2.px_of_not_inB _ hb, Arr2.px_of_not_inB (lostAtZero g c) hb]
    rfl

theorem dmhToVoltsF_eq (g h : Arr2 ℝ) (lam : ℝ) : dmhToVoltsF g h lam = (dmhToVolts g h lam).map (lostAtZero g) := by
  classical
  unfold dmhToVoltsF dmhToVolts
  split
  · rfl
  · split
    · next hs =>
      refine congrArg Except.ok ?_
      refine congrArg (Arr2.mk h.nr h.nc) (funext fun i => funext fun j => ?_)
      have e : g.px (i : ℕ) (j : ℕ) = some (g.val (i.cast hs.1) (j.cast hs.2)) := Arr2.px_val g (i.cast hs.1) (j.cast hs.2)
      show voltsOfF _ _ _ = if g.px (i : ℕ) (j : ℕ) = some 0 then _ else _
      rw [e]
      unfold voltsOfF voltsOf Fl.quot
      simp only [Option.some.injEq]
    · rfl

theorem subCmdF_eq (g c d : Arr2 ℝ) : subCmdF c (lostAtZero g d) = (subCmd c d).map (lostAtZero g) := by
  classical
  unfold subCmdF subCmd
  by_cases hs : c.nr = d.nr ∧ c.nc = d.nc
  · rw [dif_pos hs, dif_pos (show c.nr = (lostAtZero g d).nr ∧ c.nc = (lostAtZero g d).nc from hs)]
    refine congrArg Except.ok ?_
    refine congrArg (Arr2.mk c.nr c.nc) (funext fun i => funext fun j => ?_)
    show Fl.num _ + (if g.px (i : ℕ) (j : ℕ) = some 0 then Fl.nan else Fl.num _).neg = if g.px (i : ℕ) (j : ℕ) = some 0 then _ else _
    split
    · rfl
    · exact congrArg Fl.num (sub_eq_add_neg _ _).symm
  · rw [dif_neg hs, dif_neg (show ¬ (c.nr = (lostAtZero g d).nr ∧ c.nc = (lostAtZero g d).nc) from hs)]
    rfl

/-- **C121.** `flatten` refuses the same calls with and without zero gains, and apart from the commands of actuators of gain zero,
which come out as NaN or infinite, it returns what exact division gives: the theorems of C47, C48 and C94 describe the other
actuators. -/
theorem C121_others (E : FlattenEnv) (cmd1 cmd2 : Arr2 ℝ) (cmdFCM : ℤ) (useDMs useFCM highZern : Bool) (lam : ℝ)
    (amp ph : Arr2 ℝ) (diam xo yo : ℝ) (dm1 dm2 : DmCal) (fc : FcmCal) (cfg : FlattenCfg) :
    flattenF E cmd1 cmd2 cmdFCM useDMs useFCM highZern lam amp ph diam xo yo dm1 dm2 fc cfg =
      (flatten E cmd1 cmd2 cmdFCM useDMs useFCM highZern lam amp ph diam xo yo dm1 dm2 fc cfg).map fun o =>
        ⟨lostAtZero dm1.gain o.cmd1, lostAtZero dm2.gain o.cmd2, o.fcm, o.coefs⟩ := by
  classical
  unfold flattenF flatten
  split
  · rfl
  simp only [dmhToVoltsF_eq, bind, Except.bind]
  generalize flattenSurfaces E useDMs useFCM highZern amp ph diam xo yo dm1 dm2 cfg = r1
  cases r1 with
  | error e => rfl
  | ok wk =>
  simp only
  generalize convSurfToDmCmd E.spline E.rotate E.spsolve wk.surf1 dm1 = r2
  cases r2 with
  | error e => rfl
  | ok h1 =>
  simp only
  generalize convSurfToDmCmd E.spline E.rotate E.spsolve wk.surf2 dm2 = r3
  cases r3 with
  | error e => rfl
  | ok h2 =>
  simp only
  generalize reassign h1 h2 dm1.nact.toNat dm2.nact.toNat dm1.tie dm2.tie = r4
  cases r4 with
  | error e => rfl
  | ok hh =>
  simp only
  generalize dmhToVolts dm1.gain hh.1 lam = r5
  cases r5 with
  | error e => rfl
  | ok d1 =>
  simp only [Except.map]
  generalize dmhToVolts dm2.gain hh.2 lam = r6
  cases r6 with
  | error e => rfl
  | ok d2 =>
  simp only [subCmdF_eq]
  generalize subCmd cmd1 d1 = r7
  cases r7 with
  | error e => rfl
  | ok o1 =>
  simp only [Except.map]
  generalize subCmd cmd2 d2 = r8
  cases r8 with
  | error e => rfl
  | ok o2 =>
  simp only
  generalize fcmStep useFCM cmdFCM (((List.ofFn wk.coefs)[3]?).getD 0) lam fc = r9
  cases r9 <;> rfl

/-- **C121.** `dmh_to_volts` answers with something that is not a number at exactly the actuators whose gain is zero, and with the
voltage at all others. -/
theorem C121_volts (g h : Arr2 ℝ) (lam : ℝ) (hl : 0 < lam) (hs : g.nr = h.nr ∧ g.nc = h.nc) :
    ∃ v, dmhToVoltsF g h lam = .ok v ∧ v.nr = h.nr ∧ v.nc = h.nc ∧ ∀ i j,
      (v.px i j = some .nan ↔ g.px i j = some 0) ∧
      ∀ x y, g.px i j = some x → h.px i j = some y → x ≠ 0 →
        ∃ u, v.px i j = some (.num u) ∧ u * x / lam = y / (2 * Real.pi) := by
  classical
  obtain ⟨d, hd⟩ := volts_ok hl hs
  obtain ⟨v1, v2, v3⟩ := volts_px hd
  refine ⟨lostAtZero g d, by rw [dmhToVoltsF_eq, hd]; rfl, v1.1, v1.2, fun i j => ⟨?_, fun x y hx hy h0 => ?_⟩⟩
  · rw [lostAtZero_px]
    constructor
    · intro hn
      obtain ⟨a, -, ha⟩ := Option.map_eq_some_iff.mp hn
      by_contra hc
      rw [if_neg hc] at ha
      cases ha
    · intro hz
      have hb : (g.px i j).isSome := by rw [hz]; rfl
      rw [Arr2.px_isSome] at hb
      rw [Arr2.px_of_inB d (by omega)]
      simp [hz]
  · have hb : (g.px i j).isSome := by rw [hx]; rfl
    rw [Arr2.px_isSome] at hb
    have hbd : (0 ≤ i ∧ i < d.nr) ∧ (0 ≤ j ∧ j < d.nc) := by omega
    have hbg : (0 ≤ i ∧ i < g.nr) ∧ (0 ≤ j ∧ j < g.nc) := by omega
    have hbh : (0 ≤ i ∧ i < h.nr) ∧ (0 ≤ j ∧ j < h.nc) := by omega
    have e := v3 i j
    rw [zext_in hbd, zext_in hbg, zext_in hbh] at e
    rw [Arr2.px_of_inB g hbg] at hx
    rw [Arr2.px_of_inB h hbh] at hy
    rw [Option.some.inj hx, Option.some.inj hy] at e
    refine ⟨y * lam / (2 * Real.pi) / x, ?_, ?_⟩
    · rw [lostAtZero_px, Arr2.px_of_inB d hbd, e, Arr2.px_of_inB g hbg, hx]
      simp [h0]
    · have := Real.pi_ne_zero
      have := hl.ne'
      field_simp

/-- **C121.** The commands `flatten` returns are numbers at exactly the actuators whose gain is not zero: partial, because the
claim asks for a number at every actuator. -/
theorem C121_numbers_partial (E : FlattenEnv) (cmd1 cmd2 : Arr2 ℝ) (cmdFCM : ℤ) (useDMs useFCM highZern : Bool) (lam : ℝ)
    (amp ph : Arr2 ℝ) (diam xo yo : ℝ) (dm1 dm2 : DmCal) (fc : FcmCal) (cfg : FlattenCfg) (out : FlattenOutF cfg.maxNoll.toNat)
    (hok : flattenF E cmd1 cmd2 cmdFCM useDMs useFCM highZern lam amp ph diam xo yo dm1 dm2 fc cfg = .ok out) (i j : ℤ) :
    ((∃ x, out.cmd1.px i j = some (.num x)) ↔ ∃ g, dm1.gain.px i j = some g ∧ g ≠ 0) ∧
    ((∃ x, out.cmd2.px i j = some (.num x)) ↔ ∃ g, dm2.gain.px i j = some g ∧ g ≠ 0) ∧
    (out.cmd1.px i j = some .nan ↔ dm1.gain.px i j = some 0) ∧ (out.cmd2.px i j = some .nan ↔ dm2.gain.px i j = some 0) := by
  classical
  rw [C121_others] at hok
  cases hf : flatten E cmd1 cmd2 cmdFCM useDMs useFCM highZern lam amp ph diam xo yo dm1 dm2 fc cfg with
  | error e => rw [hf] at hok; cases hok
  | ok o =>
  rw [hf] at hok
  obtain rfl := Except.ok.inj hok
  obtain ⟨hl, wk, h1, h2, hh, d1, d2, e1, e2, e3, e4, e5, e6, e7, e8, -⟩ := flatten_inv hf
  obtain ⟨v1, g1, p1⟩ := volts_px e5
  obtain ⟨v2, g2, p2⟩ := volts_px e6
  obtain ⟨o1, c1, -⟩ := subCmd_px e7
  obtain ⟨o2, c2, -⟩ := subCmd_px e8
  have key : ∀ g c : Arr2 ℝ, g.nr = c.nr → g.nc = c.nc →
      ((∃ x, (lostAtZero g c).px i j = some (.num x)) ↔ ∃ y, g.px i j = some y ∧ y ≠ 0) ∧
      ((lostAtZero g c).px i j = some .nan ↔ g.px i j = some 0) := by
    intro g c hr hc
    rw [lostAtZero_px]
    by_cases hb : (0 ≤ i ∧ i < g.nr) ∧ (0 ≤ j ∧ j < g.nc)
    · rw [Arr2.px_of_inB g hb, Arr2.px_of_inB c (by omega)]
      simp only [Option.map_some, Option.some.injEq]
      by_cases hz : g.val ⟨i.toNat, by omega⟩ ⟨j.toNat, by omega⟩ = 0
      · rw [if_pos hz]
        simp [hz]
      · rw [if_neg hz]
        simp [hz]
    · rw [Arr2.px_of_not_inB g hb, Arr2.px_of_not_inB c (by omega)]
      simp
  have k1 := key dm1.gain o.cmd1 (by omega) (by omega)
  have k2 := key dm2.gain o.cmd2 (by omega) (by omega)
  exact ⟨k1.1, k2.1, k1.2, k2.2⟩

/-- **C121.** A stuck actuator, one whose reference height never changes, has gain zero in the map that `compute_gainmap` works out,
whatever the command; with that gain map `flatten` returns no number for it, whatever the wavefront and the flags, and whether or not
the tie map marks it as dead. -/
theorem C121_stuck_fails (n : ℕ) (cube : Arr3 ℝ) (v : List ℝ) (h : GainData cube v n) (cmd : Fin n → Fin n → ℝ) (i j : Fin n) (a : ℝ)
    (hq : cube.column i j = .ok (v.map fun _ => a)) :
    ∃ g, gainMap ⟨n, n, cmd⟩ cube v = .ok g ∧ g.px (i : ℕ) (j : ℕ) = some 0 ∧
      ∀ (E : FlattenEnv) (cmd1 cmd2 : Arr2 ℝ) (cmdFCM : ℤ) (useDMs useFCM highZern : Bool) (lam : ℝ) (amp ph : Arr2 ℝ) (diam xo yo : ℝ)
        (dm1 dm2 : DmCal) (fc : FcmCal) (cfg : FlattenCfg) (out : FlattenOutF cfg.maxNoll.toNat),
        flattenF E cmd1 cmd2 cmdFCM useDMs useFCM highZern lam amp ph diam xo yo dm1 dm2 fc cfg = .ok out →
        (dm1.gain = g → out.cmd1.px (i : ℕ) (j : ℕ) = some .nan) ∧ (dm2.gain = g → out.cmd2.px (i : ℕ) (j : ℕ) = some .nan) := by
  obtain ⟨o, ho, hz⟩ := C33_quadratic_actuator_partial n cube v h cmd i j a 0 0 (by
    rw [hq]
    refine congrArg Except.ok (List.map_congr_left fun c _ => ?_)
    ring)
  have hp : (⟨n, n, o⟩ : Arr2 ℝ).px (i : ℕ) (j : ℕ) = some 0 := by
    rw [Arr2.px_val ⟨n, n, o⟩ i j]
    refine congrArg some (hz.trans ?_)
    ring
  refine ⟨_, ho, hp, fun E cmd1 cmd2 cmdFCM useDMs useFCM highZern lam amp ph diam xo yo dm1 dm2 fc cfg out hok => ?_⟩
  have hk := C121_numbers_partial E cmd1 cmd2 cmdFCM useDMs useFCM highZern lam amp ph diam xo yo dm1 dm2 fc cfg out hok (i : ℕ) (j : ℕ)
  exact ⟨fun e => hk.2.2.1.mpr (by rw [e]; exact hp), fun e => hk.2.2.2.mpr (by rw [e]; exact hp)⟩

/-- Changing gains does not make `flatten` fail. -/
theorem flatten_regain {E : FlattenEnv} {cmd1 cmd2 : Arr2 ℝ} {cmdFCM : ℤ} {useDMs useFCM highZern : Bool} {lam : ℝ}
    {amp ph : Arr2 ℝ} {diam xo yo : ℝ} {dm1 dm2 : DmCal} {fc : FcmCal} {cfg : FlattenCfg} {out : FlattenOut cfg.maxNoll.toNat}
    (hok : flatten E cmd1 cmd2 cmdFCM useDMs useFCM highZern lam amp ph diam xo yo dm1 dm2 fc cfg = .ok out) (g1 g2 : Arr2 ℝ)
    (hg1 : g1.nr = dm1.gain.nr ∧ g1.nc = dm1.gain.nc) (hg2 : g2.nr = dm2.gain.nr ∧ g2.nc = dm2.gain.nc) :
    ∃ out', flattenF E cmd1 cmd2 cmdFCM useDMs useFCM highZern lam amp ph diam xo yo { dm1 with gain := g1 } { dm2 with gain := g2 } fc cfg =
      .ok out' := by
  obtain ⟨hl, wk, h1, h2, hh, d1, d2, e1, e2, e3, e4, e5, e6, e7, e8, e9, e10, sq1, sq2⟩ := flatten_inv hok
  obtain ⟨v1, w1, -⟩ := volts_px e5
  obtain ⟨v2, w2, -⟩ := volts_px e6
  obtain ⟨o1, c1, -⟩ := subCmd_px e7
  obtain ⟨o2, c2, -⟩ := subCmd_px e8
  obtain ⟨d1', k1⟩ := volts_ok (g := g1) (h := hh.1) hl ⟨hg1.1.trans w1.1, hg1.2.trans w1.2⟩
  obtain ⟨d2', k2⟩ := volts_ok (g := g2) (h := hh.2) hl ⟨hg2.1.trans w2.1, hg2.2.trans w2.2⟩
  obtain ⟨x1, -, -⟩ := volts_px k1
  obtain ⟨x2, -, -⟩ := volts_px k2
  obtain ⟨q1, k3⟩ := subCmd_ok (c := cmd1) (d := d1') (by omega)
  obtain ⟨q2, k4⟩ := subCmd_ok (c := cmd2) (d := d2') (by omega)
  rw [C121_others]
  have a1 : flattenSurfaces E useDMs useFCM highZern amp ph diam xo yo { dm1 with gain := g1 } { dm2 with gain := g2 } cfg = .ok wk := e1
  have a2 : convSurfToDmCmd E.spline E.rotate E.spsolve wk.surf1 { dm1 with gain := g1 } = .ok h1 := e2
  have a3 : convSurfToDmCmd E.spline E.rotate E.spsolve wk.surf2 { dm2 with gain := g2 } = .ok h2 := e3
  unfold flatten
  rw [if_neg (by push Not; exact ⟨sq1, sq2, hl⟩), a1]
  simp only [bind, Except.bind]
  rw [a2]
  simp only
  rw [a3]
  simp only
  rw [e4]
  simp only
  rw [k1]
  simp only
  rw [k2]
  simp only
  rw [k3]
  simp only
  rw [k4]
  simp only
  rw [e9]
  exact ⟨_, rfl⟩

/-- A gain map of a mirror whose first actuator does not move. -/
noncomputable def stuckGain : Arr2 ℝ := ⟨2, 2, fun i j => if (i : ℕ) = 0 ∧ (j : ℕ) = 0 then 0 else 1⟩

/-- A mirror whose first actuator is marked dead. -/
def firstDead : Arr2 ℤ := ⟨2, 2, fun i j => if (i : ℕ) = 0 ∧ (j : ℕ) = 0 then -1 else 0⟩

/-- **C47.** The commands of dead actuators are not returned unchanged: for a mirror of 2 x 2 actuators whose first one is marked dead in
the tie map and has gain zero, as a dead actuator has in a measured gain map, `flatten` succeeds and replaces its command (here 7) by
NaN, for every phase and all flags, also when the mirrors are not to be used; its neighbours get numbers. -/
theorem C47_zero_gain_fails (E : FlattenEnv) (ph : Arr2 ℝ) (b1 b2 b3 : Bool) (k : ℤ) :
    Dead { sampleDm firstDead with gain := stuckGain } 0 0 ∧ (Arr2.full 2 2 (7 : ℝ)).px 0 0 = some 7 ∧
    ∃ out, flattenF E (Arr2.full 2 2 7) (Arr2.full 2 2 5) k b1 b2 b3 1 sampleAmp ph 4 0 0 { sampleDm firstDead with gain := stuckGain }
      (sampleDm (Arr2.full 2 2 0)) ⟨1, 1⟩ ⟨22, 3, 10, 1⟩ = .ok out ∧ out.cmd1.px 0 0 = some .nan ∧ ∃ x, out.cmd1.px 0 1 = some (.num x) := by
  obtain ⟨o, ho⟩ := sample_flattened E firstDead (Arr2.full 2 2 0) ⟨rfl, rfl⟩ ⟨rfl, rfl⟩ (Arr2.full 2 2 7) (Arr2.full 2 2 5) ⟨rfl, rfl⟩
    ⟨rfl, rfl⟩ ph b1 b2 b3 k
  obtain ⟨out, hout⟩ := flatten_regain ho stuckGain (Arr2.full 2 2 1) ⟨rfl, rfl⟩ ⟨rfl, rfl⟩
  have hn := fun i j => C121_numbers_partial _ _ _ _ _ _ _ _ _ _ _ _ _ _ _ _ _ out hout i j
  refine ⟨rfl, rfl, out, hout, (hn 0 0).2.2.1.mpr ?_, (hn 0 1).1.mpr ⟨1, ?_, one_ne_zero⟩⟩
  · show stuckGain.px 0 0 = some 0
    rw [stuckGain, px_lit _ _ _ _ _ (by decide)]
    simp
  · show stuckGain.px 0 1 = some 1
    rw [stuckGain, px_lit _ _ _ _ _ (by decide)]
    simp

/-- A reference cube of 2 x 2 actuators at the commands 0, 1, 2: the first never moves, the others by 3 per step. -/
def stuckCube : Arr3 ℝ := ⟨3, 2, 2, fun k i j => if (i : ℕ) = 0 ∧ (j : ℕ) = 0 then 5 else 3 * (k : ℕ)⟩

/-- The hypotheses of `C121_stuck_fails` are met by this cube. -/
example : ∃ g, gainMap ⟨2, 2, fun _ _ => 1⟩ stuckCube [0, 1, 2] = .ok g ∧ g.px 0 0 = some 0 := by
  obtain ⟨g, h1, h2, -⟩ := C121_stuck_fails 2 stuckCube [0, 1, 2] ⟨by simp, by simp, rfl, rfl, rfl⟩ (fun _ _ => 1) 0 0 5 (by
    unfold Arr3.column stuckCube
    simp [List.ofFn_succ])
  exact ⟨g, h1, h2⟩

example : ∃ v, dmhToVoltsF stuckGain (Arr2.full 2 2 0) 1 = .ok v ∧ v.px 0 0 = some .nan := by
  obtain ⟨v, h1, -, -, h2⟩ := C121_volts stuckGain (Arr2.full 2 2 0) 1 one_pos ⟨rfl, rfl⟩
  refine ⟨v, h1, (h2 0 0).1.mpr ?_⟩
  rw [stuckGain, px_lit _ _ _ _ _ (by decide)]
  simp

end Coralign.Props
