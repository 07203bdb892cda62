import Verif.Props.DmRoundTripCases
import Verif.Props.Conjugate
import Verif.Spec.FlattenModel

/-!
# C94: the correction found by `flatten`, seen through `dmhtoph`
-/

namespace Coralign.Props

open Coralign Coralign.Spec

/-- The commands found for a surface make, at every actuator, the height of the surface where the actuator appears. -/
theorem conv_facesheet {S : Spline} {R : Rotate} (hR : R.Exact) {L : SpSolve} {surf : Arr2 ℝ} {dm : DmCal} {n P : ℕ}
    (hm : MirrorOk S dm n P) {dx dy : ℤ} (hdx : dm.dx = dx) (hdy : dm.dy = dy) (hc : Commutes dm.flipx dm.thact dx dy) {row col : ℕ → ℤ}
    (hon : OnPixels dm n row col) (h1 : surf.nr % 2 = 1) (h2 : surf.nc % 2 = 1) (h4 : 4 ≤ surf.nr ∧ 4 ≤ surf.nc)
    (hin : ∀ i j, i < n → j < n → Reaches surf.nr surf.nc (row i + dy) (col j + dx)) {h : Arr2 ℝ}
    (hh : convSurfToDmCmd S R L surf dm = .ok h) :
    (h.nr = n ∧ h.nc = n) ∧ ∀ (i j : ℕ) (k l : ℤ), i < n → j < n → AppearsAt dm.flipx dm.thact dx dy (row i) (col j) k l →
      Reaches surf.nr surf.nc k l → surf.centered k l = some (surfaceAt h dm.inf P i j) := by
  rw [conv_aligned S R L surf dm n P hm dx dy hdx hdy row col hon h4 hin] at hh
  obtain ⟨cmd, e1, e2, e3, e4⟩ := C45_reproduces_partial S L n n hm.some hm.some
    (fun i j => (undone R surf dm).zext (surf.nr / 2 + (row i + dy)) (surf.nc / 2 + (col j + dx))) dm.inf P hm.sampled hm.odd
    (by rw [← hm.square]; exact hm.odd) (hm.enough.imp id fun h => ⟨h, by rw [← hm.square]; exact h⟩) hm.regular hm.symmetric
  rw [e1] at hh
  obtain rfl := Except.ok.inj hh
  refine ⟨⟨e2, e3⟩, fun i j k l hi hj hat hkl => ?_⟩
  rw [zext_centered hkl]
  congr 1
  have := e4 ⟨i, hi⟩ ⟨j, hj⟩
  simp only at this
  rw [this, undone_appears hR surf dm h1 h2 dx dy hc (row i) (col j) k l (hin i j hi hj) hat]

/-- `surfaceAt` by pixels, for commands of a known size. -/
theorem surfaceAt_zext (cmd w : Arr2 ℝ) (P n : ℕ) (h1 : cmd.nr = n) (h2 : cmd.nc = n) (i j : ℕ) :
    surfaceAt cmd w P i j = ∑ a : Fin n, ∑ b : Fin n, cmd.zext (a : ℕ) (b : ℕ) * influenceAt w P ((i : ℤ) - (a : ℕ)) ((j : ℤ) - (b : ℕ)) := by
  obtain ⟨p, q, v⟩ := cmd
  simp only at h1 h2
  subst h1
  subst h2
  unfold surfaceAt
  refine Finset.sum_congr rfl fun a _ => Finset.sum_congr rfl fun b _ => ?_
  rw [Arr2.zext_val (⟨q, q, v⟩ : Arr2 ℝ) a b]

/-- Heights that differ by `h` make surfaces that differ by the surface of `h`. -/
theorem surfaceAt_sub {A B h w : Arr2 ℝ} {P n : ℕ} (hA : A.nr = n ∧ A.nc = n) (hB : B.nr = n ∧ B.nc = n) (hh : h.nr = n ∧ h.nc = n)
    (hz : ∀ i j : ℕ, i < n → j < n → A.zext i j - B.zext i j = h.zext i j) (i j : ℕ) :
    surfaceAt A w P i j - surfaceAt B w P i j = surfaceAt h w P i j := by
  rw [surfaceAt_zext A w P n hA.1 hA.2, surfaceAt_zext B w P n hB.1 hB.2, surfaceAt_zext h w P n hh.1 hh.2, ← Finset.sum_sub_distrib]
  refine Finset.sum_congr rfl fun a _ => ?_
  rw [← Finset.sum_sub_distrib]
  refine Finset.sum_congr rfl fun b _ => ?_
  rw [← hz a b a.isLt b.isLt]
  ring

theorem heights_px {g v d : Arr2 ℝ} {lam : ℝ} (hok : voltsToDmh g v lam = .ok d) :
    (d.nr = v.nr ∧ d.nc = v.nc) ∧ (g.nr = v.nr ∧ g.nc = v.nc) ∧ ∀ i j : ℕ, i < v.nr → j < v.nc →
      d.zext i j = v.zext i j / lam * (2 * Real.pi) * g.zext i j := by
  unfold voltsToDmh at hok
  split at hok
  · cases hok
  · split at hok
    · next hs =>
      obtain rfl := Except.ok.inj hok
      refine ⟨⟨rfl, rfl⟩, ⟨hs.1.symm, hs.2.symm⟩, fun i j hi hj => ?_⟩
      rw [zext_in (a := v) (by omega), zext_in (a := g) (by omega)]
      refine Eq.trans (zext_in ?_) ?_
      · simp only; omega
      · rfl
    · cases hok

/-- One mirror: the change of the commands changes the modelled surface by that of the heights `g`. -/
theorem mirror_change {S : Spline} {R : Rotate} (hR : R.Exact) {T : Shift} {dm : DmCal} {n P : ℕ} {dx dy m : ℤ}
    {row col : ℕ → ℤ} (hs : MirrorSeen S dm n P dx dy row col m)
    {g d cmd o A B : Arr2 ℝ} {lam : ℝ} (hl : 0 < lam) (hg : g.nr = n ∧ g.nc = n) (hd : dmhToVolts dm.gain g lam = .ok d)
    (ho : subCmd cmd d = .ok o)
    {nrow ncol : ℤ} (hA : ModelSurface S R T dm P lam nrow ncol cmd A) (hB : ModelSurface S R T dm P lam nrow ncol o B) {i j : ℕ} {k l : ℤ}
    (hat : ShowsActuator dm n P dx dy row col i j k l) (hout : Reaches nrow ncol k l) :
    ∃ a b, A.centered k l = some a ∧ B.centered k l = some b ∧ a - b = surfaceAt g dm.inf P i j := by
  obtain ⟨hi, hj, happ, bk, bl⟩ := hat
  obtain ⟨d1, d2, dz⟩ := volts_px hd
  obtain ⟨o1, o2, oz⟩ := subCmd_px ho
  obtain ⟨ha, ea, fa⟩ := hA
  obtain ⟨hb, eb, fb⟩ := hB
  obtain ⟨a1, a2, az⟩ := heights_px ea
  obtain ⟨b1, b2, bz⟩ := heights_px eb
  have P1 := hs.ok.sampled
  rw [hs.xoff, hs.yoff, hs.ok.nact] at fa fb
  have pl : ∀ (c X : Arr2 ℝ), dmhtoph S R T nrow ncol c n dm.inf P dm.ppactCx dm.ppactCy dx dy dm.thact dm.flipx = .ok X →
      X.centered k l = some (surfaceAt c dm.inf P i j) := fun c X hX => by
    rw [C62_placed S R hR T nrow ncol c n dm.inf P dm.ppactCx dm.ppactCy dm.thact dx dy dm.flipx X hX (row i) (col j) (P * (i : ℤ))
      (P * (j : ℤ)) k l ((hs.on.row i hi).trans (dmPos_actuator n P P1 i).symm) ((hs.on.col j hj).trans (dmPos_actuator n P P1 j).symm)
      happ hout (by push_cast; exact bk) (by push_cast; exact bl), facesheet_actuator]
  refine ⟨_, _, pl ha A fa, pl hb B fb, ?_⟩
  refine surfaceAt_sub (n := n) ⟨by omega, by omega⟩ ⟨by omega, by omega⟩ hg (fun p q hp hq => ?_) i j
  rw [az p q (by omega) (by omega), bz p q (by omega) (by omega), oz, dz]
  have := hs.gain p q hp hq
  have := Real.pi_ne_zero
  have := hl.ne'
  field_simp
  ring

theorem ceilOdd_odd (x : ℝ) : ceilOdd x % 2 = 1 := (C08_ceil_odd x).1.1

/-- What was not to be corrected at pixel `(k, l)`: the fitted piston, tip and tilt (and focus, when the focus mechanism takes it) with
`highZern`, and the phase less the corrected modes without. -/
noncomputable def leftOver (useFCM highZern : Bool) {N : ℕ} (coefs : Fin N → ℝ) (ph : Arr2 ℝ) (diam xo yo : ℝ) (k l : ℤ) : ℝ :=
  if highZern then zernPart (List.ofFn coefs) 1 (if useFCM then 4 else 3) (diam / 2) (l - xo) (k - yo)
  else (ph.centered k l).getD 0 - zernPart (List.ofFn coefs) (if useFCM then 5 else 4) N (diam / 2) (l - xo) (k - yo)

/-- `flatten` with the mirrors in use, and the surfaces that the model of the mirrors predicts for the old commands (`A1`, `A2`) and for the
returned ones (`B1`, `B2`). -/
structure Flattened (E : FlattenEnv) (T : Shift) (cmd1 cmd2 : Arr2 ℝ) (cmdFCM : ℤ) (useFCM highZern : Bool)
    (lam : ℝ) (amp ph : Arr2 ℝ) (diam xo yo : ℝ) (dm1 dm2 : DmCal) (fc : FcmCal) (cfg : FlattenCfg) (out : FlattenOut cfg.maxNoll.toNat)
    (P1 P2 : ℕ) (nrow ncol : ℤ) (A1 A2 B1 B2 : Arr2 ℝ) (u : Arr2 Bool) : Prop where
  ok : flatten E cmd1 cmd2 cmdFCM true useFCM highZern lam amp ph diam xo yo dm1 dm2 fc cfg = .ok out
  size : max (max (wfeShape dm1).1 (wfeShape dm2).1) (max (wfeShape dm1).2 (wfeShape dm2).2) ≠ 1000000
  before1 : ModelSurface E.spline E.rotate T dm1 P1 lam nrow ncol cmd1 A1
  after1 : ModelSurface E.spline E.rotate T dm1 P1 lam nrow ncol out.cmd1 B1
  before2 : ModelSurface E.spline E.rotate T dm2 P2 lam nrow ncol cmd2 A2
  after2 : ModelSurface E.spline E.rotate T dm2 P2 lam nrow ncol out.cmd2 B2
  /-- `u` is the pupil found in the amplitude map. -/
  pupil : ∃ am, padCrop amp [max (wfeShape dm1).1 (wfeShape dm2).1, max (wfeShape dm1).2 (wfeShape dm2).2] 0 = .ok am ∧
    ampthresh am cfg.nBin = .ok u

/-- The common part: the changes of the two surfaces in terms of the heights asked for. -/
theorem flattened_change {E : FlattenEnv} (hR : E.rotate.Exact) {T : Shift} {cmd1 cmd2 : Arr2 ℝ} {cmdFCM : ℤ} {useFCM highZern : Bool}
    {lam : ℝ} {amp ph : Arr2 ℝ} {diam xo yo : ℝ} {dm1 dm2 : DmCal} {fc : FcmCal} {cfg : FlattenCfg} {out : FlattenOut cfg.maxNoll.toNat}
    {P1 P2 : ℕ} {nrow ncol : ℤ} {A1 A2 B1 B2 : Arr2 ℝ} {u : Arr2 Bool}
    (hf : Flattened E T cmd1 cmd2 cmdFCM useFCM highZern lam amp ph diam xo yo dm1 dm2 fc cfg out P1 P2 nrow ncol A1 A2 B1 B2 u)
    {n : ℕ} {dx1 dy1 dx2 dy2 : ℤ} {row1 col1 row2 col2 : ℕ → ℤ} (hbig : 4 ≤ ceilOdd (cfg.arrayExtFac * diam))
    (hs1 : MirrorSeen E.spline dm1 n P1 dx1 dy1 row1 col1 (ceilOdd (cfg.arrayExtFac * diam)))
    (hs2 : MirrorSeen E.spline dm2 n P2 dx2 dy2 row2 col2 (ceilOdd (cfg.arrayExtFac * diam)))
    {k l : ℤ} (hpup : u.centered k l = some true)
    (hin : Reaches (ceilOdd (cfg.arrayExtFac * diam)) (ceilOdd (cfg.arrayExtFac * diam)) k l) (hout : Reaches nrow ncol k l)
    {i1 j1 i2 j2 : ℕ} (hat1 : ShowsActuator dm1 n P1 dx1 dy1 row1 col1 i1 j1 k l) (hat2 : ShowsActuator dm2 n P2 dx2 dy2 row2 col2 i2 j2 k l) :
    ∃ a1 b1 a2 b2 h1 h2 g1 g2, A1.centered k l = some a1 ∧ B1.centered k l = some b1 ∧ A2.centered k l = some a2 ∧ B2.centered k l = some b2 ∧
      (h1.nr = n ∧ h1.nc = n) ∧ (h2.nr = n ∧ h2.nc = n) ∧ (g1.nr = n ∧ g1.nc = n) ∧ (g2.nr = n ∧ g2.nc = n) ∧
      (∀ i j : ℕ, i < n → j < n →
        g1.zext i j = (if isDead dm1.tie i j then 0 else h1.zext i j + if isDead dm2.tie i j then h2.zext i j else 0) ∧
        g2.zext i j = (if isDead dm2.tie i j then 0 else h2.zext i j + if isDead dm1.tie i j then h1.zext i j else 0)) ∧
      a1 - b1 = surfaceAt g1 dm1.inf P1 i1 j1 ∧ a2 - b2 = surfaceAt g2 dm2.inf P2 i2 j2 ∧
      (ph.centered k l).getD 0 - 2 * (surfaceAt h1 dm1.inf P1 i1 j1 + surfaceAt h2 dm2.inf P2 i2 j2) =
        leftOver useFCM highZern out.coefs ph diam xo yo k l := by
  obtain ⟨hok, h6, hA1, hB1, hA2, hB2, am, ham, hu⟩ := hf
  obtain ⟨hl, wk, h1, h2, hh, d1, d2, e1, e2, e3, e4, e5, e6, e7, e8, e9, e10, -⟩ := flatten_inv hok
  obtain ⟨hd, hN, wfeIn, ampIn, u', z1, z4, z5, ps, f1, f2, f3, f4, f5, f6, f7, f8, f9⟩ := surfaces_inv e1
  rw [ham] at f2
  obtain rfl := Except.ok.inj f2
  rw [hu] at f3
  obtain rfl := Except.ok.inj f3
  obtain ⟨m1, m2, m3⟩ := crop_at f7
  have huse : wk.usable.centered k l = some true := by rw [m3 k l hin, hpup]; rfl
  obtain ⟨s1, s2, es1, es2, hsum⟩ := surfaces_sum E useFCM highZern amp ph diam xo yo dm1 dm2 cfg wk e1 h6 k l huse
  have r1 := (desired_keeps f8 ⟨m1, m2⟩).1
  have r2 := (desired_keeps f9 ⟨m1, m2⟩).1
  have hodd := ceilOdd_odd (cfg.arrayExtFac * diam)
  obtain ⟨q0, -, -, q1, q2, hpx⟩ := reassign_px e4
  obtain ⟨c1, w1⟩ := conv_facesheet hR hs1.ok hs1.xoff hs1.yoff hs1.commutes hs1.on (surf := wk.surf1) (by omega) (by omega) (by omega)
    (by rw [r1.1, r1.2]; exact hs1.inside) e2
  obtain ⟨c2, w2⟩ := conv_facesheet hR hs2.ok hs2.xoff hs2.yoff hs2.commutes hs2.on (surf := wk.surf2) (by omega) (by omega) (by omega)
    (by rw [r2.1, r2.2]; exact hs2.inside) e3
  obtain ⟨a1, b1, x1, x2, x3⟩ := mirror_change hR hs1 hl (g := hh.1) (by omega) e5 e7 hA1 hB1 hat1 hout
  obtain ⟨a2, b2, y1, y2, y3⟩ := mirror_change hR hs2 hl (g := hh.2) (by omega) e6 e8 hA2 hB2 hat2 hout
  refine ⟨a1, b1, a2, b2, h1, h2, hh.1, hh.2, x1, x2, y1, y2, c1, c2, by omega, by omega, fun i j hi hj => hpx i j (by omega), x3, y3, ?_⟩
  have t1 := w1 i1 j1 k l hat1.rows hat1.cols hat1.appears (by rw [r1.1, r1.2]; exact hin)
  have t2 := w2 i2 j2 k l hat2.rows hat2.cols hat2.appears (by rw [r2.1, r2.2]; exact hin)
  rw [es1] at t1
  rw [es2] at t2
  rw [← Option.some.inj t1, ← Option.some.inj t2, hsum, e10]
  unfold leftOver
  cases highZern <;> simp

theorem alive_false {dm : DmCal} {i j : ℤ} (h : ¬ Dead dm i j) : isDead dm.tie i j = false :=
  Bool.eq_false_iff.mpr fun e => h ((isDead_iff dm i j).mp e)

theorem surfaceAt_congr {A B w : Arr2 ℝ} {P n : ℕ} (hA : A.nr = n ∧ A.nc = n) (hB : B.nr = n ∧ B.nc = n)
    (hz : ∀ i j : ℕ, i < n → j < n → A.zext i j = B.zext i j) (i j : ℕ) : surfaceAt A w P i j = surfaceAt B w P i j := by
  rw [surfaceAt_zext A w P n hA.1 hA.2, surfaceAt_zext B w P n hB.1 hB.2]
  refine Finset.sum_congr rfl fun a _ => Finset.sum_congr rfl fun b _ => ?_
  rw [hz a b a.isLt b.isLt]

/-- **C94 (partial).** What `flatten` asks of the mirrors cancels the wavefront.  At every pixel of the pupil that shows an actuator of either
mirror, the measured phase less twice the change of the two modelled surfaces is what was not to be corrected.  Missing: registrations whose
parts do not commute, for which the commands are wrong (C87); for dead actuators see `C94_dead_partial`. -/
theorem C94_cancels_partial (E : FlattenEnv) (hR : E.rotate.Exact) (T : Shift) (cmd1 cmd2 : Arr2 ℝ) (cmdFCM : ℤ) (useFCM highZern : Bool)
    (lam : ℝ) (amp ph : Arr2 ℝ) (diam xo yo : ℝ) (dm1 dm2 : DmCal) (fc : FcmCal) (cfg : FlattenCfg) (out : FlattenOut cfg.maxNoll.toNat)
    (P1 P2 : ℕ) (nrow ncol : ℤ) (A1 A2 B1 B2 : Arr2 ℝ) (u : Arr2 Bool)
    (hf : Flattened E T cmd1 cmd2 cmdFCM useFCM highZern lam amp ph diam xo yo dm1 dm2 fc cfg out P1 P2 nrow ncol A1 A2 B1 B2 u)
    (n : ℕ) (dx1 dy1 dx2 dy2 : ℤ) (row1 col1 row2 col2 : ℕ → ℤ) (hbig : 4 ≤ ceilOdd (cfg.arrayExtFac * diam))
    (hs1 : MirrorSeen E.spline dm1 n P1 dx1 dy1 row1 col1 (ceilOdd (cfg.arrayExtFac * diam)))
    (hs2 : MirrorSeen E.spline dm2 n P2 dx2 dy2 row2 col2 (ceilOdd (cfg.arrayExtFac * diam)))
    (hd1 : ∀ i j, ¬ Dead dm1 i j) (hd2 : ∀ i j, ¬ Dead dm2 i j) (k l : ℤ) (hpup : u.centered k l = some true)
    (hin : Reaches (ceilOdd (cfg.arrayExtFac * diam)) (ceilOdd (cfg.arrayExtFac * diam)) k l) (hout : Reaches nrow ncol k l)
    (i1 j1 i2 j2 : ℕ) (hat1 : ShowsActuator dm1 n P1 dx1 dy1 row1 col1 i1 j1 k l) (hat2 : ShowsActuator dm2 n P2 dx2 dy2 row2 col2 i2 j2 k l) :
    ∃ a1 b1 a2 b2, A1.centered k l = some a1 ∧ B1.centered k l = some b1 ∧ A2.centered k l = some a2 ∧ B2.centered k l = some b2 ∧
      (ph.centered k l).getD 0 - 2 * ((a1 - b1) + (a2 - b2)) = leftOver useFCM highZern out.coefs ph diam xo yo k l := by
  obtain ⟨a1, b1, a2, b2, h1, h2, g1, g2, x1, x2, y1, y2, c1, c2, c3, c4, hz, e1, e2, e3⟩ := flattened_change hR hf hbig hs1 hs2 hpup hin hout hat1 hat2
  refine ⟨a1, b1, a2, b2, x1, x2, y1, y2, ?_⟩
  rw [e1, e2, ← e3]
  have z : ∀ i j : ℕ, i < n → j < n → g1.zext i j = h1.zext i j ∧ g2.zext i j = h2.zext i j := fun i j hi hj => by
    have := hz i j hi hj
    rw [alive_false (hd1 i j), alive_false (hd2 i j)] at this
    simpa using this
  rw [surfaceAt_congr c3 c1 fun i j hi hj => (z i j hi hj).1, surfaceAt_congr c4 c2 fun i j hi hj => (z i j hi hj).2]

/-- **C94 (partial).** The same with dead actuators, for two mirrors of the same kind that appear at the same place: the other mirror takes
over the stroke of a dead actuator, and the sum of the surfaces still cancels the wavefront, unless the actuators at one position are dead on
both mirrors. -/
theorem C94_dead_partial (E : FlattenEnv) (hR : E.rotate.Exact) (T : Shift) (cmd1 cmd2 : Arr2 ℝ) (cmdFCM : ℤ) (useFCM highZern : Bool)
    (lam : ℝ) (amp ph : Arr2 ℝ) (diam xo yo : ℝ) (dm1 dm2 : DmCal) (fc : FcmCal) (cfg : FlattenCfg) (out : FlattenOut cfg.maxNoll.toNat)
    (P : ℕ) (nrow ncol : ℤ) (A1 A2 B1 B2 : Arr2 ℝ) (u : Arr2 Bool)
    (hf : Flattened E T cmd1 cmd2 cmdFCM useFCM highZern lam amp ph diam xo yo dm1 dm2 fc cfg out P P nrow ncol A1 A2 B1 B2 u)
    (n : ℕ) (dx dy : ℤ) (row col : ℕ → ℤ) (hbig : 4 ≤ ceilOdd (cfg.arrayExtFac * diam))
    (hs1 : MirrorSeen E.spline dm1 n P dx dy row col (ceilOdd (cfg.arrayExtFac * diam)))
    (hs2 : MirrorSeen E.spline dm2 n P dx dy row col (ceilOdd (cfg.arrayExtFac * diam)))
    (hinf : dm1.inf = dm2.inf) (hdead : ∀ i j, ¬ (Dead dm1 i j ∧ Dead dm2 i j)) (k l : ℤ) (hpup : u.centered k l = some true)
    (hin : Reaches (ceilOdd (cfg.arrayExtFac * diam)) (ceilOdd (cfg.arrayExtFac * diam)) k l) (hout : Reaches nrow ncol k l)
    (i j : ℕ) (hat1 : ShowsActuator dm1 n P dx dy row col i j k l) (hat2 : ShowsActuator dm2 n P dx dy row col i j k l) :
    ∃ a1 b1 a2 b2, A1.centered k l = some a1 ∧ B1.centered k l = some b1 ∧ A2.centered k l = some a2 ∧ B2.centered k l = some b2 ∧
      (ph.centered k l).getD 0 - 2 * ((a1 - b1) + (a2 - b2)) = leftOver useFCM highZern out.coefs ph diam xo yo k l := by
  obtain ⟨a1, b1, a2, b2, h1, h2, g1, g2, x1, x2, y1, y2, c1, c2, c3, c4, hz, e1, e2, e3⟩ := flattened_change hR hf hbig hs1 hs2 hpup hin hout hat1 hat2
  refine ⟨a1, b1, a2, b2, x1, x2, y1, y2, ?_⟩
  rw [e1, e2, ← e3, hinf]
  congr 2
  rw [surfaceAt_zext g1 _ P n c3.1 c3.2, surfaceAt_zext g2 _ P n c4.1 c4.2, surfaceAt_zext h1 _ P n c1.1 c1.2, surfaceAt_zext h2 _ P n c2.1 c2.2,
    ← Finset.sum_add_distrib, ← Finset.sum_add_distrib]
  refine Finset.sum_congr rfl fun a _ => ?_
  rw [← Finset.sum_add_distrib, ← Finset.sum_add_distrib]
  refine Finset.sum_congr rfl fun b _ => ?_
  rw [← add_mul, ← add_mul]
  congr 1
  obtain ⟨z1, z2⟩ := hz a b a.isLt b.isLt
  have hn := hdead (a : ℕ) (b : ℕ)
  rw [z1, z2]
  by_cases p1 : Dead dm1 (a : ℕ) (b : ℕ)
  · rw [(isDead_iff dm1 _ _).mpr p1, alive_false fun p2 => hn ⟨p1, p2⟩]; simp [add_comm]
  · by_cases p2 : Dead dm2 (a : ℕ) (b : ℕ)
    · rw [alive_false p1, (isDead_iff dm2 _ _).mpr p2]; simp
    · rw [alive_false p1, alive_false p2]; simp

/-! ### A concrete case: two mirrors of five by five actuators, one pixel per actuator, any phase, any commands -/

/-- The mirror of `pixelDm`, with a tie map. -/
noncomputable def tiedDm (tie : Arr2 ℤ) : DmCal := { pixelDm false 0 0 0 with tie := tie }

theorem tiedDm_shape (t : Arr2 ℤ) : wfeShape (tiedDm t) = (10, 10) := by
  have : (2 : ℝ) * ((5 : ℤ) : ℝ) * 1 = ((10 : ℤ) : ℝ) := by norm_num
  unfold wfeShape tiedDm pixelDm
  simp only [this, npRound_intCast]

theorem tiedDm_ok (t : Arr2 ℤ) (h : t.nr = 5 ∧ t.nc = 5) : DmOk (tiedDm t) 5 where
  nact := rfl
  pos := by norm_num
  pitch := by norm_num [tiedDm, pixelDm]
  cx := by norm_num [tiedDm, pixelDm]
  cy := by norm_num [tiedDm, pixelDm]
  d := by norm_num [tiedDm, pixelDm]
  square := rfl
  inf := Or.inl rfl
  tie := h
  gain := ⟨rfl, rfl⟩
  width := by
    have : max (1 : ℝ) 1 = ((1 : ℤ) : ℝ) := by norm_num
    unfold smoothWidth tiedDm pixelDm
    simp only [this, npRound_intCast]
    norm_num
  rows := by rw [tiedDm_shape]; norm_num
  cols := by rw [tiedDm_shape]; norm_num

theorem ceilOdd_five : ceilOdd ((1 : ℝ) * 5) = 5 := by
  have : ⌈(1 : ℝ) * 5⌉ = 5 := by rw [one_mul]; exact_mod_cast Int.ceil_intCast (R := ℝ) 5
  unfold ceilOdd
  simp only [this]
  norm_num

theorem tiedDm_seen (S : Spline) (t : Arr2 ℤ) :
    MirrorSeen S (tiedDm t) 5 1 0 0 (fun i => (i : ℤ) - 2) (fun j => (j : ℤ) - 2) 5 where
  ok := by have h := pixelDm_ok S false 0 0 0; exact ⟨h.1, h.2, h.3, h.4, h.5, h.6, h.7, h.8, h.9, h.10, h.11, h.12⟩
  xoff := by norm_num [tiedDm, pixelDm]
  yoff := by norm_num [tiedDm, pixelDm]
  commutes := Or.inl ⟨rfl, fun _ => rfl⟩
  on := by have h := pixelDm_on false 0 0 0; exact ⟨h.1, h.2⟩
  inside i j hi hj := by unfold Reaches; omega
  gain i j hi hj := by
    rw [zext_in (show (0 ≤ (i : ℤ) ∧ (i : ℤ) < ((tiedDm t).gain.nr : ℕ)) ∧ (0 ≤ (j : ℤ) ∧ (j : ℤ) < ((tiedDm t).gain.nc : ℕ)) by
      have h1 : (tiedDm t).gain.nr = 5 := rfl
      have h2 : (tiedDm t).gain.nc = 5 := rfl
      omega)]
    exact one_ne_zero

theorem tiedDm_shows (t : Arr2 ℤ) (i j : ℕ) (hi : i < 5) (hj : j < 5) :
    ShowsActuator (tiedDm t) 5 1 0 0 (fun i => (i : ℤ) - 2) (fun j => (j : ℤ) - 2) i j ((i : ℤ) - 2) ((j : ℤ) - 2) := by
  have hs : (4 / 3 : ℝ) ≤ Real.sqrt 2 := by
    rw [show (4 / 3 : ℝ) = Real.sqrt ((4 / 3) ^ 2) by rw [Real.sqrt_sq]; norm_num]
    exact Real.sqrt_le_sqrt (by norm_num)
  have bd : ∀ z : ℤ, |z| ≤ 2 → 2 * |(z : ℝ)| ≤ Real.sqrt 2 * (((5 : ℕ) : ℝ) + (((tiedDm t).inf.nr : ℕ) : ℝ) / ((1 : ℕ) : ℝ)) *
      max (tiedDm t).ppactCx (tiedDm t).ppactCy := by
    intro z hz
    have h1 : |(z : ℝ)| ≤ 2 := by exact_mod_cast hz
    have h2 : (tiedDm t).inf.nr = 1 := rfl
    have h3 : max (tiedDm t).ppactCx (tiedDm t).ppactCy = 1 := max_self _
    rw [h2, h3]
    push_cast
    linarith
  refine ⟨hi, hj, ?_, bd _ (by rw [abs_le]; omega), bd _ (by rw [abs_le]; omega)⟩
  have := appears_straight false 0 0 ((i : ℤ) - 2) ((j : ℤ) - 2)
  simpa [tiedDm, pixelDm] using this

theorem tiedDm_models (S : Spline) (R : Rotate) (T : Shift) (t : Arr2 ℤ) (cmd : Arr2 ℝ) (hc : cmd.nr = 5 ∧ cmd.nc = 5) :
    ∃ A, ModelSurface S R T (tiedDm t) 1 1 5 5 cmd A := by
  obtain ⟨h, hh⟩ : ∃ h, voltsToDmh (tiedDm t).gain cmd 1 = .ok h := by
    unfold voltsToDmh
    rw [if_neg (by norm_num), dif_pos (show cmd.nr = (tiedDm t).gain.nr ∧ cmd.nc = (tiedDm t).gain.nc from hc)]
    exact ⟨_, rfl⟩
  obtain ⟨h1, -, -⟩ := heights_px hh
  obtain ⟨A, hA⟩ := (C62_shape S R T 5 5 h 5 pixelInf 1 1 1 (tiedDm t).dx (tiedDm t).dy 0 false).1.mpr
    { pixelDm_args 5 5 (by norm_num) (by norm_num) 0 0 with shape := by omega }
  exact ⟨A, h, hh, hA⟩

/-- A square pupil of five by five pixels. -/
noncomputable def squareAmp : Arr2 ℝ :=
  ⟨10, 10, fun i j => if (3 ≤ (i : ℕ) ∧ (i : ℕ) ≤ 7) ∧ (3 ≤ (j : ℕ) ∧ (j : ℕ) ≤ 7) then 1 else 0⟩

/-- The hypotheses of C94 are met, whatever the phase, the tie maps, the commands and the flags. -/
theorem tiedDm_flattened (E : FlattenEnv) (T : Shift) (t1 t2 : Arr2 ℤ) (h1 : t1.nr = 5 ∧ t1.nc = 5) (h2 : t2.nr = 5 ∧ t2.nc = 5)
    (cmd1 cmd2 : Arr2 ℝ) (c1 : cmd1.nr = 5 ∧ cmd1.nc = 5) (c2 : cmd2.nr = 5 ∧ cmd2.nc = 5) (ph : Arr2 ℝ) (b2 b3 : Bool) (k : ℤ) :
    ∃ out A1 A2 B1 B2 u, Flattened E T cmd1 cmd2 k b2 b3 1 squareAmp ph 5 0 0 (tiedDm t1) (tiedDm t2) ⟨1, 1⟩ ⟨22, 3, 10, 1⟩ out 1 1 5 5
      A1 A2 B1 B2 u ∧ ∀ k l : ℤ, (-2 ≤ k ∧ k ≤ 2) → (-2 ≤ l ∧ l ≤ 2) → u.centered k l = some true := by
  obtain ⟨u, hu, u1, u2, hpx⟩ := C12_two_level squareAmp 10 0 1 one_pos (by norm_num)
    (by
      intro v hv
      obtain ⟨i, j, hij⟩ := (mem_pixels _ _).mp hv
      by_cases hb : (0 ≤ i ∧ i < (10 : ℕ)) ∧ (0 ≤ j ∧ j < (10 : ℕ))
      · unfold squareAmp at hij
        rw [px_lit _ _ _ _ _ hb] at hij
        rw [← Option.some.inj hij]
        simp only
        split <;> simp
      · rw [Arr2.px_of_not_inB squareAmp hb] at hij; cases hij)
    ((mem_pixels _ _).mpr ⟨0, 0, by rw [squareAmp, px_lit _ _ _ _ _ (by decide)]; norm_num⟩)
    ((mem_pixels _ _).mpr ⟨4, 4, by rw [squareAmp, px_lit _ _ _ _ _ (by decide)]; simp⟩)
  have hcrop : padCrop squareAmp [10, 10] 0 = .ok squareAmp := by
    obtain ⟨o, ho, o1, o2, o3⟩ := C01_pad_crop_registered squareAmp 10 10 0 (by norm_num) (by norm_num)
    rw [ho]
    congr 1
    refine Arr2.ext_px (by have : squareAmp.nr = 10 := rfl; omega) (by have : squareAmp.nc = 10 := rfl; omega) fun i j e1 e2 e3 e4 => ?_
    have := o3 (i - 5) (j - 5) (by unfold Reaches; omega)
    unfold Arr2.centered at this
    rw [o1, o2, show ((squareAmp.nr : ℕ) : ℤ) = 10 from rfl, show ((squareAmp.nc : ℕ) : ℤ) = 10 from rfl,
      show (10 : ℤ) / 2 + (i - 5) = i by omega, show (10 : ℤ) / 2 + (j - 5) = j by omega] at this
    rw [this, Arr2.px_of_inB squareAmp (by have h1 : squareAmp.nr = 10 := rfl; have h2 : squareAmp.nc = 10 := rfl; omega)]
  have hin : ∀ k l : ℤ, (-2 ≤ k ∧ k ≤ 2) → (-2 ≤ l ∧ l ≤ 2) → u.centered k l = some true := by
    intro k l hk hl
    have e1 : squareAmp.nr = 10 := rfl
    have e2 : squareAmp.nc = 10 := rfl
    unfold Arr2.centered
    rw [hpx, u1, u2, e1, e2]
    unfold squareAmp
    rw [px_lit _ _ _ _ _ (by omega)]
    simp only [Option.map_some]
    rw [if_pos (by omega)]
    simp
  obtain ⟨out, hout⟩ := C48_returns E cmd1 cmd2 k true b2 b3 1 squareAmp ph 5 0 0 _ _ ⟨1, 1⟩ ⟨22, 3, 10, 1⟩ 5 one_pos (by norm_num) c1 c2
    (tiedDm_ok t1 h1) (tiedDm_ok t2 h2) ⟨one_ne_zero, one_ne_zero⟩ (by norm_num) (by norm_num) (by norm_num) one_pos (by norm_num)
    squareAmp u (by rw [tiedDm_shape, tiedDm_shape]; exact hcrop) hu ⟨0, 0, hin 0 0 (by norm_num) (by norm_num), by
      simp only [ceilOdd_five]; unfold Reaches; norm_num⟩
  obtain ⟨-, -, -, -, -, d1, d2, -, -, -, -, -, -, e7, e8, -⟩ := flatten_inv hout
  obtain ⟨p1, p2, -⟩ := subCmd_px e7
  obtain ⟨q1, q2, -⟩ := subCmd_px e8
  obtain ⟨A1, x1⟩ := tiedDm_models E.spline E.rotate T t1 cmd1 c1
  obtain ⟨A2, x2⟩ := tiedDm_models E.spline E.rotate T t2 cmd2 c2
  obtain ⟨B1, x3⟩ := tiedDm_models E.spline E.rotate T t1 out.cmd1 (by omega)
  obtain ⟨B2, x4⟩ := tiedDm_models E.spline E.rotate T t2 out.cmd2 (by omega)
  exact ⟨out, A1, A2, B1, B2, u, ⟨hout, by rw [tiedDm_shape, tiedDm_shape]; norm_num, x1, x3, x2, x4, squareAmp,
    by rw [tiedDm_shape, tiedDm_shape]; exact hcrop, hu⟩, hin⟩

/-- A tie map with a dead actuator in the middle. -/
def deadMiddle : Arr2 ℤ := ⟨5, 5, fun i j => if (i : ℕ) = 2 ∧ (j : ℕ) = 2 then -1 else 0⟩

/-- With a dead actuator in the middle of the first mirror, the wavefront is cancelled at all twenty-five actuators. -/
example (E : FlattenEnv) (hR : E.rotate.Exact) (T : Shift) (cmd1 cmd2 : Arr2 ℝ) (c1 : cmd1.nr = 5 ∧ cmd1.nc = 5)
    (c2 : cmd2.nr = 5 ∧ cmd2.nc = 5) (ph : Arr2 ℝ) (b2 b3 : Bool) (cf : ℤ) (i j : ℕ) (hi : i < 5) (hj : j < 5) :
    ∃ (out : FlattenOut 22) (A1 A2 B1 B2 : Arr2 ℝ) (u : Arr2 Bool) (a1 b1 a2 b2' : ℝ), Flattened E T cmd1 cmd2 cf b2 b3 1 squareAmp ph 5 0 0
        (tiedDm deadMiddle) (tiedDm (Arr2.full 5 5 0)) ⟨1, 1⟩ ⟨22, 3, 10, 1⟩ out 1 1 5 5 A1 A2 B1 B2 u ∧
      A1.centered ((i : ℤ) - 2) ((j : ℤ) - 2) = some a1 ∧ B1.centered ((i : ℤ) - 2) ((j : ℤ) - 2) = some b1 ∧
      A2.centered ((i : ℤ) - 2) ((j : ℤ) - 2) = some a2 ∧ B2.centered ((i : ℤ) - 2) ((j : ℤ) - 2) = some b2' ∧
      (ph.centered ((i : ℤ) - 2) ((j : ℤ) - 2)).getD 0 - 2 * ((a1 - b1) + (a2 - b2')) = leftOver b2 b3 out.coefs ph 5 0 0 ((i : ℤ) - 2) ((j : ℤ) - 2) := by
  obtain ⟨out, A1, A2, B1, B2, u, hf, hu⟩ := tiedDm_flattened E T deadMiddle (Arr2.full 5 5 0) ⟨rfl, rfl⟩ ⟨rfl, rfl⟩ cmd1 cmd2 c1 c2 ph b2 b3 cf
  obtain ⟨a1, b1, a2, b2', h⟩ := C94_dead_partial E hR T cmd1 cmd2 cf b2 b3 1 squareAmp ph 5 0 0 _ _ ⟨1, 1⟩ ⟨22, 3, 10, 1⟩ out 1 5 5
    A1 A2 B1 B2 u hf 5 0 0 (fun i => (i : ℤ) - 2) (fun j => (j : ℤ) - 2) (by simp only [ceilOdd_five]; norm_num)
    (by simp only [ceilOdd_five]; exact tiedDm_seen _ _) (by simp only [ceilOdd_five]; exact tiedDm_seen _ _) rfl
    (fun i j ⟨_, h⟩ => by
      unfold Dead tiedDm at h
      simp only at h
      rw [Arr2.px_full] at h
      split at h <;> simp at h)
    ((i : ℤ) - 2) ((j : ℤ) - 2) (hu _ _ (by omega) (by omega)) (by simp only [ceilOdd_five]; unfold Reaches; omega)
    (by unfold Reaches; omega) i j (tiedDm_shows _ i j hi hj) (tiedDm_shows _ i j hi hj)
  exact ⟨out, A1, A2, B1, B2, u, a1, b1, a2, b2', hf, h⟩

/-- The same for two mirrors without dead actuators. -/
example (E : FlattenEnv) (hR : E.rotate.Exact) (T : Shift) (cmd1 cmd2 : Arr2 ℝ) (c1 : cmd1.nr = 5 ∧ cmd1.nc = 5)
    (c2 : cmd2.nr = 5 ∧ cmd2.nc = 5) (ph : Arr2 ℝ) (b2 b3 : Bool) (cf : ℤ) (i j : ℕ) (hi : i < 5) (hj : j < 5) :
    ∃ (out : FlattenOut 22) (A1 A2 B1 B2 : Arr2 ℝ) (u : Arr2 Bool) (a1 b1 a2 b2' : ℝ), Flattened E T cmd1 cmd2 cf b2 b3 1 squareAmp ph 5 0 0
        (tiedDm (Arr2.full 5 5 0)) (tiedDm (Arr2.full 5 5 0)) ⟨1, 1⟩ ⟨22, 3, 10, 1⟩ out 1 1 5 5 A1 A2 B1 B2 u ∧
      A1.centered ((i : ℤ) - 2) ((j : ℤ) - 2) = some a1 ∧ B1.centered ((i : ℤ) - 2) ((j : ℤ) - 2) = some b1 ∧
      A2.centered ((i : ℤ) - 2) ((j : ℤ) - 2) = some a2 ∧ B2.centered ((i : ℤ) - 2) ((j : ℤ) - 2) = some b2' ∧
      (ph.centered ((i : ℤ) - 2) ((j : ℤ) - 2)).getD 0 - 2 * ((a1 - b1) + (a2 - b2')) = leftOver b2 b3 out.coefs ph 5 0 0 ((i : ℤ) - 2) ((j : ℤ) - 2) := by
  obtain ⟨out, A1, A2, B1, B2, u, hf, hu⟩ := tiedDm_flattened E T (Arr2.full 5 5 0) (Arr2.full 5 5 0) ⟨rfl, rfl⟩ ⟨rfl, rfl⟩ cmd1 cmd2 c1 c2 ph b2 b3 cf
  have hd : ∀ i j, ¬ Dead (tiedDm (Arr2.full 5 5 0)) i j := fun i j h => by
    unfold Dead tiedDm at h
    simp only at h
    rw [Arr2.px_full] at h
    split at h <;> simp at h
  obtain ⟨a1, b1, a2, b2', h⟩ := C94_cancels_partial E hR T cmd1 cmd2 cf b2 b3 1 squareAmp ph 5 0 0 _ _ ⟨1, 1⟩ ⟨22, 3, 10, 1⟩ out 1 1 5 5
    A1 A2 B1 B2 u hf 5 0 0 0 0 (fun i => (i : ℤ) - 2) (fun j => (j : ℤ) - 2) (fun i => (i : ℤ) - 2) (fun j => (j : ℤ) - 2)
    (by simp only [ceilOdd_five]; norm_num)
    (by simp only [ceilOdd_five]; exact tiedDm_seen _ _) (by simp only [ceilOdd_five]; exact tiedDm_seen _ _) hd hd
    ((i : ℤ) - 2) ((j : ℤ) - 2) (hu _ _ (by omega) (by omega)) (by simp only [ceilOdd_five]; unfold Reaches; omega)
    (by unfold Reaches; omega) i j i j (tiedDm_shows _ i j hi hj) (tiedDm_shows _ i j hi hj)
  exact ⟨out, A1, A2, B1, B2, u, a1, b1, a2, b2', hf, h⟩

end Coralign.Props
