import Verif.Props.Conjugate

/-!
# C48: the desired surfaces outside the pupil
-/

namespace Coralign.Props

open Coralign Coralign.Spec

/-- `lo` and `hi` are the smallest and the largest value of `f` over the usable pixels, addressed from the centre. -/
def IsPupilRange (u : Arr2 Bool) (f : ℤ → ℤ → ℝ) (lo hi : ℝ) : Prop :=
  (∃ k l, u.centered k l = some true ∧ f k l = lo) ∧ (∃ k l, u.centered k l = some true ∧ f k l = hi) ∧
    ∀ k l, u.centered k l = some true → lo ≤ f k l ∧ f k l ≤ hi

theorem selectList_mem {u : Arr2 Bool} {a : Arr2 ℝ} {v : ℝ} (h : v ∈ selectList u a) : ∃ i j : ℤ, u.px i j = some true ∧ a.zext i j = v := by
  unfold selectList at h
  rw [List.mem_flatMap] at h
  obtain ⟨i, -, h⟩ := h
  rw [List.mem_filterMap] at h
  obtain ⟨j, -, h⟩ := h
  by_cases hu : u.val i j = true
  · rw [if_pos hu] at h
    exact ⟨(i : ℕ), (j : ℕ), by rw [Arr2.px_val, hu], Option.some.inj h⟩
  · rw [if_neg hu] at h
    cases h

theorem clamp_eq {u : Arr2 Bool} {a o : Arr2 ℝ} (h : clampPhase u a = .ok o) : ∃ L H : ℝ, (∃ i j, u.px i j = some true ∧ a.zext i j = L) ∧
    (∃ i j, u.px i j = some true ∧ a.zext i j = H) ∧ (∀ i j, u.px i j = some true → L ≤ a.zext i j ∧ a.zext i j ≤ H) ∧
    o = a.map fun v : ℝ => max L (min H v) := by
  unfold clampPhase at h
  cases hlo : (selectList u a).min? with
  | none => rw [hlo] at h; cases h
  | some L =>
    cases hhi : (selectList u a).max? with
    | none => rw [hlo, hhi] at h; cases h
    | some H =>
      rw [hlo, hhi] at h
      obtain rfl := Except.ok.inj h
      obtain ⟨l1, l2⟩ := List.min?_eq_some_iff.mp hlo
      obtain ⟨h1, h2⟩ := List.max?_eq_some_iff.mp hhi
      refine ⟨L, H, selectList_mem l1, selectList_mem h1, fun i j hu => ⟨l2 _ (mem_selectList hu), h2 _ (mem_selectList hu)⟩, ?_⟩
      have hLH : L ≤ H := l2 _ h1
      unfold Arr2.map
      congr 1
      funext i j
      generalize a.val i j = v
      simp only
      by_cases c1 : v < L
      · rw [if_pos c1, if_neg (not_lt.mpr hLH), min_eq_right (c1.le.trans hLH), max_eq_left c1.le]
      · rw [if_neg c1]
        push Not at c1
        by_cases c2 : v > H
        · rw [if_pos c2, min_eq_left c2.le, max_eq_right hLH]
        · rw [if_neg c2]
          push Not at c2
          rw [min_eq_right c2, max_eq_right c1]

theorem zext_bounds {a : Arr2 ℝ} {lo hi : ℝ} (h0 : lo ≤ 0) (h1 : 0 ≤ hi) : (∀ i j, lo ≤ a.val i j ∧ a.val i j ≤ hi) ↔ ∀ i j : ℤ, lo ≤ a.zext i j ∧ a.zext i j ≤ hi := by
  constructor
  · intro h i j
    by_cases hb : (0 ≤ i ∧ i < a.nr) ∧ (0 ≤ j ∧ j < a.nc)
    · rw [zext_in hb]
      exact h _ _
    · rw [zext_out hb]
      exact ⟨h0, h1⟩
  · intro h i j
    have := h (i : ℕ) (j : ℕ)
    rwa [Arr2.zext_val] at this

theorem crop_bounds {a o : Arr2 ℝ} {h w : ℤ} (he : padCrop a [h, w] 0 = .ok o) {lo hi : ℝ} (h0 : lo ≤ 0) (h1 : 0 ≤ hi)
    (ha : ∀ i j : ℤ, lo ≤ a.zext i j ∧ a.zext i j ≤ hi) (i j : ℤ) : lo ≤ o.zext i j ∧ o.zext i j ≤ hi := by
  by_cases hb : (0 ≤ i ∧ i < o.nr) ∧ (0 ≤ j ∧ j < o.nc)
  · obtain ⟨e1, e2, e3⟩ := crop_at he
    have := e3 (i - o.nr / 2) (j - o.nc / 2) (by unfold Reaches; omega)
    unfold Arr2.centered at this
    rw [show (o.nr : ℤ) / 2 + (i - o.nr / 2) = i by ring, show (o.nc : ℤ) / 2 + (j - o.nc / 2) = j by ring] at this
    have e : o.zext i j = a.zext ((a.nr : ℤ) / 2 + (i - o.nr / 2)) ((a.nc : ℤ) / 2 + (j - o.nc / 2)) := by
      unfold Arr2.zext
      rw [this]
      rfl
    rw [e]
    exact ha _ _
  · rw [zext_out hb]
    exact ⟨h0, h1⟩

theorem smoothLoop_bounds {B : BoxSmooth} {u : Arr2 Bool} {p : Arr2 ℝ} {w : ℤ} {lo hi : ℝ} (h0 : lo ≤ 0) (h1 : 0 ≤ hi)
    (hp : ∀ i j : ℤ, lo ≤ p.zext i j / 2 ∧ p.zext i j / 2 ≤ hi) (n : ℕ) (s o : Arr2 ℝ) (h : smoothLoop B u p w n s = .ok o)
    (hs : ∀ i j : ℤ, lo ≤ s.zext i j ∧ s.zext i j ≤ hi) : ∀ i j : ℤ, lo ≤ o.zext i j ∧ o.zext i j ≤ hi := by
  induction n generalizing s with
  | zero =>
    obtain rfl := Except.ok.inj h
    exact hs
  | succ n ih =>
    unfold smoothLoop at h
    obtain ⟨t, ht, h⟩ := res_bind_ok h
    refine ih _ h ?_
    have hb : ∀ i j : ℤ, lo ≤ t.zext i j ∧ t.zext i j ≤ hi := by
      unfold smoothSurface at ht
      split at ht
      · cases ht
      · refine crop_bounds ht h0 h1 ((zext_bounds h0 h1).mp (B.range _ _ _ _ h0 h1 ((zext_bounds h0 h1).mpr hs)))
    refine (zext_bounds h0 h1).mp fun i j => ?_
    unfold resetPupil
    simp only
    split
    · exact hp _ _
    · exact (zext_bounds h0 h1).mpr hb i j

theorem centered_zext {a : Arr2 ℝ} {k l : ℤ} {v : ℝ} (h : a.centered k l = some v) : a.zext (a.nr / 2 + k) (a.nc / 2 + l) = v := by
  unfold Arr2.centered at h
  unfold Arr2.zext
  rw [h]
  rfl

theorem zext_centered {a : Arr2 ℝ} {k l : ℤ} (h : Reaches a.nr a.nc k l) : a.centered k l = some (a.zext (a.nr / 2 + k) (a.nc / 2 + l)) := by
  unfold Arr2.centered Arr2.zext
  unfold Reaches at h
  rw [Arr2.px_of_inB a (by omega)]
  rfl

theorem desired_bounds {B : BoxSmooth} {hz : Bool} {n : ℕ} {w m : ℤ} {u : Arr2 Bool} {phase s : Arr2 ℝ}
    (h : desiredSurface B hz n w m u phase = .ok s) (hu : (u.nr : ℤ) = m ∧ (u.nc : ℤ) = m) {lo hi : ℝ} (h0 : lo ≤ 0) (h1 : 0 ≤ hi)
    (hs : ∀ k l v, u.centered k l = some true → s.centered k l = some v → lo ≤ v ∧ v ≤ hi) :
    ∀ k l v, s.centered k l = some v → lo ≤ v ∧ v ≤ hi := by
  have hk := desired_keeps h hu
  unfold desiredSurface at h
  obtain ⟨p, hp, h⟩ := res_bind_ok h
  obtain ⟨p0, hp0, h⟩ := res_bind_ok h
  obtain ⟨q1, q2, q3⟩ := crop_at hp
  have key : ∀ i j : ℤ, u.px i j = some true → lo ≤ p.zext i j / 2 ∧ p.zext i j / 2 ≤ hi := by
    intro i j hij
    have hb : (0 ≤ i ∧ i < u.nr) ∧ (0 ≤ j ∧ j < u.nc) := by rw [← Arr2.px_isSome, hij]; rfl
    have e1 : (u.nr : ℤ) / 2 + (i - u.nr / 2) = i := by ring
    have e2 : (u.nc : ℤ) / 2 + (j - u.nc / 2) = j := by ring
    have huc : u.centered (i - u.nr / 2) (j - u.nc / 2) = some true := by
      unfold Arr2.centered
      rw [e1, e2, hij]
    have hr : Reaches m m (i - u.nr / 2) (j - u.nc / 2) := by unfold Reaches; omega
    have hpz : p.zext i j = (phase.centered (i - u.nr / 2) (j - u.nc / 2)).getD 0 := by
      have := centered_zext (q3 _ _ hr)
      rw [q1, q2] at this
      rw [← this]
      congr 1 <;> omega
    -- the surface there is half the cropped phase
    obtain ⟨c1, c2⟩ := clamp_keeps hp0 (by omega)
    have hsz : s.zext i j = p.zext i j / 2 := by
      have c3 : ∀ i j, u.px i j = some true → (p0.map fun v => v / 2).zext i j = p0.zext i j / 2 := by
        intro i j _
        rw [zext_map _ (by norm_num)]
      have : s.zext i j = p0.zext i j / 2 := by
        cases hz with
        | true =>
          simp only [if_true] at h
          exact (smoothLoop_keeps n (p0.map fun v => v / 2) _ h (by simp only [Arr2.map_nr, Arr2.map_nc]; omega) c3).2 i j hij
        | false =>
          simp only [Bool.false_eq_true, if_false] at h
          obtain rfl := Except.ok.inj h
          exact c3 i j hij
      rw [this, c2 i j hij]
    rw [← hsz]
    have hsc : s.centered (i - u.nr / 2) (j - u.nc / 2) = some (s.zext i j) := by
      rw [zext_centered (by unfold Reaches; omega)]
      congr 2 <;> omega
    exact hs _ _ _ huc hsc
  obtain ⟨L, H, ⟨i1, j1, g1, g1'⟩, ⟨i2, j2, g2, g2'⟩, g3, g4⟩ := clamp_eq hp0
  have b1 := (key i1 j1 g1).1
  have b2 := (key i2 j2 g2).2
  rw [g1'] at b1
  rw [g2'] at b2
  have hLH : L ≤ H := by have := g3 i1 j1 g1; linarith [this.1, this.2]
  have hall : ∀ i j : ℤ, lo ≤ p0.zext i j / 2 ∧ p0.zext i j / 2 ≤ hi := by
    intro i j
    by_cases hb : (0 ≤ i ∧ i < p0.nr) ∧ (0 ≤ j ∧ j < p0.nc)
    · rw [g4, Arr2.map_nr, Arr2.map_nc] at hb
      rw [g4, zext_in (a := p.map _) hb]
      simp only [Arr2.map]
      generalize p.val _ _ = v
      have x1 : L ≤ max L (min H v) := le_max_left _ _
      have x2 : max L (min H v) ≤ H := max_le hLH (min_le_left _ _)
      constructor <;> linarith
    · rw [zext_out hb, zero_div]
      exact ⟨h0, h1⟩
  have hs0 : ∀ i j : ℤ, lo ≤ (p0.map fun v => v / 2).zext i j ∧ (p0.map fun v => v / 2).zext i j ≤ hi := by
    intro i j
    rw [zext_map _ (by norm_num)]
    exact hall i j
  have hfin : ∀ i j : ℤ, lo ≤ s.zext i j ∧ s.zext i j ≤ hi := by
    cases hz with
    | true =>
      simp only [if_true] at h
      exact smoothLoop_bounds h0 h1 hall n _ _ h hs0
    | false =>
      simp only [Bool.false_eq_true, if_false] at h
      obtain rfl := Except.ok.inj h
      exact hs0
  intro k l v hv
  rw [← centered_zext hv]
  exact hfin _ _

/-- Outside the pupil neither mirror is asked for more than inside it: bounds on either side of zero that hold for a desired surface at
the usable pixels hold for it everywhere. -/
theorem surfaces_bounded (E : FlattenEnv) (useDMs useFCM highZern : Bool) (amp ph : Arr2 ℝ) (diam xo yo : ℝ) (dm1 dm2 : DmCal)
    (cfg : FlattenCfg) (wk : FlattenWork cfg.maxNoll.toNat)
    (hok : flattenSurfaces E useDMs useFCM highZern amp ph diam xo yo dm1 dm2 cfg = .ok wk) (surf : Arr2 ℝ) (hsurf : surf = wk.surf1 ∨ surf = wk.surf2)
    (lo hi : ℝ) (h0 : lo ≤ 0) (h1 : 0 ≤ hi) (hin : ∀ k l v, wk.usable.centered k l = some true → surf.centered k l = some v → lo ≤ v ∧ v ≤ hi)
    (k l : ℤ) (v : ℝ) (hv : surf.centered k l = some v) : lo ≤ v ∧ v ≤ hi := by
  obtain ⟨hd, hN, wfeIn, ampIn, u, z1, z4, z5, ps, e1, e2, e3, e4, e5, e6, e7, e8, e9⟩ := surfaces_inv hok
  obtain ⟨m1, m2, m3⟩ := crop_at e7
  rcases hsurf with rfl | rfl
  · exact desired_bounds e8 ⟨m1, m2⟩ h0 h1 hin k l v hv
  · exact desired_bounds e9 ⟨m1, m2⟩ h0 h1 hin k l v hv

theorem desired_low {B : BoxSmooth} {n : ℕ} {w m : ℤ} {u : Arr2 Bool} {phase s : Arr2 ℝ}
    (h : desiredSurface B false n w m u phase = .ok s) (hu : (u.nr : ℤ) = m ∧ (u.nc : ℤ) = m) :
    ∃ lo hi, IsPupilRange u (fun k l => (phase.centered k l).getD 0) lo hi ∧
      ∀ k l, Reaches m m k l → s.centered k l = some (max lo (min hi ((phase.centered k l).getD 0)) / 2) := by
  unfold desiredSurface at h
  obtain ⟨p, hp, h⟩ := res_bind_ok h
  obtain ⟨p0, hp0, h⟩ := res_bind_ok h
  simp only [Bool.false_eq_true, if_false] at h
  obtain rfl := Except.ok.inj h
  obtain ⟨q1, q2, q3⟩ := crop_at hp
  obtain ⟨L, H, ⟨i1, j1, g1, g1'⟩, ⟨i2, j2, g2, g2'⟩, g3, g4⟩ := clamp_eq hp0
  have huc : ∀ i j : ℤ, u.px i j = some true → u.centered (i - u.nr / 2) (j - u.nc / 2) = some true ∧ (phase.centered (i - u.nr / 2) (j - u.nc / 2)).getD 0 = p.zext i j := by
    intro i j hij
    have hb : (0 ≤ i ∧ i < u.nr) ∧ (0 ≤ j ∧ j < u.nc) := by rw [← Arr2.px_isSome, hij]; rfl
    have e1 : (u.nr : ℤ) / 2 + (i - u.nr / 2) = i := by ring
    have e2 : (u.nc : ℤ) / 2 + (j - u.nc / 2) = j := by ring
    constructor
    · unfold Arr2.centered
      rw [e1, e2, hij]
    · have hr : Reaches m m (i - u.nr / 2) (j - u.nc / 2) := by unfold Reaches; omega
      have := centered_zext (q3 _ _ hr)
      rw [q1, q2] at this
      rw [← this]
      congr 1 <;> omega
  refine ⟨L, H, ⟨⟨_, _, (huc _ _ g1).1, (huc _ _ g1).2.trans g1'⟩, ⟨_, _, (huc _ _ g2).1, (huc _ _ g2).2.trans g2'⟩, fun k l hkl => ?_⟩, fun k l hkl => ?_⟩
  · have hr := centered_reaches hkl
    rw [hu.1, hu.2] at hr
    have := centered_zext (q3 k l hr)
    simp only
    rw [← this, q1, q2]
    have hw : (u.nr : ℤ) = u.nc := by omega
    refine g3 _ _ ?_
    unfold Arr2.centered at hkl
    rw [← hkl]
    congr 1 <;> omega
  · have := q3 k l hkl
    rw [g4]
    unfold Arr2.centered at this ⊢
    rw [Arr2.px_map, Arr2.px_map]
    simp only [Arr2.map_nr, Arr2.map_nc]
    rw [this]
    rfl

/-- Without the high orders each mirror takes half of the correction, and outside the pupil the correction is the fitted modes limited
to their range over the usable pixels; beyond the maps it is zero limited to that range. -/
theorem surfaces_low (E : FlattenEnv) (useFCM : Bool) (amp ph : Arr2 ℝ) (diam xo yo : ℝ) (dm1 dm2 : DmCal)
    (cfg : FlattenCfg) (wk : FlattenWork cfg.maxNoll.toNat)
    (hok : flattenSurfaces E true useFCM false amp ph diam xo yo dm1 dm2 cfg = .ok wk)
    (h6 : max (max (wfeShape dm1).1 (wfeShape dm2).1) (max (wfeShape dm1).2 (wfeShape dm2).2) ≠ 1000000) :
    ∃ f : ℤ → ℤ → ℝ, (∀ k l, f k l = if Reaches (max (wfeShape dm1).1 (wfeShape dm2).1) (max (wfeShape dm1).2 (wfeShape dm2).2) k l then
        zernPart (List.ofFn wk.coefs) (if useFCM then 5 else 4) cfg.maxNoll.toNat (diam / 2) (l - xo) (k - yo) else 0) ∧
      ∃ lo hi, IsPupilRange wk.usable f lo hi ∧
        ∀ k l, Reaches wk.usable.nr wk.usable.nc k l → wk.surf1.centered k l = some (max lo (min hi (f k l)) / 4) ∧ wk.surf2.centered k l = wk.surf1.centered k l := by
  obtain ⟨hd, hN, wfeIn, ampIn, u, z1, z4, z5, ps, e1, e2, e3, e4, e5, e6, e7, e8, e9⟩ := surfaces_inv hok
  generalize hny : max (wfeShape dm1).1 (wfeShape dm2).1 = ny at *
  generalize hnx : max (wfeShape dm1).2 (wfeShape dm2).2 = nx at *
  obtain ⟨pny, pnx⟩ := padCrop_pos e1
  obtain ⟨m1, m2, m3⟩ := crop_at e7
  have hacc := (C50_accepts_iff _ _ _ _ _ _ _ _).mp ⟨_, e5⟩
  have hNN : ((cfg.maxNoll.toNat : ℕ) : ℤ) = cfg.maxNoll := Int.toNat_of_nonneg hN.le
  have hlow : (if useFCM then 5 else 4) ≤ cfg.maxNoll.toNat := by
    have := hacc.1
    cases useFCM <;> simp at this ⊢ <;> omega
  obtain ⟨b1, b4, b5, f5, ⟨g1, g1'⟩, ⟨g4, g4'⟩, ⟨g5, g5'⟩, hv⟩ :=
    split_eq useFCM cfg.maxNoll.toNat (List.ofFn wk.coefs) diam ny nx xo yo hlow hd pny pnx
  rw [hNN, e5] at f5
  simp only [Except.ok.injEq, Prod.mk.injEq] at f5
  obtain ⟨rfl, rfl, rfl⟩ := f5
  unfold splitPhase at e6
  simp only [if_true, Bool.false_eq_true, if_false] at e6
  obtain rfl := Except.ok.inj e6
  have hph : ∀ k l, ((z5.map fun v : ℝ => 0.5 * v).centered k l).getD 0 = (if Reaches ny nx k l then
        zernPart (List.ofFn wk.coefs) (if useFCM then 5 else 4) cfg.maxNoll.toNat (diam / 2) (l - xo) (k - yo) else 0) / 2 := by
    intro k l
    by_cases hr : Reaches ny nx k l
    · obtain ⟨v1, v4, v5⟩ := hv h6 k l hr
      rw [if_pos hr]
      unfold Arr2.centered at v5 ⊢
      rw [Arr2.px_map]
      simp only [Arr2.map_nr, Arr2.map_nc]
      rw [v5]
      simp only [Option.map_some, Option.getD_some]
      ring
    · rw [if_neg hr, zero_div]
      have : (z5.map fun v : ℝ => 0.5 * v).centered k l = none := by
        unfold Arr2.centered
        refine Arr2.px_of_not_inB _ ?_
        simp only [Arr2.map_nr, Arr2.map_nc]
        rw [g5, g5']
        unfold Reaches at hr
        exact hr
      rw [this]
      rfl
  obtain ⟨lo, hi, hr1, hs1⟩ := desired_low e8 ⟨m1, m2⟩
  obtain ⟨lo', hi', hr2, hs2⟩ := desired_low e9 ⟨m1, m2⟩
  simp only at hr1 hr2 hs1 hs2
  have hlo : lo' = lo := by
    obtain ⟨⟨k, l, x1, x2⟩, -, x3⟩ := hr1
    obtain ⟨⟨k', l', y1, y2⟩, -, y3⟩ := hr2
    have := x3 k' l' y1
    have := y3 k l x1
    simp only at *
    linarith
  have hhi : hi' = hi := by
    obtain ⟨-, ⟨k, l, x1, x2⟩, x3⟩ := hr1
    obtain ⟨-, ⟨k', l', y1, y2⟩, y3⟩ := hr2
    have := x3 k' l' y1
    have := y3 k l x1
    simp only at *
    linarith
  subst hlo hhi
  refine ⟨_, fun k l => rfl, 2 * lo', 2 * hi', ⟨?_, ?_, ?_⟩, fun k l hkl => ?_⟩
  · obtain ⟨k, l, x1, x2⟩ := hr1.1
    refine ⟨k, l, x1, ?_⟩
    simp only [hph] at x2
    linarith
  · obtain ⟨k, l, x1, x2⟩ := hr1.2.1
    refine ⟨k, l, x1, ?_⟩
    simp only [hph] at x2
    linarith
  · intro k l hkl
    have := hr1.2.2 k l hkl
    simp only [hph] at this
    constructor <;> linarith [this.1, this.2]
  · rw [m1, m2] at hkl
    rw [hs1 k l hkl, hs2 k l hkl]
    refine ⟨?_, rfl⟩
    rw [hph]
    generalize (if Reaches ny nx k l then _ else _ : ℝ) = f
    congr 1
    have t1 : min (2 * hi') f = 2 * min hi' (f / 2) := by
      rw [mul_min_of_nonneg _ _ (by norm_num : (0 : ℝ) ≤ 2)]
      congr 1
      ring
    rw [t1, ← mul_max_of_nonneg _ _ (by norm_num : (0 : ℝ) ≤ 2)]
    ring

/-! ### What `flatten` asks of the mirrors -/

theorem subCmd_map {cmd d o : Arr2 ℝ} (hs : o.nr = cmd.nr ∧ o.nc = cmd.nc) (hz : ∀ i j, o.zext i j = cmd.zext i j - d.zext i j) (i j : ℤ) :
    o.px i j = (cmd.px i j).map fun c => c - d.zext i j := by
  by_cases hb : (0 ≤ i ∧ i < cmd.nr) ∧ (0 ≤ j ∧ j < cmd.nc)
  · have hb' : (0 ≤ i ∧ i < o.nr) ∧ (0 ≤ j ∧ j < o.nc) := by rw [hs.1, hs.2]; exact hb
    have := hz i j
    rw [zext_in hb, zext_in hb'] at this
    rw [Arr2.px_of_inB _ hb, Arr2.px_of_inB _ hb', this]
    rfl
  · rw [Arr2.px_of_not_inB _ hb, Arr2.px_of_not_inB _ (by rw [hs.1, hs.2]; exact hb)]
    rfl

/-- Specification: `u` is the pupil as the mirrors are asked to correct it: the amplitude map, brought to the size of the larger mirror's map,
thresholded, and brought to the (odd) size of the desired surfaces. -/
def IsFlatPupil (amp : Arr2 ℝ) (diam : ℝ) (dm1 dm2 : DmCal) (cfg : FlattenCfg) (u : Arr2 Bool) : Prop :=
  ∃ am u0, padCrop amp [max (wfeShape dm1).1 (wfeShape dm2).1, max (wfeShape dm1).2 (wfeShape dm2).2] 0 = .ok am ∧
    ampthresh am cfg.nBin = .ok u0 ∧
    padCrop u0 [ceilOdd (cfg.arrayExtFac * diam), ceilOdd (cfg.arrayExtFac * diam)] false = .ok u

open Classical in
/-- Specification: the commands `new1`, `new2` ask the mirrors for the surfaces `surf1`, `surf2` on top of `cmd1`, `cmd2`: they are the old
commands less the voltages for the heights `h1`, `h2` that `conv_surf_to_dm_cmd` works out for the surfaces, a dead actuator being left out and
its height given to its counterpart on the other mirror.  (At an actuator of gain zero there is no such voltage, see C121.) -/
def AsksFor (E : FlattenEnv) (lam : ℝ) (dm1 dm2 : DmCal) (cmd1 cmd2 new1 new2 surf1 surf2 : Arr2 ℝ) : Prop :=
  ∃ h1 h2 g1 g2 d1 d2 : Arr2 ℝ,
    convSurfToDmCmd E.spline E.rotate E.spsolve surf1 dm1 = .ok h1 ∧ convSurfToDmCmd E.spline E.rotate E.spsolve surf2 dm2 = .ok h2 ∧
    (∀ i j : ℤ, (0 ≤ i ∧ i < h1.nr) ∧ (0 ≤ j ∧ j < h1.nc) →
      g1.px i j = some (if Dead dm1 i j then 0 else h1.zext i j + if Dead dm2 i j then h2.zext i j else 0) ∧
      g2.px i j = some (if Dead dm2 i j then 0 else h2.zext i j + if Dead dm1 i j then h1.zext i j else 0)) ∧
    dmhToVolts dm1.gain g1 lam = .ok d1 ∧ dmhToVolts dm2.gain g2 lam = .ok d2 ∧
    (d1.nr = cmd1.nr ∧ d1.nc = cmd1.nc) ∧ (d2.nr = cmd2.nr ∧ d2.nc = cmd2.nc) ∧
    (∀ i j, dm1.gain.px i j ≠ some 0 → new1.px i j = (cmd1.px i j).map fun c => c - d1.zext i j) ∧
    (∀ i j, dm2.gain.px i j ≠ some 0 → new2.px i j = (cmd2.px i j).map fun c => c - d2.zext i j)

/-- Specification: `surf1` and `surf2` are what the mirrors should look like over the pupil `u`. -/
structure FlatSurfaces (useDMs useFCM highZern : Bool) (ph : Arr2 ℝ) (diam xo yo : ℝ) (dm1 dm2 : DmCal) {N : ℕ} (coefs : Fin N → ℝ)
    (u : Arr2 Bool) (surf1 surf2 : Arr2 ℝ) : Prop where
  /-- The surfaces have the size of the pupil map. -/
  size1 : surf1.nr = u.nr ∧ surf1.nc = u.nc
  size2 : surf2.nr = u.nr ∧ surf2.nc = u.nc
  /-- At every usable pixel the two surfaces together - reflection counts twice - make up exactly the requested correction, whatever the split
  factor: with high orders, the measured phase less the fitted modes that the mirrors do not correct (1-3, and 4 when the focus mechanism takes
  it); without, the remaining fitted modes. -/
  total : useDMs = true → ∀ k l, u.centered k l = some true → ∃ s1 s2, surf1.centered k l = some s1 ∧ surf2.centered k l = some s2 ∧
    2 * (s1 + s2) =
      if highZern then (ph.centered k l).getD 0 - zernPart (List.ofFn coefs) 1 (if useFCM then 4 else 3) (diam / 2) (l - xo) (k - yo)
      else zernPart (List.ofFn coefs) (if useFCM then 5 else 4) N (diam / 2) (l - xo) (k - yo)
  /-- Outside the pupil neither surface asks for more than inside it: bounds on either side of zero that hold at the usable pixels hold
  everywhere. -/
  bounded : ∀ surf, surf = surf1 ∨ surf = surf2 → ∀ lo hi : ℝ, lo ≤ 0 → 0 ≤ hi →
    (∀ k l v, u.centered k l = some true → surf.centered k l = some v → lo ≤ v ∧ v ≤ hi) →
    ∀ k l v, surf.centered k l = some v → lo ≤ v ∧ v ≤ hi
  /-- Without the high orders each mirror takes half of the correction, and everywhere the correction is the fitted modes limited to their range
  over the usable pixels; beyond the mirrors' maps it is zero limited to that range. -/
  low : useDMs = true → highZern = false → ∃ f : ℤ → ℤ → ℝ,
    (∀ k l, f k l = if Reaches (max (wfeShape dm1).1 (wfeShape dm2).1) (max (wfeShape dm1).2 (wfeShape dm2).2) k l then
      zernPart (List.ofFn coefs) (if useFCM then 5 else 4) N (diam / 2) (l - xo) (k - yo) else 0) ∧
    ∃ lo hi, IsPupilRange u f lo hi ∧
      ∀ k l, Reaches u.nr u.nc k l → surf1.centered k l = some (max lo (min hi (f k l)) / 4) ∧ surf2.centered k l = surf1.centered k l

/-- **C48.** The commands returned by `flatten` ask the two mirrors for surfaces which at every usable pixel make up exactly the requested
correction, whatever the split factor, which outside the pupil ask for no more than inside it, and which without the high orders are half of the
limited fitted modes each. -/
theorem C48_surfaces (E : FlattenEnv) (cmd1 cmd2 : Arr2 ℝ) (cmdFCM : ℤ) (useDMs useFCM highZern : Bool) (lam : ℝ)
    (amp ph : Arr2 ℝ) (diam xo yo : ℝ) (dm1 dm2 : DmCal) (fc : FcmCal) (cfg : FlattenCfg) (out : FlattenOut cfg.maxNoll.toNat)
    (hok : flatten E cmd1 cmd2 cmdFCM useDMs useFCM highZern lam amp ph diam xo yo dm1 dm2 fc cfg = .ok out)
    (h6 : max (max (wfeShape dm1).1 (wfeShape dm2).1) (max (wfeShape dm1).2 (wfeShape dm2).2) ≠ 1000000) :
    ∃ u surf1 surf2, IsFlatPupil amp diam dm1 dm2 cfg u ∧ AsksFor E lam dm1 dm2 cmd1 cmd2 out.cmd1 out.cmd2 surf1 surf2 ∧
      FlatSurfaces useDMs useFCM highZern ph diam xo yo dm1 dm2 out.coefs u surf1 surf2 := by
  classical
  obtain ⟨hl, wk, h1, h2, hh, d1, d2, e1, e2, e3, e4, e5, e6, e7, e8, e9, e10, -⟩ := flatten_inv hok
  obtain ⟨hd, hN, wfeIn, ampIn, u, z1, z4, z5, ps, f1, f2, f3, f4, f5, f6, f7, f8, f9⟩ := surfaces_inv e1
  obtain ⟨m1, m2, m3⟩ := crop_at f7
  have r1 := (desired_keeps f8 ⟨m1, m2⟩).1
  have r2 := (desired_keeps f9 ⟨m1, m2⟩).1
  refine ⟨wk.usable, wk.surf1, wk.surf2, ⟨ampIn, u, f2, f3, f7⟩, ?_, ?_⟩
  · obtain ⟨q0, -, -, q1, q2, hpx⟩ := reassign_px e4
    obtain ⟨o1, c1, p1⟩ := subCmd_px e7
    obtain ⟨o2, c2, p2⟩ := subCmd_px e8
    refine ⟨h1, h2, hh.1, hh.2, d1, d2, e2, e3, fun i j hij => ?_, e5, e6, c1, c2, ?_, ?_⟩
    · obtain ⟨x, y⟩ := hpx i j hij
      have b1 : (0 ≤ i ∧ i < hh.1.nr) ∧ (0 ≤ j ∧ j < hh.1.nc) := by rw [q1.1, q1.2]; exact hij
      have b2 : (0 ≤ i ∧ i < hh.2.nr) ∧ (0 ≤ j ∧ j < hh.2.nc) := by rw [q2.1, q2.2]; exact hij
      rw [zext_in b1] at x
      rw [zext_in b2] at y
      rw [Arr2.px_of_inB _ b1, Arr2.px_of_inB _ b2, x, y]
      simp only [isDead_iff, and_self]
    · exact fun i j _ => subCmd_map o1 p1 i j
    · exact fun i j _ => subCmd_map o2 p2 i j
  · rw [e10]
    refine ⟨by omega, by omega, ?_, ?_, ?_⟩
    · rintro rfl k l hu
      exact surfaces_sum E useFCM highZern amp ph diam xo yo dm1 dm2 cfg wk e1 h6 k l hu
    · intro surf hs lo hi h0 h1 hin k l v hv
      exact surfaces_bounded E useDMs useFCM highZern amp ph diam xo yo dm1 dm2 cfg wk e1 surf hs lo hi h0 h1 hin k l v hv
    · rintro rfl rfl
      exact surfaces_low E useFCM amp ph diam xo yo dm1 dm2 cfg wk e1 h6

/-- The sample of `sample_flattened` meets the hypotheses, whatever the phase, the dead actuators and the flags. -/
example (E : FlattenEnv) (t : Arr2 ℤ) (h : t.nr = 2 ∧ t.nc = 2) (ph : Arr2 ℝ) (b1 b2 b3 : Bool) :
    ∃ out u surf1 surf2, flatten E (Arr2.full 2 2 0) (Arr2.full 2 2 0) 0 b1 b2 b3 1 sampleAmp ph 4 0 0 (sampleDm t) (sampleDm t) ⟨1, 1⟩ ⟨22, 3, 10, 1⟩ = .ok out ∧
      IsFlatPupil sampleAmp 4 (sampleDm t) (sampleDm t) ⟨22, 3, 10, 1⟩ u ∧
      AsksFor E 1 (sampleDm t) (sampleDm t) (Arr2.full 2 2 0) (Arr2.full 2 2 0) out.cmd1 out.cmd2 surf1 surf2 ∧
      FlatSurfaces b1 b2 b3 ph 4 0 0 (sampleDm t) (sampleDm t) out.coefs u surf1 surf2 := by
  obtain ⟨out, ho⟩ := sample_flattened E t t h h (Arr2.full 2 2 0) (Arr2.full 2 2 0) ⟨rfl, rfl⟩ ⟨rfl, rfl⟩ ph b1 b2 b3 0
  obtain ⟨u, s1, s2, hs⟩ := C48_surfaces _ _ _ _ _ _ _ _ _ _ _ _ _ _ _ _ _ _ ho (by rw [sample_shape]; norm_num)
  exact ⟨out, u, s1, s2, ho, hs⟩

end Coralign.Props
