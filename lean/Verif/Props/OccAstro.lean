import Verif.Model.OccAstro
import Verif.Props.GridSearch
import Verif.Props.FocalFit
import Verif.Props.FitSurf

/-!
# C58, C73: satellite spots
-/

namespace Coralign.Props

open Coralign Coralign.Spec

/-- The tuning values the functions accept. -/
structure _root_.Coralign.StarTuning.Valid (t : StarTuning) : Prop where
  sep : 0 < t.sepPix
  roi : 0 < t.roiRadiusPix
  sub : 0 < t.nSubpixels
  steps : 0 < t.nSteps
  step : 0 < t.stepSize
  iter : 0 < t.nIter

theorem addPx_eq (n m : ℕ) (f g : Fin n → Fin m → ℝ) : Arr2.addPx ⟨n, m, f⟩ ⟨n, m, g⟩ = ⟨n, m, fun i j => f i j + g i j⟩ := by
  unfold Arr2.addPx
  congr 1
  funext i j
  show f i j + (Arr2.px ⟨n, m, g⟩ (i : ℕ) (j : ℕ)).getD 0 = _
  rw [Arr2.px_val (a := ⟨n, m, g⟩) i j, Option.getD_some]

theorem roiMask_eq (img : Arr2 ℝ) (N : ℕ) (hx : 2 ≤ img.nc) (hy : 1 ≤ img.nr) (hN : 1 ≤ N) (r : ℝ) (hr : 0 < r) (sep X Y : ℝ)
    (rots : List ℝ) (m0 : Fin img.nr → Fin img.nc → ℝ) :
    ∃ m : Fin img.nr → Fin img.nc → ℝ,
      rots.foldlM (fun mask rotDeg => do
        let rot := Real.pi / 180 * rotDeg
        let plus ← circle img.nc img.nr r (Real.cos rot * sep + X) (Real.sin rot * sep + Y) N false
        let minus ← circle img.nc img.nr r (Real.cos (rot + Real.pi) * sep + X) (Real.sin (rot + Real.pi) * sep + Y) N false
        .ok ((mask.addPx plus).addPx minus)) (⟨img.nr, img.nc, m0⟩ : Arr2 ℝ) = (.ok ⟨img.nr, img.nc, m⟩ : Res (Arr2 ℝ)) ∧
      roiSum ⟨img.nr, img.nc, m⟩ img = roiSum ⟨img.nr, img.nc, m0⟩ img + pairFlux img N r rots sep X Y := by
  induction rots generalizing m0 with
  | nil => exact ⟨m0, rfl, by simp [pairFlux]⟩
  | cons deg rots ih =>
    have flux : ∀ cx cy, ∃ g : Fin img.nr → Fin img.nc → ℝ, circle img.nc img.nr r cx cy N false = .ok ⟨img.nr, img.nc, g⟩ ∧
        roiSum ⟨img.nr, img.nc, g⟩ img = spotFlux img N r cx cy := by
      intro cx cy
      obtain ⟨m, e1, e2⟩ := roi_eq img N hx hy hN r cx cy hr
      have e3 := circle_eq img.nc img.nr N hx hy hN r cx cy hr false
      rw [e1] at e3
      rw [Except.ok.inj e3] at e1 e2
      exact ⟨_, e1, e2⟩
    have hadd : ∀ f g : Fin img.nr → Fin img.nc → ℝ, roiSum ⟨img.nr, img.nc, fun i j => f i j + g i j⟩ img =
        roiSum ⟨img.nr, img.nc, f⟩ img + roiSum ⟨img.nr, img.nc, g⟩ img := by
      intro f g
      obtain ⟨n, m, im⟩ := img
      unfold roiSum
      rw [mulPx_eq, mulPx_eq, mulPx_eq]
      simp only [add_mul, Finset.sum_add_distrib]
    obtain ⟨g1, c1, s1⟩ := flux (Real.cos (Real.pi / 180 * deg) * sep + X) (Real.sin (Real.pi / 180 * deg) * sep + Y)
    obtain ⟨g2, c2, s2⟩ := flux (Real.cos (Real.pi / 180 * deg + Real.pi) * sep + X) (Real.sin (Real.pi / 180 * deg + Real.pi) * sep + Y)
    obtain ⟨m, e1, e2⟩ := ih (fun i j => m0 i j + g1 i j + g2 i j)
    refine ⟨m, ?_, ?_⟩
    · rw [List.foldlM_cons]
      simp only [c1, c2, res_ok_bind, addPx_eq]
      exact e1
    · rw [e2, hadd, hadd, s1, s2]
      unfold pairFlux
      rw [List.map_cons, List.sum_cons, Real.cos_add_pi, Real.sin_add_pi]
      have ha : Real.pi / 180 * deg = deg * Real.pi / 180 := by ring
      unfold dirX dirY
      rw [ha, show Real.cos (deg * Real.pi / 180) * sep + X = X + sep * Real.cos (deg * Real.pi / 180) by ring,
        show Real.sin (deg * Real.pi / 180) * sep + Y = Y + sep * Real.sin (deg * Real.pi / 180) by ring,
        show -Real.cos (deg * Real.pi / 180) * sep + X = X - sep * Real.cos (deg * Real.pi / 180) by ring,
        show -Real.sin (deg * Real.pi / 180) * sep + Y = Y - sep * Real.sin (deg * Real.pi / 180) by ring]
      ring

/-- The energy the searches look at is the light in the pairs of discs. -/
theorem roiEnergy_eq (img : Arr2 ℝ) (N : ℤ) (hx : 2 ≤ img.nc) (hy : 1 ≤ img.nr) (hN : 0 < N) (r : ℝ) (hr : 0 < r) (sep X Y : ℝ)
    (rots : List ℝ) : roiEnergy img r N rots sep X Y = .ok (pairFlux img N.toNat r rots sep X Y) := by
  obtain ⟨N, rfl⟩ := Int.eq_ofNat_of_zero_le hN.le
  obtain ⟨m, e1, e2⟩ := roiMask_eq img N hx hy (by omega) r hr sep X Y rots (fun _ _ => 0)
  unfold roiEnergy roiMask
  have e1' := e1
  refine Eq.trans (congrArg (fun z : Res (Arr2 ℝ) => (do let mask ← z; .ok (roiSum mask img) : Res ℝ)) e1) ?_
  show Except.ok (roiSum ⟨img.nr, img.nc, m⟩ img) = _
  rw [e2, Int.toNat_natCast]
  congr 1
  have : roiSum (⟨img.nr, img.nc, fun _ _ => 0⟩ : Arr2 ℝ) img = 0 := by
    obtain ⟨n, m, im⟩ := img
    unfold roiSum
    rw [mulPx_eq]
    simp
  rw [this, zero_add]

theorem _root_.Coralign.Spec.Paraboloid.shift {F : ℝ → ℝ → ℝ} {xs ys : List ℝ} {x0 y0 : ℝ} (gx gy : ℝ)
    (h : Paraboloid F (xs.map (gx + ·)) (ys.map (gy + ·)) x0 y0) : Paraboloid (fun x y => F (gx + x) (gy + y)) xs ys (x0 - gx) (y0 - gy) := by
  obtain ⟨a, b, c, f, h1, h2, h3⟩ := h.form
  refine ⟨a, b, c, f, h1, h2, fun x hx y hy => ?_⟩
  rw [h3 _ (List.mem_map_of_mem hx) _ (List.mem_map_of_mem hy)]
  ring

theorem trials_shift (n : ℕ) (step c g : ℝ) : (trials n step c).map (g + ·) = trials n step (g + c) := by
  unfold trials
  rw [List.map_map]
  refine List.map_congr_left fun k _ => ?_
  simp only [Function.comp]
  ring

theorem starLoop_fixed (S : Solver) (F : ℝ → ℝ → ℝ) (cost : ℝ → ℝ → Res ℝ) (hcost : ∀ x y, cost x y = .ok (F x y)) (nSteps : ℕ)
    (hn : 3 ≤ nSteps) (step : ℝ) (hs : step ≠ 0) (x0 y0 : ℝ)
    (h : Paraboloid F (trials nSteps step x0) (trials nSteps step y0) x0 y0) (n : ℕ) :
    starLoop S cost nSteps step n (x0, y0) = .ok (x0, y0) := by
  induction n with
  | zero => rfl
  | succ n ih =>
    unfold starLoop
    simp only [stepVec_trials]
    rw [costGrid_ok _ _ cost F (fun x _ y _ => hcost x y), res_ok_bind,
      gridFit_paraboloid S _ _ F x0 y0 (trials_three _ hn _ _ hs) (trials_three _ hn _ _ hs) h, res_ok_bind, ih]

/-- **C58 (partial).** If the light in the regions of interest is a paraboloid of the star's position, centred on `(X0, Y0)`, at the
positions tried around the guess and around the centre, the answer is the offset of `(X0, Y0)` from the *guess*, for any number of
iterations.  The documented answer is the offset from the centre pixel, `(X0, Y0)` itself: this holds only for the guess `(0, 0)`; see
`C58_depends_on_guess`. -/
theorem C58_relative_partial (S : Solver) (img : Arr2 ℝ) (hx : 2 ≤ img.nc) (hy : 1 ≤ img.nr) (t : StarTuning) (ht : t.Valid)
    (h3 : 3 ≤ t.nSteps) (gx gy X0 Y0 : ℝ)
    (hguess : Paraboloid (pairFlux img t.nSubpixels.toNat t.roiRadiusPix t.probeRotVecDeg t.sepPix)
      (trials t.nSteps.toNat t.stepSize gx) (trials t.nSteps.toNat t.stepSize gy) X0 Y0)
    (hcentre : 1 < t.nIter → Paraboloid (pairFlux img t.nSubpixels.toNat t.roiRadiusPix t.probeRotVecDeg t.sepPix)
      (trials t.nSteps.toNat t.stepSize X0) (trials t.nSteps.toNat t.stepSize Y0) X0 Y0) :
    calcStarLocation S img gx gy t = .ok (X0 - gx, Y0 - gy) := by
  unfold calcStarLocation
  have := ht.sep; have := ht.roi; have := ht.sub; have := ht.steps; have := ht.step; have := ht.iter
  rw [if_neg (by rintro (h | h | h | h | h | h) <;> first | omega | linarith)]
  have hn : 3 ≤ t.nSteps.toNat := by omega
  have hs : t.stepSize ≠ 0 := ht.step.ne'
  have hcost : ∀ x y, roiEnergy img t.roiRadiusPix t.nSubpixels t.probeRotVecDeg t.sepPix (gx + x) (gy + y) =
      .ok ((fun x y => pairFlux img t.nSubpixels.toNat t.roiRadiusPix t.probeRotVecDeg t.sepPix (gx + x) (gy + y)) x y) :=
    fun x y => roiEnergy_eq img _ hx hy ht.sub _ ht.roi _ _ _ _
  obtain ⟨n, hn'⟩ : ∃ n, t.nIter.toNat = n + 1 := ⟨t.nIter.toNat - 1, by omega⟩
  rw [hn']
  unfold starLoop
  simp only [stepVec_trials]
  have p1 := Spec.Paraboloid.shift (F := pairFlux img t.nSubpixels.toNat t.roiRadiusPix t.probeRotVecDeg t.sepPix)
    (xs := trials t.nSteps.toNat t.stepSize 0) (ys := trials t.nSteps.toNat t.stepSize 0) (x0 := X0) (y0 := Y0) gx gy
    (by rw [trials_shift, trials_shift, add_zero, add_zero]; exact hguess)
  rw [costGrid_ok _ _ _ _ (fun x _ y _ => hcost x y), res_ok_bind,
    gridFit_paraboloid S _ _ _ (X0 - gx) (Y0 - gy) (trials_three _ hn _ _ hs) (trials_three _ hn _ _ hs) p1, res_ok_bind]
  rcases Nat.eq_zero_or_pos n with h0 | h0
  · subst h0
    rfl
  · refine starLoop_fixed S _ _ hcost _ hn _ hs _ _ ?_ n
    refine Spec.Paraboloid.shift (F := pairFlux img t.nSubpixels.toNat t.roiRadiusPix t.probeRotVecDeg t.sepPix)
      (xs := trials t.nSteps.toNat t.stepSize (X0 - gx)) (ys := trials t.nSteps.toNat t.stepSize (Y0 - gy)) (x0 := X0) (y0 := Y0) gx gy ?_
    rw [trials_shift, trials_shift, add_sub_cancel, add_sub_cancel]
    exact hcentre (by omega)

/-! ### A concrete image -/

theorem areaFraction_pixel (u v : ℤ) : areaFraction 1 (inDisc (1 / 2)) u v = if u = 0 ∧ v = 0 then 1 else 0 := by
  have e : ∀ z : ℤ, (z : ℝ) + ((((0 : Fin 1) : ℕ) + 1 / 2 : ℝ) / ((1 : ℕ) : ℝ) - 1 / 2) = z := by intro z; norm_num
  have key : inDisc (1 / 2) (u : ℝ) (v : ℝ) ↔ u = 0 ∧ v = 0 := by
    unfold inDisc
    constructor
    · intro h
      have h4 : 4 * (u ^ 2 + v ^ 2) ≤ 1 := by
        have : 4 * ((u : ℝ) ^ 2 + (v : ℝ) ^ 2) ≤ 1 := by linarith
        exact_mod_cast this
      constructor <;> nlinarith [sq_nonneg u, sq_nonneg v]
    · rintro ⟨rfl, rfl⟩
      norm_num
  unfold areaFraction
  classical
  by_cases h : u = 0 ∧ v = 0
  · rw [if_pos h, Finset.filter_true_of_mem, Finset.card_univ]
    · norm_num
    · rintro ⟨a, b⟩ -
      have ha : a = 0 := Subsingleton.elim _ _
      have hb : b = 0 := Subsingleton.elim _ _
      subst ha hb
      simp only
      rw [e, e]
      exact key.mpr h
  · rw [if_neg h, Finset.filter_false_of_mem]
    · simp
    · rintro ⟨a, b⟩ -
      have ha : a = 0 := Subsingleton.elim _ _
      have hb : b = 0 := Subsingleton.elim _ _
      subst ha hb
      simp only
      rw [e, e]
      exact fun hk => h (key.mp hk)

/-- A region of interest of radius `1/2`, centred on a pixel and not subdivided, is that pixel. -/
theorem spotFlux_pixel (img : Arr2 ℝ) (u v : ℤ) :
    spotFlux img 1 (1 / 2) u v = img.zext (((img.nr / 2 : ℕ) : ℤ) + v) (((img.nc / 2 : ℕ) : ℤ) + u) := by
  unfold spotFlux
  have e : ∀ (i : Fin img.nr) (j : Fin img.nc),
      areaFraction 1 (inDisc (1 / 2)) (((j : ℕ) : ℝ) - ((img.nc / 2 : ℕ) : ℝ) - u) (((i : ℕ) : ℝ) - ((img.nr / 2 : ℕ) : ℝ) - v) * img.val i j =
      if (((j : ℕ) : ℤ) = ((img.nc / 2 : ℕ) : ℤ) + u ∧ ((i : ℕ) : ℤ) = ((img.nr / 2 : ℕ) : ℤ) + v) then img.val i j else 0 := by
    intro i j
    have := areaFraction_pixel (((j : ℕ) : ℤ) - ((img.nc / 2 : ℕ) : ℤ) - u) (((i : ℕ) : ℤ) - ((img.nr / 2 : ℕ) : ℤ) - v)
    simp only [Int.cast_sub, Int.cast_natCast] at this
    rw [this]
    have hiff : ((((j : ℕ) : ℤ) - ((img.nc / 2 : ℕ) : ℤ) - u = 0) ∧ (((i : ℕ) : ℤ) - ((img.nr / 2 : ℕ) : ℤ) - v = 0)) ↔
      (((j : ℕ) : ℤ) = ((img.nc / 2 : ℕ) : ℤ) + u ∧ ((i : ℕ) : ℤ) = ((img.nr / 2 : ℕ) : ℤ) + v) := by omega
    simp only [hiff]
    split_ifs <;> simp
  simp only [e]
  by_cases hin : (0 ≤ ((img.nr / 2 : ℕ) : ℤ) + v ∧ ((img.nr / 2 : ℕ) : ℤ) + v < img.nr) ∧
      (0 ≤ ((img.nc / 2 : ℕ) : ℤ) + u ∧ ((img.nc / 2 : ℕ) : ℤ) + u < img.nc)
  · rw [zext_in (a := img) hin, Finset.sum_eq_single ⟨(((img.nr / 2 : ℕ) : ℤ) + v).toNat, by omega⟩,
      Finset.sum_eq_single ⟨(((img.nc / 2 : ℕ) : ℤ) + u).toNat, by omega⟩]
    · rw [if_pos]
      simp only
      omega
    · intro j _ hj
      rw [if_neg]
      rintro ⟨h1, -⟩
      exact hj (Fin.ext (by simp only; omega))
    · intro h; exact absurd (Finset.mem_univ _) h
    · intro i _ hi
      refine Finset.sum_eq_zero fun j _ => ?_
      rw [if_neg]
      rintro ⟨-, h1⟩
      exact hi (Fin.ext (by simp only; omega))
    · intro h; exact absurd (Finset.mem_univ _) h
  · rw [zext_out (a := img) hin]
    refine Finset.sum_eq_zero fun i _ => Finset.sum_eq_zero fun j _ => ?_
    rw [if_neg]
    rintro ⟨h1, h2⟩
    have := i.isLt
    have := j.isLt
    omega

theorem pairFlux_pixel (img : Arr2 ℝ) (s X Y : ℤ) :
    pairFlux img 1 (1 / 2) [0] s X Y = img.zext (((img.nr / 2 : ℕ) : ℤ) + Y) (((img.nc / 2 : ℕ) : ℤ) + (X + s)) +
      img.zext (((img.nr / 2 : ℕ) : ℤ) + Y) (((img.nc / 2 : ℕ) : ℤ) + (X - s)) := by
  unfold pairFlux dirX dirY
  rw [List.map_cons, List.map_nil, List.sum_cons, List.sum_nil, zero_mul, zero_div, Real.cos_zero, Real.sin_zero, mul_one, mul_zero,
    add_zero, sub_zero, add_zero, ← spotFlux_pixel img (X + s) Y, ← spotFlux_pixel img (X - s) Y]
  push_cast
  rfl

theorem mem_trials3 (c : ℤ) (x : ℝ) (h : x ∈ trials 3 1 c) : ∃ z : ℤ, x = z ∧ c - 1 ≤ z ∧ z ≤ c + 1 := by
  unfold trials at h
  obtain ⟨k, hk, rfl⟩ := List.mem_map.mp h
  have hk' := List.mem_range.mp hk
  refine ⟨c - 1 + k, ?_, by omega, by omega⟩
  push_cast
  ring

/-- An image with two bright spots: `3 x 9` pixels, `-(x² + y²)` around the centre pixel. -/
noncomputable def spotsImg : Arr2 ℝ := ⟨3, 9, fun i j => -((((j : ℕ) : ℝ) - 4) ^ 2 + (((i : ℕ) : ℝ) - 1) ^ 2)⟩

theorem spotsImg_at (p q : ℤ) (hp : -1 ≤ p ∧ p ≤ 1) (hq : -4 ≤ q ∧ q ≤ 4) : spotsImg.zext (1 + p) (4 + q) = -((q : ℝ) ^ 2 + (p : ℝ) ^ 2) := by
  have := zext_in (a := spotsImg) (i := 1 + p) (j := 4 + q) (by
    show (0 ≤ 1 + p ∧ 1 + p < ((3 : ℕ) : ℤ)) ∧ (0 ≤ 4 + q ∧ 4 + q < ((9 : ℕ) : ℤ))
    omega)
  refine this.trans ?_
  show -(((((4 + q).toNat : ℕ) : ℝ) - 4) ^ 2 + ((((1 + p).toNat : ℕ) : ℝ) - 1) ^ 2) = _
  have e1 : (((4 + q).toNat : ℕ) : ℝ) = 4 + q := by
    have : (((4 + q).toNat : ℕ) : ℤ) = 4 + q := by omega
    exact_mod_cast this
  have e2 : (((1 + p).toNat : ℕ) : ℝ) = 1 + p := by
    have : (((1 + p).toNat : ℕ) : ℤ) = 1 + p := by omega
    exact_mod_cast this
  rw [e1, e2]
  ring

/-- Spots two pixels away along the x-axis, regions of one pixel, a `3 x 3` grid with a step of one pixel. -/
noncomputable def spotsTuning (nIter : ℤ) : StarTuning := ⟨2, 1 / 2, [0], 1, 3, 1, nIter⟩

theorem spotsImg_paraboloid (c : ℤ) (hc : 0 ≤ c ∧ c ≤ 1) :
    Paraboloid (pairFlux spotsImg 1 (1 / 2) [0] 2) (trials 3 1 c) (trials 3 1 ((0 : ℤ) : ℝ)) 0 0 := by
  refine ⟨-2, 0, -2, -8, ?_, ?_, ?_⟩
  · norm_num
  · norm_num
  · intro x hx y hy
    obtain ⟨X, rfl, h1, h2⟩ := mem_trials3 c x hx
    obtain ⟨Y, rfl, h3, h4⟩ := mem_trials3 0 y hy
    have := pairFlux_pixel spotsImg 2 X Y
    rw [show ((2 : ℤ) : ℝ) = 2 by norm_num] at this
    rw [this]
    have a1 := spotsImg_at Y (X + 2) (by omega) (by omega)
    have a2 := spotsImg_at Y (X - 2) (by omega) (by omega)
    refine (congrArg₂ (· + ·) a1 a2).trans ?_
    push_cast
    ring

/-- **C58 is false of the code.** For this image the star is found on the centre pixel from the guess `(0, 0)`, but from the guess `(1, 0)`
the answer is `(-1, 0)`, however many iterations are made: the guess is never added back. -/
theorem C58_depends_on_guess (S : Solver) (nIter : ℤ) (hn : 0 < nIter) :
    calcStarLocation S spotsImg 0 0 (spotsTuning nIter) = .ok (0, 0) ∧
    calcStarLocation S spotsImg 1 0 (spotsTuning nIter) = .ok (-1, 0) := by
  have v : (spotsTuning nIter).Valid := ⟨by norm_num [spotsTuning], by norm_num [spotsTuning], by norm_num [spotsTuning],
    by norm_num [spotsTuning], by norm_num [spotsTuning], hn⟩
  have p0 := spotsImg_paraboloid 0 (by omega)
  have p1 := spotsImg_paraboloid 1 (by omega)
  rw [Int.cast_zero] at p0 p1
  rw [Int.cast_one] at p1
  constructor
  · have := C58_relative_partial S spotsImg (by decide) (by decide) (spotsTuning nIter) v (by norm_num [spotsTuning]) 0 0 0 0 p0 fun _ => p0
    rwa [sub_zero] at this
  · have := C58_relative_partial S spotsImg (by decide) (by decide) (spotsTuning nIter) v (by norm_num [spotsTuning]) 1 0 0 0 p1 fun _ => p0
    rwa [sub_zero, zero_sub] at this

/-! ### C73: separation -/

theorem lineFit_parabola (S : Solver) (F : ℝ → ℝ) (l : List ℝ) (s0 : ℝ) (h3 : ThreeValues l) (h : Parabola F l s0) :
    findOptimum1d S l (l.map F) = .ok s0 := by
  obtain ⟨a, f, ha, hF⟩ := h
  have ha0 : a ≠ 0 := by
    rintro rfl
    rw [abs_zero] at ha
    have : 0 < macheps := by unfold macheps; positivity
    linarith
  have := (C13_parabola_vertex S l (l.map F) a (-2 * a * s0) (a * s0 ^ 2 + f) (by
    refine List.map_congr_left fun s hs => ?_
    rw [hF s hs]
    ring) h3).1 ha
  rw [this]
  congr 1
  field_simp

theorem sepLoop_exact (S : Solver) (F : ℝ → ℝ) (cost : ℝ → Res ℝ) (hcost : ∀ s, cost s = .ok (F s)) (nSteps : ℕ) (hn : 3 ≤ nSteps)
    (step : ℝ) (hs : step ≠ 0) (s0 c : ℝ) (hc : Parabola F (trials nSteps step c) s0) (h0 : Parabola F (trials nSteps step s0) s0) (n : ℕ) :
    sepLoop S cost nSteps step (n + 1) c = .ok s0 := by
  induction n generalizing c with
  | zero =>
    unfold sepLoop sepLoop
    simp only [stepVec_trials]
    rw [mapM_ok cost F _ (fun s _ => hcost s), res_ok_bind, lineFit_parabola S F _ s0 (trials_three _ hn _ _ hs) hc, res_ok_bind]
  | succ n ih =>
    unfold sepLoop
    simp only [stepVec_trials]
    rw [mapM_ok cost F _ (fun s _ => hcost s), res_ok_bind, lineFit_parabola S F _ s0 (trials_three _ hn _ _ hs) hc, res_ok_bind]
    exact ih s0 h0

/-- `np.argmax` picks a trial value at which the function is largest. -/
theorem lineArgmax_spec (F : ℝ → ℝ) (l : List ℝ) (hl : l ≠ []) :
    lineArgmax l (l.map F) ∈ l ∧ ∀ s ∈ l, F s ≤ F (lineArgmax l (l.map F)) := by
  unfold lineArgmax
  obtain ⟨h1, h2, -⟩ := argmaxUpto_spec (fun k => (l.map F).getD k 0) ((l.map F).length - 1)
  generalize argmaxUpto (fun k => (l.map F).getD k 0) ((l.map F).length - 1) = b at h1 h2 ⊢
  rw [List.length_map] at h1 h2
  have hpos := List.length_pos_iff.mpr hl
  have hb : b < l.length := by omega
  have get : ∀ k (hk : k < l.length), (l.map F).getD k 0 = F l[k] := by
    intro k hk
    rw [List.getD_eq_getElem _ _ (by simpa using hk), List.getElem_map]
  rw [List.getD_eq_getElem _ _ hb]
  refine ⟨List.getElem_mem hb, fun s hs => ?_⟩
  obtain ⟨k, hk, rfl⟩ := List.mem_iff_getElem.mp hs
  have := h2 k (by omega)
  rwa [get k hk, get b hb] at this

/-- **C73.** If the light in the regions of interest is a parabola of their separation with its vertex at `s0`, at the separations the
function tries (around the guess, around the best of those, and around `s0`), then `calc_spot_separation` returns `s0` for any number of
iterations. -/
theorem C73_separation (S : Solver) (img : Arr2 ℝ) (hx : 2 ≤ img.nc) (hy : 1 ≤ img.nr) (t : StarTuning) (ht : t.Valid) (h3 : 3 ≤ t.nSteps)
    (xo yo s0 : ℝ)
    (h : ∀ c, c = t.sepPix ∨ (1 < t.nIter ∧ (c ∈ trials t.nSteps.toNat t.stepSize t.sepPix ∨ c = s0)) →
      Parabola (fun s => pairFlux img t.nSubpixels.toNat t.roiRadiusPix t.probeRotVecDeg s xo yo) (trials t.nSteps.toNat t.stepSize c) s0) :
    calcSpotSeparation S img xo yo t = .ok s0 := by
  unfold calcSpotSeparation
  have := ht.sep; have := ht.roi; have := ht.sub; have := ht.steps; have := ht.step; have := ht.iter
  rw [if_neg (by rintro (h | h | h | h | h | h) <;> first | omega | linarith)]
  have hn : 3 ≤ t.nSteps.toNat := by omega
  have hs : t.stepSize ≠ 0 := ht.step.ne'
  have hcost : ∀ s, roiEnergy img t.roiRadiusPix t.nSubpixels t.probeRotVecDeg s xo yo =
      .ok ((fun s => pairFlux img t.nSubpixels.toNat t.roiRadiusPix t.probeRotVecDeg s xo yo) s) :=
    fun s => roiEnergy_eq img _ hx hy ht.sub _ ht.roi _ _ _ _
  simp only [stepVec_trials]
  by_cases h1 : t.nIter > 1
  · rw [if_pos h1, mapM_ok _ _ _ (fun s _ => hcost s), res_ok_bind, show t.nIter.toNat - 1 = (t.nIter.toNat - 2) + 1 by omega]
    have hne := trials_ne_nil t.nSteps.toNat (by omega) t.stepSize t.sepPix
    exact sepLoop_exact S _ _ hcost _ hn _ hs s0 _ (h _ (Or.inr ⟨h1, Or.inl (lineArgmax_spec _ _ hne).1⟩)) (h _ (Or.inr ⟨h1, Or.inr rfl⟩)) _
  · rw [if_neg h1, show t.nIter.toNat = 0 + 1 by omega]
    unfold sepLoop sepLoop
    simp only [stepVec_trials]
    rw [mapM_ok _ _ _ (fun s _ => hcost s), res_ok_bind,
      lineFit_parabola S _ _ s0 (trials_three _ hn _ _ hs) (h _ (Or.inl rfl)), res_ok_bind]

/-- Both searches reject non-positive tuning values. -/
theorem C73_rejects (S : Solver) (img : Arr2 ℝ) (xo yo : ℝ) (t : StarTuning) (ht : ¬ t.Valid) :
    calcSpotSeparation S img xo yo t = .error .typeError ∧ calcStarLocation S img xo yo t = .error .typeError := by
  have h : t.sepPix ≤ 0 ∨ t.roiRadiusPix ≤ 0 ∨ t.nSubpixels ≤ 0 ∨ t.nSteps ≤ 0 ∨ t.stepSize ≤ 0 ∨ t.nIter ≤ 0 := by
    by_contra hc
    push Not at hc
    exact ht ⟨hc.1, hc.2.1, hc.2.2.1, hc.2.2.2.1, hc.2.2.2.2.1, hc.2.2.2.2.2⟩
  unfold calcSpotSeparation calcStarLocation
  rw [if_pos h, if_pos h]
  exact ⟨rfl, rfl⟩

/-- An image whose spots lie three pixels from the star: `1 x 13` pixels, `-(|x| - 3)²`. -/
noncomputable def ringImg : Arr2 ℝ := ⟨1, 13, fun _ j => -(|(((j : ℕ) : ℝ) - 6)| - 3) ^ 2⟩

/-- Started at 2, with three trial values and two iterations, the search finds 3. -/
example (S : Solver) : calcSpotSeparation S ringImg 0 0 ⟨2, 1 / 2, [0], 1, 3, 1, 2⟩ = .ok 3 := by
  refine C73_separation S ringImg (by decide) (by decide) ⟨2, 1 / 2, [0], 1, 3, 1, 2⟩
    ⟨by norm_num, by norm_num, by norm_num, by norm_num, by norm_num, by norm_num⟩ (by norm_num) 0 0 3 ?_
  have key : ∀ c : ℤ, 1 ≤ c → c ≤ 3 → Parabola (fun s => pairFlux ringImg 1 (1 / 2) [0] s 0 0) (trials 3 1 c) 3 := by
    intro c hc1 hc2
    refine ⟨-2, 0, by norm_num [macheps], fun s hs => ?_⟩
    obtain ⟨z, rfl, h1, h2⟩ := mem_trials3 c s hs
    have := pairFlux_pixel ringImg z 0 0
    rw [Int.cast_zero] at this
    simp only
    rw [this]
    have at_ : ∀ q : ℤ, -6 ≤ q → q ≤ 6 → ringImg.zext (((ringImg.nr / 2 : ℕ) : ℤ) + 0) (((ringImg.nc / 2 : ℕ) : ℤ) + q) = -(|(q : ℝ)| - 3) ^ 2 := by
      intro q hq1 hq2
      have := zext_in (a := ringImg) (i := ((ringImg.nr / 2 : ℕ) : ℤ) + 0) (j := ((ringImg.nc / 2 : ℕ) : ℤ) + q) (by
        show (0 ≤ ((1 / 2 : ℕ) : ℤ) + 0 ∧ ((1 / 2 : ℕ) : ℤ) + 0 < ((1 : ℕ) : ℤ)) ∧ (0 ≤ ((13 / 2 : ℕ) : ℤ) + q ∧ ((13 / 2 : ℕ) : ℤ) + q < ((13 : ℕ) : ℤ))
        omega)
      refine this.trans ?_
      show -(|((((((13 / 2 : ℕ) : ℤ) + q).toNat : ℕ) : ℝ) - 6)| - 3) ^ 2 = _
      have e1 : (((((13 / 2 : ℕ) : ℤ) + q).toNat : ℕ) : ℝ) = 6 + q := by
        have : (((((13 / 2 : ℕ) : ℤ) + q).toNat : ℕ) : ℤ) = 6 + q := by omega
        exact_mod_cast this
      rw [e1]
      congr 4
      ring
    rw [at_ _ (by omega) (by omega), at_ _ (by omega) (by omega)]
    have hz : (0 : ℝ) ≤ z := by exact_mod_cast (show 0 ≤ z by omega)
    push_cast
    rw [zero_add, zero_sub, abs_neg, abs_of_nonneg hz]
    ring
  rintro c (rfl | ⟨-, hc | rfl⟩)
  · have := key 2 (by norm_num) (by norm_num)
    exact_mod_cast this
  · have hc' : c ∈ trials 3 1 ((2 : ℤ) : ℝ) := by rw [show ((2 : ℤ) : ℝ) = 2 by norm_num]; exact hc
    obtain ⟨z, rfl, h1, h2⟩ := mem_trials3 2 c hc'
    exact key z (by omega) (by omega)
  · have := key 3 (by norm_num) (by norm_num)
    exact_mod_cast this

end Coralign.Props
