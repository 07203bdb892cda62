import Verif.Props.PupilFitCases
import Verif.Props.Zernike

/-!
# C82: the Zernike fit of a wavefront over a fitted pupil
-/

namespace Coralign.Props

open Coralign Coralign.Spec

theorem mode_tilts (prad x y : ℝ) : mode 2 prad x y = 2 * x / prad ∧ mode 3 prad x y = 2 * y / prad := by
  rw [← zernSample_mode 2 (by norm_num), ← zernSample_mode 3 (by norm_num)]
  have hr : Real.sqrt (x ^ 2 + y ^ 2) = ‖(⟨x, y⟩ : ℂ)‖ := by
    rw [Complex.norm_def, Complex.normSq_mk]; congr 1; ring
  have hs : Real.sqrt (2 * (1 + 1)) = 2 := by
    rw [show (2 * (1 + 1) : ℝ) = 2 ^ 2 by norm_num, Real.sqrt_sq (by norm_num)]
  have hrad : ∀ r : ℝ, radial 1 1 r = r := by intro r; simp [radial, radialCoef]
  have hc : ‖(⟨x, y⟩ : ℂ)‖ * Real.cos (Complex.arg ⟨x, y⟩) = x := Complex.norm_mul_cos_arg ⟨x, y⟩
  have hsn : ‖(⟨x, y⟩ : ℂ)‖ * Real.sin (Complex.arg ⟨x, y⟩) = y := Complex.norm_mul_sin_arg ⟨x, y⟩
  have h2 := zernSample_eq 2 (by norm_num) prad x y
  have h3 := zernSample_eq 3 (by norm_num) prad x y
  have d2 := C21_documented_modes.2.1
  have d3 := C21_documented_modes.2.2.1
  constructor
  · rw [show ((2 : ℕ) : ℤ) = 2 from rfl, d2.1, d2.2] at h2
    rw [show ((2 : ℕ) : ℤ) = 2 from rfl, h2]
    simp only [zernike, Int.toNat_one, Nat.cast_one, one_mul, hrad, hr]
    rw [if_neg (by norm_num), hs]
    norm_num
    rw [show 2 * (‖(⟨x, y⟩ : ℂ)‖ / prad) * Real.cos (Complex.arg ⟨x, y⟩) = 2 * (‖(⟨x, y⟩ : ℂ)‖ * Real.cos (Complex.arg ⟨x, y⟩)) / prad by ring, hc]
  · rw [show ((3 : ℕ) : ℤ) = 3 from rfl, d3.1, d3.2] at h3
    rw [show ((3 : ℕ) : ℤ) = 3 from rfl, h3]
    simp only [zernike, Int.toNat_one, Nat.cast_one, one_mul, hrad, hr]
    rw [if_neg (by norm_num), hs]
    norm_num
    rw [show 2 * (‖(⟨x, y⟩ : ℂ)‖ / prad) * Real.sin (Complex.arg ⟨x, y⟩) = 2 * (‖(⟨x, y⟩ : ℂ)‖ * Real.sin (Complex.arg ⟨x, y⟩)) / prad by ring, hsn]

/-- **C22.** Modes 2 and 3 are the tilts `2 x / prad` and `2 y / prad`. -/
theorem C22_tilts (n m : ℕ) (x y : Fin n → Fin m → ℝ) (prad : ℝ) (hp : 0 < prad) :
    xyzern ⟨n, m, x⟩ ⟨n, m, y⟩ prad [2, 3] = .ok [⟨n, m, fun i k => 2 * x i k / prad⟩, ⟨n, m, fun i k => 2 * y i k / prad⟩] := by
  have h := C22_xyzern n m x y prad [2, 3] hp (by simp) (by simp)
  simp only [List.map_cons, List.map_nil, mode_tilts] at h
  exact h

/-- A fit that succeeds has a positive diameter. -/
theorem pupil_diam_pos (S : Solver) (Sp : ClampSpline) (R : Rotate) (E : EllipseFinder) (te : EllipseTuning) (t : PupilTuning) (pupil : Arr2 ℝ)
    (x y c d : ℝ) (h : fitUnmaskedPupil S Sp R E te t pupil = .ok (x, y, c, d)) : 0 < d := by
  obtain ⟨-, m, xe, ye, ref, M, -, -, -, hl, -, -⟩ := (pupil_iff S Sp R E te t pupil x y c d).mp h
  by_contra hn
  rw [C64_rejects S _ _ _ _ _ _ _ _ _ _ (fun ha => hn ha.diam)] at hl
  cases hl

/-- `gen_zernikes` for the modes from 1 to `N` with given coefficients. -/
theorem gen_first (N : ℕ) (hN : 0 < N) (z : Fin N → ℝ) (x y d : ℝ) (hd : 0 < d) (n : ℕ) (hn : 0 < n) (h6 : n ≠ 1000000) :
    genZernikes ((List.range N).map fun k : ℕ => (k : ℤ) + 1) (List.ofFn z) x y d n =
      .ok ⟨n, n, fun i k => ∑ s : Fin N, z s * fitBasis n n d x y s i k⟩ := by
  have h := gen_eq (List.ofFn fun s : Fin N => (((s : ℕ) : ℤ) + 1, z s)) x y d n ⟨by
    intro h0
    have := congrArg List.length h0
    simp at this
    omega, by
    intro p hp
    obtain ⟨s, rfl⟩ := (List.mem_ofFn' _ _).mp hp
    simp only
    omega, hd, by omega⟩
  have e1 : (List.ofFn fun s : Fin N => (((s : ℕ) : ℤ) + 1, z s)).map Prod.fst = (List.range N).map fun k : ℕ => (k : ℤ) + 1 := by
    rw [List.map_ofFn]
    apply List.ext_getElem <;> simp
  have e2 : (List.ofFn fun s : Fin N => (((s : ℕ) : ℤ) + 1, z s)).map Prod.snd = List.ofFn z := by
    rw [List.map_ofFn]; rfl
  have hs : genSize x y d n = n := by unfold genSize; rw [if_neg (by exact_mod_cast h6)]; rfl
  rw [e1, e2, hs] at h
  rw [h]
  congr 2
  funext i k
  unfold zernSum fitBasis
  rw [List.map_ofFn, List.sum_ofFn]
  refine Finset.sum_congr rfl fun s _ => ?_
  have hm := zernSample_mode ((s : ℕ) + 1) (by omega)
  push_cast at hm
  simp only [Function.comp, hm]

/-- The coefficients, masks and maps of a fit to a square wavefront. -/
theorem zern_eq (S : Solver) (Sp : ClampSpline) (R : Rotate) (E : EllipseFinder) (te : EllipseTuning) (t : PupilTuning)
    {n : ℕ} (hn : 0 < n) (h6 : n ≠ 1000000) (w : Fin n → Fin n → ℝ) (amp : Arr2 ℝ) (bMask selem : Option (Arr2 Bool)) (zMax : ℤ) (hz : 0 < zMax) (N : ℕ) (hN : (N : ℤ) = max 3 zMax)
    (x y c d : ℝ) (hf : fitUnmaskedPupil S Sp R E te t amp = .ok (x, y, c, d)) (u : Fin n → Fin n → Bool) (hm : zernikeMask amp bMask selem = .ok ⟨n, n, u⟩)
    (z : Fin N → ℝ) (hfit : fitZernikes S ⟨n, n, w⟩ ⟨n, n, u⟩ N d x y = .ok z) :
    fitPupilZernikes S Sp R E te t ⟨n, n, w⟩ amp bMask zMax selem = .ok ⟨List.ofFn z, ⟨n, n, u⟩,
      ⟨n, n, fun i k => w i k - if u i k = true then ∑ s : Fin 3, z (Fin.castLE (by omega) s) * fitBasis n n d x y s i k else 0⟩,
      ⟨n, n, fun i k => w i k - if u i k = true then ∑ s : Fin N, z s * fitBasis n n d x y s i k else 0⟩, d, x, y⟩ := by
  have hd := pupil_diam_pos S Sp R E te t amp x y c d hf
  unfold fitPupilZernikes
  rw [if_neg (by omega)]
  have hK : (if zMax < 3 then (3 : ℤ) else zMax) = (N : ℤ) := by rw [hN]; split_ifs <;> omega
  simp only
  rw [hK, hf, res_ok_bind]
  simp only
  rw [hm, res_ok_bind, hfit, res_ok_bind]
  have hres : ∀ g : Fin n → Fin n → ℝ, residualMap ⟨n, n, w⟩ ⟨n, n, u⟩ ⟨n, n, g⟩ = .ok ⟨n, n, fun i k => w i k - if u i k = true then g i k else 0⟩ := by
    intro g
    unfold residualMap
    simp only [if_true]
    congr 2
    funext i k
    have e1 := Arr2.px_val (⟨n, n, u⟩ : Arr2 Bool) i k
    have e2 := Arr2.px_val (⟨n, n, g⟩ : Arr2 ℝ) i k
    simp only at e1 e2
    unfold Arr2.zext
    rw [e1, e2]
    split_ifs with h1 h2 h2
    · simp
    · exact absurd (Option.some.inj h1) h2
    · exact absurd (congrArg some h2) h1
    · simp
  have htake : (List.ofFn z).take 3 = List.ofFn fun s : Fin 3 => z (Fin.castLE (by omega) s) := by
    have : 3 ≤ N := by omega
    apply List.ext_getElem
    · simp; omega
    · intro i h1 h2
      rw [List.getElem_take, List.getElem_ofFn, List.getElem_ofFn]
      rfl
  have h3 : ([1, 2, 3] : List ℤ) = (List.range 3).map fun k : ℕ => (k : ℤ) + 1 := by
    simp [List.range, List.range.loop]
  have htn : ((N : ℤ)).toNat = N := Int.toNat_natCast N
  have g3 := gen_first 3 (by norm_num) (fun s : Fin 3 => z (Fin.castLE (by omega) s)) x y d hd n hn h6
  have gN := gen_first N (by omega) z x y d hd n hn h6
  rw [← h3, ← htake] at g3
  show (do
    let ptt ← genZernikes [1, 2, 3] ((List.ofFn z).take 3) x y d n
    let resPtt ← residualMap ⟨n, n, w⟩ ⟨n, n, u⟩ ptt
    let all ← genZernikes ((List.range N).map fun k : ℕ => (k : ℤ) + 1) (List.ofFn z) x y d n
    let res ← residualMap ⟨n, n, w⟩ ⟨n, n, u⟩ all
    .ok ⟨List.ofFn z, ⟨n, n, u⟩, resPtt, res, d, x, y⟩ : Res ZernikeFit) = _
  rw [g3, res_ok_bind, hres, res_ok_bind, gN, res_ok_bind, hres, res_ok_bind]

/-- The steps of a fit that succeeds, for any shape. -/
theorem zern_steps (S : Solver) (Sp : ClampSpline) (R : Rotate) (E : EllipseFinder) (te : EllipseTuning) (t : PupilTuning)
    (wfe amp : Arr2 ℝ) (bMask selem : Option (Arr2 Bool)) (zMax : ℤ) (f : ZernikeFit)
    (h : fitPupilZernikes S Sp R E te t wfe amp bMask zMax selem = .ok f) :
    0 < zMax ∧ 0 < wfe.nr ∧ (∃ c, fitUnmaskedPupil S Sp R E te t amp = .ok (f.x, f.y, c, f.diam)) ∧ zernikeMask amp bMask selem = .ok f.bMask ∧
      f.bMask.nr = wfe.nr ∧ f.bMask.nc = wfe.nc ∧ ∃ g, residualMap wfe f.bMask g = .ok f.res := by
  unfold fitPupilZernikes at h
  by_cases hz : zMax ≤ 0
  · rw [if_pos hz] at h; cases h
  rw [if_neg hz] at h
  simp only at h
  cases hf : fitUnmaskedPupil S Sp R E te t amp with
  | error e => rw [hf] at h; cases h
  | ok p =>
  obtain ⟨x, y, c, d⟩ := p
  rw [hf, res_ok_bind] at h
  simp only at h
  cases hm : zernikeMask amp bMask selem with
  | error e => rw [hm] at h; cases h
  | ok m =>
  rw [hm, res_ok_bind] at h
  generalize (if zMax < 3 then (3 : ℤ) else zMax) = K at h
  cases hfit : fitZernikes S wfe m K d x y with
  | error e => rw [hfit] at h; cases h
  | ok z =>
  rw [hfit, res_ok_bind] at h
  have hshape : wfe.nr = m.nr ∧ wfe.nc = m.nc := by
    by_contra hn
    unfold fitZernikes at hfit
    rw [dif_neg hn] at hfit
    cases hfit
  cases hg : genZernikes [1, 2, 3] ((List.ofFn z).take 3) x y d wfe.nr with
  | error e => rw [hg] at h; cases h
  | ok p3 =>
  rw [hg, res_ok_bind] at h
  cases hr : residualMap wfe m p3 with
  | error e => rw [hr] at h; cases h
  | ok r3 =>
  rw [hr, res_ok_bind] at h
  cases hg' : genZernikes ((List.range K.toNat).map fun k : ℕ => (k : ℤ) + 1) (List.ofFn z) x y d wfe.nr with
  | error e => rw [hg'] at h; cases h
  | ok pN =>
  rw [hg', res_ok_bind] at h
  cases hr' : residualMap wfe m pN with
  | error e => rw [hr'] at h; cases h
  | ok rN =>
  rw [hr', res_ok_bind] at h
  obtain rfl := Except.ok.inj h
  refine ⟨by omega, ?_, ⟨c, rfl⟩, rfl, hshape.1.symm, hshape.2.symm, pN, hr'⟩
  by_contra hn
  unfold genZernikes at hg
  have : ((wfe.nr : ℤ)) ≤ 0 := by omega
  split_ifs at hg <;> cases hg

/-- **C82.** What a successful fit to a square wavefront returns.  There are `max(3, Z_noll_max)` coefficients; the diameter and offsets are
those of `fit_unmasked_pupil` on the amplitude; the mask is that of `C82_mask`; outside it both residual maps are the wavefront itself; on the mask the piston, tip
and tilt residual is the wavefront less the first three fitted terms, the full residual is the wavefront less all of them, and no other
coefficients leave a smaller squared residual on the mask. -/
theorem C82_residuals (S : Solver) (Sp : ClampSpline) (R : Rotate) (E : EllipseFinder) (te : EllipseTuning) (t : PupilTuning)
    {n : ℕ} (h6 : n ≠ 1000000) (w : Fin n → Fin n → ℝ) (amp : Arr2 ℝ) (bMask selem : Option (Arr2 Bool)) (zMax : ℤ) (f : ZernikeFit)
    (h : fitPupilZernikes S Sp R E te t ⟨n, n, w⟩ amp bMask zMax selem = .ok f) :
    ∃ (N : ℕ) (z : Fin N → ℝ) (u : Fin n → Fin n → Bool) (c : ℝ), (N : ℤ) = max 3 zMax ∧ f.zvec = List.ofFn z ∧ f.bMask = ⟨n, n, u⟩ ∧
      zernikeMask amp bMask selem = .ok f.bMask ∧ fitUnmaskedPupil S Sp R E te t amp = .ok (f.x, f.y, c, f.diam) ∧
      (f.resPtt.nr = n ∧ f.resPtt.nc = n ∧ f.res.nr = n ∧ f.res.nc = n) ∧
      (∀ i k : Fin n, u i k = false → f.resPtt.px (i : ℕ) (k : ℕ) = some (w i k) ∧ f.res.px (i : ℕ) (k : ℕ) = some (w i k)) ∧
      (∀ i k : Fin n, u i k = true →
        f.resPtt.px (i : ℕ) (k : ℕ) = some (w i k - ∑ s ∈ Finset.univ.filter (fun s : Fin N => (s : ℕ) < 3), z s * fitBasis n n f.diam f.x f.y s i k) ∧
        f.res.px (i : ℕ) (k : ℕ) = some (w i k - ∑ s : Fin N, z s * fitBasis n n f.diam f.x f.y s i k)) ∧
      ∀ z' : Fin N → ℝ,
        ∑ i, ∑ k, (if u i k then (w i k - ∑ s : Fin N, z s * fitBasis n n f.diam f.x f.y s i k) ^ 2 else 0) ≤
        ∑ i, ∑ k, (if u i k then (w i k - ∑ s : Fin N, z' s * fitBasis n n f.diam f.x f.y s i k) ^ 2 else 0) := by
  obtain ⟨hz, hn, ⟨c, hf⟩, hm, m1, m2, -⟩ := zern_steps S Sp R E te t _ amp bMask selem zMax f h
  obtain ⟨zvec, ⟨b, a, u⟩, p3, pN, d, x, y⟩ := f
  simp only at hf hm m1 m2 hn
  subst m1
  subst m2
  obtain ⟨N, hN⟩ := Int.eq_ofNat_of_zero_le (show 0 ≤ max 3 zMax by omega)
  have hd := pupil_diam_pos S Sp R E te t amp x y c d hf
  obtain ⟨z, hfit, hls⟩ := C24_least_squares S a a w u N (by omega) d x y hd
  rw [zern_eq S Sp R E te t hn h6 w amp bMask selem zMax hz N hN.symm x y c d hf u hm z hfit] at h
  have he := Except.ok.inj h
  simp only [ZernikeFit.mk.injEq, true_and, and_true] at he
  obtain ⟨rfl, rfl, rfl⟩ := he
  have hpx : ∀ (g : Fin a → Fin a → ℝ) (i k : Fin a), (⟨a, a, g⟩ : Arr2 ℝ).px ((i : ℕ) : ℤ) ((k : ℕ) : ℤ) = some (g i k) := fun g i k =>
    Arr2.px_val (⟨a, a, g⟩ : Arr2 ℝ) i k
  refine ⟨N, z, u, c, hN.symm, rfl, rfl, hm, hf, ⟨rfl, rfl, rfl, rfl⟩, ?_, ?_, ?_⟩
  · intro i k hu
    simp only [hpx, hu]
    simp
  · intro i k hu
    simp only [hpx, hu, if_true, and_true]
    congr 2
    have h3 : 3 ≤ N := by omega
    symm
    refine Finset.sum_bij' (fun s hs => (⟨(s : ℕ), (Finset.mem_filter.mp hs).2⟩ : Fin 3)) (fun s _ => Fin.castLE h3 s) ?_ ?_ ?_ ?_ ?_
    · intro s _; simp
    · intro s _; simp
    · intro s _; simp
    · intro s _; simp
    · intro s _; rfl
  · intro z'
    have := hls z'
    have e : ∀ (v : Fin N → ℝ) (i k : Fin a), (w i k - ∑ s : Fin N, v s * fitBasis a a d x y s i k) ^ 2 = ((∑ s : Fin N, fitBasis a a d x y s i k * v s) - w i k) ^ 2 := by
      intro v i k
      have : ∑ s : Fin N, v s * fitBasis a a d x y s i k = ∑ s : Fin N, fitBasis a a d x y s i k * v s := Finset.sum_congr rfl fun s _ => mul_comm _ _
      rw [this]; ring
    simp only [e]
    exact this

/-- **C82.** Exact recovery: if on the mask the wavefront is a combination of the modes fitted, whatever it is elsewhere, and the modes are
independent there, the coefficients are exactly those of the combination, the full residual vanishes on the mask, and the piston, tip and
tilt residual is the rest of the combination. -/
theorem C82_exact (S : Solver) (Sp : ClampSpline) (R : Rotate) (E : EllipseFinder) (te : EllipseTuning) (t : PupilTuning)
    {n : ℕ} (hn : 0 < n) (h6 : n ≠ 1000000) (w : Fin n → Fin n → ℝ) (amp : Arr2 ℝ) (bMask selem : Option (Arr2 Bool)) (zMax : ℤ) (hz : 0 < zMax)
    (N : ℕ) (hN : (N : ℤ) = max 3 zMax) (x y c d : ℝ) (hf : fitUnmaskedPupil S Sp R E te t amp = .ok (x, y, c, d))
    (u : Fin n → Fin n → Bool) (hm : zernikeMask amp bMask selem = .ok ⟨n, n, u⟩) (z : Fin N → ℝ)
    (hw : ∀ i k, u i k = true → w i k = ∑ s : Fin N, z s * fitBasis n n d x y s i k)
    (hind : ∀ v : Fin N → ℝ, (∀ i k, u i k = true → ∑ s : Fin N, v s * fitBasis n n d x y s i k = 0) → v = 0) :
    ∃ f, fitPupilZernikes S Sp R E te t ⟨n, n, w⟩ amp bMask zMax selem = .ok f ∧ f.zvec = List.ofFn z ∧
      ∀ i k : Fin n, u i k = true → f.res.px (i : ℕ) (k : ℕ) = some 0 ∧
        f.resPtt.px (i : ℕ) (k : ℕ) = some (∑ s ∈ Finset.univ.filter (fun s : Fin N => 3 ≤ (s : ℕ)), z s * fitBasis n n d x y s i k) := by
  have hd := pupil_diam_pos S Sp R E te t amp x y c d hf
  have comm : ∀ (v : Fin N → ℝ) (i k : Fin n), ∑ s : Fin N, fitBasis n n d x y s i k * v s = ∑ s : Fin N, v s * fitBasis n n d x y s i k :=
    fun v i k => Finset.sum_congr rfl fun s _ => mul_comm _ _
  have hfit := C24_exact_recovery S n n w u N (by omega) d x y hd z (fun i k hu => by rw [comm, hw i k hu]) (fun v hv => hind v fun i k hu => by rw [← comm]; exact hv i k hu)
  have h := zern_eq S Sp R E te t hn h6 w amp bMask selem zMax hz N hN x y c d hf u hm z hfit
  refine ⟨_, h, rfl, fun i k hu => ?_⟩
  obtain ⟨N', z', u', c', hN', hz', hu', -, hf', -, -, hon, -⟩ := C82_residuals S Sp R E te t h6 w amp bMask selem zMax _ h
  obtain rfl : N' = N := by omega
  simp only at hz' hu' hon
  have hzz : z' = z := (List.ofFn_injective hz').symm
  subst hzz
  have huu : u' = u := by
    have := hu'
    simp only [Arr2.mk.injEq, heq_eq_eq, true_and] at this
    exact this.symm
  subst huu
  obtain ⟨h1, h2⟩ := hon i k hu
  rw [h1, h2, hw i k hu, sub_self]
  refine ⟨rfl, ?_⟩
  congr 1
  rw [sub_eq_iff_eq_add, ← Finset.sum_filter_add_sum_filter_not Finset.univ (fun s : Fin N' => 3 ≤ (s : ℕ))]
  simp only [not_le]

/-- **C82 (a limit of the code).** The residual maps are generated square, with the number of rows of the wavefront: a wavefront that is not
square, with more than one row and column, is never fitted. -/
theorem C82_square_only (S : Solver) (Sp : ClampSpline) (R : Rotate) (E : EllipseFinder) (te : EllipseTuning) (t : PupilTuning)
    (wfe amp : Arr2 ℝ) (bMask selem : Option (Arr2 Bool)) (zMax : ℤ) (hr : 1 < wfe.nr) (hc : 1 < wfe.nc) (hne : wfe.nr ≠ wfe.nc) :
    ∃ e, fitPupilZernikes S Sp R E te t wfe amp bMask zMax selem = .error e := by
  cases h : fitPupilZernikes S Sp R E te t wfe amp bMask zMax selem with
  | error e => exact ⟨e, rfl⟩
  | ok f =>
    obtain ⟨-, -, -, -, -, -, g, hg⟩ := zern_steps S Sp R E te t wfe amp bMask selem zMax f h
    unfold residualMap at hg
    simp only at hg
    rw [if_neg (by omega), if_neg (by omega), if_neg (by omega)] at hg
    cases hg

/-- **C82.** The mask: a given one is used as it is.  Otherwise it is made of the bright pixels of the amplitude all of whose neighbours under
the structuring element are bright (outside the image nothing is), or of all bright pixels if the structuring element is `None`. -/
theorem C82_mask (amp : Arr2 ℝ) (selem : Option (Arr2 Bool)) :
    (∀ m, zernikeMask amp (some m) selem = .ok m) ∧
    (∀ m, zernikeMask amp none none = .ok m ↔ ampthresh amp 21 = .ok m) ∧
    ∀ s m, zernikeMask amp none (some s) = .ok m → ∃ b, ampthresh amp 21 = .ok b ∧ m.nr = amp.nr ∧ m.nc = amp.nc ∧
      ∀ i j : ℤ, (0 ≤ i ∧ i < amp.nr) ∧ (0 ≤ j ∧ j < amp.nc) → (m.px i j = some true ↔
        ∀ di dj : ℤ, s.px ((s.nr / 2 : ℕ) + di) ((s.nc / 2 : ℕ) + dj) = some true → b.px (i + di) (j + dj) = some true) := by
  refine ⟨fun m => rfl, fun m => ?_, fun s m h => ?_⟩
  · unfold zernikeMask
    cases ampthresh amp 21 with
    | error e => exact ⟨fun h => (nomatch h), fun h => (nomatch h)⟩
    | ok b => exact Iff.rfl
  · unfold zernikeMask at h
    simp only at h
    cases hb : ampthresh amp 21 with
    | error e => rw [hb] at h; cases h
    | ok b =>
      rw [hb, res_ok_bind] at h
      unfold binaryErosion at h
      split_ifs at h with hs
      obtain rfl := Except.ok.inj h
      obtain ⟨b1, b2, -⟩ := C12_threshold_mask amp 21 b hb
      refine ⟨b, rfl, b1, b2, fun i j hij => ?_⟩
      rw [px_erode b s i j (by rw [b1, b2]; exact hij)]
      constructor
      · intro hh di dj hd
        have := hh _ _ hd
        convert this using 2 <;> omega
      · intro hh p q hpq
        have := hh (p - (s.nr / 2 : ℕ)) (q - (s.nc / 2 : ℕ)) (by convert hpq using 2 <;> omega)
        convert this using 2 <;> omega

/-- **C82.** When making the mask fails: thresholding fails, or the structuring element has size zero (`RuntimeError`); nothing else. -/
theorem C82_mask_refusals (amp : Arr2 ℝ) :
    (∀ e, ampthresh amp 21 = .error e → ∀ selem, zernikeMask amp none selem = .error e) ∧
    ∀ b, ampthresh amp 21 = .ok b →
      (∀ s : Arr2 Bool, zernikeMask amp none (some s) = .error .runtimeError ↔ s.nr = 0 ∨ s.nc = 0) ∧
      ∀ s : Arr2 Bool, (∃ m, zernikeMask amp none (some s) = .ok m) ↔ 1 ≤ s.nr ∧ 1 ≤ s.nc := by
  refine ⟨fun e he selem => ?_, fun b hb => ?_⟩
  · unfold zernikeMask
    rw [he]
    rfl
  · have h : ∀ s : Arr2 Bool, zernikeMask amp none (some s) = binaryErosion b s := by
      intro s
      unfold zernikeMask
      simp only
      rw [hb, res_ok_bind]
    refine ⟨fun s => ?_, fun s => ?_⟩
    · rw [h]
      unfold binaryErosion
      split_ifs with hz
      · exact iff_of_true rfl hz
      · exact iff_of_false (fun c => nomatch c) hz
    · rw [h]
      unfold binaryErosion
      split_ifs with hz
      · exact iff_of_false (fun ⟨_, c⟩ => nomatch c) (by omega)
      · exact iff_of_true ⟨_, rfl⟩ (by omega)

/-- **C82.** Asking for one or two modes is asking for three; asking for none raises `TypeError`. -/
theorem C82_orders (S : Solver) (Sp : ClampSpline) (R : Rotate) (E : EllipseFinder) (te : EllipseTuning) (t : PupilTuning)
    (wfe amp : Arr2 ℝ) (bMask selem : Option (Arr2 Bool)) (zMax : ℤ) :
    (zMax ≤ 0 → fitPupilZernikes S Sp R E te t wfe amp bMask zMax selem = .error .typeError) ∧
    (0 < zMax → zMax ≤ 3 → fitPupilZernikes S Sp R E te t wfe amp bMask zMax selem = fitPupilZernikes S Sp R E te t wfe amp bMask 3 selem) := by
  unfold fitPupilZernikes
  constructor
  · intro h
    rw [if_pos h]
  · intro h1 h2
    have e : (if zMax < 3 then (3 : ℤ) else zMax) = if (3 : ℤ) < 3 then 3 else 3 := by split_ifs <;> omega
    rw [e, if_neg (show ¬ zMax ≤ 0 by omega), if_neg (show ¬ (3 : ℤ) ≤ 0 by norm_num)]

/-- **C82.** Neither the exposure nor a uniform background of the amplitude matters. -/
theorem C82_exposure (S : Solver) (Sp : ClampSpline) (R : Rotate) (E : EllipseFinder) (te : EllipseTuning) (t : PupilTuning)
    (wfe : Arr2 ℝ) {n m : ℕ} (f : Fin n → Fin m → ℝ) (a b : ℝ) (ha : 0 < a) (bMask selem : Option (Arr2 Bool)) (zMax : ℤ) :
    fitPupilZernikes S Sp R E te t wfe ⟨n, m, fun i j => a * f i j + b⟩ bMask zMax selem =
      fitPupilZernikes S Sp R E te t wfe ⟨n, m, f⟩ bMask zMax selem := by
  have h1 := C81_exposure S Sp R E te t f a b ha
  have h2 : zernikeMask ⟨n, m, fun i j => a * f i j + b⟩ bMask selem = zernikeMask ⟨n, m, f⟩ bMask selem := by
    unfold zernikeMask
    have := C12_affine_invariant (⟨n, m, f⟩ : Arr2 ℝ) 21 a b ha
    rw [show (⟨n, m, fun i j => a * f i j + b⟩ : Arr2 ℝ) = (⟨n, m, f⟩ : Arr2 ℝ).map fun v : ℝ => a * v + b from rfl, this]
  unfold fitPupilZernikes
  rw [h1, h2]

end Coralign.Props
