import Verif.Lemmas.BandSample
import Verif.Props.ThinFilm
import Verif.Props.MaskGen
import Verif.Props.Conjugate
import Verif.Props.PlateSolv

/-!
# Property C85: the generated occulting mask
-/

namespace Coralign.Props

open Coralign Coralign.Spec

/-! ### The transmission at file resolution -/

theorem isTransmission_unique {mat : ℝ → Materials} {lam : ℝ} {c : HlcCal} {d : HlcDesign} {ti ni pm : ℝ} {t t' : ℂ}
    (h : IsTransmission mat lam c d ti ni pm t) (h' : IsTransmission mat lam c d ti ni pm t') : t = t' := by
  obtain ⟨r, hr⟩ := h
  obtain ⟨r', hr'⟩ := h'
  rw [hr] at hr'
  have := Except.ok.inj hr'
  simp only [List.cons.injEq, Prod.mk.injEq, and_true] at this
  exact this.1

theorem isDesign_unique {mat : ℝ → Materials} {lam : ℝ} {c : HlcCal} {d : HlcDesign} {k l : ℤ} {t t' : ℂ}
    (h : IsDesign mat lam c d k l t) (h' : IsDesign mat lam c d k l t') : t = t' := by
  rcases lt_or_ge 0 (pmgiAt d k l) with hp | hp
  · exact isTransmission_unique (h.1 hp) (h'.1 hp)
  · exact isTransmission_unique (h.2 hp) (h'.2 hp)

/-- The arguments `gen_hlc_occulter` accepts. -/
structure HlcArgs (lam : ℝ) (scale : Bool) (s0 s1 : ℤ) (c : HlcCal) (d : HlcDesign) : Prop where
  lamPos : 0 < lam
  shape : 0 < s0 ∧ 0 < s1
  ppl : 0 < c.ppl
  lam0 : 0 < d.lam0
  metals : 0 < d.hTi ∧ 0 < d.hNi
  scaleDesign : 0 < d.dx ∧ 0 < d.fn
  pol : d.pol = 0 ∨ d.pol = 1 ∨ d.pol = 2
  hRef : 0 < d.hRefCoef
  aoi : 0 ≤ c.aoi ∧ c.aoi < 90
  pad : 1 ≤ d.padFac
  oversize : 2 ≤ d.oversize
  /-- not checked by the function: the occulter has a size -/
  rOcc : 0 < d.rOcc
  /-- at least one sample at the intermediate resolution -/
  mid : 1 ≤ designPpl d / outputPpl lam scale c d * (⌈2 * d.rOcc * outputPpl lam scale c d * d.oversize⌉ : ℤ)
  /-- the padded design has at least four pixels per side -/
  enough : ∀ N : ℤ, IsLeast {n : ℤ | n % 2 = 1 ∧ ((max d.pmgi.nr d.pmgi.nc : ℕ) : ℝ) ≤ n} N → 3 < d.padFac * N

theorem mem_occPixels {p : Arr2 ℝ} {i j : ℕ} : (i, j) ∈ occPixels p ↔ ∃ v, p.px i j = some v ∧ 0 < v := by
  classical
  unfold occPixels
  simp only [List.mem_filter, List.mem_flatMap, List.mem_map, List.mem_range, Prod.mk.injEq, decide_eq_true_eq]
  constructor
  · rintro ⟨-, h⟩; exact h
  · rintro ⟨v, hv, h0⟩
    have : ((0 : ℤ) ≤ (i : ℕ) ∧ ((i : ℕ) : ℤ) < p.nr) ∧ ((0 : ℤ) ≤ (j : ℕ) ∧ ((j : ℕ) : ℤ) < p.nc) := by
      rw [← Arr2.px_isSome, hv]; rfl
    exact ⟨⟨i, by omega, j, by omega, rfl, rfl⟩, v, hv, h0⟩

theorem occ_ok (mat : ℝ → Materials) {lam aoi : ℝ} {tTi tNi tPmgi : List ℝ} {d0 : ℝ} {pol : ℤ}
    (h : OcculterArgs lam aoi tTi tNi tPmgi d0 pol) (hm : MaterialsOK (mat lam)) (flag : Bool) :
    ∃ cells, calcComplexOcculter mat lam aoi tTi tNi tPmgi d0 pol flag .FS = .ok cells := by
  obtain ⟨h0, h1⟩ := h.theta
  have key : ∀ ii ∈ List.range tNi.length, ∃ p : ℂ × ℂ, occulterCell (mat lam) (aoi * (Real.pi / 180)) lam d0 (tTi.getD ii 0)
      (tNi.getD ii 0) (tPmgi.getD ii 0) pol flag = .ok p := by
    intro ii _
    have ha := occulter_args hm (aoi * (Real.pi / 180)) lam d0 (tTi.getD ii 0) (tNi.getD ii 0) (tPmgi.getD ii 0) h0 h1 h.lam_pos
    obtain ⟨a, b, -, -, e0⟩ := film_eq ha false
    obtain ⟨a', b', -, -, e1⟩ := film_eq ha true
    exact ⟨_, occulterCell_eq _ _ _ _ _ _ _ pol flag _ _ e0 e1 h.pol⟩
  choose! g hg using key
  exact ⟨_, by rw [occulter_loop mat h flag .FS (Or.inl rfl)]; exact mapM_ok _ _ _ fun ii hii => hg ii hii⟩

theorem occStart_ok (mat : ℝ → Materials) {lam : ℝ} {c : HlcCal} {d : HlcDesign} (hm : MaterialsOK (mat lam)) (hl : 0 < lam)
    (ha : 0 ≤ c.aoi ∧ c.aoi < 90) (hd : 0 < d.hRefCoef * d.lam0) (hp : d.pol = 0 ∨ d.pol = 1 ∨ d.pol = 2) :
    ∃ st, occStart mat lam c d = .ok st := by
  obtain ⟨h1, h2, -⟩ := side_facts ((max d.pmgi.nr d.pmgi.nc : ℕ) : ℝ)
  have hn : 0 < ceilOdd ((max d.pmgi.nr d.pmgi.nc : ℕ) : ℝ) := by
    have : (0 : ℝ) ≤ (ceilOdd ((max d.pmgi.nr d.pmgi.nc : ℕ) : ℝ) : ℤ) := le_trans (Nat.cast_nonneg _) h2
    have : 0 ≤ ceilOdd ((max d.pmgi.nr d.pmgi.nc : ℕ) : ℝ) := by exact_mod_cast this
    omega
  unfold occStart
  simp only
  rw [padCrop_eq _ _ _ _ hn hn, res_ok_bind]
  obtain ⟨cells, hc⟩ := occ_ok mat (lam := lam) (aoi := c.aoi)
    (tTi := (occPixels (embed d.pmgi (ceilOdd ((max d.pmgi.nr d.pmgi.nc : ℕ) : ℝ)).toNat (ceilOdd ((max d.pmgi.nr d.pmgi.nc : ℕ) : ℝ)).toNat 0)).map fun _ => d.hTi)
    (tNi := (occPixels (embed d.pmgi (ceilOdd ((max d.pmgi.nr d.pmgi.nc : ℕ) : ℝ)).toNat (ceilOdd ((max d.pmgi.nr d.pmgi.nc : ℕ) : ℝ)).toNat 0)).map fun _ => d.hNi)
    (tPmgi := (occPixels (embed d.pmgi (ceilOdd ((max d.pmgi.nr d.pmgi.nc : ℕ) : ℝ)).toNat (ceilOdd ((max d.pmgi.nr d.pmgi.nc : ℕ) : ℝ)).toNat 0)).map fun q =>
      ((embed d.pmgi (ceilOdd ((max d.pmgi.nr d.pmgi.nc : ℕ) : ℝ)).toNat (ceilOdd ((max d.pmgi.nr d.pmgi.nc : ℕ) : ℝ)).toNat 0).px q.1 q.2).getD 0)
    (d0 := d.hRefCoef * d.lam0) (pol := d.pol) ⟨hl, ha.1, ha.2, by simp, hd, hp⟩ hm false
  obtain ⟨sub, hs⟩ := occ_ok mat (lam := lam) (aoi := c.aoi) (tTi := [0]) (tNi := [0]) (tPmgi := [0]) (d0 := d.hRefCoef * d.lam0) (pol := d.pol)
    ⟨hl, ha.1, ha.2, by simp, hd, hp⟩ hm false
  simp only [hc, hs, res_ok_bind]
  exact ⟨_, rfl⟩

/-- Every pixel of the starting mask. -/
theorem occStart_spec {mat : ℝ → Materials} {lam : ℝ} {c : HlcCal} {d : HlcDesign} {st : Arr2 ℂ} (hst : occStart mat lam c d = .ok st)
    (hl : 0 < lam) (ha : 0 ≤ c.aoi ∧ c.aoi < 90) (hd : 0 < d.hRefCoef * d.lam0) (hp : d.pol = 0 ∨ d.pol = 1 ∨ d.pol = 2) {N : ℕ}
    (hN : IsLeast {n : ℤ | n % 2 = 1 ∧ ((max d.pmgi.nr d.pmgi.nc : ℕ) : ℝ) ≤ n} N) :
    st.nr = N ∧ st.nc = N ∧ 0 < N ∧ ∃ T : ℤ → ℤ → ℂ, (∀ k l, Reaches N N k l → IsDesign mat lam c d k l (T k l)) ∧
      ∀ k l, Reaches N N k l → st.centered k l = some (T k l / T (-((N : ℤ) / 2)) (-((N : ℤ) / 2))) := by
  have hNe : (N : ℤ) = ceilOdd ((max d.pmgi.nr d.pmgi.nc : ℕ) : ℝ) := hN.unique (C08_ceil_odd _)
  unfold occStart at hst
  obtain ⟨p, hpc, hst⟩ := res_bind_ok hst
  obtain ⟨cells, hcells, hst⟩ := res_bind_ok hst
  obtain ⟨sub, hsub, hst⟩ := res_bind_ok hst
  have hst := Except.ok.inj hst
  rw [← hNe] at hpc
  obtain ⟨p1, p2, p3⟩ := crop_at hpc
  obtain ⟨n0, -⟩ := padCrop_pos hpc
  have hn0 : 0 < N := by omega
  have p1' : p.nr = N := by exact_mod_cast p1
  have p2' : p.nc = N := by exact_mod_cast p2
  have hcw := C71_occulter_cellwise mat ⟨hl, ha.1, ha.2, by simp, hd, hp⟩ false .FS cells hcells
  have hsw := C71_occulter_cellwise mat ⟨hl, ha.1, ha.2, by simp, hd, hp⟩ false .FS sub hsub
  obtain ⟨c1, c2⟩ := hcw
  obtain ⟨b1, b2⟩ := hsw
  rw [List.length_map] at c1
  have hpx : ∀ k l : ℤ, Reaches N N k l → p.px (((N : ℤ) / 2 + k).toNat : ℕ) (((N : ℤ) / 2 + l).toNat : ℕ) = some (pmgiAt d k l) := by
    intro k l hkl
    have := p3 k l hkl
    unfold Arr2.centered at this
    rw [p1, p2] at this
    have h1 : ((((N : ℤ) / 2 + k).toNat : ℕ) : ℤ) = (N : ℤ) / 2 + k := by unfold Reaches at hkl; omega
    have h2 : ((((N : ℤ) / 2 + l).toNat : ℕ) : ℤ) = (N : ℤ) / 2 + l := by unfold Reaches at hkl; omega
    rw [h1, h2, this]
    rfl
  classical
  obtain ⟨t, ht⟩ : ∃ t : ℕ → ℕ → ℂ, t = fun i j =>
    if (i, j) ∈ occPixels p then (cells.getD ((occPixels p).idxOf (i, j)) (0, 0)).1 else (sub.getD 0 (0, 0)).1 := ⟨_, rfl⟩
  have hstv : st = ⟨p.nr, p.nc, fun i j => t i j / t 0 0⟩ := by
    rw [← hst, ht]
  have hdes : ∀ k l : ℤ, Reaches N N k l → IsDesign mat lam c d k l (t ((N : ℤ) / 2 + k).toNat ((N : ℤ) / 2 + l).toNat) := by
    intro k l hkl
    have hv := hpx k l hkl
    constructor
    · intro h0
      have hmem : (((N : ℤ) / 2 + k).toNat, ((N : ℤ) / 2 + l).toNat) ∈ occPixels p := mem_occPixels.mpr ⟨_, hv, h0⟩
      have hlt : (occPixels p).idxOf (((N : ℤ) / 2 + k).toNat, ((N : ℤ) / 2 + l).toNat) < (occPixels p).length := List.idxOf_lt_length_iff.mpr hmem
      have hlt' := hlt
      rw [← c1] at hlt'
      have hcell := c2 _ hlt'
      have hget : (occPixels p)[(occPixels p).idxOf (((N : ℤ) / 2 + k).toNat, ((N : ℤ) / 2 + l).toNat)] = (((N : ℤ) / 2 + k).toNat, ((N : ℤ) / 2 + l).toNat) :=
        List.getElem_idxOf hlt
      simp only [List.getD_eq_getElem?_getD, List.getElem?_map, List.getElem?_eq_getElem hlt, Option.map_some, Option.getD_some, hget, hv] at hcell
      rw [ht]
      simp only [if_pos hmem, List.getD_eq_getElem?_getD, List.getElem?_eq_getElem hlt', Option.getD_some]
      exact ⟨_, hcell⟩
    · intro h0
      have hmem : (((N : ℤ) / 2 + k).toNat, ((N : ℤ) / 2 + l).toNat) ∉ occPixels p := by
        rw [mem_occPixels]
        rintro ⟨v, hv', hv0⟩
        rw [hv] at hv'
        obtain rfl := Option.some.inj hv'
        linarith
      rw [ht]
      simp only [if_neg hmem]
      have hlen : sub.length = 1 := by rw [b1]; rfl
      have := b2 0 (by omega)
      simp only [List.getD_cons_zero] at this
      rw [List.getD_eq_getElem?_getD, List.getElem?_eq_getElem (by omega), Option.getD_some]
      exact ⟨_, this⟩
  refine ⟨by rw [hstv]; exact p1', by rw [hstv]; exact p2', hn0, fun k l => t ((N : ℤ) / 2 + k).toNat ((N : ℤ) / 2 + l).toNat, hdes, ?_⟩
  intro k l hkl
  have h0 : ((N : ℤ) / 2 + -((N : ℤ) / 2)).toNat = 0 := by omega
  simp only [h0]
  rw [hstv]
  unfold Arr2.centered
  rw [Arr2.px_of_inB _ (by simp only [p1', p2']; exact hkl)]
  simp only [p1', p2']

/-! ### The whole function -/

variable {S : ClampSpline} {R : Rotate} {mat : ℝ → Materials} {lam : ℝ} {scale : Bool} {s0 s1 : ℤ} {c : HlcCal} {d : HlcDesign} {xo yo : ℝ}
  {o : Arr2 ℂ}

/-- The pieces of an accepted call. -/
theorem gen_inv (h : genHlcOcculter S R mat lam scale s0 s1 c d xo yo = .ok o) (E M : ℤ)
    (hE : E = ⌈2 * d.rOcc * outputPpl lam scale c d * d.oversize⌉) (hM : M = ⌊designPpl d / outputPpl lam scale c d * E⌋) :
    ¬ (lam ≤ 0 ∨ s0 ≤ 0 ∨ s1 ≤ 0) ∧
    ¬ (c.ppl ≤ 0 ∨ d.lam0 ≤ 0 ∨ d.hTi ≤ 0 ∨ d.hNi ≤ 0 ∨ d.dx ≤ 0 ∨ d.fn ≤ 0 ∨ ¬ (d.pol = 0 ∨ d.pol = 1 ∨ d.pol = 2) ∨
      d.hRefCoef ≤ 0 ∨ c.aoi < 0 ∨ 90 ≤ c.aoi ∨ d.padFac < 1 ∨ d.oversize < 2) ∧
    ∃ (st : Arr2 ℂ) (re im : Arr2 ℝ) (m ft oc : Arr2 ℂ), occStart mat lam c d = .ok st ∧
      rotateShiftDownsample S R (st.map fun z => (z - corner st).re) c.rotDeg ((M : ℝ) / E * outputPpl lam scale c d / designPpl d)
        (xo * ((M : ℝ) / E)) (yo * ((M : ℝ) / E)) d.padFac false = .ok re ∧
      rotateShiftDownsample S R (st.map fun z => (z - corner st).im) c.rotDeg ((M : ℝ) / E * outputPpl lam scale c d / designPpl d)
        (xo * ((M : ℝ) / E)) (yo * ((M : ℝ) / E)) d.padFac false = .ok im ∧
      padCrop (⟨re.nr, re.nc, fun i j => (re.val i j : ℂ) + Complex.I * (((im.px (i : ℕ) (j : ℕ)).getD 0 : ℝ) : ℂ)⟩ : Arr2 ℂ) [M, M] 0 = .ok m ∧
      padCrop (doIfft (m.map fun z => z + corner st)) [E, E] 0 = .ok ft ∧
      padCrop ((doFft ft).map fun z => z - corner st) [s0, s1] 0 = .ok oc ∧ o = oc.map fun z => z + corner st := by
  unfold genHlcOcculter at h
  by_cases h1 : lam ≤ 0 ∨ s0 ≤ 0 ∨ s1 ≤ 0
  · rw [if_pos h1] at h; cases h
  rw [if_neg h1] at h
  by_cases h2 : c.ppl ≤ 0 ∨ d.lam0 ≤ 0 ∨ d.hTi ≤ 0 ∨ d.hNi ≤ 0 ∨ d.dx ≤ 0 ∨ d.fn ≤ 0 ∨ ¬ (d.pol = 0 ∨ d.pol = 1 ∨ d.pol = 2) ∨
      d.hRefCoef ≤ 0 ∨ c.aoi < 0 ∨ 90 ≤ c.aoi ∨ d.padFac < 1 ∨ d.oversize < 2
  · rw [if_pos h2] at h; cases h
  rw [if_neg h2] at h
  refine ⟨h1, h2, ?_⟩
  obtain ⟨st, hst, h⟩ := res_bind_ok h
  simp only at h
  have e1 : (if scale = true then d.lam0 / lam * c.ppl else c.ppl) = outputPpl lam scale c d := rfl
  have e2 : d.fn * d.lam0 / d.dx = designPpl d := rfl
  rw [e1, e2, ← hE, ← hM] at h
  by_cases h3 : E = 0
  · rw [if_pos h3] at h; cases h
  rw [if_neg h3] at h
  unfold hlcFinish at h
  obtain ⟨re, hre, h⟩ := res_bind_ok h
  obtain ⟨im, him, h⟩ := res_bind_ok h
  obtain ⟨m, hm, h⟩ := res_bind_ok h
  obtain ⟨ft, hft, h⟩ := res_bind_ok h
  obtain ⟨oc, hoc, h⟩ := res_bind_ok h
  exact ⟨st, re, im, m, ft, oc, hst, hre, him, hm, hft, hoc, (Except.ok.inj h).symm⟩

theorem output_pos (hl : 0 < lam) (hp : 0 < c.ppl) (h0 : 0 < d.lam0) : 0 < outputPpl lam scale c d := by
  unfold outputPpl
  split <;> positivity

theorem design_pos (h0 : 0 < d.lam0) (h1 : 0 < d.dx) (h2 : 0 < d.fn) : 0 < designPpl d := by
  unfold designPpl; positivity

/-- The intermediate magnification is at most 1. -/
theorem mag_facts {pe ps : ℝ} (hpe : 0 < pe) (hps : 0 < ps) {E M : ℤ} (hE : 0 < E) (hM : M = ⌊ps / pe * E⌋) (hM0 : 0 < M) :
    0 < (M : ℝ) / E * pe / ps ∧ (M : ℝ) / E * pe / ps ≤ 1 := by
  have hER : (0 : ℝ) < E := by exact_mod_cast hE
  have hMR : (0 : ℝ) < M := by exact_mod_cast hM0
  refine ⟨by positivity, ?_⟩
  have : (M : ℝ) ≤ ps / pe * E := by rw [hM]; exact Int.floor_le _
  rw [div_le_one hps, div_mul_eq_mul_div, div_le_iff₀ hER]
  calc (M : ℝ) * pe ≤ ps / pe * E * pe := mul_le_mul_of_nonneg_right this hpe.le
    _ = ps * E := by field_simp

/-- **C85.** With tabulated indices in range, the call succeeds exactly when its arguments are valid. -/
theorem C85_accepts (hm : MaterialsOK (mat lam)) :
    (∃ o, genHlcOcculter S R mat lam scale s0 s1 c d xo yo = .ok o) ↔ HlcArgs lam scale s0 s1 c d := by
  constructor
  · rintro ⟨o, h⟩
    obtain ⟨h1, h2, st, re, im, m, ft, oc, hst, hre, him, hmid, hft, hoc, -⟩ := gen_inv h _ _ rfl rfl
    push Not at h1 h2
    obtain ⟨l0, sh0, sh1⟩ := h1
    obtain ⟨g1, g2, g3, g4, g5, g6, g7, g8, g9, g10, g11, g12⟩ := h2
    obtain ⟨hE, -⟩ := padCrop_pos hft
    obtain ⟨hM, -⟩ := padCrop_pos hmid
    have hpe := output_pos (scale := scale) l0 g1 g2
    have hin : d.pol = 0 ∨ d.pol = 1 ∨ d.pol = 2 := by
      by_contra hc
      exact hc (by tauto)
    refine ⟨l0, ⟨sh0, sh1⟩, g1, g2, ⟨g3, g4⟩, ⟨g5, g6⟩, hin, g8, ⟨g9, g10⟩, g11, g12, ?_, ?_, ?_⟩
    · have hE' := Int.ceil_pos.mp hE
      have : 0 < d.oversize := by linarith
      by_contra hc
      have : 2 * d.rOcc * outputPpl lam scale c d * d.oversize ≤ 0 := by
        have h1 : 2 * d.rOcc ≤ 0 := by linarith
        exact mul_nonpos_of_nonpos_of_nonneg (mul_nonpos_of_nonpos_of_nonneg h1 hpe.le) this.le
      linarith
    · exact Int.floor_pos.mp hM
    · intro N hN
      have hN0 : 0 ≤ N := by
        have : (0 : ℝ) ≤ N := le_trans (Nat.cast_nonneg _) hN.1.2
        exact_mod_cast this
      obtain ⟨N, rfl⟩ := Int.eq_ofNat_of_zero_le hN0
      have hs := occStart_spec hst l0 ⟨g9, g10⟩ (mul_pos g8 g2) hin hN
      have := ((C60_accepts S R _ _ _ _ _ _ _).mp ⟨re, hre⟩).enough
      simp only [Arr2.map_nr, Arr2.map_nc, hs.1, hs.2.1, max_self] at this
      exact_mod_cast this
  · intro h
    have hpe := output_pos (scale := scale) h.lamPos h.ppl h.lam0
    have hps := design_pos h.lam0 h.scaleDesign.1 h.scaleDesign.2
    obtain ⟨st, hst⟩ := occStart_ok mat hm h.lamPos h.aoi (mul_pos h.hRef h.lam0) h.pol
    obtain ⟨E, hE⟩ : ∃ E : ℤ, E = ⌈2 * d.rOcc * outputPpl lam scale c d * d.oversize⌉ := ⟨_, rfl⟩
    obtain ⟨M, hM⟩ : ∃ M : ℤ, M = ⌊designPpl d / outputPpl lam scale c d * E⌋ := ⟨_, rfl⟩
    have hover : 0 < d.oversize := by linarith [h.oversize]
    have hrocc := h.rOcc
    have hE0 : 0 < E := by rw [hE]; apply Int.ceil_pos.mpr; positivity
    have hM0 : 0 < M := by rw [hM, hE]; exact Int.floor_pos.mpr h.mid
    obtain ⟨hm1, hm2⟩ := mag_facts hpe hps hE0 hM hM0
    obtain ⟨N, hN⟩ : ∃ N : ℕ, IsLeast {n : ℤ | n % 2 = 1 ∧ ((max d.pmgi.nr d.pmgi.nc : ℕ) : ℝ) ≤ n} N := by
      have hc := C08_ceil_odd ((max d.pmgi.nr d.pmgi.nc : ℕ) : ℝ)
      have : (0 : ℝ) ≤ (ceilOdd ((max d.pmgi.nr d.pmgi.nc : ℕ) : ℝ) : ℤ) := le_trans (Nat.cast_nonneg _) hc.1.2
      obtain ⟨N, hN⟩ := Int.eq_ofNat_of_zero_le (show 0 ≤ ceilOdd ((max d.pmgi.nr d.pmgi.nc : ℕ) : ℝ) by exact_mod_cast this)
      exact ⟨N, by rw [← hN]; exact hc⟩
    have hs := occStart_spec hst h.lamPos h.aoi (mul_pos h.hRef h.lam0) h.pol hN
    have hen := h.enough N hN
    have hmask : ∀ f : ℂ → ℝ, MaskArgs (st.map f) ((M : ℝ) / E * outputPpl lam scale c d / designPpl d) d.padFac := by
      intro f
      refine ⟨hm1, hm2, h.pad, ?_⟩
      simp only [Arr2.map_nr, Arr2.map_nc, hs.1, hs.2.1, max_self]
      exact_mod_cast hen
    obtain ⟨re, hre⟩ := (C60_accepts S R _ c.rotDeg _ (xo * ((M : ℝ) / E)) (yo * ((M : ℝ) / E)) _ false).mpr (hmask fun z => (z - corner st).re)
    obtain ⟨im, him⟩ := (C60_accepts S R _ c.rotDeg _ (xo * ((M : ℝ) / E)) (yo * ((M : ℝ) / E)) _ false).mpr (hmask fun z => (z - corner st).im)
    unfold genHlcOcculter
    rw [if_neg (by push Not; exact ⟨h.lamPos, h.shape.1, h.shape.2⟩), if_neg (by
      push Not
      exact ⟨h.ppl, h.lam0, h.metals.1, h.metals.2, h.scaleDesign.1, h.scaleDesign.2, by have := h.pol; tauto, h.hRef, h.aoi.1, h.aoi.2, h.pad, h.oversize⟩),
      hst, res_ok_bind]
    simp only
    have e1 : (if scale = true then d.lam0 / lam * c.ppl else c.ppl) = outputPpl lam scale c d := rfl
    have e2 : d.fn * d.lam0 / d.dx = designPpl d := rfl
    rw [e1, e2, ← hE, ← hM, if_neg hE0.ne']
    unfold hlcFinish
    rw [hre, res_ok_bind, him, res_ok_bind]
    simp only
    rw [padCrop_eq _ _ _ _ hM0 hM0, res_ok_bind,
      padCrop_eq _ _ _ _ hE0 hE0, res_ok_bind, padCrop_eq _ _ _ _ h.shape.1 h.shape.2, res_ok_bind]
    exact ⟨_, rfl⟩

theorem rsd_shape {a b : Arr2 ℝ} {rot mag x y pf : ℝ} {fl : Bool} {oa ob : Arr2 ℝ} (ha : rotateShiftDownsample S R a rot mag x y pf fl = .ok oa)
    (hb : rotateShiftDownsample S R b rot mag x y pf fl = .ok ob) (h1 : a.nr = b.nr) (h2 : a.nc = b.nc) : oa.nr = ob.nr ∧ oa.nc = ob.nc := by
  have A := (C60_accepts S R a rot mag x y pf fl).mp ⟨_, ha⟩
  have B := (C60_accepts S R b rot mag x y pf fl).mp ⟨_, hb⟩
  obtain ⟨s1, s2, s3⟩ := side_facts (pf * (max a.nr a.nc : ℕ))
  have h4 := s3.mpr A.enough
  obtain ⟨N, hN⟩ := Int.eq_ofNat_of_zero_le (show 0 ≤ ceilOdd (pf * (max a.nr a.nc : ℕ)) by omega)
  rw [rsd_ok S R _ rot mag x y pf fl A N hN.symm] at ha
  rw [rsd_ok S R _ rot mag x y pf fl B N (by rw [← h1, ← h2]; exact hN.symm)] at hb
  have ea := Except.ok.inj ha
  have eb := Except.ok.inj hb
  rw [← ea, ← eb]
  unfold resampled
  exact ⟨rfl, rfl⟩

/-- Every output pixel, for any magnification and offsets. -/
theorem finish_at {st : Arr2 ℂ} {re im : Arr2 ℝ} {m ft oc : Arr2 ℂ} {rot mag x y pf : ℝ} {fl : Bool} {M E : ℕ}
    (hre : rotateShiftDownsample S R (st.map fun z => (z - 1).re) rot mag x y pf fl = .ok re)
    (him : rotateShiftDownsample S R (st.map fun z => (z - 1).im) rot mag x y pf fl = .ok im)
    (hmid : padCrop (⟨re.nr, re.nc, fun i j => (re.val i j : ℂ) + Complex.I * (((im.px (i : ℕ) (j : ℕ)).getD 0 : ℝ) : ℂ)⟩ : Arr2 ℂ) [(M : ℤ), (M : ℤ)] 0 = .ok m)
    (hft : padCrop (doIfft (m.map fun z => z + 1)) [(E : ℤ), (E : ℤ)] 0 = .ok ft)
    (hoc : padCrop ((doFft ft).map fun z => z - 1) [s0, s1] 0 = .ok oc) (ho : o = oc.map fun z => z + 1) (hM0 : 0 < M) (hE0 : 0 < E) :
    (o.nr : ℤ) = s0 ∧ (o.nc : ℤ) = s1 ∧
      ∀ k l, Reaches s0 s1 k l → o.centered k l = some (1 + if Reaches E E k l then
        bandSample (fun p q => (at0 re p q : ℂ) + Complex.I * (at0 im p q : ℂ)) M E k l else 0) := by
  obtain ⟨m1, m2, m3⟩ := crop_at hmid
  obtain ⟨o1, o2, o3⟩ := crop_at hoc
  obtain ⟨r1, r2⟩ := rsd_shape hre him rfl rfl
  subst ho
  refine ⟨o1, o2, fun k l hkl => ?_⟩
  have hfw : (ft.nr : ℤ) = E ∧ (ft.nc : ℤ) = E := ⟨(crop_at hft).1, (crop_at hft).2.1⟩
  have hmapc : ∀ (a : Arr2 ℂ) (f : ℂ → ℂ) (k l : ℤ), (a.map f).centered k l = (a.centered k l).map f := by
    intro a f k l
    unfold Arr2.centered
    rw [Arr2.px_map]
    rfl
  rw [hmapc, o3 k l hkl, hmapc, Option.map_some]
  have hdf : (doFft ft).nr = E ∧ (doFft ft).nc = E := by
    rw [doFft_nr, doFft_nc]
    exact ⟨by exact_mod_cast hfw.1, by exact_mod_cast hfw.2⟩
  have hre0 : Reaches (doFft ft).nr (doFft ft).nc k l ↔ Reaches E E k l := by rw [hdf.1, hdf.2]
  congr 1
  by_cases hkE : Reaches E E k l
  · rw [if_pos hkE, some_atC (hre0.mpr hkE), Option.map_some, Option.getD_some]
    obtain ⟨w1, w2⟩ := reaches_window.mp hkE
    have hmm : m.nr = M ∧ m.nc = M := ⟨by exact_mod_cast m1, by exact_mod_cast m2⟩
    rw [resample_at (m.map fun z => z + 1) M E ⟨by simp only [Arr2.map_nr]; exact hmm.1, by simp only [Arr2.map_nc]; exact hmm.2⟩ hM0 hE0 ft hft k l w1 w2]
    have hin : ∀ i ∈ window M, ∀ j ∈ window M, atC (m.map fun z => z + 1) i j = ((at0 re i j : ℂ) + Complex.I * (at0 im i j : ℂ)) + 1 := by
      intro i hi j hj
      unfold atC
      rw [hmapc, m3 i j (reaches_window.mpr ⟨hi, hj⟩), Option.map_some, Option.getD_some]
      congr 1
      unfold at0 Arr2.centered
      simp only
      rw [← r1, ← r2]
      by_cases hb : (0 ≤ (re.nr : ℤ) / 2 + i ∧ (re.nr : ℤ) / 2 + i < re.nr) ∧ (0 ≤ (re.nc : ℤ) / 2 + j ∧ (re.nc : ℤ) / 2 + j < re.nc)
      · rw [Arr2.px_of_inB re hb, Option.getD_some, Arr2.px_of_inB (⟨re.nr, re.nc, _⟩ : Arr2 ℂ) hb, Option.getD_some]
        simp only
        rw [show ((((re.nr : ℤ) / 2 + i).toNat : ℕ) : ℤ) = (re.nr : ℤ) / 2 + i by omega, show ((((re.nc : ℤ) / 2 + j).toNat : ℕ) : ℤ) = (re.nc : ℤ) / 2 + j by omega]
      · rw [Arr2.px_of_not_inB (⟨re.nr, re.nc, _⟩ : Arr2 ℂ) hb, Arr2.px_of_not_inB re hb, Arr2.px_of_not_inB im (by rw [← r1, ← r2]; exact hb)]
        simp
    rw [bandSample_congr M E hin, bandSample_add, bandSample_const 1 M E hM0 hE0]
    ring
  · rw [if_neg hkE]
    have : (doFft ft).centered k l = none := by
      unfold Arr2.centered
      exact Arr2.px_of_not_inB _ (fun hc => hkE (hre0.mp hc))
    rw [this]
    simp

/-- **C85.** Every output pixel.  The mask starts as the transmission of the layer stack at each pixel of the design, relative to that of
the design's corner pixel; its difference from 1 is rotated, shifted and downsampled (real and imaginary parts alike, see C60) to an
intermediate sampling whose ratio to the final one is `M / E`; that is resampled in the Fourier domain over a window `E` output pixels
wide; outside this window the transmission is exactly 1. -/
theorem C85_answer (h : genHlcOcculter S R mat lam scale s0 s1 c d xo yo = .ok o) {N : ℕ}
    (hN : IsLeast {n : ℤ | n % 2 = 1 ∧ ((max d.pmgi.nr d.pmgi.nc : ℕ) : ℝ) ≤ n} N) {t0 : ℂ}
    (ht0 : IsDesign mat lam c d (-((N : ℤ) / 2)) (-((N : ℤ) / 2)) t0) (hne : t0 ≠ 0) :
    ∃ (M E : ℕ) (T : ℤ → ℤ → ℂ) (st : Arr2 ℂ) (re im : Arr2 ℝ),
      (∀ k l, Reaches N N k l → IsDesign mat lam c d k l (T k l)) ∧
      st.nr = N ∧ st.nc = N ∧ (∀ k l, Reaches N N k l → st.centered k l = some (T k l / t0)) ∧
      (E : ℤ) = ⌈2 * d.rOcc * outputPpl lam scale c d * d.oversize⌉ ∧ (M : ℤ) = ⌊designPpl d / outputPpl lam scale c d * E⌋ ∧ 0 < E ∧ 0 < M ∧
      rotateShiftDownsample S R (st.map fun z => (z - 1).re) c.rotDeg ((M : ℝ) / E * outputPpl lam scale c d / designPpl d)
        (xo * ((M : ℝ) / E)) (yo * ((M : ℝ) / E)) d.padFac false = .ok re ∧
      rotateShiftDownsample S R (st.map fun z => (z - 1).im) c.rotDeg ((M : ℝ) / E * outputPpl lam scale c d / designPpl d)
        (xo * ((M : ℝ) / E)) (yo * ((M : ℝ) / E)) d.padFac false = .ok im ∧
      (o.nr : ℤ) = s0 ∧ (o.nc : ℤ) = s1 ∧
      ∀ k l, Reaches s0 s1 k l → o.centered k l = some (1 + if Reaches E E k l then
        bandSample (fun p q => (at0 re p q : ℂ) + Complex.I * (at0 im p q : ℂ)) M E k l else 0) := by
  obtain ⟨h1, h2, st, re, im, m, ft, oc, hst, hre, him, hmid, hft, hoc, ho⟩ := gen_inv h _ _ rfl rfl
  push Not at h1 h2
  obtain ⟨l0, sh0, sh1⟩ := h1
  obtain ⟨g1, g2, g3, g4, g5, g6, g7, g8, g9, g10, g11, g12⟩ := h2
  obtain ⟨hE, -⟩ := padCrop_pos hft
  obtain ⟨hM, -⟩ := padCrop_pos hmid
  obtain ⟨E, hEe⟩ := Int.eq_ofNat_of_zero_le hE.le
  rw [hEe] at hM hE hft hmid hre him
  obtain ⟨M, hMe⟩ := Int.eq_ofNat_of_zero_le hM.le
  rw [hMe] at hM hmid hre him
  obtain ⟨q1, q2, q3, T, hT, hval⟩ := occStart_spec hst l0 ⟨g9, g10⟩ (mul_pos g8 g2) (by tauto) hN
  have hcR : Reaches N N (-((N : ℤ) / 2)) (-((N : ℤ) / 2)) := by unfold Reaches; omega
  have hTc : T (-((N : ℤ) / 2)) (-((N : ℤ) / 2)) = t0 := isDesign_unique (hT _ _ hcR) ht0
  rw [hTc] at hval
  have hcor : corner st = 1 := by
    have := hval _ _ hcR
    rw [hTc, div_self hne] at this
    unfold Arr2.centered at this
    rw [q1, q2, show (N : ℤ) / 2 + -((N : ℤ) / 2) = 0 by omega] at this
    unfold corner
    rw [this]
    rfl
  rw [hcor] at hre him hft hoc ho
  have hM0 : 0 < M := by omega
  have hE0 : 0 < E := by omega
  refine ⟨M, E, T, st, re, im, hT, q1, q2, hval, hEe.symm, hMe.symm, hE0, hM0, ?_, ?_, ?_⟩
  · simp only [Int.ofNat_eq_natCast, Int.cast_natCast] at hre
    exact hre
  · simp only [Int.ofNat_eq_natCast, Int.cast_natCast] at him
    exact him
  exact finish_at hre him hmid hft hoc ho hM0 hE0

end Coralign.Props
