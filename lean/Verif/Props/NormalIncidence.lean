import Verif.Model.HlcOcculter
import Verif.Props.Materials

/-!
# C131: at normal incidence the polarisation does not matter
-/

namespace Coralign.Props

open Coralign Coralign.Spec Matrix

theorem tfKx_normal (n0 : ℂ) (lam : ℝ) : tfKx n0 0 lam = 0 := by simp [tfKx]

/-- At normal incidence the wavenumber of a medium is proportional to its index. -/
theorem tfKz_normal {lam : ℝ} (hl : 0 < lam) {n : ℂ} (hn : 0 < n.re) : tfKz 0 lam n = -((2 * Real.pi / lam : ℝ) : ℂ) * n := by
  have hk : 0 < 2 * Real.pi / lam := div_pos (by positivity) hl
  generalize hkk : 2 * Real.pi / lam = k at hk
  unfold tfKz
  have e : (2 * Real.pi * n / lam) ^ 2 - (0 : ℂ) * 0 = ((k : ℂ) * n) * ((k : ℂ) * n) := by
    rw [← hkk]; push_cast; ring
  rw [e, neg_mul]
  congr 1
  have hne : (k : ℂ) * n ≠ 0 := by
    intro h
    have := congrArg Complex.re h
    rw [Complex.re_ofReal_mul, Complex.zero_re] at this
    exact absurd this (mul_pos hk hn).ne'
  rcases mul_self_eq_mul_self_iff.mp (csqrt_sq ((k : ℂ) * n * ((k : ℂ) * n))) with h | h
  · exact h
  · exfalso
    have h1 := csqrt_re ((k : ℂ) * n * ((k : ℂ) * n))
    rw [h, Complex.neg_re, Complex.re_ofReal_mul] at h1
    linarith [mul_pos hk hn]

/-- The steps for the two polarisations at normal incidence. -/
theorem tfStep_normal {k n1 n2 p : ℂ} (hk : k ≠ 0) (h1 : n1 ≠ 0) (h2 : n2 ≠ 0) (h12 : n1 + n2 ≠ 0) (d : ℂ) :
    tfStep p d (k * n1 / (n1 * n1)) (k * n2 / (n2 * n2)) = (n1 / n2) • (!![1, 0; 0, -1] * tfStep p d (k * n1) (k * n2) * !![1, 0; 0, -1]) := by
  have e1 : k * n1 / (n1 * n1) = k / n1 := by field_simp
  have e2 : k * n2 / (n2 * n2) = k / n2 := by field_simp
  have t : 1 / 2 * (k / n1 + k / n2) / (k / n1) = n1 / n2 * (1 / 2 * (k * n1 + k * n2) / (k * n1)) := by
    field_simp
    ring
  have r : (k / n1 - k / n2) / (k / n1 + k / n2) = -((k * n1 - k * n2) / (k * n1 + k * n2)) := by
    have : k / n1 + k / n2 = k * (n1 + n2) / (n1 * n2) := by field_simp; ring
    rw [this, ← mul_sub, ← mul_add]
    field_simp
    ring
  rw [e1, e2]
  unfold tfStep
  simp only [t, r]
  ext i j
  fin_cases i <;> fin_cases j <;> simp <;> ring

theorem tfMatrix_normal {lam : ℝ} (hl : 0 < lam) (n : List ℂ) (d : List ℝ) (hn : ∀ a ∈ n, 0 < a.re) (k : ℕ) (hk : k + 1 ≤ n.length) :
    (List.range k).foldl (fun A i =>
      A * tfStep (tfKz 0 lam (n.getD i 0)) (d.getD i 0 : ℝ) (tfKzz 0 lam true (n.getD i 0)) (tfKzz 0 lam true (n.getD (i + 1) 0))) 1 =
    (n.getD 0 0 / n.getD k 0) • (!![1, 0; 0, -1] * (List.range k).foldl (fun A i =>
      A * tfStep (tfKz 0 lam (n.getD i 0)) (d.getD i 0 : ℝ) (tfKzz 0 lam false (n.getD i 0)) (tfKzz 0 lam false (n.getD (i + 1) 0))) 1 *
      !![1, 0; 0, -1]) := by
  have hD : (!![1, 0; 0, -1] : Matrix (Fin 2) (Fin 2) ℂ) * !![1, 0; 0, -1] = 1 := by
    ext i j
    fin_cases i <;> fin_cases j <;> simp [Matrix.mul_apply, Fin.sum_univ_two]
  have hp : ∀ i, i < n.length → 0 < (n.getD i 0).re := by
    intro i hi
    rw [List.getD_eq_getElem _ _ hi]
    exact hn _ (List.getElem_mem hi)
  have hz : ∀ i, i < n.length → n.getD i 0 ≠ 0 := by
    intro i hi h
    have := hp i hi
    rw [h] at this
    simp at this
  induction k with
  | zero =>
    rw [List.range_zero, List.foldl_nil, List.foldl_nil, mul_one, hD, div_self (hz 0 (by omega)), one_smul]
  | succ k ih =>
    rw [List.range_succ, List.foldl_append, List.foldl_append, List.foldl_cons, List.foldl_cons, List.foldl_nil, List.foldl_nil, ih (by omega)]
    have z1 := hz k (by omega)
    have z2 := hz (k + 1) (by omega)
    have z12 : n.getD k 0 + n.getD (k + 1) 0 ≠ 0 := by
      intro h
      have := congrArg Complex.re h
      rw [Complex.add_re, Complex.zero_re] at this
      linarith [hp k (by omega), hp (k + 1) (by omega)]
    have hkk : -((2 * Real.pi / lam : ℝ) : ℂ) ≠ 0 := by
      rw [neg_ne_zero, Complex.ofReal_ne_zero]
      exact (div_pos (by positivity) hl).ne'
    have st : tfStep (tfKz 0 lam (n.getD k 0)) (d.getD k 0 : ℝ) (tfKzz 0 lam true (n.getD k 0)) (tfKzz 0 lam true (n.getD (k + 1) 0)) =
        (n.getD k 0 / n.getD (k + 1) 0) • (!![1, 0; 0, -1] *
          tfStep (tfKz 0 lam (n.getD k 0)) (d.getD k 0 : ℝ) (tfKzz 0 lam false (n.getD k 0)) (tfKzz 0 lam false (n.getD (k + 1) 0)) * !![1, 0; 0, -1]) := by
      simp only [tfKzz, if_true, Bool.false_eq_true, if_false, tfKz_normal hl (hp k (by omega)), tfKz_normal hl (hp (k + 1) (by omega))]
      exact tfStep_normal hkk z1 z2 z12 _
    rw [st]
    generalize tfStep _ _ (tfKzz 0 lam false (n.getD k 0)) _ = M
    generalize List.foldl _ _ _ = A
    rw [Matrix.smul_mul, Matrix.mul_smul, smul_smul]
    congr 1
    · rw [div_mul_div_cancel₀ z1]
    · calc !![1, 0; 0, -1] * A * !![1, 0; 0, -1] * (!![1, 0; 0, -1] * M * !![1, 0; 0, -1])
          = !![1, 0; 0, -1] * A * (!![1, 0; 0, -1] * !![1, 0; 0, -1]) * M * !![1, 0; 0, -1] := by simp only [Matrix.mul_assoc]
        _ = !![1, 0; 0, -1] * (A * M) * !![1, 0; 0, -1] := by rw [hD, mul_one]; simp only [Matrix.mul_assoc]

/-- **C131.** `solver` at normal incidence: the reflected and transmitted powers are the same for both polarisations, the reflected amplitudes are
opposite, and the transmitted amplitudes are the same if the substrate is transparent. -/
theorem C131_solver (n0 : ℝ) (hn0 : 0 < n0) (layers : List (ℂ × ℝ)) (hl : ∀ a ∈ layers, Passive a.1) (ns : ℂ) (hs : Passive ns) (lam : ℝ)
    (hlam : 0 < lam) :
    ∃ te tm, film n0 layers ns 0 lam false = .ok te ∧ film n0 layers ns 0 lam true = .ok tm ∧
      tm.R = te.R ∧ tm.T = te.T ∧ tm.rr = -te.rr ∧ (Lossless ns → tm.tt = te.tt) := by
  unfold film
  set n : List ℂ := (n0 : ℂ) :: (layers.map Prod.fst ++ [ns]) with hnd
  have hlen : n.length = layers.length + 2 := by simp [hnd]
  have hpos : ∀ a ∈ n, 0 < a.re := by
    intro a ha
    simp only [hnd, List.mem_cons, List.mem_append, List.mem_map, List.not_mem_nil, or_false] at ha
    rcases ha with rfl | ⟨b, hb, rfl⟩ | rfl
    · simpa using hn0
    · exact (hl b hb).1
    · exact hs.1
  have h0 : n.getD 0 0 = n0 := by simp [hnd]
  have h1 : n.getD (n.length - 1) 0 = ns := by
    rw [hlen, show layers.length + 2 - 1 = layers.length + 1 from rfl, hnd, List.getD_cons_succ, List.getD_eq_getElem?_getD,
      List.getElem?_append_right (by simp)]
    simp
  have hns : ns ≠ 0 := by
    rintro rfl
    exact absurd hs.1 (by simp)
  have hn0c : (n0 : ℂ) ≠ 0 := by exact_mod_cast hn0.ne'
  have hM := tfMatrix_normal hlam n (0 :: (layers.map Prod.snd ++ [0])) hpos (n.length - 1) (by omega)
  unfold solver
  rw [if_neg (by rw [hlen, List.length_map]; push_cast; omega), if_neg (lt_irrefl _), if_neg (by have := Real.pi_pos; linarith), if_neg (not_le.mpr hlam),
    if_neg (by rw [hlen, List.length_map]; push_cast; omega), if_neg (lt_irrefl _), if_neg (by have := Real.pi_pos; linarith), if_neg (not_le.mpr hlam)]
  refine ⟨_, _, rfl, rfl, ?_⟩
  simp only [tfKx_normal]
  have hM' : tfMatrix n (0 :: (layers.map Prod.snd ++ [0])) 0 lam true = (n0 / ns) • (!![1, 0; 0, -1] * tfMatrix n (0 :: (layers.map Prod.snd ++ [0])) 0 lam false * !![1, 0; 0, -1]) := by
    rw [h0, h1] at hM
    exact hM
  rw [hM']
  generalize tfMatrix n (0 :: (layers.map Prod.snd ++ [0])) 0 lam false = A
  have hB : ∃ B : Matrix (Fin 2) (Fin 2) ℂ, B = (n0 / ns : ℂ) • (!![1, 0; 0, -1] * A * !![1, 0; 0, -1]) := ⟨_, rfl⟩
  obtain ⟨B, hB⟩ := hB
  rw [← hB]
  have a00 : B 0 0 = n0 / ns * A 0 0 := by
    rw [hB, Matrix.smul_apply, Matrix.mul_apply, Fin.sum_univ_two, Matrix.mul_apply, Fin.sum_univ_two, Matrix.mul_apply, Fin.sum_univ_two]
    simp
  have a10 : B 1 0 = n0 / ns * -A 1 0 := by
    rw [hB, Matrix.smul_apply, Matrix.mul_apply, Fin.sum_univ_two, Matrix.mul_apply, Fin.sum_univ_two, Matrix.mul_apply, Fin.sum_univ_two]
    simp
  have hq : (n0 / ns : ℂ) ≠ 0 := div_ne_zero hn0c hns
  have hrr : B 1 0 / B 0 0 = -(A 1 0 / A 0 0) := by
    rw [a00, a10, mul_div_mul_left _ _ hq, neg_div]
  rw [hrr, a00]
  simp only [h0, h1, if_true, Bool.false_eq_true, if_false, tfKz_normal hlam hs.1, tfKz_normal hlam (show 0 < ((n0 : ℝ) : ℂ).re by simpa using hn0)]
  have hk : (-((2 * Real.pi / lam : ℝ) : ℂ)) ≠ 0 := by
    rw [neg_ne_zero, Complex.ofReal_ne_zero]
    exact (div_pos (by positivity) hlam).ne'
  generalize (-((2 * Real.pi / lam : ℝ) : ℂ)) = k at hk
  have p1 : k * ns / ns ^ 2 / (k * n0 / (n0 : ℂ) ^ 2) = n0 / ns := by field_simp
  have p2 : k * ns / (k * n0) = ns / n0 := by field_simp
  rw [p1, p2]
  have hre : (ns / (n0 : ℂ)).re = ns.re / n0 := Complex.div_ofReal_re ns n0
  have hre' : ((n0 : ℂ) / ns).re = n0 * ns.re / Complex.normSq ns := by
    rw [Complex.div_re, Complex.ofReal_re, Complex.ofReal_im]; ring
  have hN : 0 < Complex.normSq ns := Complex.normSq_pos.mpr hns
  refine ⟨by rw [norm_neg], ?_, trivial, fun hL => ?_⟩
  · rw [hre, hre', one_div, one_div, mul_inv, norm_mul, mul_pow, norm_inv (n0 / ns : ℂ), norm_div, inv_div, div_pow, ← Complex.normSq_eq_norm_sq,
      Complex.norm_real, Real.norm_eq_abs, sq_abs]
    field_simp
  · have hsr : ns = ((ns.re : ℝ) : ℂ) := Complex.ext (by simp) (by simpa using hL.2)
    rw [hre, hre']
    have hNr : Complex.normSq ns = ns.re ^ 2 := by rw [Complex.normSq_apply, hL.2]; ring
    rw [hNr]
    have hsp := hL.1
    generalize ns.re = s at hsr hsp ⊢
    rw [hsr, one_div, one_div, mul_inv, ← mul_assoc]
    congr 1
    rw [inv_div, ← Complex.ofReal_div, ← Complex.ofReal_mul]
    congr 1
    have : n0 * s / s ^ 2 = (s / n0) * (n0 / s) ^ 2 := by field_simp
    rw [this, Real.sqrt_mul (by positivity), Real.sqrt_sq (by positivity)]
    field_simp

/-! ### The occulter -/

theorem cell_normal {m : Materials} (hm : MaterialsOK m) {lam : ℝ} (hl : 0 < lam) (d0 a b p : ℝ) (flag : Bool) :
    ∃ t r : ℂ, occulterCell m 0 lam d0 a b p 0 flag = .ok (t, r) ∧ occulterCell m 0 lam d0 a b p 1 flag = .ok (t, -r) ∧
      occulterCell m 0 lam d0 a b p 2 flag = .ok (t, 0) := by
  have hf := occulter_args hm 0 lam d0 a b p le_rfl (by have := Real.pi_pos; linarith) hl
  obtain ⟨te, tm, e0, e1, -, -, hr, ht⟩ := C131_solver 1 one_pos (occulterLayers m d0 a b p) (fun a ha => (hf.layer a ha).1) m.nSub hf.sub.1 lam hl
  have ht := ht ⟨hf.sub.1.1, by simp⟩
  have c := fun pol hp => occulterCell_eq m 0 lam d0 a b p pol flag te tm e0 e1 hp
  refine ⟨if flag then te.tt else (starRingEnd ℂ) te.tt, if flag then te.rr else (starRingEnd ℂ) te.rr, ?_, ?_, ?_⟩
  · rw [c 0 (by simp)]
    cases flag <;> rfl
  · rw [c 1 (by simp)]
    cases flag <;> simp [hr, ht]
  · rw [c 2 (by simp)]
    cases flag <;> simp [hr, ht]

theorem mapM_fst {f g : ℕ → Res (ℂ × ℂ)} (l : List ℕ) (h : ∀ i, ∃ t r r', f i = .ok (t, r) ∧ g i = .ok (t, r')) :
    ∃ a b, l.mapM f = .ok a ∧ l.mapM g = .ok b ∧ a.map Prod.fst = b.map Prod.fst := by
  choose t r r' hf hg using h
  exact ⟨l.map fun i => (t i, r i), l.map fun i => (t i, r' i), mapM_ok f _ l fun x _ => hf x, mapM_ok g _ l fun x _ => hg x, by simp⟩

/-- **C131.** `calc_complex_occulter` at normal incidence answers, and the transmissions of all cells are the same for TE, for TM and for the mean. -/
theorem C131_transmission (mat : ℝ → Materials) {lam : ℝ} {tTi tNi tPmgi : List ℝ} {d0 : ℝ} (pol pol' : ℤ)
    (h : OcculterArgs lam 0 tTi tNi tPmgi d0 pol) (h' : OcculterArgs lam 0 tTi tNi tPmgi d0 pol') (hm : MaterialsOK (mat lam)) (flag : Bool) :
    ∃ o o', calcComplexOcculter mat lam 0 tTi tNi tPmgi d0 pol flag .FS = .ok o ∧ calcComplexOcculter mat lam 0 tTi tNi tPmgi d0 pol' flag .FS = .ok o' ∧
      o.map Prod.fst = o'.map Prod.fst := by
  rw [occulter_loop mat h flag .FS (Or.inl rfl), occulter_loop mat h' flag .FS (Or.inl rfl), zero_mul]
  refine mapM_fst _ fun i => ?_
  obtain ⟨t, r, e0, e1, e2⟩ := cell_normal hm h.lam_pos d0 (tTi.getD i 0) (tNi.getD i 0) (tPmgi.getD i 0) flag
  have : ∀ pol, (pol = 0 ∨ pol = 1 ∨ pol = 2) → ∃ r, occulterCell (mat lam) 0 lam d0 (tTi.getD i 0) (tNi.getD i 0) (tPmgi.getD i 0) pol flag = .ok (t, r) := by
    rintro pol (rfl | rfl | rfl)
    exacts [⟨_, e0⟩, ⟨_, e1⟩, ⟨_, e2⟩]
  obtain ⟨r1, q1⟩ := this pol h.pol
  obtain ⟨r2, q2⟩ := this pol' h'.pol
  exact ⟨t, r1, r2, q1, q2⟩

/-- **C131 fails for reflection.**  At normal incidence the mean over the polarisations is reported as no reflection at all, for every occulter,
however thick its metal; the two polarisations have opposite reflection coefficients. -/
theorem C131_mean_reflection_zero (mat : ℝ → Materials) {lam : ℝ} {tTi tNi tPmgi : List ℝ} {d0 : ℝ}
    (h : OcculterArgs lam 0 tTi tNi tPmgi d0 2) (hm : MaterialsOK (mat lam)) (flag : Bool) :
    (∃ o, calcComplexOcculter mat lam 0 tTi tNi tPmgi d0 2 flag .FS = .ok o ∧ o.length = tNi.length ∧ ∀ z ∈ o, z.2 = 0) ∧
    ∃ te tm, calcComplexOcculter mat lam 0 tTi tNi tPmgi d0 0 flag .FS = .ok te ∧ calcComplexOcculter mat lam 0 tTi tNi tPmgi d0 1 flag .FS = .ok tm ∧
      tm.map Prod.snd = te.map fun z => -z.2 := by
  have ha : OcculterArgs lam 0 tTi tNi tPmgi d0 0 := ⟨h.lam_pos, h.aoi_nonneg, h.aoi_lt, h.len, h.d0_pos, by simp⟩
  have hb : OcculterArgs lam 0 tTi tNi tPmgi d0 1 := ⟨h.lam_pos, h.aoi_nonneg, h.aoi_lt, h.len, h.d0_pos, by simp⟩
  choose t r e0 e1 e2 using fun i => cell_normal hm h.lam_pos d0 (tTi.getD i 0) (tNi.getD i 0) (tPmgi.getD i 0) flag
  rw [occulter_loop mat h flag .FS (Or.inl rfl), occulter_loop mat ha flag .FS (Or.inl rfl), occulter_loop mat hb flag .FS (Or.inl rfl), zero_mul]
  refine ⟨⟨_, mapM_ok _ _ _ fun i _ => e2 i, by simp, ?_⟩, _, _, mapM_ok _ _ _ fun i _ => e0 i, mapM_ok _ _ _ fun i _ => e1 i, by simp⟩
  intro z hz
  obtain ⟨i, -, rfl⟩ := List.mem_map.mp hz
  rfl

/-- Bare substrate behind a gap reflects. -/
theorem bare_reflects {lam : ℝ} (hl : 0 < lam) (s d : ℝ) (hs : 1 < s) :
    ∃ o, film (1 : ℝ) [((1 : ℂ), d)] ((s : ℝ) : ℂ) 0 lam false = .ok o ∧ o.rr ≠ 0 := by
  unfold film solver
  rw [if_neg (by simp), if_neg (lt_irrefl _), if_neg (by have := Real.pi_pos; linarith), if_neg (not_le.mpr hl)]
  refine ⟨_, rfl, ?_⟩
  have hk : (-((2 * Real.pi / lam : ℝ) : ℂ)) ≠ 0 := by
    rw [neg_ne_zero, Complex.ofReal_ne_zero]
    exact (div_pos (by positivity) hl).ne'
  have k1 := tfKz_normal hl (show 0 < (1 : ℂ).re by simp)
  have k2 := tfKz_normal hl (show 0 < ((s : ℝ) : ℂ).re by simpa using by linarith)
  simp only [tfMatrix, tfKx_normal, List.map_cons, List.map_nil, List.cons_append, List.nil_append, List.length_cons, List.length_nil, tfKzz,
    Bool.false_eq_true, if_false, Complex.ofReal_one]
  simp only [show List.range (0 + 1 + 1 + 1 - 1) = [0, 1] from rfl, List.foldl_cons, List.foldl_nil, List.getD_cons_zero, List.getD_cons_succ, one_mul, zero_add, k1, k2]
  generalize (-((2 * Real.pi / lam : ℝ) : ℂ)) = k at hk
  have m1 : tfStep (k * 1) ((0 : ℝ) : ℂ) (k * 1) (k * 1) = 1 := by
    unfold tfStep
    have e : 1 / 2 * (k * 1 + k * 1) / (k * 1) = 1 := by field_simp; norm_num
    simp only [e, sub_self, zero_div, zero_mul, Complex.ofReal_zero, mul_zero, Complex.exp_zero, one_smul]
    ext i j
    fin_cases i <;> fin_cases j <;> simp
  rw [m1, one_mul]
  have hs1 : (1 : ℂ) + s ≠ 0 := by
    norm_cast
    linarith
  have hs2 : (1 : ℂ) - s ≠ 0 := by
    norm_cast
    linarith
  have t0 : 1 / 2 * (k * 1 + k * (s : ℂ)) / (k * 1) ≠ 0 := by
    rw [← mul_add]
    exact div_ne_zero (mul_ne_zero (by norm_num) (mul_ne_zero hk hs1)) (mul_ne_zero hk one_ne_zero)
  have r0 : (k * 1 - k * (s : ℂ)) / (k * 1 + k * (s : ℂ)) ≠ 0 := by
    rw [← mul_add, ← mul_sub]
    exact div_ne_zero (mul_ne_zero hk hs2) (mul_ne_zero hk hs1)
  unfold tfStep
  simp only [Matrix.smul_apply, smul_eq_mul]
  refine div_ne_zero (mul_ne_zero t0 ?_) (mul_ne_zero t0 ?_)
  · simpa using r0
  · simp

/-- **C131 fails for reflection**, a case: bare fused silica at normal incidence.  Either polarisation alone gives a non-zero reflection coefficient, their
mean zero. -/
theorem C131_reflection_fails (mat : ℝ → Materials) {lam d0 : ℝ} (hl : 0 < lam) (hd : 0 < d0) (hm : MaterialsOK (mat lam)) (h1 : 1 < (mat lam).nSub)
    (flag : Bool) :
    ∃ te tm mean, calcComplexOcculter mat lam 0 [0] [0] [0] d0 0 flag .FS = .ok [te] ∧ calcComplexOcculter mat lam 0 [0] [0] [0] d0 1 flag .FS = .ok [tm] ∧
      calcComplexOcculter mat lam 0 [0] [0] [0] d0 2 flag .FS = .ok [mean] ∧ te.2 ≠ 0 ∧ tm.2 ≠ 0 ∧ mean.2 = 0 := by
  have A : ∀ q : ℤ, (q = 0 ∨ q = 1 ∨ q = 2) → OcculterArgs lam 0 [0] [0] [0] d0 q := fun q hq => ⟨hl, le_rfl, by norm_num, by simp, hd, hq⟩
  obtain ⟨t, r, e0, e1, e2⟩ := cell_normal hm hl d0 0 0 0 flag
  have hr : r ≠ 0 := by
    have hf := occulter_args hm 0 lam d0 0 0 0 le_rfl (by have := Real.pi_pos; linarith) hl
    have hL : occulterLayers (mat lam) d0 0 0 0 = [((1 : ℂ), d0)] ++ (((mat lam).nPmgi : ℂ), 0) :: [((mat lam).nNi - Complex.I * (mat lam).kNi, (0 : ℝ)), ((mat lam).nTi - Complex.I * (mat lam).kTi, (0 : ℝ))] := by
      simp [occulterLayers]
    have sub : ∀ l : List (ℂ × ℝ), (∀ a ∈ l, a ∈ occulterLayers (mat lam) d0 0 0 0) → FilmArgs 1 l ((mat lam).nSub : ℂ) 0 lam :=
      fun l h => ⟨hf.n0_pos, hf.theta_nonneg, hf.theta_lt, hf.lam_pos, fun a ha => hf.layer a (h a ha), hf.sub⟩
    have s1 := C35_zero_layer [((1 : ℂ), d0)] [((mat lam).nNi - Complex.I * (mat lam).kNi, (0 : ℝ)), ((mat lam).nTi - Complex.I * (mat lam).kTi, (0 : ℝ))]
      ((mat lam).nPmgi : ℂ) (hf.layer (((mat lam).nPmgi : ℂ), 0) (by rw [hL]; simp)) (sub _ (by rw [hL]; simp)) false
    have s2 := C35_zero_layer [((1 : ℂ), d0)] [((mat lam).nTi - Complex.I * (mat lam).kTi, (0 : ℝ))]
      ((mat lam).nNi - Complex.I * (mat lam).kNi) (hf.layer (_, 0) (by rw [hL]; simp)) (sub _ (by rw [hL]; simp)) false
    have s3 := C35_zero_layer [((1 : ℂ), d0)] [] ((mat lam).nTi - Complex.I * (mat lam).kTi) (hf.layer (_, 0) (by rw [hL]; simp)) (sub _ (by rw [hL]; simp)) false
    obtain ⟨o, ho, hor⟩ := bare_reflects hl (mat lam).nSub d0 h1
    have e : film (1 : ℝ) (occulterLayers (mat lam) d0 0 0 0) ((mat lam).nSub : ℂ) 0 lam false = .ok o := by
      rw [hL, s1]
      refine s2.trans (s3.trans ?_)
      rw [List.append_nil, ho]
    obtain ⟨te, tm, f0, f1, -, -, -, -⟩ := C131_solver 1 one_pos (occulterLayers (mat lam) d0 0 0 0) (fun a ha => (hf.layer a ha).1) (mat lam).nSub hf.sub.1 lam hl
    have c := occulterCell_eq (mat lam) 0 lam d0 0 0 0 0 flag o tm e f1 (by simp)
    rw [e0] at c
    have c := Except.ok.inj c
    rintro rfl
    apply hor
    cases flag
    · have := (Prod.mk.inj c).2
      simpa using this.symm
    · exact (Prod.mk.inj c).2.symm
  refine ⟨(t, r), (t, -r), (t, 0), ?_, ?_, ?_, hr, neg_ne_zero.mpr hr, rfl⟩
  · rw [occulter_loop mat (A 0 (by simp)) flag .FS (Or.inl rfl), zero_mul]
    exact mapM_ok _ (fun _ => (t, r)) [0] (by simpa using e0)
  · rw [occulter_loop mat (A 1 (by simp)) flag .FS (Or.inl rfl), zero_mul]
    exact mapM_ok _ (fun _ => (t, -r)) [0] (by simpa using e1)
  · rw [occulter_loop mat (A 2 (by simp)) flag .FS (Or.inl rfl), zero_mul]
    exact mapM_ok _ (fun _ => (t, (0 : ℂ))) [0] (by simpa using e2)

/-- **C131.** So `gen_hlc_occulter` at normal incidence does not depend on the polarisation asked for, exceptions included. -/
theorem C131_mask (S : ClampSpline) (R : Rotate) (mat : ℝ → Materials) {lam : ℝ} (hm : 0 < lam → MaterialsOK (mat lam)) (scale : Bool) (s0 s1 : ℤ)
    (c : HlcCal) (d : HlcDesign) (hc : c.aoi = 0) (hp : d.pol = 0 ∨ d.pol = 1 ∨ d.pol = 2) (pol : ℤ) (hp' : pol = 0 ∨ pol = 1 ∨ pol = 2) (xo yo : ℝ) :
    genHlcOcculter S R mat lam scale s0 s1 c { d with pol := pol } xo yo = genHlcOcculter S R mat lam scale s0 s1 c d xo yo := by
  unfold genHlcOcculter
  by_cases h1 : lam ≤ 0 ∨ s0 ≤ 0 ∨ s1 ≤ 0
  · rw [if_pos h1, if_pos h1]
  rw [if_neg h1, if_neg h1]
  push Not at h1
  simp only [hp, hp', not_true_eq_false, false_or]
  by_cases h2 : c.ppl ≤ 0 ∨ d.lam0 ≤ 0 ∨ d.hTi ≤ 0 ∨ d.hNi ≤ 0 ∨ d.dx ≤ 0 ∨ d.fn ≤ 0 ∨ d.hRefCoef ≤ 0 ∨ c.aoi < 0 ∨ 90 ≤ c.aoi ∨ d.padFac < 1 ∨ d.oversize < 2
  · rw [if_pos h2, if_pos h2]
  rw [if_neg h2, if_neg h2]
  push Not at h2
  have hst : occStart mat lam c { d with pol := pol } = occStart mat lam c d := by
    unfold occStart
    cases hpc : padCrop d.pmgi [ceilOdd ((max d.pmgi.nr d.pmgi.nc : ℕ) : ℝ), ceilOdd ((max d.pmgi.nr d.pmgi.nc : ℕ) : ℝ)] 0 with
    | error e => simp only [hpc, bind, Except.bind]
    | ok p =>
      simp only [hpc, bind, Except.bind, hc]
      have hd0 : 0 < d.hRefCoef * d.lam0 := mul_pos (by linarith [h2.2.2.2.2.2.2.1]) (by linarith [h2.2.1])
      have A : ∀ (l : List (ℕ × ℕ)) (q : ℤ), (q = 0 ∨ q = 1 ∨ q = 2) → OcculterArgs lam 0 (l.map fun _ => d.hTi) (l.map fun _ => d.hNi)
          (l.map fun q => (p.px q.1 q.2).getD 0) (d.hRefCoef * d.lam0) q := fun l q hq => ⟨h1.1, le_rfl, by norm_num, by simp, hd0, hq⟩
      have B : ∀ q : ℤ, (q = 0 ∨ q = 1 ∨ q = 2) → OcculterArgs lam 0 [0] [0] [0] (d.hRefCoef * d.lam0) q := fun q hq => ⟨h1.1, le_rfl, by norm_num, by simp, hd0, hq⟩
      obtain ⟨o, o', e, e', ho⟩ := C131_transmission mat pol d.pol (A (occPixels p) pol hp') (A (occPixels p) d.pol hp) (hm h1.1) false
      obtain ⟨u, u', f, f', hu⟩ := C131_transmission mat pol d.pol (B pol hp') (B d.pol hp) (hm h1.1) false
      have g : ∀ {o o' : List (ℂ × ℂ)}, o.map Prod.fst = o'.map Prod.fst → ∀ k, (o.getD k (0, 0)).1 = (o'.getD k (0, 0)).1 := by
        intro o o' h k
        have := congrArg (fun l => l.getD k 0) h
        simp only [List.getD_eq_getElem?_getD, List.getElem?_map] at this ⊢
        cases h1 : o[k]? <;> cases h2 : o'[k]? <;> simp_all
      simp only [e, e', f, f', g ho, g hu]
  rw [hst]
  rfl

/-! ### Concrete cases -/

example : OcculterArgs (575 / 1000000000) 0 [3 / 1000000000] [100 / 1000000000] [200 / 1000000000] (1 / 1000000) 2 ∧
    MaterialsOK (materialsAt (575 / 1000000000)) :=
  ⟨⟨by norm_num, le_rfl, by norm_num, by simp, by norm_num, by simp⟩, materials_ok (by norm_num) (by norm_num)⟩

/-- Fused silica at 575 nm is denser than vacuum. -/
theorem silica_dense : 1 < (materialsAt (575 / 1000000000)).nSub := by
  show 1 < Real.sqrt (silicaSq ((575 / 1000000000 * 1000000) ^ 2))
  rw [Real.lt_sqrt (by norm_num)]
  have := silicaSq_anti (s := (575 / 1000000000 * 1000000) ^ 2) (t := 42) (by norm_num) (by norm_num) (by norm_num)
  linarith [silicaSq_one]

example : ∃ te tm mean, calcComplexOcculter materialsAt (575 / 1000000000) 0 [0] [0] [0] (1 / 1000000) 0 false .FS = .ok [te] ∧
    calcComplexOcculter materialsAt (575 / 1000000000) 0 [0] [0] [0] (1 / 1000000) 1 false .FS = .ok [tm] ∧
    calcComplexOcculter materialsAt (575 / 1000000000) 0 [0] [0] [0] (1 / 1000000) 2 false .FS = .ok [mean] ∧ te.2 ≠ 0 ∧ tm.2 ≠ 0 ∧ mean.2 = 0 :=
  C131_reflection_fails materialsAt (by norm_num) (by norm_num) (materials_ok (by norm_num) (by norm_num)) silica_dense false

/-- A bare interface of vacuum and an index of 2 reflects a third of the amplitude in either polarisation, with opposite signs. -/
example : ∃ te tm, film (1 : ℝ) [] ((2 : ℝ) : ℂ) 0 (1 / 2) false = .ok te ∧ film (1 : ℝ) [] ((2 : ℝ) : ℂ) 0 (1 / 2) true = .ok tm ∧ tm.rr = -te.rr ∧ tm.tt = te.tt := by
  obtain ⟨te, tm, a, b, -, -, c, d⟩ := C131_solver 1 one_pos [] (by simp) ((2 : ℝ) : ℂ) ⟨by simp, by simp⟩ (1 / 2) (by norm_num)
  exact ⟨te, tm, a, b, c, d ⟨by simp, by simp⟩⟩

end Coralign.Props
