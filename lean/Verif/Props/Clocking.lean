import Verif.Model.MaskFit
import Verif.Spec.MaskFit
import Verif.Props.AmpThresh
import Verif.Props.NormFactor
import Verif.Props.GridSearch
import Verif.Props.DmReg
import Verif.Props.Pupil
import Verif.Props.ThinFilm
import Verif.Props.ConjugateSplit

/-!
# C76: the clocking of a mask
-/

namespace Coralign.Props

open Coralign Coralign.Spec

/-! ### Normalisation does not depend on the exposure -/

theorem bits_shape (m : Arr2 Bool) : m.bits.nr = m.nr ∧ m.bits.nc = m.nc := ⟨rfl, rfl⟩

theorem computeNormFactor_scale (img mask : Arr2 ℝ) (p c : ℝ) (hc : 0 < c) :
    computeNormFactor (img.map fun v : ℝ => c * v) mask p = (computeNormFactor img mask p).map fun f => c * f := by
  by_cases h : (img.nr = mask.nr ∧ img.nc = mask.nc) ∧ NormArgs mask.val p
  · obtain ⟨n, m, f⟩ := img
    obtain ⟨n', m', g⟩ := mask
    obtain ⟨⟨e1, e2⟩, h⟩ := h
    simp only at e1 e2
    subst e1 e2
    obtain ⟨r, h1, h2⟩ := C53_scale f g p c hc h
    rw [h1]
    exact h2
  · rw [(C53_rejects img mask p).2 h, (C53_rejects (img.map fun v : ℝ => c * v) mask p).2 h]
    rfl

theorem ampthresh_scale (a : Arr2 ℝ) (nBin : ℤ) (c : ℝ) (hc : 0 < c) : ampthresh (a.map fun v : ℝ => c * v) nBin = ampthresh a nBin := by
  have := C12_affine_invariant a nBin c 0 hc
  simpa using this

theorem normFactorOf_scale (img thr : Arr2 ℝ) (p c c' : ℝ) (hc : 0 < c) (hc' : 0 < c') :
    normFactorOf (img.map fun v : ℝ => c * v) (thr.map fun v : ℝ => c' * v) p = (normFactorOf img thr p).map fun f => c * f := by
  unfold normFactorOf
  rw [ampthresh_scale thr 21 c' hc']
  cases ampthresh thr 21 with
  | error e => rfl
  | ok m => exact computeNormFactor_scale img m.bits p c hc

/-- **C76.** The answer does not depend on the exposure or on the phase of the measured field: it is the same for any two fields whose moduli
are proportional. -/
theorem C76_exposure (S : Solver) (Sp : ClampSpline) (R : Rotate) {n m : ℕ} (z w : Fin n → Fin m → ℂ) (c : ℝ) (hc : 0 < c)
    (h : ∀ i j, ‖w i j‖ = c * ‖z i j‖) (diam : ℝ) (mask : Arr2 ℝ) (diamHigh xo yo clockMax : ℝ) (nClock : ℤ) (p tol : ℝ) (binary : Bool) :
    computeClocking S Sp R ⟨n, m, w⟩ diam mask diamHigh xo yo clockMax nClock p tol binary =
      computeClocking S Sp R ⟨n, m, z⟩ diam mask diamHigh xo yo clockMax nClock p tol binary := by
  have e : (⟨n, m, w⟩ : Arr2 ℂ).map (fun z : ℂ => ‖z‖) = ((⟨n, m, z⟩ : Arr2 ℂ).map fun z : ℂ => ‖z‖).map fun v : ℝ => c * v := by
    unfold Arr2.map
    simp only [h]
  unfold computeClocking
  simp only [e]
  generalize ha : (⟨n, m, z⟩ : Arr2 ℂ).map (fun z : ℂ => ‖z‖) = amp
  have e2 : (amp.map fun v : ℝ => c * v).map (fun v : ℝ => v ^ 2) = (amp.map fun v : ℝ => v ^ 2).map fun v : ℝ => c ^ 2 * v := by
    unfold Arr2.map
    simp only [mul_pow]
  rw [e2, normFactorOf_scale _ _ p c (c ^ 2) hc (by positivity), ampthresh_scale _ 21 (c ^ 2) (by positivity)]
  cases normFactorOf amp (amp.map fun v : ℝ => v ^ 2) p with
  | error e => rfl
  | ok f =>
    have e3 : ((amp.map fun v : ℝ => c * v).map fun v : ℝ => v / (c * f)) = amp.map fun v : ℝ => v / f := by
      unfold Arr2.map
      simp only [mul_div_mul_left _ _ hc.ne']
    simp only [Except.map, res_ok_bind, e3]
    rfl

/-! ### The fit -/

theorem linspaceList_spread (m : ℝ) (n : ℕ) : linspaceList (-m) m n = spread m n := by
  unfold linspaceList spread linspace
  refine List.map_congr_left fun k _ => ?_
  ring

theorem countClose_eq (a b : Arr2 ℝ) (tol : ℝ) (hr : b.nr = a.nr) (hc : b.nc = a.nc) : countClose a b tol = (closePixels a b tol : ℝ) := by
  classical
  unfold countClose closePixels
  rw [Finset.card_filter, Nat.cast_sum, ← Finset.univ_product_univ, Finset.sum_product]
  refine Finset.sum_congr rfl fun i _ => Finset.sum_congr rfl fun j _ => ?_
  have hin : (0 ≤ ((i : ℕ) : ℤ) ∧ ((i : ℕ) : ℤ) < b.nr) ∧ (0 ≤ ((j : ℕ) : ℤ) ∧ ((j : ℕ) : ℤ) < b.nc) := by
    have := i.isLt
    have := j.isLt
    omega
  have hp := Arr2.px_of_inB b hin
  unfold Arr2.zext
  rw [hp]
  simp only [Option.getD_some, Option.some.injEq, exists_eq_left']
  split_ifs <;> simp

theorem countEqual_eq (a b : Arr2 Bool) : countEqual a b = (equalPixels a b : ℝ) := by
  classical
  unfold countEqual equalPixels
  rw [Finset.card_filter, Nat.cast_sum, ← Finset.univ_product_univ, Finset.sum_product]
  refine Finset.sum_congr rfl fun i _ => Finset.sum_congr rfl fun j _ => ?_
  split_ifs <;> simp

theorem referenceOn_iff (Sp : ClampSpline) (R : Rotate) (mask : Arr2 ℝ) (rot mag xo yo padFac : ℝ) (nr nc : ℕ) (ref : Arr2 ℝ) :
    referenceOn Sp R mask rot mag xo yo padFac nr nc = .ok ref ↔ IsReference Sp R mask rot mag xo yo padFac nr nc ref := by
  unfold referenceOn IsReference
  constructor
  · exact fun h => res_bind_ok h
  · rintro ⟨d, h1, h2⟩
    rw [h1, res_ok_bind, h2]

theorem normFactorOf_iff (img thr : Arr2 ℝ) (p f : ℝ) : normFactorOf img thr p = .ok f ↔ NormBy img thr p f := by
  unfold normFactorOf NormBy
  constructor
  · exact fun h => res_bind_ok h
  · rintro ⟨d, h1, h2⟩
    rw [h1, res_ok_bind]
    exact h2

/-- The shape of what `pad_crop` returns. -/
theorem padCrop_shape_of_ok {a o : Arr2 ℝ} {nr nc : ℕ} (h : padCrop a [(nr : ℤ), (nc : ℤ)] 0 = .ok o) : o.nr = nr ∧ o.nc = nc := by
  by_cases h0 : 0 < nr ∧ 0 < nc
  · rw [padCrop_eq a nr nc 0 (by omega) (by omega)] at h
    obtain rfl := Except.ok.inj h
    exact ⟨Int.toNat_natCast _, Int.toNat_natCast _⟩
  · exfalso
    rw [padCrop_error a [(nr : ℤ), (nc : ℤ)] (0 : ℝ)] at h
    · cases h
    · rintro ⟨x, y, hxy, hx, hy⟩
      obtain ⟨rfl, h2⟩ := List.cons.inj hxy
      obtain ⟨rfl, -⟩ := List.cons.inj h2
      omega

theorem argmax_peak (F : ℝ → ℝ) (l : List ℝ) (hl : l ≠ []) :
    ∃ s ∈ l, (l.map F).getD (argmaxUpto (fun k => (l.map F).getD k 0) ((l.map F).length - 1)) 0 = F s ∧ ∀ s' ∈ l, F s' ≤ F s := by
  obtain ⟨h1, h2, -⟩ := argmaxUpto_spec (fun k => (l.map F).getD k 0) ((l.map F).length - 1)
  generalize argmaxUpto (fun k => (l.map F).getD k 0) ((l.map F).length - 1) = b at h1 h2 ⊢
  rw [List.length_map] at h1 h2
  have hpos := List.length_pos_iff.mpr hl
  have hb : b < l.length := by omega
  have hg : ∀ k (hk : k < l.length), (l.map F).getD k 0 = F l[k] := by
    intro k hk
    rw [List.getD_eq_getElem _ _ (by simpa using hk), List.getElem_map]
  refine ⟨l[b], List.getElem_mem hb, hg b hb, fun s' hs' => ?_⟩
  obtain ⟨k, hk, rfl⟩ := List.getElem_of_mem hs'
  have := h2 k (by omega)
  rw [hg k hk, hg b hb] at this
  exact this

open scoped Classical in
/-- The fit in terms of the function of the trial values. -/
theorem deficitVertex_eq (S : Solver) (F : ℝ → ℝ) (l : List ℝ) (fb M : ℝ) (hM : ∃ s ∈ l, F s = M) (hle : ∀ s ∈ l, F s ≤ M) :
    deficitVertex S l (l.map F) fb =
      (let p := S.solve (vander2 fun i : Fin l.length => l.get i) (fun i : Fin l.length => (F (l.get i) - M) ^ 2)
       if p 0 = 0 then fb else -p 1 / (2 * p 0)) := by
  obtain ⟨s, hs, rfl⟩ := hM
  have hl : l ≠ [] := List.ne_nil_of_mem hs
  obtain ⟨s', hs', he, hmax⟩ := argmax_peak F l hl
  have hss : F s' = F s := le_antisymm (hle s' hs') (hmax s hs)
  unfold deficitVertex
  have hd : (fun i : Fin l.length => ((l.map F).getD i 0 - (l.map F).getD (argmaxUpto (fun k => (l.map F).getD k 0) ((l.map F).length - 1)) 0) ^ 2) =
      fun i : Fin l.length => (F (l.get i) - F s) ^ 2 := by
    funext i
    rw [he, hss, List.getD_eq_getElem _ _ (by simp), List.getElem_map]
    rfl
  simp only [hd]

/-- A tent whose top is one of the trial values is found exactly. -/
theorem deficitVertex_tent (S : Solver) (F : ℝ → ℝ) (l : List ℝ) (fb s0 N k : ℝ) (h3 : ThreeValues l) (h0 : s0 ∈ l) (hk : 0 < k)
    (hF : ∀ s ∈ l, F s = N - k * |s - s0|) : deficitVertex S l (l.map F) fb = s0 := by
  rw [deficitVertex_eq S F l fb N ⟨s0, h0, by rw [hF s0 h0]; simp⟩ (fun s hs => by
    rw [hF s hs]
    have := mul_nonneg hk.le (abs_nonneg (s - s0))
    linarith)]
  obtain ⟨x, hx, y, hy, z, hz, hxy, hxz, hyz⟩ := h3
  obtain ⟨a, rfl⟩ := List.mem_iff_get.mp hx
  obtain ⟨b, rfl⟩ := List.mem_iff_get.mp hy
  obtain ⟨c, rfl⟩ := List.mem_iff_get.mp hz
  obtain ⟨h1, h2, -⟩ := polyfit_exact S (fun i : Fin l.length => l.get i) (fun i : Fin l.length => (F (l.get i) - N) ^ 2) (k ^ 2)
    (-2 * k ^ 2 * s0) (k ^ 2 * s0 ^ 2) (by
      intro i
      rw [hF _ (List.get_mem l i)]
      have := sq_abs (l.get i - s0)
      linear_combination k ^ 2 * this) a b c hxy hxz hyz
  simp only [h1, h2]
  rw [if_neg (by positivity)]
  field_simp

theorem spread_length (m : ℝ) (n : ℕ) : (spread m n).length = n := by simp [spread]

theorem spread_get (m : ℝ) (n : ℕ) (i : Fin (spread m n).length) : (spread m n).get i = -m + 2 * m * (((i : ℕ) : ℝ) / ((n : ℝ) - 1)) := by
  rw [List.get_eq_getElem]
  simp only [spread, List.getElem_map, List.getElem_range]

/-- If the function is even on the trial values the fit is centred. -/
theorem deficitVertex_even (S : Solver) (F : ℝ → ℝ) (m : ℝ) (n : ℕ) (hn : 2 ≤ n) (hm : m ≠ 0)
    (hF : ∀ s ∈ spread m n, F (-s) = F s) : deficitVertex S (spread m n) ((spread m n).map F) 0 = 0 := by
  have hn1 : ((n : ℝ) - 1) ≠ 0 := by
    have : (2 : ℝ) ≤ n := by exact_mod_cast hn
    linarith
  have hne : spread m n ≠ [] := by
    intro h
    have := spread_length m n
    rw [h] at this
    simp at this
    omega
  obtain ⟨s, hs, -, hmax⟩ := argmax_peak F (spread m n) hne
  rw [deficitVertex_eq S F _ 0 (F s) ⟨s, hs, rfl⟩ hmax]
  have hls := S.isLeastSq (vander2 fun i : Fin (spread m n).length => (spread m n).get i)
    (fun i : Fin (spread m n).length => (F ((spread m n).get i) - F s) ^ 2)
  generalize S.solve (vander2 fun i : Fin (spread m n).length => (spread m n).get i)
    (fun i : Fin (spread m n).length => (F ((spread m n).get i) - F s) ^ 2) = p at *
  have hrev : ∀ i : Fin (spread m n).length, (spread m n).get i.rev = -(spread m n).get i := by
    intro i
    have := i.isLt
    have hv : ((i.rev : ℕ) : ℝ) = (n : ℝ) - ((i : ℕ) + 1) := by
      rw [Fin.val_rev, Nat.cast_sub (by omega)]
      simp only [spread_length]
      push_cast
      ring
    rw [spread_get, spread_get, hv]
    field_simp
    ring
  have hres : ∀ q : Fin 3 → ℝ, sqResidual (vander2 fun i : Fin (spread m n).length => (spread m n).get i)
      (fun i : Fin (spread m n).length => (F ((spread m n).get i) - F s) ^ 2) ![q 0, -q 1, q 2] =
      sqResidual (vander2 fun i : Fin (spread m n).length => (spread m n).get i)
      (fun i : Fin (spread m n).length => (F ((spread m n).get i) - F s) ^ 2) q := by
    intro q
    unfold sqResidual
    rw [← Equiv.sum_comp Fin.revPerm]
    refine Finset.sum_congr rfl fun i _ => ?_
    have hFi := hF _ (List.get_mem _ i)
    simp only [fitted_vander2, Fin.revPerm_apply, hrev, hFi]
    simp
  have hls' : IsLeastSq (vander2 fun i : Fin (spread m n).length => (spread m n).get i)
      (fun i : Fin (spread m n).length => (F ((spread m n).get i) - F s) ^ 2) ![p 0, -p 1, p 2] := by
    intro y
    rw [hres]
    exact hls y
  have h0 : 0 < (spread m n).length := by rw [spread_length]; omega
  have h1 := hls.fitted_unique hls' ⟨0, h0⟩
  rw [fitted_vander2, fitted_vander2, spread_get] at h1
  simp at h1
  have hp1 : p 1 = 0 := by
    have : p 1 * m = 0 := by linarith
    exact (mul_eq_zero.mp this).resolve_right hm
  simp only [hp1]
  split_ifs <;> simp

/-- Three trial values `-d, 0, d` and a tent whose top lies between them. -/
theorem deficitVertex_three (S : Solver) (F : ℝ → ℝ) (d s0 N k : ℝ) (hd : 0 < d) (h0 : 0 ≤ s0) (h1 : s0 ≤ d / 2) (hk : 0 < k)
    (hF : ∀ s ∈ spread d 3, F s = N - k * |s - s0|) :
    deficitVertex S (spread d 3) ((spread d 3).map F) 0 = d * s0 * (d - s0) / (d ^ 2 - 2 * d * s0 + 2 * s0 ^ 2) := by
  have hl : spread d 3 = [-d, 0, d] := by
    simp only [spread, List.range, List.range.loop, List.map_cons, List.map_nil]
    norm_num
    constructor <;> ring
  rw [hl] at hF ⊢
  have fm : F (-d) = N - k * (d + s0) := by
    rw [hF (-d) (by simp), abs_of_nonpos (by linarith)]; ring
  have f0 : F 0 = N - k * s0 := by
    rw [hF 0 (by simp), abs_of_nonpos (by linarith)]; ring
  have fp : F d = N - k * (d - s0) := by
    rw [hF d (by simp), abs_of_nonneg (by linarith)]
  rw [deficitVertex_eq S F [-d, 0, d] 0 (N - k * s0) ⟨0, by simp, f0⟩ (by
    intro s hs
    simp only [List.mem_cons, List.not_mem_nil, or_false] at hs
    rcases hs with rfl | rfl | rfl
    · rw [fm]; nlinarith
    · rw [f0]
    · rw [fp]; nlinarith)]
  have hq : 0 < d ^ 2 - 2 * d * s0 + 2 * s0 ^ 2 := by nlinarith
  obtain ⟨e0, e1, -⟩ := polyfit_exact S (fun i : Fin 3 => ([-d, 0, d] : List ℝ).get i) (fun i : Fin 3 => (F (([-d, 0, d] : List ℝ).get i) - (N - k * s0)) ^ 2)
    (k ^ 2 * (d ^ 2 + (d - 2 * s0) ^ 2) / (2 * d ^ 2)) (k ^ 2 * ((d - 2 * s0) ^ 2 - d ^ 2) / (2 * d)) 0 (by
      intro i
      fin_cases i
      · show (F (-d) - (N - k * s0)) ^ 2 = _ * (-d) ^ 2 + _ * (-d) + 0
        rw [fm]; field_simp; ring
      · show (F 0 - (N - k * s0)) ^ 2 = _ * (0 : ℝ) ^ 2 + _ * (0 : ℝ) + 0
        rw [f0]; ring
      · show (F d - (N - k * s0)) ^ 2 = _ * d ^ 2 + _ * d + 0
        rw [fp]; field_simp; ring) 0 1 2 (by show -d ≠ 0; linarith) (by show -d ≠ d; linarith) (by show (0 : ℝ) ≠ d; linarith)
  have hp : 0 < k ^ 2 * (d ^ 2 + (d - 2 * s0) ^ 2) / (2 * d ^ 2) := by positivity
  refine Eq.trans (b := if S.solve (vander2 fun i : Fin 3 => ([-d, 0, d] : List ℝ).get i) (fun i : Fin 3 => (F (([-d, 0, d] : List ℝ).get i) - (N - k * s0)) ^ 2) 0 = 0 then 0 else
    -S.solve (vander2 fun i : Fin 3 => ([-d, 0, d] : List ℝ).get i) (fun i : Fin 3 => (F (([-d, 0, d] : List ℝ).get i) - (N - k * s0)) ^ 2) 1 /
      (2 * S.solve (vander2 fun i : Fin 3 => ([-d, 0, d] : List ℝ).get i) (fun i : Fin 3 => (F (([-d, 0, d] : List ℝ).get i) - (N - k * s0)) ^ 2) 0)) rfl ?_
  rw [e0, e1, if_neg hp.ne']
  have hs : d ^ 2 + (d - 2 * s0) ^ 2 = 2 * (d ^ 2 - 2 * d * s0 + 2 * s0 ^ 2) := by ring
  rw [hs]
  have hq' := hq.ne'
  field_simp
  ring

/-! ### The function -/

/-- The arguments `compute_clocking` accepts. -/
structure MaskClockArgs (diam diamHigh : ℝ) (nClock : ℤ) (p tol : ℝ) : Prop where
  diam : 0 < diam
  high : 0 < diamHigh
  clocks : 0 < nClock
  percentile : 0 ≤ p
  tol : 0 ≤ tol

theorem clocking_ok (S : Solver) (Sp : ClampSpline) (R : Rotate) {n m : ℕ} (z : Fin n → Fin m → ℂ) (diam : ℝ) (mask : Arr2 ℝ)
    (diamHigh xo yo clockMax : ℝ) (nClock : ℤ) (p tol : ℝ) (binary : Bool) (ha : MaskClockArgs diam diamHigh nClock p tol) (F : ℝ → ℕ)
    (hF : ∀ th ∈ spread clockMax nClock.toNat, ∃ ref, IsReference Sp R mask th (diam / diamHigh) xo yo 1 n m ref ∧
      Matches ⟨n, m, fun i j => ‖z i j‖⟩ ref p tol binary (F th)) :
    computeClocking S Sp R ⟨n, m, z⟩ diam mask diamHigh xo yo clockMax nClock p tol binary =
      .ok (deficitVertex S (spread clockMax nClock.toNat) ((spread clockMax nClock.toNat).map fun th => (F th : ℝ)) 0) := by
  have hne : ∃ th, th ∈ spread clockMax nClock.toNat := by
    have h0 := ha.clocks
    refine List.exists_mem_of_length_pos ?_
    rw [spread_length]
    omega
  unfold computeClocking
  rw [if_neg (by push Not; exact ⟨ha.diam, ha.high, ha.clocks, ha.percentile, ha.tol⟩)]
  simp only [linspaceList_spread]
  have hamp : (⟨n, m, z⟩ : Arr2 ℂ).map (fun z : ℂ => ‖z‖) = ⟨n, m, fun i j => ‖z i j‖⟩ := rfl
  rw [hamp]
  cases binary with
  | false =>
    obtain ⟨th0, hth0⟩ := hne
    obtain ⟨ref0, -, hm0⟩ := hF th0 hth0
    unfold Matches at hm0
    rw [if_pos rfl] at hm0
    obtain ⟨f, -, hf, -, -⟩ := hm0
    rw [if_pos rfl, (normFactorOf_iff _ _ _ _).mpr hf, res_ok_bind]
    rw [mapM_ok _ (fun th => (F th : ℝ)) _ (fun th hth => ?_)]
    · rfl
    · obtain ⟨ref, hr, hm⟩ := hF th hth
      unfold Matches at hm
      rw [if_pos rfl] at hm
      obtain ⟨f', g, hf', hg, hN⟩ := hm
      have hff : f' = f := Except.ok.inj (((normFactorOf_iff _ _ _ _).mpr hf').symm.trans ((normFactorOf_iff _ _ _ _).mpr hf))
      subst hff
      rw [(referenceOn_iff _ _ _ _ _ _ _ _ _ _ _).mpr hr, res_ok_bind, (normFactorOf_iff _ _ _ _).mpr hg, res_ok_bind]
      obtain ⟨d, -, hd⟩ := hr
      obtain ⟨s1, s2⟩ := padCrop_shape_of_ok hd
      rw [countClose_eq _ _ _ (by exact s1) (by exact s2), hN]
  | true =>
    obtain ⟨th0, hth0⟩ := hne
    obtain ⟨ref0, -, hm0⟩ := hF th0 hth0
    unfold Matches at hm0
    rw [if_neg (by decide)] at hm0
    obtain ⟨a, -, hf, -, -⟩ := hm0
    rw [if_neg (by decide), hf, res_ok_bind]
    rw [mapM_ok _ (fun th => (F th : ℝ)) _ (fun th hth => ?_)]
    · rfl
    · obtain ⟨ref, hr, hm⟩ := hF th hth
      unfold Matches at hm
      rw [if_neg (by decide)] at hm
      obtain ⟨a', b, hf', hg, hN⟩ := hm
      have hff : a' = a := Except.ok.inj (hf'.symm.trans hf)
      subst hff
      rw [(referenceOn_iff _ _ _ _ _ _ _ _ _ _ _).mpr hr, res_ok_bind, hg, res_ok_bind, countEqual_eq, hN]

/-- **C76.** If the number of matching pixels falls off linearly on both sides of an angle `th0` which is one of the trial angles, the answer
is exactly `th0`, in either mode. -/
theorem C76_recovers (S : Solver) (Sp : ClampSpline) (R : Rotate) {n m : ℕ} (z : Fin n → Fin m → ℂ) (diam : ℝ) (mask : Arr2 ℝ)
    (diamHigh xo yo clockMax : ℝ) (nClock : ℤ) (p tol : ℝ) (binary : Bool) (ha : MaskClockArgs diam diamHigh nClock p tol)
    (hn : 3 ≤ nClock) (hmax : clockMax ≠ 0) (F : ℝ → ℕ)
    (hF : ∀ th ∈ spread clockMax nClock.toNat, ∃ ref, IsReference Sp R mask th (diam / diamHigh) xo yo 1 n m ref ∧
      Matches ⟨n, m, fun i j => ‖z i j‖⟩ ref p tol binary (F th))
    (th0 N k : ℝ) (h0 : th0 ∈ spread clockMax nClock.toNat) (hk : 0 < k) (htent : ∀ th ∈ spread clockMax nClock.toNat, F th = N - k * |th - th0|) :
    computeClocking S Sp R ⟨n, m, z⟩ diam mask diamHigh xo yo clockMax nClock p tol binary = .ok th0 := by
  rw [clocking_ok S Sp R z diam mask diamHigh xo yo clockMax nClock p tol binary ha F hF]
  rw [deficitVertex_tent S (fun th => (F th : ℝ)) _ 0 th0 N k ?_ h0 hk htent]
  rw [← linspaceList_spread]
  exact linspaceList_three _ _ _ (by omega) (fun h => hmax (by linarith))

/-- **C76.** If rotating the reference either way by the same amount matches equally well, the answer is zero. -/
theorem C76_symmetric (S : Solver) (Sp : ClampSpline) (R : Rotate) {n m : ℕ} (z : Fin n → Fin m → ℂ) (diam : ℝ) (mask : Arr2 ℝ)
    (diamHigh xo yo clockMax : ℝ) (nClock : ℤ) (p tol : ℝ) (binary : Bool) (ha : MaskClockArgs diam diamHigh nClock p tol)
    (hn : 2 ≤ nClock) (hmax : clockMax ≠ 0) (F : ℝ → ℕ)
    (hF : ∀ th ∈ spread clockMax nClock.toNat, ∃ ref, IsReference Sp R mask th (diam / diamHigh) xo yo 1 n m ref ∧
      Matches ⟨n, m, fun i j => ‖z i j‖⟩ ref p tol binary (F th))
    (heven : ∀ th ∈ spread clockMax nClock.toNat, F (-th) = F th) :
    computeClocking S Sp R ⟨n, m, z⟩ diam mask diamHigh xo yo clockMax nClock p tol binary = .ok 0 := by
  rw [clocking_ok S Sp R z diam mask diamHigh xo yo clockMax nClock p tol binary ha F hF]
  rw [deficitVertex_even S (fun th => (F th : ℝ)) clockMax nClock.toNat (by omega) hmax (fun s hs => by
    show (F (-s) : ℝ) = F s
    rw [heven s hs])]

/-- **C76 (the limit of the recovery).** If the best angle is not one of the trial angles the subtraction of the largest *trial* value
biases the answer: for the three trial angles `-d, 0, d` and a true angle `th0` with `0 ≤ th0 ≤ d/2` the answer is as below, which is `th0`
only for `th0 = 0` and `th0 = d/2`. -/
theorem C76_off_grid_bias (S : Solver) (Sp : ClampSpline) (R : Rotate) {n m : ℕ} (z : Fin n → Fin m → ℂ) (diam : ℝ) (mask : Arr2 ℝ)
    (diamHigh xo yo d : ℝ) (p tol : ℝ) (binary : Bool) (ha : MaskClockArgs diam diamHigh 3 p tol) (hd : 0 < d) (F : ℝ → ℕ)
    (hF : ∀ th ∈ spread d 3, ∃ ref, IsReference Sp R mask th (diam / diamHigh) xo yo 1 n m ref ∧
      Matches ⟨n, m, fun i j => ‖z i j‖⟩ ref p tol binary (F th))
    (th0 N k : ℝ) (h0 : 0 ≤ th0) (h1 : th0 ≤ d / 2) (hk : 0 < k) (htent : ∀ th ∈ spread d 3, F th = N - k * |th - th0|) :
    ∃ r, computeClocking S Sp R ⟨n, m, z⟩ diam mask diamHigh xo yo d 3 p tol binary = .ok r ∧
      r = d * th0 * (d - th0) / (d ^ 2 - 2 * d * th0 + 2 * th0 ^ 2) ∧ (r = th0 ↔ th0 = 0 ∨ th0 = d / 2) := by
  refine ⟨_, clocking_ok S Sp R z diam mask diamHigh xo yo d 3 p tol binary ha F hF, ?_, ?_⟩
  · exact deficitVertex_three S (fun th => (F th : ℝ)) d th0 N k hd h0 h1 hk htent
  · rw [show (3 : ℤ).toNat = 3 from rfl, deficitVertex_three S (fun th => (F th : ℝ)) d th0 N k hd h0 h1 hk htent]
    have hq : 0 < d ^ 2 - 2 * d * th0 + 2 * th0 ^ 2 := by nlinarith
    rw [div_eq_iff hq.ne']
    constructor
    · intro h
      have : th0 * (d - 2 * th0) * th0 = 0 := by linarith
      rcases mul_eq_zero.mp this with h' | h'
      · rcases mul_eq_zero.mp h' with h'' | h''
        · exact Or.inl h''
        · right; linarith
      · exact Or.inl h'
    · rintro (rfl | rfl) <;> ring

/-- **C76.** Arguments out of range raise `TypeError`. -/
theorem C76_rejects (S : Solver) (Sp : ClampSpline) (R : Rotate) (z : Arr2 ℂ) (diam : ℝ) (mask : Arr2 ℝ)
    (diamHigh xo yo clockMax : ℝ) (nClock : ℤ) (p tol : ℝ) (binary : Bool) (ha : ¬ MaskClockArgs diam diamHigh nClock p tol) :
    computeClocking S Sp R z diam mask diamHigh xo yo clockMax nClock p tol binary = .error .typeError := by
  unfold computeClocking
  rw [if_pos]
  by_contra hc
  push Not at hc
  exact ha ⟨hc.1, hc.2.1, hc.2.2.1, hc.2.2.2.1, hc.2.2.2.2⟩

end Coralign.Props
