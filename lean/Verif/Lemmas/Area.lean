import Verif.Spec.Area
import Verif.Spec.RectProper
import Verif.Spec.Shapes
import Mathlib.MeasureTheory.Measure.Prod
import Mathlib.Analysis.Convex.Basic
import Mathlib.Topology.Order.IntermediateValue

/-!
# Sampling a convex figure on a grid: how far the count is from the area
-/

namespace Coralign

open Coralign.Spec MeasureTheory

theorem card_mid_Icc (N : ℕ) (A B : ℝ) (h0 : 0 ≤ A) (hB : B ≤ N) (hAB : A ≤ B) (S : Finset (Fin N))
    (hS : ∀ s : Fin N, s ∈ S ↔ A ≤ (s : ℕ) + 1 / 2 ∧ ((s : ℕ) : ℝ) + 1 / 2 ≤ B) :
    (S.card : ℝ) ≤ (B - A) + 1 ∧ B - A ≤ S.card + 1 := by
  have himg : S.image (fun s : Fin N => ((s : ℕ) : ℤ)) = Finset.Icc ⌈A - 1 / 2⌉ ⌊B - 1 / 2⌋ := by
    ext z
    rw [Finset.mem_image, Finset.mem_Icc, Int.ceil_le, Int.le_floor]
    constructor
    · rintro ⟨s, hs, rfl⟩
      obtain ⟨h1, h2⟩ := (hS s).mp hs
      constructor
      · rw [Int.cast_natCast]; linarith
      · rw [Int.cast_natCast]; linarith
    · rintro ⟨h1, h2⟩
      have hz0 : 0 ≤ z := by
        have : (-1 : ℝ) < z := by linarith
        have : (-1 : ℤ) < z := by exact_mod_cast this
        omega
      have hzN : z < N := by
        have : (z : ℝ) < N := by linarith
        exact_mod_cast this
      refine ⟨⟨z.toNat, by omega⟩, (hS _).mpr ?_, by simp only; omega⟩
      have e : ((z.toNat : ℕ) : ℝ) = z := by
        have : ((z.toNat : ℕ) : ℤ) = z := by omega
        exact_mod_cast congrArg (fun t : ℤ => (t : ℝ)) this
      simp only
      rw [e]
      constructor <;> linarith
  have hcard : S.card = (⌊B - 1 / 2⌋ + 1 - ⌈A - 1 / 2⌉).toNat := by
    rw [← Int.card_Icc, ← himg, Finset.card_image_of_injective]
    intro a b hab
    simp only at hab
    exact Fin.ext (by omega)
  have f1 := Int.floor_le (B - 1 / 2)
  have f2 := Int.lt_floor_add_one (B - 1 / 2)
  have c1 := Int.le_ceil (A - 1 / 2)
  have c2 := Int.ceil_lt_add_one (A - 1 / 2)
  have hnn : 0 ≤ ⌊B - 1 / 2⌋ + 1 - ⌈A - 1 / 2⌉ := by
    have : (-1 : ℝ) < ((⌊B - 1 / 2⌋ + 1 - ⌈A - 1 / 2⌉ : ℤ) : ℝ) := by push_cast; linarith
    have : (-1 : ℤ) < ⌊B - 1 / 2⌋ + 1 - ⌈A - 1 / 2⌉ := by exact_mod_cast this
    omega
  have hc : (S.card : ℝ) = (⌊B - 1 / 2⌋ : ℝ) + 1 - ⌈A - 1 / 2⌉ := by
    have : (S.card : ℤ) = ⌊B - 1 / 2⌋ + 1 - ⌈A - 1 / 2⌉ := by rw [hcard]; exact Int.toNat_of_nonneg hnn
    exact_mod_cast congrArg (fun t : ℤ => (t : ℝ)) this
  rw [hc]
  constructor <;> linarith

/-- The number of the `N` mid-points of a unit interval that are in a closed convex part of it differs from `N` times its length by at most one. -/
theorem count_mid (N : ℕ) (hN : 1 ≤ N) (y : ℝ) (J : Set ℝ) (hc : IsClosed J) (ho : J.OrdConnected) (hJ : J ⊆ Set.Icc (y - 1 / 2) (y + 1 / 2))
    (S : Finset (Fin N)) (hS : ∀ s : Fin N, s ∈ S ↔ y + (((s : ℕ) + 1 / 2 : ℝ) / N - 1 / 2) ∈ J) :
    (S.card : ℝ) ≤ N * (volume J).toReal + 1 ∧ N * (volume J).toReal ≤ S.card + 1 := by
  have hNr : (0 : ℝ) < N := by exact_mod_cast hN
  rcases J.eq_empty_or_nonempty with he | hne
  · have hS0 : S = ∅ := by
      ext s
      rw [hS s, he]
      simp
    rw [he, hS0]
    simp
  · have hcomp : IsCompact J := isCompact_Icc.of_isClosed_subset hc hJ
    have hconn : IsConnected J := ⟨hne, ho.isPreconnected⟩
    have hI := eq_Icc_of_connected_compact hconn hcomp
    obtain ⟨a, b, hab⟩ : ∃ a b, J = Set.Icc a b := ⟨_, _, hI⟩
    rw [hab] at hJ hne hS ⊢
    have hle : a ≤ b := Set.nonempty_Icc.mp hne
    have ha := hJ (Set.left_mem_Icc.mpr hle)
    have hb := hJ (Set.right_mem_Icc.mpr hle)
    rw [Real.volume_Icc, ENNReal.toReal_ofReal (by linarith)]
    have := card_mid_Icc N (N * (a - y + 1 / 2)) (N * (b - y + 1 / 2)) (mul_nonneg hNr.le (by linarith [ha.1]))
      (by nlinarith [hb.2]) (mul_le_mul_of_nonneg_left (by linarith) hNr.le) S (by
        intro s
        rw [hS s, Set.mem_Icc]
        have e : (((s : ℕ) + 1 / 2 : ℝ) / N) * N = (s : ℕ) + 1 / 2 := div_mul_cancel₀ _ hNr.ne'
        have e1 : a ≤ y + (((s : ℕ) + 1 / 2 : ℝ) / N - 1 / 2) ↔ a - y + 1 / 2 ≤ ((s : ℕ) + 1 / 2 : ℝ) / N := by constructor <;> intro h <;> linarith
        have e2 : y + (((s : ℕ) + 1 / 2 : ℝ) / N - 1 / 2) ≤ b ↔ ((s : ℕ) + 1 / 2 : ℝ) / N ≤ b - y + 1 / 2 := by constructor <;> intro h <;> linarith
        rw [e1, e2, le_div_iff₀ hNr, div_le_iff₀ hNr, mul_comm _ (N : ℝ), mul_comm _ (N : ℝ)])
    have e : (N : ℝ) * (b - y + 1 / 2) - N * (a - y + 1 / 2) = N * (b - a) := by ring
    rw [e] at this
    exact this

variable {P : ℝ → ℝ → Prop}

/-- Lines through a closed convex figure. -/
theorem section_col (hc : IsClosed {p : ℝ × ℝ | P p.1 p.2}) (hv : Convex ℝ {p : ℝ × ℝ | P p.1 p.2}) (t y : ℝ) :
    IsClosed {u : ℝ | |u - y| ≤ 1 / 2 ∧ P t u} ∧ ({u : ℝ | |u - y| ≤ 1 / 2 ∧ P t u} : Set ℝ).OrdConnected := by
  constructor
  · have h1 : IsClosed {u : ℝ | |u - y| ≤ 1 / 2} := isClosed_le (by fun_prop) (by fun_prop)
    exact h1.inter (hc.preimage (show Continuous fun u : ℝ => (t, u) by fun_prop))
  · rw [Set.ordConnected_iff]
    intro a ha b hb hab u hu
    refine ⟨?_, ?_⟩
    · have h1 := abs_le.mp ha.1
      have h2 := abs_le.mp hb.1
      exact abs_le.mpr ⟨by linarith [hu.1], by linarith [hu.2]⟩
    · rcases eq_or_lt_of_le hab with e | hlt
      · have : u = a := le_antisymm (by rw [e]; exact hu.2) hu.1
        rw [this]; exact ha.2
      · have := hv (x := (t, a)) ha.2 (y := (t, b)) hb.2 (a := (b - u) / (b - a)) (b := (u - a) / (b - a))
          (div_nonneg (by linarith [hu.2]) (by linarith)) (div_nonneg (by linarith [hu.1]) (by linarith))
          (by rw [← add_div, div_eq_one_iff_eq (by linarith)]; ring)
        have hba : b - a ≠ 0 := by linarith
        have e : ((b - u) / (b - a)) • ((t, a) : ℝ × ℝ) + ((u - a) / (b - a)) • ((t, b) : ℝ × ℝ) = (t, u) := by
          ext
          · simp only [Prod.smul_mk, Prod.mk_add_mk, smul_eq_mul]
            field_simp
            ring
          · simp only [Prod.smul_mk, Prod.mk_add_mk, smul_eq_mul]
            field_simp
            ring
        rw [e] at this
        exact this

theorem section_row (hc : IsClosed {p : ℝ × ℝ | P p.1 p.2}) (hv : Convex ℝ {p : ℝ × ℝ | P p.1 p.2}) (u x : ℝ) :
    IsClosed {t : ℝ | |t - x| ≤ 1 / 2 ∧ P t u} ∧ ({t : ℝ | |t - x| ≤ 1 / 2 ∧ P t u} : Set ℝ).OrdConnected := by
  constructor
  · have h1 : IsClosed {t : ℝ | |t - x| ≤ 1 / 2} := isClosed_le (by fun_prop) (by fun_prop)
    exact h1.inter (hc.preimage (show Continuous fun t : ℝ => (t, u) by fun_prop))
  · rw [Set.ordConnected_iff]
    intro a ha b hb hab t ht
    refine ⟨?_, ?_⟩
    · have h1 := abs_le.mp ha.1
      have h2 := abs_le.mp hb.1
      exact abs_le.mpr ⟨by linarith [ht.1], by linarith [ht.2]⟩
    · rcases eq_or_lt_of_le hab with e | hlt
      · have : t = a := le_antisymm (by rw [e]; exact ht.2) ht.1
        rw [this]; exact ha.2
      · have := hv (x := (a, u)) ha.2 (y := (b, u)) hb.2 (a := (b - t) / (b - a)) (b := (t - a) / (b - a))
          (div_nonneg (by linarith [ht.2]) (by linarith)) (div_nonneg (by linarith [ht.1]) (by linarith))
          (by rw [← add_div, div_eq_one_iff_eq (by linarith)]; ring)
        have hba : b - a ≠ 0 := by linarith
        have e : ((b - t) / (b - a)) • ((a, u) : ℝ × ℝ) + ((t - a) / (b - a)) • ((b, u) : ℝ × ℝ) = (t, u) := by
          ext
          · simp only [Prod.smul_mk, Prod.mk_add_mk, smul_eq_mul]
            field_simp
            ring
          · simp only [Prod.smul_mk, Prod.mk_add_mk, smul_eq_mul]
            field_simp
            ring
        rw [e] at this
        exact this

theorem sub_pixel (y : ℝ) (Q : ℝ → Prop) : {u : ℝ | |u - y| ≤ 1 / 2 ∧ Q u} ⊆ Set.Icc (y - 1 / 2) (y + 1 / 2) := by
  rintro u ⟨h, -⟩
  rw [abs_le] at h
  exact ⟨by linarith, by linarith⟩

theorem vol_pixel_lt (y : ℝ) (Q : ℝ → Prop) : volume {u : ℝ | |u - y| ≤ 1 / 2 ∧ Q u} < ⊤ :=
  lt_of_le_of_lt (measure_mono (sub_pixel y Q)) (by rw [Real.volume_Icc]; exact ENNReal.ofReal_lt_top)

theorem mid_in (N : ℕ) (y : ℝ) (s : Fin N) : |y + (((s : ℕ) + 1 / 2 : ℝ) / N - 1 / 2) - y| ≤ 1 / 2 := by
  have h1 : ((s : ℕ) : ℝ) + 1 ≤ N := by exact_mod_cast s.2
  have hN : (0 : ℝ) < N := by linarith [Nat.cast_nonneg (α := ℝ) (s : ℕ)]
  have h2 : 0 ≤ (((s : ℕ) : ℝ) + 1 / 2) / N := by positivity
  have h3 : (((s : ℕ) : ℝ) + 1 / 2) / N ≤ 1 := by rw [div_le_one hN]; linarith
  rw [abs_le]
  constructor <;> linarith

/-- The strip mean of a closed convex figure is within `1/N` of its area in the pixel. -/
theorem strip_area (N : ℕ) (hN : 1 ≤ N) (hc : IsClosed {p : ℝ × ℝ | P p.1 p.2}) (hv : Convex ℝ {p : ℝ × ℝ | P p.1 p.2}) (x y : ℝ) :
    |stripMean N P x y - pixelArea P x y| ≤ 1 / N := by
  classical
  have hNr : (0 : ℝ) < N := by exact_mod_cast hN
  set m : Fin N → ℝ := fun s => y + (((s : ℕ) + 1 / 2 : ℝ) / N - 1 / 2) with hm
  set I : Set ℝ := Set.Icc (x - 1 / 2) (x + 1 / 2) with hI
  have volI : volume I = 1 := by rw [hI, Real.volume_Icc, show x + 1 / 2 - (x - 1 / 2) = (1 : ℝ) by ring, ENNReal.ofReal_one]
  set T : Set (ℝ × ℝ) := {p : ℝ × ℝ | |p.1 - x| ≤ 1 / 2 ∧ |p.2 - y| ≤ 1 / 2 ∧ P p.1 p.2} with hT
  have hTm : MeasurableSet T := by
    apply IsClosed.measurableSet
    have h1 : IsClosed {p : ℝ × ℝ | |p.1 - x| ≤ 1 / 2} := isClosed_le (by fun_prop) (by fun_prop)
    have h2 : IsClosed {p : ℝ × ℝ | |p.2 - y| ≤ 1 / 2} := isClosed_le (by fun_prop) (by fun_prop)
    exact h1.inter (h2.inter hc)
  have hvT : volume T = ∫⁻ t, volume (Prod.mk t ⁻¹' T) := by
    rw [Measure.volume_eq_prod, Measure.prod_apply hTm]
  set V : Fin N → Set ℝ := fun s => {t : ℝ | |t - x| ≤ 1 / 2 ∧ P t (m s)} with hV
  have hVm : ∀ s, MeasurableSet (V s) := fun s => (section_row hc hv (m s) x).1.measurableSet
  have hsum : ∑ s, volume (V s) = ∫⁻ t, ∑ s, (V s).indicator 1 t := by
    rw [lintegral_finsetSum _ (fun s _ => (measurable_one.indicator (hVm s)))]
    exact Finset.sum_congr rfl fun s _ => (lintegral_indicator_one (hVm s)).symm
  have hone : ∫⁻ t, I.indicator 1 t = (1 : ENNReal) := by
    rw [lintegral_indicator_one measurableSet_Icc, volI]
  have hIm : Measurable (I.indicator (1 : ℝ → ENNReal)) := measurable_one.indicator measurableSet_Icc
  have hfm : Measurable fun t => ∑ s, (V s).indicator (1 : ℝ → ENNReal) t := by
    apply Finset.measurable_fun_sum
    exact fun s _ => measurable_one.indicator (hVm s)
  -- one column at a time
  have hcol : ∀ t : ℝ, (∑ s, (V s).indicator (1 : ℝ → ENNReal) t ≤ N * volume (Prod.mk t ⁻¹' T) + I.indicator 1 t) ∧
      ((N : ENNReal) * volume (Prod.mk t ⁻¹' T) ≤ ∑ s, (V s).indicator (1 : ℝ → ENNReal) t + I.indicator 1 t) := by
    intro t
    by_cases ht : |t - x| ≤ 1 / 2
    · have htI : t ∈ I := by rw [abs_le] at ht; exact ⟨by linarith, by linarith⟩
      have hpre : Prod.mk t ⁻¹' T = {u : ℝ | |u - y| ≤ 1 / 2 ∧ P t u} := by
        ext u
        simp only [hT, Set.mem_preimage, Set.mem_ofPred_eq, ht, true_and]
      have hcnt := count_mid N hN y _ (section_col hc hv t y).1 (section_col hc hv t y).2 (sub_pixel y _)
        (Finset.univ.filter fun s : Fin N => P t (m s)) (by
          intro s
          rw [Finset.mem_filter]
          simp only [Finset.mem_univ, true_and, Set.mem_ofPred_eq]
          exact ⟨fun h => ⟨mid_in N y s, h⟩, fun h => h.2⟩)
      have hind : ∑ s, (V s).indicator (1 : ℝ → ENNReal) t = ((Finset.univ.filter fun s : Fin N => P t (m s)).card : ENNReal) := by
        rw [Finset.card_filter, Nat.cast_sum]
        refine Finset.sum_congr rfl fun s _ => ?_
        simp only [Set.indicator, hV, Set.mem_ofPred_eq, ht, true_and, Pi.one_apply]
        split_ifs <;> simp
      have hlt := vol_pixel_lt y (P t)
      rw [hpre, hind, Set.indicator_of_mem htI, Pi.one_apply]
      rw [← ENNReal.ofReal_toReal hlt.ne, ← ENNReal.ofReal_natCast, ← ENNReal.ofReal_natCast N, ← ENNReal.ofReal_one,
        ← ENNReal.ofReal_mul hNr.le, ← ENNReal.ofReal_add (mul_nonneg hNr.le ENNReal.toReal_nonneg) zero_le_one,
        ← ENNReal.ofReal_add (Nat.cast_nonneg _) zero_le_one]
      exact ⟨ENNReal.ofReal_le_ofReal hcnt.1, ENNReal.ofReal_le_ofReal hcnt.2⟩
    · have htI : t ∉ I := fun h => ht (abs_le.mpr ⟨by linarith [h.1], by linarith [h.2]⟩)
      have hpre : Prod.mk t ⁻¹' T = ∅ := by
        ext u
        simp only [hT, Set.mem_preimage, Set.mem_ofPred_eq, ht, false_and, Set.mem_empty_iff_false]
      have hind : ∑ s, (V s).indicator (1 : ℝ → ENNReal) t = 0 := by
        refine Finset.sum_eq_zero fun s _ => ?_
        rw [Set.indicator_of_notMem]
        exact fun h => ht h.1
      rw [hpre, hind]
      simp
  have hmeas : Measurable fun t => volume (Prod.mk t ⁻¹' T) := measurable_measure_prodMk_left hTm
  have up : ∑ s, volume (V s) ≤ N * volume T + 1 := by
    rw [hsum, hvT, ← lintegral_const_mul _ hmeas, ← hone, ← lintegral_add_right _ hIm]
    exact lintegral_mono fun t => (hcol t).1
  have dn : (N : ENNReal) * volume T ≤ ∑ s, volume (V s) + 1 := by
    rw [hsum, hvT, ← lintegral_const_mul _ hmeas, ← hone, ← lintegral_add_right _ hIm]
    exact lintegral_mono fun t => (hcol t).2
  have hfin : ∀ s, volume (V s) ≠ ⊤ := fun s => (vol_pixel_lt x _).ne
  have hTfin : volume T ≠ ⊤ := by
    intro htop
    rw [htop, ENNReal.mul_top (by exact_mod_cast (by omega : N ≠ 0))] at dn
    have : ∑ s, volume (V s) + 1 < ⊤ := ENNReal.add_lt_top.mpr ⟨ENNReal.sum_lt_top.mpr fun s _ => (hfin s).lt_top, ENNReal.one_lt_top⟩
    exact absurd dn (not_le.mpr this)
  have hSfin : ∑ s, volume (V s) ≠ ⊤ := (ENNReal.sum_lt_top.mpr fun s _ => (hfin s).lt_top).ne
  have up' := ENNReal.toReal_mono (ENNReal.add_ne_top.mpr ⟨ENNReal.mul_ne_top (ENNReal.natCast_ne_top N) hTfin, ENNReal.one_ne_top⟩) up
  have dn' := ENNReal.toReal_mono (ENNReal.add_ne_top.mpr ⟨hSfin, ENNReal.one_ne_top⟩) dn
  rw [ENNReal.toReal_add (ENNReal.mul_ne_top (ENNReal.natCast_ne_top N) hTfin) ENNReal.one_ne_top, ENNReal.toReal_mul, ENNReal.toReal_natCast,
    ENNReal.toReal_sum fun s _ => hfin s, ENNReal.toReal_one] at up'
  rw [ENNReal.toReal_add hSfin ENNReal.one_ne_top, ENNReal.toReal_mul, ENNReal.toReal_natCast,
    ENNReal.toReal_sum fun s _ => hfin s, ENNReal.toReal_one] at dn'
  have e : stripMean N P x y * N = ∑ s, (volume (V s)).toReal := by
    unfold stripMean
    rw [div_mul_cancel₀ _ hNr.ne']
    rfl
  have e2 : pixelArea P x y = (volume T).toReal := rfl
  rw [e2, abs_le]
  constructor
  · rw [neg_le_sub_iff_le_add, ← mul_le_mul_iff_of_pos_left hNr, mul_add, mul_one_div_cancel hNr.ne', mul_comm _ (stripMean N P x y), e]
    exact dn'
  · rw [sub_le_iff_le_add, ← mul_le_mul_iff_of_pos_left hNr, mul_add, mul_one_div_cancel hNr.ne', mul_comm _ (stripMean N P x y), e, add_comm]
    exact up'

/-- The fraction of sub-pixel centres in a closed convex figure is within `1/N` of its strip mean. -/
theorem fraction_strip (N : ℕ) (hN : 1 ≤ N) (hc : IsClosed {p : ℝ × ℝ | P p.1 p.2}) (hv : Convex ℝ {p : ℝ × ℝ | P p.1 p.2}) (x y : ℝ) :
    |areaFraction N P x y - stripMean N P x y| ≤ 1 / N := by
  classical
  have hNr : (0 : ℝ) < N := by exact_mod_cast hN
  set m : Fin N → ℝ := fun s => y + (((s : ℕ) + 1 / 2 : ℝ) / N - 1 / 2) with hm
  have hrow : ∀ s : Fin N, |((Finset.univ.filter fun r : Fin N => P (x + (((r : ℕ) + 1 / 2 : ℝ) / N - 1 / 2)) (m s)).card : ℝ) - N * lineCover P x (m s)| ≤ 1 := by
    intro s
    have hcnt := count_mid N hN x _ (section_row hc hv (m s) x).1 (section_row hc hv (m s) x).2 (sub_pixel x _)
      (Finset.univ.filter fun r : Fin N => P (x + (((r : ℕ) + 1 / 2 : ℝ) / N - 1 / 2)) (m s)) (by
        intro r
        rw [Finset.mem_filter]
        simp only [Finset.mem_univ, true_and, Set.mem_ofPred_eq]
        exact ⟨fun h => ⟨mid_in N x r, h⟩, fun h => h.2⟩)
    rw [abs_le]
    unfold lineCover
    constructor <;> linarith [hcnt.1, hcnt.2]
  have e : areaFraction N P x y - stripMean N P x y =
      (∑ s : Fin N, (((Finset.univ.filter fun r : Fin N => P (x + (((r : ℕ) + 1 / 2 : ℝ) / N - 1 / 2)) (m s)).card : ℝ) - N * lineCover P x (m s))) / (N : ℝ) ^ 2 := by
    unfold areaFraction stripMean
    rw [Finset.sum_sub_distrib, sub_div, ← Finset.mul_sum, pow_two, mul_div_mul_left _ _ hNr.ne']
    congr 2
    rw [Finset.card_filter, ← Finset.univ_product_univ, Finset.sum_product, Nat.cast_sum]
    refine Finset.sum_congr rfl fun s _ => ?_
    rw [Finset.card_filter]
  rw [e, abs_div, abs_of_pos (by positivity : (0 : ℝ) < (N : ℝ) ^ 2), div_le_div_iff₀ (by positivity) hNr]
  have := (Finset.abs_sum_le_sum_abs (fun s : Fin N =>
    ((Finset.univ.filter fun r : Fin N => P (x + (((r : ℕ) + 1 / 2 : ℝ) / N - 1 / 2)) (m s)).card : ℝ) - N * lineCover P x (m s)) Finset.univ).trans
    (Finset.sum_le_sum fun s _ => hrow s)
  rw [Finset.sum_const, Finset.card_univ, Fintype.card_fin, nsmul_eq_mul, mul_one] at this
  nlinarith

/-- The fraction of sub-pixel centres in a closed convex figure is within `2/N` of its area in the pixel. -/
theorem fraction_area (N : ℕ) (hN : 1 ≤ N) (hc : IsClosed {p : ℝ × ℝ | P p.1 p.2}) (hv : Convex ℝ {p : ℝ × ℝ | P p.1 p.2}) (x y : ℝ) :
    |areaFraction N P x y - pixelArea P x y| ≤ 2 / N := by
  have h1 := fraction_strip N hN hc hv x y
  have h2 := strip_area N hN hc hv x y
  have e : (2 : ℝ) / N = 1 / N + 1 / N := by ring
  rw [e]
  calc |areaFraction N P x y - pixelArea P x y| = |(areaFraction N P x y - stripMean N P x y) + (stripMean N P x y - pixelArea P x y)| := by
        congr 1; ring
    _ ≤ _ := (abs_add_le _ _).trans (add_le_add h1 h2)

end Coralign
