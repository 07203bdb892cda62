import Verif.Model.PupilSearch
import Mathlib.Tactic.FieldSimp
import Mathlib.Tactic.Positivity
import Mathlib.Data.List.Sort
import Mathlib.Data.List.GetD
import Mathlib.Algebra.BigOperators.Fin

/-!
# Property C53: the normalisation factor
-/

namespace Coralign.Props

open Coralign Finset

variable {K : Type} [Field K] [LinearOrder K] [IsStrictOrderedRing K] [FloorRing K]

/-! ### Specification -/

/-- The number of selected pixels whose value satisfies `P`. -/
def selectedCount {n m : ℕ} (f mask : Fin n → Fin m → K) (P : K → Prop) [DecidablePred P] : ℕ :=
  ((univ : Finset (Fin n × Fin m)).filter fun q => mask q.1 q.2 = 1 ∧ P (f q.1 q.2)).card

/-- Admissible arguments: a 0/1 mask that selects something and a percentile. -/
def NormArgs {n m : ℕ} (mask : Fin n → Fin m → K) (p : K) : Prop :=
  (∀ i j, mask i j = 0 ∨ mask i j = 1) ∧ (∃ i j, mask i j = 1) ∧ 0 ≤ p ∧ p ≤ 100

/-! ### The list of selected values -/

/-- The values that the source passes to `np.percentile`. -/
def selectedValues {n m : ℕ} (f mask : Fin n → Fin m → K) : List K :=
  (List.finRange n).flatMap fun i => ((List.finRange m).filter fun j => mask i j = 1).map fun j => f i j

theorem mem_selectedValues {n m : ℕ} (f mask : Fin n → Fin m → K) (v : K) :
    v ∈ selectedValues f mask ↔ ∃ i j, mask i j = 1 ∧ f i j = v := by
  unfold selectedValues
  simp [List.mem_flatMap]

theorem sum_finRange {n : ℕ} (g : Fin n → ℕ) : ((List.finRange n).map g).sum = ∑ i, g i := by
  rw [← List.ofFn_eq_map, List.sum_ofFn]

theorem countP_finRange {m : ℕ} (P : Fin m → Bool) : (List.finRange m).countP P = ∑ j, if P j then 1 else 0 := by
  rw [← sum_finRange]
  induction (List.finRange m) with
  | nil => rfl
  | cons a l ih => simp only [List.countP_cons, List.map_cons, List.sum_cons, ih]; exact add_comm _ _

theorem count_selected {n m : ℕ} (f mask : Fin n → Fin m → K) (P : K → Prop) [DecidablePred P] :
    (selectedValues f mask).countP (fun v => decide (P v)) = selectedCount f mask P := by
  unfold selectedValues selectedCount
  rw [List.countP_flatMap, Finset.card_filter, Fintype.sum_prod_type, sum_finRange]
  refine Finset.sum_congr rfl fun i _ => ?_
  simp only [Function.comp, List.countP_map, List.countP_filter]
  rw [countP_finRange]
  refine Finset.sum_congr rfl fun j _ => ?_
  simp only [Function.comp, Bool.and_eq_true, decide_eq_true_eq]
  by_cases h1 : mask i j = 1 <;> by_cases h2 : P (f i j) <;> simp [h1, h2]

theorem length_selected {n m : ℕ} (f mask : Fin n → Fin m → K) : (selectedValues f mask).length = selectedCount f mask fun _ => True := by
  rw [← count_selected]
  simp

theorem norm_eq {n m : ℕ} (f mask : Fin n → Fin m → K) (p : K) (h : NormArgs mask p) :
    computeNormFactor ⟨n, m, f⟩ ⟨n, m, mask⟩ p = .ok (percentile (selectedValues f mask) p) := by
  obtain ⟨h1, ⟨i, j, h2⟩, h3, h4⟩ := h
  unfold computeNormFactor
  rw [if_neg (by simp), if_neg (by
    rintro ⟨a, b, c, d⟩
    rcases h1 a b with e | e
    · exact c e
    · exact d e), if_neg (by push Not; exact ⟨h3, h4⟩), if_neg (by
      intro hc
      have := hc i j
      rw [show (⟨n, m, mask⟩ : Arr2 K).val i j = mask i j from rfl, h2] at this
      exact one_ne_zero this)]
  simp only
  congr 2
  unfold selectedValues
  congr 1
  funext a
  congr 1
  congr 1
  funext b
  have := Arr2.zext_val (⟨n, m, mask⟩ : Arr2 K) a b
  rw [show ((⟨n, m, mask⟩ : Arr2 K).zext ((a : ℕ) : ℤ) ((b : ℕ) : ℤ)) = mask a b from this]

/-! ### Percentiles of a list -/

/-- A percentile lies between two neighbours in sorted order. -/
theorem percentile_between (l : List K) (hl : l ≠ []) (p : K) (h0 : 0 ≤ p) (h1 : p ≤ 100) :
    ∃ k : ℕ, ∃ hk : k < (l.mergeSort fun a b => decide (a ≤ b)).length, ((k : K) ≤ ((l.length : K) - 1) * p / 100 ∧
      ((l.length : K) - 1) * p / 100 < k + 1) ∧
      ((((l.length : K) - 1) * p / 100 = k ∧ percentile l p = (l.mergeSort fun a b => decide (a ≤ b))[k]) ∨
       ∃ hk' : k + 1 < (l.mergeSort fun a b => decide (a ≤ b)).length,
         percentile l p = (l.mergeSort fun a b => decide (a ≤ b))[k] + (((l.length : K) - 1) * p / 100 - k) *
            ((l.mergeSort fun a b => decide (a ≤ b))[k + 1] - (l.mergeSort fun a b => decide (a ≤ b))[k])) := by
  have hlen : 1 ≤ l.length := List.length_pos_iff.mpr hl
  have hlen' : (1 : K) ≤ l.length := by exact_mod_cast hlen
  have hsl : (l.mergeSort fun a b => decide (a ≤ b)).length = l.length := List.length_mergeSort _
  unfold percentile
  simp only
  generalize (l.mergeSort fun a b => decide (a ≤ b)) = s at hsl
  generalize hH : ((l.length : K) - 1) * p / 100 = h
  have hh0 : 0 ≤ h := by rw [← hH]; have := mul_nonneg (sub_nonneg.mpr hlen') h0; positivity
  have hh1 : h ≤ (l.length : K) - 1 := by
    rw [← hH, div_le_iff₀ (by norm_num)]
    exact mul_le_mul_of_nonneg_left h1 (sub_nonneg.mpr hlen')
  have hf0 : 0 ≤ ⌊h⌋ := Int.floor_nonneg.mpr hh0
  have hkz : ((⌊h⌋.toNat : ℕ) : ℤ) = ⌊h⌋ := Int.toNat_of_nonneg hf0
  have hkK : ((⌊h⌋.toNat : ℕ) : K) = (⌊h⌋ : K) := by exact_mod_cast congrArg (fun z : ℤ => (z : K)) hkz
  have hle : ((⌊h⌋.toNat : ℕ) : K) ≤ h := by rw [hkK]; exact Int.floor_le h
  have hlt : h < ((⌊h⌋.toNat : ℕ) : K) + 1 := by rw [hkK]; exact Int.lt_floor_add_one h
  generalize ⌊h⌋.toNat = k at hle hlt
  have hk : k < l.length := by
    have : (k : K) < l.length := by linarith
    exact_mod_cast this
  refine ⟨k, by omega, ⟨hle, hlt⟩, ?_⟩
  rw [List.getD_eq_getElem _ _ (by omega)]
  by_cases hk1 : k + 1 < l.length
  · right
    refine ⟨by omega, ?_⟩
    rw [List.getD_eq_getElem _ _ (by omega)]
  · left
    have hkeq : (k : K) + 1 = l.length := by exact_mod_cast (show k + 1 = l.length by omega)
    have he : h = k := by linarith
    refine ⟨he, ?_⟩
    rw [he, sub_self, zero_mul, add_zero]

/-- The same, for a sorted list of the values. -/
theorem percentile_sorted (l : List K) (hl : l ≠ []) : ∃ s : List K, s.Perm l ∧
    (∀ i j : ℕ, (hij : i ≤ j) → (hj : j < s.length) → s[i]'(by omega) ≤ s[j]) ∧ ∀ p, 0 ≤ p → p ≤ 100 →
    ∃ k : ℕ, ∃ hk : k < s.length, ((k : K) ≤ ((l.length : K) - 1) * p / 100 ∧ ((l.length : K) - 1) * p / 100 < k + 1) ∧
      ((((l.length : K) - 1) * p / 100 = k ∧ percentile l p = s[k]) ∨
       ∃ hk' : k + 1 < s.length, percentile l p = s[k] + (((l.length : K) - 1) * p / 100 - k) * (s[k + 1] - s[k])) := by
  refine ⟨_, List.mergeSort_perm l (fun a b => decide (a ≤ b)), ?_, fun p h0 h1 => percentile_between l hl p h0 h1⟩
  have hs := List.pairwise_mergeSort (le := fun a b : K => decide (a ≤ b)) (fun a b c h1 h2 => by
    simp only [decide_eq_true_eq] at h1 h2 ⊢; exact h1.trans h2) (fun a b => by simp; exact le_total a b) l
  intro i j hij hj
  rcases Nat.eq_or_lt_of_le hij with h | h
  · subst h; exact le_rfl
  · have := (List.pairwise_iff_getElem.mp hs) i j (by omega) hj h
    simpa using this

theorem count_prefix (l : List K) (P : K → Bool) (k : ℕ) (hk : k ≤ l.length) (h : ∀ i, (hi : i < k) → P (l[i]'(by omega)) = true) :
    k ≤ l.countP P := by
  have h1 : (l.take k).countP P = k := by
    have : (l.take k).countP P = (l.take k).length := by
      rw [List.countP_eq_length]
      intro a ha
      obtain ⟨i, hi, rfl⟩ := List.mem_iff_getElem.mp ha
      rw [List.getElem_take]
      rw [List.length_take] at hi
      exact h i (by omega)
    rw [this, List.length_take]; omega
  calc k = (l.take k).countP P := h1.symm
    _ ≤ l.countP P := (List.take_sublist k l).countP_le

theorem count_suffix (l : List K) (P : K → Bool) (k : ℕ) (hk : k ≤ l.length) (h : ∀ i, k ≤ i → (hi : i < l.length) → P (l[i]) = true) :
    l.length - k ≤ l.countP P := by
  have h1 : (l.drop k).countP P = l.length - k := by
    have : (l.drop k).countP P = (l.drop k).length := by
      rw [List.countP_eq_length]
      intro a ha
      obtain ⟨i, hi, rfl⟩ := List.mem_iff_getElem.mp ha
      rw [List.getElem_drop]
      rw [List.length_drop] at hi
      exact h (k + i) (by omega) (by omega)
    rw [this, List.length_drop]
  calc l.length - k = (l.drop k).countP P := h1.symm
    _ ≤ l.countP P := (List.drop_sublist k l).countP_le

theorem percentile_rank (l : List K) (hl : l ≠ []) (p : K) (h0 : 0 ≤ p) (h1 : p ≤ 100) :
    ((l.length : K) - 1) * p / 100 < l.countP (fun v => decide (v ≤ percentile l p)) ∧
    ((l.length : K) - 1) * (100 - p) / 100 < l.countP (fun v => decide (percentile l p ≤ v)) := by
  obtain ⟨s, hperm, hmon, hall⟩ := percentile_sorted l hl
  obtain ⟨k, hk, ⟨hle, hlt⟩, hcase⟩ := hall p h0 h1
  rw [← hperm.countP_eq, ← hperm.countP_eq]
  have hsl : s.length = l.length := hperm.length_eq
  have hlow : s[k] ≤ percentile l p := by
    rcases hcase with ⟨-, e⟩ | ⟨hk', e⟩
    · exact e.ge
    · rw [e]
      have := hmon k (k + 1) (by omega) hk'
      have := mul_nonneg (sub_nonneg.mpr hle) (sub_nonneg.mpr this)
      linarith
  have eq100 : ((l.length : K) - 1) * (100 - p) / 100 = (l.length : K) - 1 - ((l.length : K) - 1) * p / 100 := by
    field_simp
  constructor
  · have := count_prefix s (fun v => decide (v ≤ percentile l p)) (k + 1) (by omega) (fun i hi => by
      simp only [decide_eq_true_eq]
      exact (hmon i k (by omega) hk).trans hlow)
    have h2 : ((k + 1 : ℕ) : K) ≤ (s.countP (fun v => decide (v ≤ percentile l p)) : K) := by exact_mod_cast this
    push_cast at h2
    linarith
  · rw [eq100]
    rcases hcase with ⟨e1, e⟩ | ⟨hk', e⟩
    · have := count_suffix s (fun v => decide (percentile l p ≤ v)) k (by omega) (fun i hi hi' => by
        simp only [decide_eq_true_eq]
        rw [e]
        exact hmon k i hi hi')
      have h2 : s.length ≤ s.countP (fun v => decide (percentile l p ≤ v)) + k := by omega
      have h3 : (l.length : K) ≤ (s.countP (fun v => decide (percentile l p ≤ v)) : K) + k := by rw [← hsl]; exact_mod_cast h2
      linarith
    · by_cases hz : ((l.length : K) - 1) * p / 100 = k
      · have e' : percentile l p = s[k] := by rw [e, hz, sub_self, zero_mul, add_zero]
        have := count_suffix s (fun v => decide (percentile l p ≤ v)) k (by omega) (fun i hi hi' => by
          simp only [decide_eq_true_eq]
          rw [e']
          exact hmon k i hi hi')
        have h2 : s.length ≤ s.countP (fun v => decide (percentile l p ≤ v)) + k := by omega
        have h3 : (l.length : K) ≤ (s.countP (fun v => decide (percentile l p ≤ v)) : K) + k := by rw [← hsl]; exact_mod_cast h2
        linarith
      · have hgt : (k : K) < ((l.length : K) - 1) * p / 100 := lt_of_le_of_ne hle (Ne.symm hz)
        have hup : percentile l p ≤ s[k + 1] := by
          rw [e]
          have h5 := hmon k (k + 1) (by omega) hk'
          have := mul_nonneg (sub_nonneg.mpr hlt.le) (sub_nonneg.mpr h5)
          linarith
        have := count_suffix s (fun v => decide (percentile l p ≤ v)) (k + 1) (by omega) (fun i hi hi' => by
          simp only [decide_eq_true_eq]
          exact hup.trans (hmon (k + 1) i hi hi'))
        have h2 : s.length ≤ s.countP (fun v => decide (percentile l p ≤ v)) + (k + 1) := by omega
        have h3 : (l.length : K) ≤ (s.countP (fun v => decide (percentile l p ≤ v)) : K) + (k + 1) := by rw [← hsl]; exact_mod_cast h2
        linarith

theorem percentile_mono (l : List K) (hl : l ≠ []) (p q : K) (h0 : 0 ≤ p) (hpq : p ≤ q) (h1 : q ≤ 100) :
    percentile l p ≤ percentile l q := by
  obtain ⟨s, hperm, hmon, hall⟩ := percentile_sorted l hl
  obtain ⟨k, hk, ⟨hle, hlt⟩, hcase⟩ := hall p h0 (hpq.trans h1)
  obtain ⟨k', hk', ⟨hle', hlt'⟩, hcase'⟩ := hall q (h0.trans hpq) h1
  have hlen : (1 : K) ≤ l.length := by exact_mod_cast List.length_pos_iff.mpr hl
  have hh : ((l.length : K) - 1) * p / 100 ≤ ((l.length : K) - 1) * q / 100 :=
    div_le_div_of_nonneg_right (mul_le_mul_of_nonneg_left hpq (sub_nonneg.mpr hlen)) (by norm_num)
  generalize ((l.length : K) - 1) * p / 100 = hp at *
  generalize ((l.length : K) - 1) * q / 100 = hq at *
  have hkk : k ≤ k' := by
    have : (k : K) < k' + 1 := by linarith
    have : k < k' + 1 := by exact_mod_cast this
    omega
  have low : s[k'] ≤ percentile l q := by
    rcases hcase' with ⟨-, e⟩ | ⟨hk1, e⟩
    · exact e.ge
    · rw [e]
      have := mul_nonneg (sub_nonneg.mpr hle') (sub_nonneg.mpr (hmon k' (k' + 1) (by omega) hk1))
      linarith
  rcases hcase with ⟨-, e⟩ | ⟨hk1, e⟩
  · rw [e]
    exact (hmon k k' hkk hk').trans low
  · by_cases hlt2 : k + 1 ≤ k'
    · have up : percentile l p ≤ s[k + 1] := by
        rw [e]
        have := mul_nonneg (sub_nonneg.mpr hlt.le) (sub_nonneg.mpr (hmon k (k + 1) (by omega) hk1))
        linarith
      exact up.trans ((hmon (k + 1) k' hlt2 hk').trans low)
    · obtain rfl : k = k' := by omega
      rcases hcase' with ⟨e1, -⟩ | ⟨_, e'⟩
      · have : hp = k := by linarith
        rw [e, this, sub_self, zero_mul, add_zero]
        exact low
      · rw [e, e']
        have := mul_le_mul_of_nonneg_right (sub_le_sub_right hh (k : K)) (sub_nonneg.mpr (hmon k (k + 1) (by omega) hk1))
        linarith

theorem percentile_scale (l : List K) (c p : K) (hc : 0 < c) : percentile (l.map fun v => c * v) p = c * percentile l p := by
  unfold percentile
  have hm : (l.map fun v => c * v).mergeSort (fun a b => decide (a ≤ b)) = (l.mergeSort fun a b => decide (a ≤ b)).map fun v => c * v := by
    symm
    refine List.map_mergeSort fun a _ b _ => ?_
    simp only [decide_eq_decide]
    exact (mul_le_mul_iff_right₀ hc).symm
  have gd : ∀ (s : List K) (k : ℕ) (d : K), (s.map fun v => c * v).getD k (c * d) = c * s.getD k d := by
    intro s k d
    simp only [List.getD_eq_getElem?_getD, List.getElem?_map]
    cases s[k]? <;> simp
  simp only [hm, List.length_map]
  generalize ⌊((l.length : K) - 1) * p / 100⌋.toNat = k
  have e0 := gd (l.mergeSort fun a b => decide (a ≤ b)) k 0
  rw [mul_zero] at e0
  rw [e0, gd]
  ring

/-! ### The property -/

/-- **C53.** The factor is a percentile of the selected pixels: of `N` selected pixels, more than `(N - 1) p / 100` are at most the factor and
more than `(N - 1) (100 - p) / 100` are at least the factor. -/
theorem C53_percentile {n m : ℕ} (f mask : Fin n → Fin m → K) (p : K) (h : NormArgs mask p) :
    ∃ r, computeNormFactor ⟨n, m, f⟩ ⟨n, m, mask⟩ p = .ok r ∧
      (((selectedCount f mask fun _ => True) : K) - 1) * p / 100 < selectedCount f mask (fun v => v ≤ r) ∧
      (((selectedCount f mask fun _ => True) : K) - 1) * (100 - p) / 100 < selectedCount f mask (fun v => r ≤ v) := by
  refine ⟨_, norm_eq f mask p h, ?_⟩
  obtain ⟨-, ⟨i, j, hij⟩, h0, h1⟩ := h
  have hne : selectedValues f mask ≠ [] := List.ne_nil_of_mem ((mem_selectedValues f mask (f i j)).mpr ⟨i, j, hij, rfl⟩)
  have := percentile_rank (selectedValues f mask) hne p h0 h1
  rw [length_selected, count_selected, count_selected] at this
  exact this

/-- **C53.** The factor lies between the smallest and the largest selected pixel. -/
theorem C53_range {n m : ℕ} (f mask : Fin n → Fin m → K) (p : K) (h : NormArgs mask p) :
    ∃ r, computeNormFactor ⟨n, m, f⟩ ⟨n, m, mask⟩ p = .ok r ∧ (∃ i j, mask i j = 1 ∧ f i j ≤ r) ∧ ∃ i j, mask i j = 1 ∧ r ≤ f i j := by
  obtain ⟨r, hr, h1, h2⟩ := C53_percentile f mask p h
  have hN : 1 ≤ selectedCount f mask fun _ => True := by
    obtain ⟨-, ⟨i, j, hij⟩, -, -⟩ := h
    exact Finset.card_pos.mpr ⟨(i, j), by simp [hij]⟩
  have hN' : (1 : K) ≤ (selectedCount f mask fun _ => True : ℕ) := by exact_mod_cast hN
  have pos : ∀ (P : K → Prop) [DecidablePred P] (a : K), 0 ≤ a → a < (selectedCount f mask P : ℕ) → ∃ i j, mask i j = 1 ∧ P (f i j) := by
    intro P _ a ha hlt
    have : 0 < selectedCount f mask P := by
      have : (0 : K) < (selectedCount f mask P : ℕ) := lt_of_le_of_lt ha hlt
      exact_mod_cast this
    obtain ⟨q, hq⟩ := Finset.card_pos.mp this
    exact ⟨q.1, q.2, (Finset.mem_filter.mp hq).2⟩
  refine ⟨r, hr, pos _ _ ?_ h1, pos _ _ ?_ h2⟩
  · exact div_nonneg (mul_nonneg (sub_nonneg.mpr hN') h.2.2.1) (by norm_num)
  · exact div_nonneg (mul_nonneg (sub_nonneg.mpr hN') (sub_nonneg.mpr h.2.2.2)) (by norm_num)

/-- **C53.** The 0th percentile is the smallest and the 100th the largest selected pixel. -/
theorem C53_extremes {n m : ℕ} (f mask : Fin n → Fin m → K) (h : NormArgs mask 0) :
    (∃ r, computeNormFactor ⟨n, m, f⟩ ⟨n, m, mask⟩ 0 = .ok r ∧ ∀ i j, mask i j = 1 → r ≤ f i j) ∧
    ∃ r, computeNormFactor ⟨n, m, f⟩ ⟨n, m, mask⟩ 100 = .ok r ∧ ∀ i j, mask i j = 1 → f i j ≤ r := by
  have full : ∀ (P : K → Prop) [DecidablePred P], (((selectedCount f mask fun _ => True) : ℕ) : K) - 1 < (selectedCount f mask P : ℕ) →
      ∀ i j, mask i j = 1 → P (f i j) := by
    intro P _ hlt i j hij
    by_contra hP
    have : selectedCount f mask P < selectedCount f mask fun _ => True := by
      unfold selectedCount
      refine Finset.card_lt_card ⟨?_, ?_⟩
      · intro q hq
        rw [Finset.mem_filter] at hq ⊢
        exact ⟨hq.1, hq.2.1, trivial⟩
      · intro hsub
        have := hsub (Finset.mem_filter.mpr ⟨Finset.mem_univ (i, j), hij, trivial⟩)
        exact hP (Finset.mem_filter.mp this).2.2
    have h2 : ((selectedCount f mask P + 1 : ℕ) : K) ≤ (selectedCount f mask (fun _ => True) : ℕ) := by exact_mod_cast this
    push_cast at h2
    linarith
  obtain ⟨r, hr, -, h2⟩ := C53_percentile f mask 0 h
  obtain ⟨r', hr', h1', -⟩ := C53_percentile f mask 100 ⟨h.1, h.2.1, by norm_num, le_rfl⟩
  refine ⟨⟨r, hr, full (fun v => r ≤ v) ?_⟩, ⟨r', hr', full (fun v => v ≤ r') ?_⟩⟩
  · rwa [sub_zero, mul_div_assoc, div_self (by norm_num), mul_one] at h2
  · rwa [mul_div_assoc, div_self (by norm_num), mul_one] at h1'

/-- **C53.** The factor does not decrease when the percentile grows. -/
theorem C53_monotone {n m : ℕ} (f mask : Fin n → Fin m → K) (p q : K) (hp : NormArgs mask p) (hq : NormArgs mask q) (hpq : p ≤ q) :
    ∃ r s, computeNormFactor ⟨n, m, f⟩ ⟨n, m, mask⟩ p = .ok r ∧ computeNormFactor ⟨n, m, f⟩ ⟨n, m, mask⟩ q = .ok s ∧ r ≤ s := by
  refine ⟨_, _, norm_eq f mask p hp, norm_eq f mask q hq, ?_⟩
  obtain ⟨-, ⟨i, j, hij⟩, h0, h1⟩ := hp
  exact percentile_mono _ (List.ne_nil_of_mem ((mem_selectedValues f mask (f i j)).mpr ⟨i, j, hij, rfl⟩)) p q h0 hpq hq.2.2.2

/-- **C53.** The factor scales with the image, so normalised images do not depend on the exposure. -/
theorem C53_scale {n m : ℕ} (f mask : Fin n → Fin m → K) (p c : K) (hc : 0 < c) (h : NormArgs mask p) :
    ∃ r, computeNormFactor ⟨n, m, f⟩ ⟨n, m, mask⟩ p = .ok r ∧
      computeNormFactor ⟨n, m, fun i j => c * f i j⟩ ⟨n, m, mask⟩ p = .ok (c * r) := by
  refine ⟨_, norm_eq f mask p h, ?_⟩
  rw [norm_eq _ mask p h, ← percentile_scale _ _ _ hc]
  congr 2
  unfold selectedValues
  rw [List.map_flatMap]
  simp only [List.map_map, Function.comp_def]

/-- **C53.** All other arguments are refused with TypeError. -/
theorem C53_rejects (img mask : Arr2 K) (p : K) :
    ((∃ r, computeNormFactor img mask p = .ok r) ↔ (img.nr = mask.nr ∧ img.nc = mask.nc) ∧ NormArgs mask.val p) ∧
    (¬ ((img.nr = mask.nr ∧ img.nc = mask.nc) ∧ NormArgs mask.val p) → computeNormFactor img mask p = .error .typeError) := by
  by_cases hs : img.nr = mask.nr ∧ img.nc = mask.nc
  · obtain ⟨n, m, f⟩ := img
    obtain ⟨n', m', g⟩ := mask
    obtain ⟨e1, e2⟩ := hs
    simp only at e1 e2
    subst e1 e2
    by_cases hN : NormArgs g p
    · exact ⟨⟨fun _ => ⟨⟨rfl, rfl⟩, hN⟩, fun _ => ⟨_, norm_eq f g p hN⟩⟩, fun h => absurd ⟨⟨rfl, rfl⟩, hN⟩ h⟩
    · have herr : computeNormFactor ⟨n, m, f⟩ ⟨n, m, g⟩ p = .error .typeError := by
        unfold computeNormFactor
        rw [if_neg (by simp)]
        by_cases c1 : ∃ i j, (⟨n, m, g⟩ : Arr2 K).val i j ≠ 0 ∧ (⟨n, m, g⟩ : Arr2 K).val i j ≠ 1
        · rw [if_pos c1]
        rw [if_neg c1]
        by_cases c2 : p < 0 ∨ 100 < p
        · rw [if_pos c2]
        rw [if_neg c2, if_pos]
        by_contra c3
        push Not at c1 c2 c3
        apply hN
        refine ⟨fun i j => ?_, ?_, c2.1, c2.2⟩
        · by_cases hz : g i j = 0
          · exact Or.inl hz
          · exact Or.inr (c1 i j hz)
        · obtain ⟨i, j, hz⟩ := c3
          exact ⟨i, j, c1 i j hz⟩
      exact ⟨⟨fun ⟨r, hr⟩ => by (rw [herr] at hr; cases hr), fun h => absurd h.2 hN⟩, fun _ => herr⟩
  · have herr : computeNormFactor img mask p = .error .typeError := by
      unfold computeNormFactor
      rw [if_pos (by by_contra hc; push Not at hc; exact hs hc)]
    exact ⟨⟨fun ⟨r, hr⟩ => by (rw [herr] at hr; cases hr), fun h => absurd h.1 hs⟩, fun _ => herr⟩

/-- Three of four pixels selected. -/
example : NormArgs (fun i j : Fin 2 => if i = 0 ∧ j = 0 then (0 : ℚ) else 1) 50 := by
  refine ⟨fun i j => ?_, ⟨1, 1, by simp⟩, by norm_num, by norm_num⟩
  by_cases h : i = 0 ∧ j = 0 <;> simp [h]

end Coralign.Props
