import Verif.Model.AmpThresh
import Mathlib.Tactic.Linarith
import Mathlib.Tactic.FieldSimp
import Mathlib.Tactic.Ring
import Mathlib.Algebra.BigOperators.Group.Finset.Basic
import Mathlib.Data.Rat.Cast.Order
import Mathlib.Data.List.FinRange
import Mathlib.Data.List.MinMax
import Mathlib.Data.Real.Basic

/-!
# Property C12: `ampthresh`
-/

namespace Coralign.Props

open Coralign

variable {K : Type} [Field K] [LinearOrder K] [IsStrictOrderedRing K]

/-- Specification: `lo` and `hi` are the smallest and largest pixel values. -/
def Extremes (xs : List K) (lo hi : K) : Prop := lo ∈ xs ∧ hi ∈ xs ∧ ∀ v ∈ xs, lo ≤ v ∧ v ≤ hi

/-- Specification: number of pixels in bin `k` of `n` equal bins between `lo` and `hi` (the last bin includes its
right end). -/
def BinCount (xs : List K) (lo hi : K) (n k : ℕ) (N : ℕ) : Prop :=
  N = (xs.filter fun v => lo + k * ((hi - lo) / n) ≤ v ∧
    (v < lo + (k + 1) * ((hi - lo) / n) ∨ (k + 1 = n ∧ v = hi))).length

/-- Specification: bin `k` is an interior local minimum of the histogram. -/
def InteriorMinimum (xs : List K) (lo hi : K) (n k : ℕ) : Prop :=
  1 ≤ k ∧ k + 1 < n ∧ ∃ a b c, BinCount xs lo hi n (k - 1) a ∧ BinCount xs lo hi n k b ∧
    BinCount xs lo hi n (k + 1) c ∧ b ≤ a ∧ b < c

theorem extremes_iff (xs : List K) (lo hi : K) :
    Extremes xs lo hi ↔ xs.min? = some lo ∧ xs.max? = some hi := by
  rw [List.min?_eq_some_iff, List.max?_eq_some_iff]
  constructor
  · rintro ⟨h1, h2, h3⟩
    exact ⟨⟨h1, fun b hb => (h3 b hb).1⟩, ⟨h2, fun b hb => (h3 b hb).2⟩⟩
  · rintro ⟨⟨h1, h2⟩, h3, h4⟩
    exact ⟨h1, h3, fun v hv => ⟨h2 v hv, h4 v hv⟩⟩

omit [IsStrictOrderedRing K] in
theorem histEdge_last [CharZero K] (lo hi : K) (n : ℕ) (hn : 0 < n) : histEdge lo hi n n = hi := by
  have : (n : K) ≠ 0 := Nat.cast_ne_zero.mpr (by omega)
  unfold histEdge; field_simp; ring

theorem binCount_iff (xs : List K) (lo hi : K) (n k N : ℕ) (hn : k < n) (hx : ∀ v ∈ xs, v ≤ hi) :
    BinCount xs lo hi n k N ↔ N = histCount xs lo hi n k := by
  unfold BinCount histCount
  rw [List.countP_eq_length_filter]
  have e : (xs.filter fun v => lo + k * ((hi - lo) / n) ≤ v ∧
      (v < lo + (k + 1) * ((hi - lo) / n) ∨ (k + 1 = n ∧ v = hi)))
      = xs.filter fun v => histEdge lo hi n k ≤ v ∧
        (v < histEdge lo hi n (k + 1) ∨ (k + 1 = n ∧ v ≤ histEdge lo hi n (k + 1))) := by
    refine List.filter_congr fun v hv => ?_
    have hv' := hx v hv
    rw [decide_eq_decide]
    by_cases hk : k + 1 = n
    · subst hk
      rw [histEdge_last lo hi (k + 1) (by omega)]
      have h1 : lo + (k + 1) * ((hi - lo) / ((k + 1 : ℕ) : K)) = hi := by
        have := histEdge_last lo hi (k + 1) (by omega)
        unfold histEdge at this
        push_cast at this ⊢
        exact this
      rw [h1]
      unfold histEdge
      constructor
      · rintro ⟨a, _⟩; exact ⟨a, Or.inr ⟨rfl, hv'⟩⟩
      · rintro ⟨a, _⟩
        refine ⟨a, ?_⟩
        rcases lt_or_eq_of_le hv' with h | h
        · exact Or.inl h
        · exact Or.inr ⟨rfl, h⟩
    · unfold histEdge
      simp only [hk, false_and, or_false]
      push_cast
      rfl
  rw [e]

theorem interiorMinimum_iff (xs : List K) (lo hi : K) (n i : ℕ) (hx : ∀ v ∈ xs, v ≤ hi) :
    InteriorMinimum xs lo hi n (i + 1) ↔ i < n - 2 ∧
      (histCount xs lo hi n (i + 1) ≤ histCount xs lo hi n i ∧
       histCount xs lo hi n (i + 1) < histCount xs lo hi n (i + 2)) := by
  constructor
  · rintro ⟨_, h2, a, b, c, ha, hb, hc, h3, h4⟩
    rw [binCount_iff _ _ _ _ _ _ (by omega) hx] at ha hb hc
    simp only [Nat.add_sub_cancel] at ha
    subst ha; subst hb; subst hc
    exact ⟨by omega, h3, h4⟩
  · rintro ⟨h1, h2, h3⟩
    refine ⟨by omega, by omega, _, _, _, ?_, ?_, ?_, h2, h3⟩
    · rw [binCount_iff _ _ _ _ _ _ (by omega) hx]; simp
    · rw [binCount_iff _ _ _ _ _ _ (by omega) hx]
    · rw [binCount_iff _ _ _ _ _ _ (by omega) hx]

/-- The threshold found for a pixel list with given extremes. -/
theorem ampThreshold_ok (xs : List K) (lo hi t : K) (n : ℕ) (he : Extremes xs lo hi) :
    ampThreshold xs n = .ok t ↔ lo ≠ hi ∧ ∃ k, InteriorMinimum xs lo hi n k ∧
      (∀ k' < k, ¬ InteriorMinimum xs lo hi n k') ∧ t = lo + (k + 1 / 2) * ((hi - lo) / n) := by
  obtain ⟨e1, e2⟩ := (extremes_iff xs lo hi).mp he
  have hx : ∀ v ∈ xs, v ≤ hi := fun v hv => (he.2.2 v hv).2
  unfold ampThreshold
  rw [e1, e2]
  simp only
  by_cases hlh : lo = hi
  · rw [if_pos hlh]; simp [hlh]
  · rw [if_neg hlh]
    cases hf : (List.range (n - 2)).find? (fun i =>
        decide (histCount xs lo hi n (i + 1) ≤ histCount xs lo hi n i ∧
        histCount xs lo hi n (i + 1) < histCount xs lo hi n (i + 2))) with
    | none =>
      simp only [reduceCtorEq, false_iff, not_and, not_exists]
      intro _ k hk _
      rw [List.find?_eq_none] at hf
      exfalso
      obtain ⟨i, rfl⟩ : ∃ i, k = i + 1 := ⟨k - 1, by have := hk.1; omega⟩
      obtain ⟨h1, h2⟩ := (interiorMinimum_iff xs lo hi n i hx).mp hk
      exact hf i (List.mem_range.mpr h1) (by simpa using h2)
    | some i =>
      simp only [Except.ok.injEq]
      obtain ⟨hp, hmem, hlt⟩ := List.find?_range_eq_some.mp hf
      rw [List.mem_range] at hmem
      have hmin : InteriorMinimum xs lo hi n (i + 1) :=
        (interiorMinimum_iff xs lo hi n i hx).mpr ⟨hmem, by simpa using hp⟩
      have hfirst : ∀ k' < i + 1, ¬ InteriorMinimum xs lo hi n k' := by
        intro k' hk' hk
        obtain ⟨i', rfl⟩ : ∃ i', k' = i' + 1 := ⟨k' - 1, by have := hk.1; omega⟩
        obtain ⟨_, h2⟩ := (interiorMinimum_iff xs lo hi n i' hx).mp hk
        have := hlt i' (by omega)
        simp only [Bool.not_eq_true', decide_eq_false_iff_not] at this
        exact this h2
      have hval : (1 / 2 : K) * (histEdge lo hi n (i + 1) + histEdge lo hi n (i + 2))
          = lo + ((i + 1 : ℕ) + 1 / 2) * ((hi - lo) / n) := by
        unfold histEdge; push_cast; ring
      constructor
      · intro h
        exact ⟨hlh, i + 1, hmin, hfirst, by rw [← h, hval]⟩
      · rintro ⟨_, k, hk, hkf, rfl⟩
        have : k = i + 1 := by
          rcases lt_trichotomy k (i + 1) with h | h | h
          · exact absurd hk (hfirst k h)
          · exact h
          · exact absurd hmin (hkf _ h)
        subst this
        exact hval

theorem interior_between (lo hi : K) (n k : ℕ) (hlh : lo < hi) (hk : k + 1 < n) :
    lo < lo + (k + 1 / 2) * ((hi - lo) / n) ∧ lo + (k + 1 / 2) * ((hi - lo) / n) < hi := by
  have hn : (0 : K) < n := Nat.cast_pos.mpr (by omega)
  have hd : 0 < hi - lo := by linarith
  have hk' : (k : K) + 1 < n := by exact_mod_cast hk
  have h0 : (0 : K) ≤ k := Nat.cast_nonneg k
  constructor
  · have : 0 < ((k : K) + 1 / 2) * ((hi - lo) / n) := by positivity
    linarith
  · have : ((k : K) + 1 / 2) * ((hi - lo) / n) < n * ((hi - lo) / n) := by
      apply mul_lt_mul_of_pos_right _ (by positivity)
      linarith
    have e : (n : K) * ((hi - lo) / n) = hi - lo := by field_simp
    linarith

omit [IsStrictOrderedRing K] [Field K] [LinearOrder K] in
theorem mem_pixels (a : Arr2 K) (v : K) : v ∈ a.pixels ↔ ∃ i j : ℤ, a.px i j = some v := by
  unfold Arr2.pixels
  simp only [List.mem_flatMap, List.mem_finRange, true_and, List.mem_map]
  constructor
  · rintro ⟨i, j, rfl⟩
    exact ⟨(i : ℕ), (j : ℕ), Arr2.px_val a i j⟩
  · rintro ⟨i, j, h⟩
    have hin := (Arr2.px_isSome a i j).mp (by rw [h]; rfl)
    rw [Arr2.px_of_inB a hin] at h
    exact ⟨_, _, Option.some.inj h⟩

theorem exists_extremes (xs : List K) (h : xs ≠ []) : ∃ lo hi, Extremes xs lo hi := by
  cases h1 : xs.min? with
  | none => rw [List.min?_eq_none_iff] at h1; exact absurd h1 h
  | some lo =>
    cases h2 : xs.max? with
    | none => rw [List.max?_eq_none_iff] at h2; exact absurd h2 h
    | some hi => exact ⟨lo, hi, (extremes_iff xs lo hi).mpr ⟨h1, h2⟩⟩

theorem ampThreshold_ne_nil (xs : List K) (n : ℕ) (t : K) (h : ampThreshold xs n = .ok t) : xs ≠ [] := by
  rintro rfl
  simp [ampThreshold] at h

/-- **C12.** Whenever a mask is returned, it has the map's shape and is True exactly where the map exceeds one
threshold, which lies strictly between the extreme pixel values and is the centre of the first interior minimum
of the histogram.  In particular the dimmest pixels are never and the brightest always selected. -/
theorem C12_threshold_mask (a : Arr2 K) (nBin : ℤ) (m : Arr2 Bool) (h : ampthresh a nBin = .ok m) :
    m.nr = a.nr ∧ m.nc = a.nc ∧ ∃ t lo hi, Extremes a.pixels lo hi ∧ lo < t ∧ t < hi ∧
      (∀ i j : ℤ, m.px i j = (a.px i j).map fun v => decide (t < v)) ∧
      ∃ k, InteriorMinimum a.pixels lo hi nBin.toNat k ∧
        (∀ k' < k, ¬ InteriorMinimum a.pixels lo hi nBin.toNat k') ∧
        t = lo + (k + 1 / 2) * ((hi - lo) / nBin.toNat) := by
  unfold ampthresh at h
  split at h
  · cases h
  · cases ht : ampThreshold a.pixels nBin.toNat with
    | error e => rw [ht] at h; cases h
    | ok t =>
      rw [ht] at h
      simp only [Except.ok.injEq] at h
      subst h
      obtain ⟨lo, hi, he⟩ := exists_extremes _ (ampThreshold_ne_nil _ _ _ ht)
      obtain ⟨hne, k, hk, hkf, rfl⟩ := (ampThreshold_ok _ lo hi t _ he).mp ht
      have hlh : lo < hi := lt_of_le_of_ne ((he.2.2 lo he.1).2) hne
      obtain ⟨b1, b2⟩ := interior_between lo hi nBin.toNat k hlh hk.2.1
      refine ⟨rfl, rfl, _, lo, hi, he, b1, b2, ?_, k, hk, hkf, rfl⟩
      intro i j
      rw [Arr2.px_map]

/-- **C12.** `ValueError` is raised exactly when the bin count is not positive, the map is empty or uniform, or the
histogram has no interior minimum; nothing else is ever raised. -/
theorem C12_error_iff (a : Arr2 K) (nBin : ℤ) :
    (∀ e, ampthresh a nBin = .error e → e = .valueError) ∧
    ((∃ e, ampthresh a nBin = .error e) ↔ nBin ≤ 0 ∨ a.pixels = [] ∨ ∃ lo hi, Extremes a.pixels lo hi ∧
      (lo = hi ∨ ∀ k, ¬ InteriorMinimum a.pixels lo hi nBin.toNat k)) := by
  have hthr : ∀ e, ampThreshold a.pixels nBin.toNat = .error e → e = .valueError := by
    intro e h
    unfold ampThreshold at h
    split at h
    · split at h
      · injection h with h; exact h.symm
      · simp only at h; split at h
        · cases h
        · injection h with h; exact h.symm
    · injection h with h; exact h.symm
  constructor
  · intro e h
    unfold ampthresh at h
    split at h
    · injection h with h; exact h.symm
    · split at h
      · next e' he' => injection h with h; rw [← h]; exact hthr _ he'
      · cases h
  · unfold ampthresh
    by_cases hn : nBin ≤ 0
    · rw [if_pos hn]; simp [hn]
    · rw [if_neg hn]
      simp only [hn, false_or]
      constructor
      · rintro ⟨e, h⟩
        by_cases hnil : a.pixels = []
        · exact Or.inl hnil
        · right
          obtain ⟨lo, hi, he⟩ := exists_extremes _ hnil
          refine ⟨lo, hi, he, ?_⟩
          by_contra hc
          push Not at hc
          obtain ⟨hne, k, hk⟩ := hc
          classical
          have hex : ∃ k, InteriorMinimum a.pixels lo hi nBin.toNat k := ⟨k, hk⟩
          have := (ampThreshold_ok a.pixels lo hi _ nBin.toNat he).mpr
            ⟨hne, Nat.find hex, Nat.find_spec hex, fun k' hk' => Nat.find_min hex hk', rfl⟩
          rw [this] at h
          cases h
      · intro h
        cases ht : ampThreshold a.pixels nBin.toNat with
        | error e => exact ⟨e, rfl⟩
        | ok t =>
          exfalso
          rcases h with h | ⟨lo, hi, he, h⟩
          · exact ampThreshold_ne_nil _ _ _ ht h
          · obtain ⟨hne, k, hk, _⟩ := (ampThreshold_ok _ lo hi t _ he).mp ht
            rcases h with h | h
            · exact hne h
            · exact h k hk

theorem binCount_affine (xs : List K) (lo hi c d : K) (n k N : ℕ) (hc : 0 < c) :
    BinCount (xs.map fun v => c * v + d) (c * lo + d) (c * hi + d) n k N ↔ BinCount xs lo hi n k N := by
  unfold BinCount
  rw [List.filter_map, List.length_map]
  have e : ∀ x y : K, c * x + d ≤ c * y + d ↔ x ≤ y := fun x y =>
    ⟨fun h => le_of_mul_le_mul_left (by linarith) hc, fun h => by nlinarith⟩
  have e' : ∀ x y : K, c * x + d < c * y + d ↔ x < y := fun x y =>
    ⟨fun h => lt_of_mul_lt_mul_left (by linarith) hc.le, fun h => by nlinarith⟩
  have e'' : ∀ x y : K, c * x + d = c * y + d ↔ x = y := fun x y =>
    ⟨fun h => mul_left_cancel₀ hc.ne' (by linarith), fun h => by rw [h]⟩
  have f : ∀ q : K, c * lo + d + q * ((c * hi + d - (c * lo + d)) / n) = c * (lo + q * ((hi - lo) / n)) + d := by
    intro q; ring
  simp only [f, Function.comp_def, e, e', e'']

theorem extremes_affine (xs : List K) (lo hi c d : K) (hc : 0 < c) (h : Extremes xs lo hi) :
    Extremes (xs.map fun v => c * v + d) (c * lo + d) (c * hi + d) := by
  refine ⟨List.mem_map_of_mem h.1, List.mem_map_of_mem h.2.1, ?_⟩
  intro v hv
  obtain ⟨w, hw, rfl⟩ := List.mem_map.mp hv
  have := h.2.2 w hw
  constructor <;> nlinarith [mul_le_mul_of_nonneg_left this.1 hc.le, mul_le_mul_of_nonneg_left this.2 hc.le]

omit [IsStrictOrderedRing K] [Field K] [LinearOrder K] in
theorem pixels_map {β : Type} (f : K → β) (a : Arr2 K) : (a.map f).pixels = a.pixels.map f := by
  unfold Arr2.pixels Arr2.map
  simp [List.map_flatMap, Function.comp_def]

theorem ampThreshold_affine (xs : List K) (c d : K) (hc : 0 < c) (n : ℕ) (t : K) :
    ampThreshold xs n = .ok t ↔ ampThreshold (xs.map fun v => c * v + d) n = .ok (c * t + d) := by
  by_cases hnil : xs = []
  · subst hnil; simp [ampThreshold]
  · obtain ⟨lo, hi, he⟩ := exists_extremes xs hnil
    rw [ampThreshold_ok xs lo hi t n he, ampThreshold_ok _ _ _ _ n (extremes_affine xs lo hi c d hc he)]
    unfold InteriorMinimum
    simp only [binCount_affine xs lo hi c d n _ _ hc]
    have e'' : ∀ x y : K, c * x + d = c * y + d ↔ x = y := fun x y =>
      ⟨fun h => mul_left_cancel₀ hc.ne' (by linarith), fun h => by rw [h]⟩
    have f : ∀ q : K, c * lo + d + q * ((c * hi + d - (c * lo + d)) / n) = c * (lo + q * ((hi - lo) / n)) + d := by
      intro q; ring
    simp only [f, e'', ne_eq]

/-- **C12.** The mask is invariant under positive scaling and offset of the map. -/
theorem C12_affine_invariant (a : Arr2 K) (nBin : ℤ) (c d : K) (hc : 0 < c) :
    ampthresh (a.map fun v => c * v + d) nBin = ampthresh a nBin := by
  cases h : ampthresh a nBin with
  | ok m =>
    unfold ampthresh at h ⊢
    split at h
    · cases h
    · next hn =>
      rw [if_neg hn]
      split at h
      · cases h
      · next t ht =>
        injection h with h
        rw [pixels_map, (ampThreshold_affine a.pixels c d hc _ t).mp ht]
        simp only [Except.ok.injEq]
        rw [← h]
        refine Arr2.ext_px rfl rfl ?_
        intro i j _ _ _ _
        rw [Arr2.px_map, Arr2.px_map, Arr2.px_map]
        cases a.px i j with
        | none => rfl
        | some v =>
          simp only [Option.map_some, Option.some.injEq, decide_eq_decide]
          exact ⟨fun h => lt_of_mul_lt_mul_left (by linarith) hc.le, fun h => by nlinarith⟩
  | error e =>
    have he := (C12_error_iff a nBin).1 e h
    subst he
    cases h' : ampthresh (a.map fun v => c * v + d) nBin with
    | error e => rw [(C12_error_iff _ nBin).1 e h']
    | ok m =>
      exfalso
      unfold ampthresh at h h'
      split at h'
      · cases h'
      · next hn =>
        rw [if_neg hn] at h
        split at h'
        · cases h'
        · next t ht =>
          rw [pixels_map] at ht
          have : t = c * ((t - d) / c) + d := by field_simp; ring
          rw [this] at ht
          rw [(ampThreshold_affine a.pixels c d hc _ _).mpr ht] at h
          cases h

theorem ampThreshold_perm (xs ys : List K) (h : xs.Perm ys) (n : ℕ) : ampThreshold xs n = ampThreshold ys n := by
  have h1 : xs.min? = ys.min? := by
    cases hx : xs.min? with
    | none => rw [List.min?_eq_none_iff] at hx; subst hx; rw [List.nil_perm.mp h]; rfl
    | some v =>
      rw [List.min?_eq_some_iff] at hx
      symm; rw [List.min?_eq_some_iff]
      exact ⟨h.mem_iff.mp hx.1, fun b hb => hx.2 b (h.mem_iff.mpr hb)⟩
  have h2 : xs.max? = ys.max? := by
    cases hx : xs.max? with
    | none => rw [List.max?_eq_none_iff] at hx; subst hx; rw [List.nil_perm.mp h]; rfl
    | some v =>
      rw [List.max?_eq_some_iff] at hx
      symm; rw [List.max?_eq_some_iff]
      exact ⟨h.mem_iff.mp hx.1, fun b hb => hx.2 b (h.mem_iff.mpr hb)⟩
  have h3 : ∀ lo hi k, histCount xs lo hi n k = histCount ys lo hi n k := fun lo hi k => h.countP_eq _
  unfold ampThreshold
  simp only [h1, h2, h3]

/-- **C12.** The mask depends on each pixel's value and on the *multiset* of pixel values only: rearranging the
pixels (even into another shape) rearranges the mask. -/
theorem C12_rearrangement (a b : Arr2 K) (nBin : ℤ) (h : a.pixels.Perm b.pixels) :
    (∀ m, ampthresh a nBin = .ok m → ∃ m', ampthresh b nBin = .ok m' ∧
      ∀ i j i' j' : ℤ, a.px i j = b.px i' j' → m.px i j = m'.px i' j') ∧
    (∀ e, ampthresh a nBin = .error e → ampthresh b nBin = .error e) := by
  have := ampThreshold_perm a.pixels b.pixels h nBin.toNat
  unfold ampthresh
  rw [← this]
  by_cases hn : nBin ≤ 0
  · rw [if_pos hn, if_pos hn]; simp
  · rw [if_neg hn, if_neg hn]
    cases ht : ampThreshold a.pixels nBin.toNat with
    | error e => simp
    | ok t =>
      simp only [Except.ok.injEq, reduceCtorEq, IsEmpty.forall_iff, implies_true, and_true]
      rintro m rfl
      refine ⟨_, rfl, ?_⟩
      intro i j i' j' hp
      rw [Arr2.px_map, Arr2.px_map, hp]

/-- Sanity of the histogram: every pixel falls in exactly one bin. -/
theorem C12_histogram_partition (xs : List K) (lo hi : K) (n : ℕ) (hn : 0 < n) (hlh : lo < hi)
    (hx : ∀ v ∈ xs, lo ≤ v ∧ v ≤ hi) : ∑ k ∈ Finset.range n, histCount xs lo hi n k = xs.length := by
  have hn' : (0 : K) < n := Nat.cast_pos.mpr hn
  have hstep : 0 < (hi - lo) / n := div_pos (by linarith) hn'
  have hmono : ∀ k, histEdge lo hi n k < histEdge lo hi n (k + 1) := by
    intro k; unfold histEdge; push_cast; nlinarith
  have key : ∀ k, k < n → ∑ j ∈ Finset.range k, histCount xs lo hi n j
      = xs.countP fun v => v < histEdge lo hi n k := by
    intro k
    induction k with
    | zero =>
      intro _
      simp only [Finset.range_zero, Finset.sum_empty]
      symm
      rw [List.countP_eq_zero]
      intro v hv
      have : histEdge lo hi n 0 = lo := by unfold histEdge; simp
      rw [this]
      simpa using (hx v hv).1
    | succ k ih =>
      intro hk
      rw [Finset.sum_range_succ, ih (by omega)]
      unfold histCount
      have hlast : ∀ v, (histEdge lo hi n k ≤ v ∧ (v < histEdge lo hi n (k + 1) ∨
          (k + 1 = n ∧ v ≤ histEdge lo hi n (k + 1)))) ↔ (histEdge lo hi n k ≤ v ∧ v < histEdge lo hi n (k + 1)) := by
        intro v
        have : k + 1 ≠ n := by omega
        simp [this]
      simp only [hlast]
      have hm := hmono k
      clear ih hlast
      clear hx
      induction xs with
      | nil => rfl
      | cons v vs ih2 =>
        simp only [List.countP_cons]
        by_cases h1 : v < histEdge lo hi n k
        · have h2 : v < histEdge lo hi n (k + 1) := lt_trans h1 hm
          have h3 : ¬ (histEdge lo hi n k ≤ v) := not_le.mpr h1
          simp [h1, h2, h3] at ih2 ⊢; omega
        · have h3 : histEdge lo hi n k ≤ v := not_lt.mp h1
          by_cases h2 : v < histEdge lo hi n (k + 1) <;> simp [h1, h2, h3] at ih2 ⊢ <;> omega
  obtain ⟨m, rfl⟩ : ∃ m, n = m + 1 := ⟨n - 1, by omega⟩
  rw [Finset.sum_range_succ, key m (by omega)]
  unfold histCount
  have hl : histEdge lo hi (m + 1) (m + 1) = hi := histEdge_last lo hi (m + 1) (by omega)
  clear key
  induction xs with
  | nil => rfl
  | cons v vs ih2 =>
    have ih2' := ih2 (fun w hw => hx w (List.mem_cons_of_mem _ hw))
    have hv := hx v (List.mem_cons_self)
    simp only [List.countP_cons, List.length_cons]
    by_cases h1 : v < histEdge lo hi (m + 1) m
    · have h3 : ¬ (histEdge lo hi (m + 1) m ≤ v) := not_le.mpr h1
      simp [h1, h3] at ih2' ⊢; omega
    · have h3 : histEdge lo hi (m + 1) m ≤ v := not_lt.mp h1
      have h4 : v ≤ histEdge lo hi (m + 1) (m + 1) := by rw [hl]; exact hv.2
      simp [h1, h3, h4] at ih2' ⊢; omega

/-- The threshold of a rational map does not change when it is read as a real map. -/
theorem ampThreshold_cast (xs : List ℚ) (n : ℕ) (t : ℚ) (h : ampThreshold xs n = .ok t) :
    ampThreshold (xs.map fun v : ℚ => (v : ℝ)) n = .ok (t : ℝ) := by
  obtain ⟨lo, hi, he⟩ := exists_extremes xs (ampThreshold_ne_nil _ _ _ h)
  have he' : Extremes (xs.map fun v : ℚ => (v : ℝ)) (lo : ℝ) (hi : ℝ) := by
    refine ⟨List.mem_map_of_mem he.1, List.mem_map_of_mem he.2.1, ?_⟩
    intro v hv
    obtain ⟨w, hw, rfl⟩ := List.mem_map.mp hv
    have := he.2.2 w hw
    exact ⟨by exact_mod_cast this.1, by exact_mod_cast this.2⟩
  have hb : ∀ k N, BinCount (xs.map fun v : ℚ => (v : ℝ)) (lo : ℝ) (hi : ℝ) n k N ↔ BinCount xs lo hi n k N := by
    intro k N
    unfold BinCount
    rw [List.filter_map, List.length_map]
    have : (fun v : ℝ => decide ((lo : ℝ) + k * (((hi : ℝ) - lo) / n) ≤ v ∧
        (v < lo + (k + 1) * ((hi - lo) / n) ∨ k + 1 = n ∧ v = hi))) ∘ (fun v : ℚ => (v : ℝ)) =
        fun v : ℚ => decide (lo + k * ((hi - lo) / n) ≤ v ∧
        (v < lo + (k + 1) * ((hi - lo) / n) ∨ k + 1 = n ∧ v = hi)) := by
      funext v
      simp only [Function.comp_def, decide_eq_decide]
      norm_cast
    rw [this]
  rw [ampThreshold_ok _ _ _ _ _ he'] 
  obtain ⟨h1, k, h2, h3, h4⟩ := (ampThreshold_ok xs lo hi t n he).mp h
  unfold InteriorMinimum at *
  simp only [hb]
  exact ⟨by exact_mod_cast h1, k, h2, h3, by rw [h4]; push_cast; ring⟩

/-- The mask of a rational map does not change when it is read as a real map. -/
theorem ampthresh_cast (a : Arr2 ℚ) (n : ℤ) (m : Arr2 Bool) (h : ampthresh a n = .ok m) :
    ampthresh (a.map fun v : ℚ => (v : ℝ)) n = .ok m := by
  unfold ampthresh at h ⊢
  split at h
  · cases h
  · next hn =>
    rw [if_neg hn]
    split at h
    · cases h
    · next t ht =>
      rw [pixels_map, ampThreshold_cast _ _ _ ht]
      injection h with h
      subst h
      simp only [Except.ok.injEq]
      refine Arr2.ext_px rfl rfl ?_
      intro i j _ _ _ _
      rw [Arr2.px_map, Arr2.px_map, Arr2.px_map]
      cases a.px i j with
      | none => rfl
      | some v => simp

/-- **C12.** A map with just two values - a clean pupil - is recovered exactly, for every number of bins from 3 up. -/
theorem C12_two_level (a : Arr2 K) (nBin : ℤ) (lo hi : K) (hlt : lo < hi) (hn : 3 ≤ nBin) (h2 : ∀ v ∈ a.pixels, v = lo ∨ v = hi)
    (hlo : lo ∈ a.pixels) (hhi : hi ∈ a.pixels) :
    ∃ m, ampthresh a nBin = .ok m ∧ m.nr = a.nr ∧ m.nc = a.nc ∧
      ∀ i j : ℤ, m.px i j = (a.px i j).map fun v => decide (v = hi) := by
  have hex : Extremes a.pixels lo hi := ⟨hlo, hhi, fun v hv => by
    rcases h2 v hv with rfl | rfl
    · exact ⟨le_rfl, hlt.le⟩
    · exact ⟨hlt.le, le_rfl⟩⟩
  have huniq : ∀ l h, Extremes a.pixels l h → l = lo ∧ h = hi := by
    rintro l h ⟨hl, hh, hb⟩
    exact ⟨le_antisymm (hb _ hlo).1 (hex.2.2 _ hl).1, le_antisymm (hex.2.2 _ hh).2 (hb _ hhi).2⟩
  obtain ⟨n, rfl⟩ : ∃ n : ℕ, nBin = (n : ℤ) + 3 := ⟨(nBin - 3).toNat, by omega⟩
  have hN : ((n : ℤ) + 3).toNat = n + 3 := by omega
  have hstep : 0 < (hi - lo) / ((n + 3 : ℕ) : K) := div_pos (by linarith) (by positivity)
  have hend : lo + ((n + 3 : ℕ) : K) * ((hi - lo) / ((n + 3 : ℕ) : K)) = hi := by
    have : ((n + 3 : ℕ) : K) ≠ 0 := by positivity
    field_simp; ring
  have hmin : InteriorMinimum a.pixels lo hi (n + 3) (n + 1) := by
    refine ⟨by omega, by omega, _, _, _, rfl, rfl, rfl, ?_⟩
    have e0 : (a.pixels.filter fun v => lo + ((n + 1 : ℕ) : K) * ((hi - lo) / ((n + 3 : ℕ) : K)) ≤ v ∧
        (v < lo + (((n + 1 : ℕ) : K) + 1) * ((hi - lo) / ((n + 3 : ℕ) : K)) ∨ (n + 1 + 1 = n + 3 ∧ v = hi))) = [] := by
      rw [List.filter_eq_nil_iff]
      intro v hv hc
      simp only [decide_eq_true_eq] at hc
      generalize (hi - lo) / ((n + 3 : ℕ) : K) = s at hc hstep hend
      push_cast at hc hend
      have hn0 : (0 : K) ≤ n := Nat.cast_nonneg n
      rcases h2 v hv with rfl | rfl
      · nlinarith [hc.1]
      · rcases hc.2 with h | h
        · nlinarith
        · omega
    rw [e0]
    refine ⟨Nat.zero_le _, List.length_pos_of_mem (a := hi) ?_⟩
    rw [List.mem_filter]
    refine ⟨hhi, ?_⟩
    simp only [decide_eq_true_eq]
    refine ⟨?_, Or.inr ⟨trivial, trivial⟩⟩
    generalize (hi - lo) / ((n + 3 : ℕ) : K) = s at hstep hend ⊢
    push_cast at hend ⊢
    linarith
  cases h : ampthresh a ((n : ℤ) + 3) with
  | error e =>
    exfalso
    rcases ((C12_error_iff a _).2.mp ⟨e, h⟩) with h1 | h1 | ⟨l, u, hx, h1⟩
    · omega
    · rw [h1] at hlo; cases hlo
    · obtain ⟨rfl, rfl⟩ := huniq l u hx
      rcases h1 with h1 | h1
      · exact hlt.ne h1
      · rw [hN] at h1
        exact h1 _ hmin
  | ok m =>
    obtain ⟨r, c, t, l, u, hx, h1, h2', h3, -⟩ := C12_threshold_mask a _ m h
    obtain ⟨rfl, rfl⟩ := huniq l u hx
    refine ⟨m, rfl, r, c, fun i j => ?_⟩
    rw [h3]
    cases hp : a.px i j with
    | none => rfl
    | some v =>
      have hv : v ∈ a.pixels := by
        have hb : (0 ≤ i ∧ i < a.nr) ∧ (0 ≤ j ∧ j < a.nc) := by rw [← Arr2.px_isSome, hp]; rfl
        rw [Arr2.px_of_inB a hb] at hp
        unfold Arr2.pixels
        rw [List.mem_flatMap]
        exact ⟨_, List.mem_finRange _, List.mem_map.mpr ⟨_, List.mem_finRange _, Option.some.inj hp⟩⟩
      simp only [Option.map_some, Option.some.injEq]
      rw [decide_eq_decide]
      rcases h2 v hv with rfl | rfl
      · exact ⟨fun hc => absurd hc (not_lt.mpr h1.le), fun hc => absurd hc hlt.ne⟩
      · exact ⟨fun _ => rfl, fun _ => h2'⟩

/-- A bimodal map: three dark, one middle and two bright pixels, three bins. -/
def bimodal : Arr2 ℚ := Arr2.ofFn 2 3 fun i j => if i = 0 then 0 else if j = 0 then 1 else 2

example : (match ampthresh bimodal 5 with | .ok m => m.pixels | .error _ => []) = [false, false, false, true, true, true] := by
  decide +kernel

end Coralign.Props
