import Verif.Props.AmpThresh
import Mathlib.Tactic.NormNum
import Mathlib.Tactic.Positivity

/-!
# Property C133: a noisy pupil is still recognised by `ampthresh`
-/

namespace Coralign.Props

open Coralign

variable {K : Type} [Field K] [LinearOrder K] [IsStrictOrderedRing K]

/-- **C133.** If every pixel lies either in the lowest of the `nBin` histogram bins or beyond the second one, the
mask consists of the latter, however they are spread. `w` is the width of a bin. -/
theorem C133_groups (a : Arr2 K) (nBin : ℤ) (lo hi w : K) (he : Extremes a.pixels lo hi) (hlt : lo < hi)
    (hn : 3 ≤ nBin) (hw : w * nBin = hi - lo) (h2 : ∀ v ∈ a.pixels, v < lo + w ∨ lo + 2 * w ≤ v) :
    ∃ m, ampthresh a nBin = .ok m ∧ m.nr = a.nr ∧ m.nc = a.nc ∧
      ∀ i j : ℤ, m.px i j = (a.px i j).map fun v => decide (lo + 2 * w ≤ v) := by
  obtain ⟨n, rfl⟩ : ∃ n : ℕ, nBin = (n : ℤ) + 3 := ⟨(nBin - 3).toNat, by omega⟩
  have hN : ((n : ℤ) + 3).toNat = n + 3 := by omega
  have hn0 : (0 : K) ≤ n := Nat.cast_nonneg n
  have hwd : (hi - lo) / ((n + 3 : ℕ) : K) = w := by
    have : ((n + 3 : ℕ) : K) ≠ 0 := by positivity
    rw [div_eq_iff this]
    push_cast at hw ⊢
    exact hw.symm
  have hw0 : 0 < w := by
    rw [← hwd]; exact div_pos (by linarith) (by positivity)
  have hend : lo + ((n : K) + 3) * w = hi := by push_cast at hw; linarith
  -- bin `k` is hit by pixel `v`
  let Hit : ℕ → K → Prop := fun k v => lo + k * w ≤ v ∧ (v < lo + (k + 1) * w ∨ (k + 1 = n + 3 ∧ v = hi))
  have hcnt : ∀ k N, BinCount a.pixels lo hi (n + 3) k N ↔ N = (a.pixels.filter fun v => Hit k v).length := by
    intro k N
    unfold BinCount
    rw [hwd]
  have hlast : ∃ j, 2 ≤ j ∧ j < n + 3 ∧ ∃ v ∈ a.pixels, Hit j v := by
    refine ⟨n + 2, by omega, by omega, hi, he.2.1, ?_, Or.inr ⟨rfl, rfl⟩⟩
    push_cast; linarith
  classical
  let j := Nat.find hlast
  obtain ⟨hj2, hjn, v0, hv0, hhit⟩ := Nat.find_spec hlast
  have hfirst : ∀ i, 2 ≤ i → i < j → ∀ v ∈ a.pixels, ¬ Hit i v := by
    intro i hi2 hij v hv hh
    exact Nat.find_min hlast hij ⟨hi2, lt_trans hij hjn, v, hv, hh⟩
  have hbin1 : ∀ v ∈ a.pixels, ¬ Hit 1 v := by
    rintro v hv ⟨h1, h3⟩
    have h3' : v < lo + 2 * w := by
      rcases h3 with h3 | ⟨h3, _⟩
      · push_cast at h3; linarith
      · exact absurd h3 (by omega)
    push_cast at h1
    rcases h2 v hv with h | h <;> linarith
  have hempty : ∀ i, 1 ≤ i → i < j → (a.pixels.filter fun v => Hit i v) = [] := by
    intro i h1 hij
    rw [List.filter_eq_nil_iff]
    intro v hv hh
    simp only [decide_eq_true_eq] at hh
    rcases Nat.lt_or_ge i 2 with h | h
    · obtain rfl : i = 1 := by omega
      exact hbin1 v hv hh
    · exact hfirst i h hij v hv hh
  have hmin : InteriorMinimum a.pixels lo hi (n + 3) (j - 1) := by
    refine ⟨by omega, by omega, _, _, _, (hcnt _ _).mpr rfl, (hcnt _ _).mpr rfl, (hcnt _ _).mpr rfl, ?_, ?_⟩
    · rw [hempty (j - 1) (by omega) (by omega)]; exact Nat.zero_le _
    · rw [hempty (j - 1) (by omega) (by omega)]
      refine List.length_pos_of_mem (a := v0) ?_
      rw [List.mem_filter, show j - 1 + 1 = j by omega]
      exact ⟨hv0, by simpa using hhit⟩
  have hnot : ∀ k' < j - 1, ¬ InteriorMinimum a.pixels lo hi (n + 3) k' := by
    rintro k' hk' ⟨h1, _, x, y, z, _, _, hz, _, hlt'⟩
    rw [hcnt, hempty (k' + 1) (by omega) (by omega)] at hz
    simp only [List.length_nil] at hz
    omega
  have hthr := (ampThreshold_ok a.pixels lo hi _ (n + 3) he).mpr ⟨hlt.ne, j - 1, hmin, hnot, rfl⟩
  rw [hwd] at hthr
  have hj1 : ((j - 1 : ℕ) : K) = (j : K) - 1 := by rw [Nat.cast_sub (by omega)]; simp
  rw [hj1] at hthr
  have hj2' : (2 : K) ≤ j := by exact_mod_cast hj2
  have hclimb : ∀ v ∈ a.pixels, lo + 2 * w ≤ v → ∀ i : ℕ, i + 2 ≤ j → lo + ((i : K) + 2) * w ≤ v := by
    intro v hv hb i
    induction i with
    | zero => intro _; simpa using hb
    | succ i ih =>
      intro hi'
      have h1 := ih (by omega)
      have := hfirst (i + 2) (by omega) (by omega) v hv
      by_contra hc
      rw [not_le] at hc
      refine this ⟨by push_cast; exact h1, Or.inl ?_⟩
      push_cast at hc ⊢
      linarith
  refine ⟨a.map fun v => decide (lo + 2 * w ≤ v), ?_, rfl, rfl, fun i j => Arr2.px_map _ _ _ _⟩
  unfold ampthresh
  rw [if_neg (by omega), hN, hthr]
  simp only [Except.ok.injEq]
  refine Arr2.ext_px rfl rfl ?_
  intro i' j' _ _ _ _
  rw [Arr2.px_map, Arr2.px_map]
  cases hp : a.px i' j' with
  | none => rfl
  | some v =>
    have hv : v ∈ a.pixels := (mem_pixels a v).mpr ⟨i', j', hp⟩
    simp only [Option.map_some, Option.some.injEq, decide_eq_decide]
    constructor
    · intro ht
      rcases h2 v hv with h | h
      · exfalso
        have : w ≤ ((j : K) - 1 + 1 / 2) * w := by nlinarith
        linarith
      · exact h
    · intro hb
      have h1 := hclimb v hv hb (j - 2) (by omega)
      have e : ((j - 2 : ℕ) : K) + 2 = j := by rw [Nat.cast_sub (by omega)]; push_cast; ring
      rw [e] at h1
      nlinarith

/-- Specification: `a` is a picture of `pupil` with level `bright` inside, `dim` outside and an error of at most `ε` in
every pixel. -/
structure NoisyPicture (a : Arr2 K) (pupil : Arr2 Bool) (dim bright ε : K) : Prop where
  rows : a.nr = pupil.nr
  cols : a.nc = pupil.nc
  inside : ∀ (i j : ℤ) v, pupil.px i j = some true → a.px i j = some v → |v - bright| ≤ ε
  outside : ∀ (i j : ℤ) v, pupil.px i j = some false → a.px i j = some v → |v - dim| ≤ ε

/-- **C133.** A pupil photographed with errors of at most one part in `2 (nBin + 2)` of the contrast comes out exactly, for
every number of bins from 3 up. With the default of 21 bins that is one part in 46. -/
theorem C133_noise (a : Arr2 K) (pupil : Arr2 Bool) (nBin : ℤ) (dim bright ε : K)
    (hp : NoisyPicture a pupil dim bright ε) (hn : 3 ≤ nBin) (hlt : dim < bright)
    (hε : 2 * (nBin + 2) * ε ≤ bright - dim) (hin : ∃ i j, pupil.px i j = some true)
    (hout : ∃ i j, pupil.px i j = some false) : ampthresh a nBin = .ok pupil := by
  have hnK : (3 : K) ≤ nBin := by exact_mod_cast hn
  have hpx : ∀ i j b, pupil.px i j = some b → ∃ v, a.px i j = some v := by
    intro i j b hb
    have := (Arr2.px_isSome pupil i j).mp (by rw [hb]; rfl)
    rw [← hp.rows, ← hp.cols] at this
    exact ⟨_, Arr2.px_of_inB a this⟩
  obtain ⟨i1, j1, hb1⟩ := hin
  obtain ⟨i0, j0, hb0⟩ := hout
  obtain ⟨v1, hv1⟩ := hpx _ _ _ hb1
  obtain ⟨v0, hv0⟩ := hpx _ _ _ hb0
  have m1 : v1 ∈ a.pixels := (mem_pixels a v1).mpr ⟨_, _, hv1⟩
  have m0 : v0 ∈ a.pixels := (mem_pixels a v0).mpr ⟨_, _, hv0⟩
  have b1 := abs_le.mp (hp.inside _ _ _ hb1 hv1)
  have b0 := abs_le.mp (hp.outside _ _ _ hb0 hv0)
  have hε0 : 0 ≤ ε := le_trans (abs_nonneg _) (hp.inside _ _ _ hb1 hv1)
  obtain ⟨lo, hi, he⟩ := exists_extremes a.pixels (List.ne_nil_of_mem m1)
  have hpix : ∀ v ∈ a.pixels, |v - bright| ≤ ε ∨ |v - dim| ≤ ε := by
    intro v hv
    obtain ⟨i, j, h⟩ := (mem_pixels a v).mp hv
    cases hb : pupil.px i j with
    | none =>
      have h1 := (Arr2.px_isSome a i j).mp (by rw [h]; rfl)
      rw [hp.rows, hp.cols] at h1
      have := (Arr2.px_isSome pupil i j).mpr h1
      rw [hb] at this; cases this
    | some b => cases b with
      | true => exact Or.inl (hp.inside _ _ _ hb h)
      | false => exact Or.inr (hp.outside _ _ _ hb h)
  have hlo0 := (he.2.2 v0 m0).1
  have hhi1 := (he.2.2 v1 m1).2
  have hgap : 10 * ε ≤ bright - dim := by nlinarith
  have hlo : dim - ε ≤ lo := by
    rcases hpix lo he.1 with h | h <;> rw [abs_le] at h <;> linarith
  have hhi : hi ≤ bright + ε := by
    rcases hpix hi he.2.1 with h | h <;> rw [abs_le] at h <;> linarith
  have hlh : lo < hi := by linarith
  obtain ⟨w, hw⟩ : ∃ w : K, w * nBin = hi - lo := ⟨(hi - lo) / nBin, by
    have : (nBin : K) ≠ 0 := by positivity
    field_simp⟩
  have hw1 : 2 * ε < w := by
    by_contra hc
    rw [not_lt] at hc
    have h1 : w * nBin ≤ 2 * ε * nBin := mul_le_mul_of_nonneg_right hc (by linarith)
    have h2 : 2 * (nBin + 2) * ε = 2 * ε * nBin + 4 * ε := by ring
    obtain rfl : ε = 0 := by linarith
    simp only [mul_zero, zero_mul] at h1
    linarith
  have hw2 : 2 * w ≤ bright - dim - 2 * ε := by
    by_contra hc
    rw [not_le] at hc
    nlinarith
  have hdim : ∀ v, |v - dim| ≤ ε → v < lo + w := by
    intro v h; rw [abs_le] at h; linarith
  have hbri : ∀ v, |v - bright| ≤ ε → lo + 2 * w ≤ v := by
    intro v h; rw [abs_le] at h; linarith
  obtain ⟨m, hm, hr, hc, hmp⟩ := C133_groups a nBin lo hi w he hlh hn hw fun v hv =>
    (hpix v hv).elim (fun h => Or.inr (hbri v h)) (fun h => Or.inl (hdim v h))
  rw [hm]
  congr 1
  refine Arr2.ext_px (by rw [hr, hp.rows]) (by rw [hc, hp.cols]) ?_
  intro i j h1 h2 h3 h4
  rw [hmp]
  have hinB : (0 ≤ i ∧ i < pupil.nr) ∧ (0 ≤ j ∧ j < pupil.nc) := by
    rw [hr, hp.rows] at h2; rw [hc, hp.cols] at h4; exact ⟨⟨h1, h2⟩, h3, h4⟩
  obtain ⟨b, hb⟩ := Option.isSome_iff_exists.mp ((Arr2.px_isSome pupil i j).mpr hinB)
  obtain ⟨v, hv⟩ := hpx i j b hb
  rw [hv, hb]
  simp only [Option.map_some, Option.some.injEq]
  cases b with
  | true => exact decide_eq_true (hbri v (hp.inside _ _ _ hb hv))
  | false =>
    refine decide_eq_false ?_
    have := hdim v (hp.outside _ _ _ hb hv)
    rw [not_le]
    linarith

/-! ### How much noise is too much -/

/-- Two background pixels at 0, one at 1.5, two at 2.5, and a pupil of one pixel at `n`. -/
noncomputable def speckled (n : ℕ) : Arr2 ℝ :=
  Arr2.ofFn 1 6 fun _ j => if j < 2 then 0 else if j = 2 then 3 / 2 else if j < 5 then 5 / 2 else n

/-- The pupil in it. -/
def speckledPupil : Arr2 Bool := Arr2.ofFn 1 6 fun _ j => decide (j = 5)

theorem speckled_pixels (n : ℕ) : (speckled n).pixels = [0, 0, 3 / 2, 5 / 2, 5 / 2, (n : ℝ)] := by
  simp [speckled, Arr2.pixels, Arr2.ofFn, List.finRange_succ]

theorem speckled_noisy (n : ℕ) : NoisyPicture (speckled n) speckledPupil (5 / 4) n (5 / 4) := by
  refine ⟨rfl, rfl, ?_, ?_⟩
  · intro i j v hb hv
    unfold speckledPupil at hb
    unfold speckled at hv
    rw [Arr2.px_ofFn] at hb hv
    split_ifs at hb hv with hin <;> simp only [Option.some.injEq, decide_eq_true_eq] at hb hv <;> rw [← hv] <;>
      first | omega | norm_num [abs_le]
  · intro i j v hb hv
    unfold speckledPupil at hb
    unfold speckled at hv
    rw [Arr2.px_ofFn] at hb hv
    split_ifs at hb hv with hin <;> simp only [Option.some.injEq, decide_eq_false_iff_not] at hb hv <;> rw [← hv] <;>
      first | omega | norm_num [abs_le]

/-- **C133.** The bound is of the right order: for every number of bins from 4 up there is a pupil photographed with errors of
`5 / (4 nBin - 5)` of the contrast (one part in about `0.8 nBin`) whose mask contains background pixels. -/
theorem C133_too_noisy (n : ℕ) (hn : 4 ≤ n) : ∃ (a : Arr2 ℝ) (pupil m : Arr2 Bool) (dim bright ε : ℝ),
    NoisyPicture a pupil dim bright ε ∧ dim < bright ∧ ε = 5 / (4 * n - 5) * (bright - dim) ∧
    (∃ i j, pupil.px i j = some true) ∧ ampthresh a n = .ok m ∧
    ∃ i j, pupil.px i j = some false ∧ m.px i j = some true := by
  have hnR : (4 : ℝ) ≤ n := by exact_mod_cast hn
  have he : Extremes (speckled n).pixels 0 (n : ℝ) := by
    rw [speckled_pixels]
    refine ⟨by simp, by simp, ?_⟩
    intro v hv
    simp only [List.mem_cons, List.not_mem_nil, or_false] at hv
    rcases hv with rfl | rfl | rfl | rfl | rfl | rfl <;> constructor <;> linarith
  have hd : ((n : ℝ) - 0) / (n : ℕ) = 1 := by
    rw [sub_zero, div_self]; positivity
  have hmin : InteriorMinimum (speckled n).pixels 0 (n : ℝ) n 1 := by
    refine ⟨le_rfl, by omega, 2, 1, 2, ?_, ?_, ?_, by norm_num, by norm_num⟩ <;>
      (unfold BinCount; rw [hd, speckled_pixels])
    · have f1 : ¬ ((n : ℝ) < 1) := by linarith
      have f2 : ¬ (1 = n) := by omega
      norm_num [List.filter_cons, f1, f2]
    · have f1 : ¬ ((n : ℝ) < 2) := by linarith
      have f2 : ¬ (2 = n) := by omega
      norm_num [List.filter_cons, f1, f2]
    · have f1 : ¬ ((n : ℝ) < 3) := by linarith
      have f2 : ¬ (3 = n) := by omega
      norm_num [List.filter_cons, f1, f2]
  have hthr := (ampThreshold_ok (speckled n).pixels 0 (n : ℝ) _ n he).mpr
    ⟨by linarith, 1, hmin, fun k' hk' hc => by have := hc.1; omega, rfl⟩
  rw [hd] at hthr
  refine ⟨speckled n, speckledPupil, (speckled n).map fun v => decide ((3 / 2 : ℝ) < v), 5 / 4, n, 5 / 4,
    speckled_noisy n, by linarith, ?_, ⟨0, 5, by simp [speckledPupil, Arr2.px_ofFn]⟩, ?_, 0, 3, ?_, ?_⟩
  · have : (4 * (n : ℝ) - 5) ≠ 0 := by linarith
    field_simp
  · unfold ampthresh
    rw [if_neg (by omega), Int.toNat_natCast, hthr]
    norm_num
  · simp [speckledPupil, Arr2.px_ofFn]
  · rw [Arr2.px_map]
    simp [speckled, Arr2.px_ofFn]
    norm_num

/-- A picture meeting the hypotheses of `C133_noise` with the default 21 bins: contrast 46, errors of up to 1. -/
example : ampthresh (Arr2.ofFn 1 4 fun _ j => if j = 0 then (1 : ℚ) else if j = 1 then -1 else if j = 2 then 45 else 47) 21
    = .ok (Arr2.ofFn 1 4 fun _ j => decide (2 ≤ j)) := by
  refine C133_noise _ _ 21 0 46 1 ⟨rfl, rfl, ?_, ?_⟩ (by norm_num) (by norm_num) (by norm_num)
    ⟨0, 2, by simp [Arr2.px_ofFn]⟩ ⟨0, 0, by simp [Arr2.px_ofFn]⟩
  · intro i j v hb hv
    rw [Arr2.px_ofFn] at hb hv
    split_ifs at hb hv with hin <;> simp only [Option.some.injEq, decide_eq_true_eq] at hb hv <;> rw [← hv] <;>
      first | omega | norm_num [abs_le]
  · intro i j v hb hv
    rw [Arr2.px_ofFn] at hb hv
    split_ifs at hb hv with hin <;> simp only [Option.some.injEq, decide_eq_false_iff_not] at hb hv <;> rw [← hv] <;>
      first | omega | norm_num [abs_le]

end Coralign.Props
