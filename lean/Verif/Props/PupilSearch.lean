import Verif.Model.PupilSearch
import Mathlib.Tactic.FieldSimp
import Mathlib.Tactic.Positivity

/-!
# Properties C51 and C52: the coarse pupil search
-/

namespace Coralign.Props

open Coralign Finset

/-! ### Specification -/

/-- Pixel `(i, j)` lies in the disc of diameter `nBeam` centred `(x, y)` pixels from the centre pixel. -/
def InBeam (img : Arr2 ℝ) (nBeam : ℝ) (x y : ℤ) (i j : ℕ) : Prop :=
  ((((j : ℤ) - (img.nc / 2 : ℕ) - x : ℤ) : ℝ)) ^ 2 + ((((i : ℤ) - (img.nr / 2 : ℕ) - y : ℤ) : ℝ)) ^ 2 ≤ (nBeam / 2) ^ 2

open scoped Classical in
/-- The light in that disc. -/
noncomputable def beamSum (img : Arr2 ℝ) (nBeam : ℝ) (x y : ℤ) : ℝ :=
  ∑ i : Fin img.nr, ∑ j : Fin img.nc, if InBeam img nBeam x y i j then img.val i j else 0

/-- `a` is one of `-radius, -radius + step, ...` up to `radius`. -/
def OnGrid (radius step a : ℤ) : Prop := ∃ k : ℕ, a = -radius + k * step ∧ a ≤ radius

/-! ### Bridge -/

theorem overlap_eq (img : Arr2 ℝ) (nBeam : ℝ) (hb : 0 < nBeam) (x y : ℤ) : overlapAt img nBeam x y = beamSum img nBeam x y := by
  unfold overlapAt beamSum
  rw [if_pos (by omega), if_pos (by omega)]
  refine Finset.sum_congr rfl fun i _ => Finset.sum_congr rfl fun j _ => ?_
  have : (Real.sqrt (((coordOf img.nc j - x : ℤ) : ℝ) ^ 2 + ((coordOf img.nr i - y : ℤ) : ℝ) ^ 2) ≤ nBeam / 2) ↔
      InBeam img nBeam x y i j := by
    rw [Real.sqrt_le_left (by positivity)]
    unfold InBeam coordOf
    rw [show -((img.nc / 2 : ℕ) : ℤ) + ((j : ℕ) : ℤ) - x = ((j : ℕ) : ℤ) - (img.nc / 2 : ℕ) - x by ring,
      show -((img.nr / 2 : ℕ) : ℤ) + ((i : ℕ) : ℤ) - y = ((i : ℕ) : ℤ) - (img.nr / 2 : ℕ) - y by ring]
  by_cases h : InBeam img nBeam x y i j
  · rw [if_pos h, if_pos (this.mpr h)]
  · rw [if_neg h, if_neg (fun hh => h (this.mp hh))]

theorem grid_iff (radius step : ℤ) (hr : 0 < radius) (hs : 0 < step) (a : ℤ) :
    OnGrid radius step a ↔ ∃ k : Fin (gridSize radius step), a = gridOffset radius step k := by
  have h0 : 0 ≤ 2 * radius / step := Int.ediv_nonneg (by omega) hs.le
  constructor
  · rintro ⟨k, rfl, hk⟩
    have : (k : ℤ) ≤ 2 * radius / step := by
      rw [Int.le_ediv_iff_mul_le hs]; linarith
    exact ⟨⟨k, by unfold gridSize; omega⟩, rfl⟩
  · rintro ⟨⟨k, hk⟩, rfl⟩
    refine ⟨k, rfl, ?_⟩
    unfold gridSize at hk
    have : (k : ℤ) ≤ 2 * radius / step := by omega
    rw [Int.le_ediv_iff_mul_le hs] at this
    unfold gridOffset
    simp only
    linarith

theorem grid_lt (radius step : ℤ) (hs : 0 < step) (k l : ℕ) : gridOffset radius step k < gridOffset radius step l ↔ k < l := by
  unfold gridOffset
  constructor
  · intro h
    have : (k : ℤ) * step < l * step := by linarith
    exact_mod_cast lt_of_mul_lt_mul_right this hs.le
  · intro h
    have : (k : ℤ) * step < l * step := mul_lt_mul_of_pos_right (by exact_mod_cast h) hs
    linarith

/-- **C52.** The offset returned is on the search grid around the starting point, no other grid offset collects more light, and among
those that collect the most it is the first in row-major order (lowest row, then lowest column). -/
theorem C52_best (img : Arr2 ℝ) (nBeam : ℝ) (xs ys radius step : ℤ) (hb : 0 < nBeam) (hr : 0 < radius) (hs : 0 < step) :
    ∃ x y M, coarseOnce img nBeam xs ys radius step = .ok ((x, y), M) ∧ OnGrid radius step (x - xs) ∧ OnGrid radius step (y - ys) ∧
      ∀ x' y', OnGrid radius step (x' - xs) → OnGrid radius step (y' - ys) →
        beamSum img nBeam x' y' ≤ beamSum img nBeam x y ∧
        ((y' < y ∨ y' = y ∧ x' < x) → beamSum img nBeam x' y' < beamSum img nBeam x y) := by
  have hn : 0 < gridSize radius step := by
    have h0 : 0 ≤ 2 * radius / step := Int.ediv_nonneg (by omega) hs.le
    unfold gridSize; omega
  unfold coarseOnce
  rw [if_neg (not_not.mpr hb), if_neg (by omega), if_neg (by omega)]
  simp only
  have hf := argmax2_spec (⟨gridSize radius step, gridSize radius step, fun iy ix =>
      overlapAt img nBeam (gridOffset radius step ix + xs) (gridOffset radius step iy + ys)⟩ : Arr2 ℝ) hn hn
  generalize argmax2 (⟨gridSize radius step, gridSize radius step, fun iy ix =>
      overlapAt img nBeam (gridOffset radius step ix + xs) (gridOffset radius step iy + ys)⟩ : Arr2 ℝ) = b at hf
  obtain ⟨h1, h2, h3, h4⟩ := hf
  simp only at h1 h2 h3 h4
  refine ⟨_, _, _, rfl, ?_, ?_, ?_⟩
  · rw [add_sub_cancel_right]; exact (grid_iff radius step hr hs _).mpr ⟨⟨b.2, h2⟩, rfl⟩
  · rw [add_sub_cancel_right]; exact (grid_iff radius step hr hs _).mpr ⟨⟨b.1, h1⟩, rfl⟩
  · intro x' y' hx hy
    obtain ⟨k, hk⟩ := (grid_iff radius step hr hs _).mp hx
    obtain ⟨l, hl⟩ := (grid_iff radius step hr hs _).mp hy
    have ex : x' = gridOffset radius step k + xs := by omega
    have ey : y' = gridOffset radius step l + ys := by omega
    rw [ex, ey]
    have m := h3 l k
    have f := h4 l k
    rw [overlap_eq img nBeam hb, overlap_eq img nBeam hb] at m f
    refine ⟨m, fun hlt => f ?_⟩
    rcases hlt with h | ⟨h, h'⟩
    · exact Or.inl ((grid_lt radius step hs _ _).mp (by linarith))
    · refine Or.inr ⟨?_, (grid_lt radius step hs _ _).mp (by linarith)⟩
      have e : gridOffset radius step l = gridOffset radius step b.1 := by linarith
      rcases Nat.lt_trichotomy (l : ℕ) b.1 with c | c | c
      · exact absurd e ((grid_lt radius step hs _ _).mpr c).ne
      · exact c
      · exact absurd e ((grid_lt radius step hs _ _).mpr c).ne'

/-- **C52.** The diagnostic matrix holds the light collected at each grid offset, rows for `y` and columns for `x`. -/
theorem C52_matrix (img : Arr2 ℝ) (nBeam : ℝ) (xs ys radius step x y : ℤ) (M : Arr2 ℝ)
    (h : coarseOnce img nBeam xs ys radius step = .ok ((x, y), M)) (k l : ℕ) (hk : -radius + k * step ≤ radius)
    (hl : -radius + l * step ≤ radius) :
    M.px l k = some (beamSum img nBeam (-radius + k * step + xs) (-radius + l * step + ys)) := by
  unfold coarseOnce at h
  split at h
  · cases h
  next hb =>
  split at h
  · cases h
  next hr =>
  split at h
  · cases h
  next hs =>
  have h2 := congrArg Prod.snd (Except.ok.inj h)
  simp only at h2
  subst h2
  rw [not_not] at hb
  obtain ⟨k', hk'⟩ := (grid_iff radius step (by omega) (by omega) (-radius + k * step)).mp ⟨k, rfl, hk⟩
  obtain ⟨l', hl'⟩ := (grid_iff radius step (by omega) (by omega) (-radius + l * step)).mp ⟨l, rfl, hl⟩
  have back : ∀ (a : ℕ) (b : Fin (gridSize radius step)), -radius + a * step = gridOffset radius step b → a = b := by
    intro a b e
    unfold gridOffset at e
    have : (a : ℤ) * step = (b : ℕ) * step := by linarith
    exact_mod_cast mul_right_cancel₀ (by omega : step ≠ 0) this
  have e1 := back k k' hk'
  have e2 := back l l' hl'
  rw [e1, e2]
  refine Eq.trans (Arr2.px_val (⟨gridSize radius step, gridSize radius step, fun iy ix =>
      overlapAt img nBeam (gridOffset radius step ix + xs) (gridOffset radius step iy + ys)⟩ : Arr2 ℝ) l' k') ?_
  simp only
  rw [overlap_eq img nBeam hb]
  rfl

/-- **C52.** Which arguments are accepted. -/
theorem C52_rejects (img : Arr2 ℝ) (nBeam : ℝ) (xs ys radius step : ℤ) :
    ((∃ r, coarseOnce img nBeam xs ys radius step = .ok r) ↔ 0 < nBeam ∧ 0 < radius ∧ 0 < step) ∧
    (¬ (0 < nBeam ∧ 0 < radius ∧ 0 < step) → coarseOnce img nBeam xs ys radius step = .error .typeError) := by
  unfold coarseOnce
  by_cases h1 : 0 < nBeam
  · by_cases h2 : radius ≤ 0
    · simp [h1, h2]
    · by_cases h3 : step ≤ 0
      · simp [h1, h2, h3]
      · simp [h1, h2, h3]
        omega
  · simp [h1]

/-- Along a line from the centre of the disc there is a last pixel inside. -/
theorem last_inside (nBeam : ℝ) (u v : ℤ) (h : ¬ (u = 0 ∧ v = 0)) :
    ∃ k : ℕ, (((k * u : ℤ) : ℝ) ^ 2 + ((k * v : ℤ) : ℝ) ^ 2 ≤ (nBeam / 2) ^ 2) ∧
      ¬ ((((k + 1 : ℕ) * u : ℤ) : ℝ) ^ 2 + (((k + 1 : ℕ) * v : ℤ) : ℝ) ^ 2 ≤ (nBeam / 2) ^ 2) := by
  have hpos : (1 : ℝ) ≤ (u : ℝ) ^ 2 + (v : ℝ) ^ 2 := by
    have : (1 : ℤ) ≤ u ^ 2 + v ^ 2 := by
      by_contra hc
      push Not at hc
      apply h
      have h1 := sq_nonneg u
      have h2 := sq_nonneg v
      exact ⟨by have : u ^ 2 = 0 := by omega
                exact pow_eq_zero_iff (two_ne_zero) |>.mp this,
             by have : v ^ 2 = 0 := by omega
                exact pow_eq_zero_iff (two_ne_zero) |>.mp this⟩
    exact_mod_cast this
  by_contra hno
  push Not at hno
  have all : ∀ k : ℕ, ((k * u : ℤ) : ℝ) ^ 2 + ((k * v : ℤ) : ℝ) ^ 2 ≤ (nBeam / 2) ^ 2 := by
    intro k
    induction k with
    | zero => simp; positivity
    | succ k ih => exact hno k ih
  obtain ⟨k, hk⟩ := exists_nat_gt ((nBeam / 2) ^ 2)
  have h1 := all (k + 1)
  push_cast at h1
  have : ((k : ℝ) + 1) ^ 2 * 1 ≤ ((k : ℝ) + 1) ^ 2 * ((u : ℝ) ^ 2 + (v : ℝ) ^ 2) := mul_le_mul_of_nonneg_left hpos (by positivity)
  have hk0 : (0 : ℝ) ≤ k := Nat.cast_nonneg k
  nlinarith

/-- **C52.** For an ideal pupil image - uniformly bright in a disc of the given diameter that lies in the image and is centred on a
grid offset, dark elsewhere - the search returns that offset. -/
theorem C52_ideal_pupil (img : Arr2 ℝ) (nBeam : ℝ) (xs ys radius step : ℤ) (hb : 0 < nBeam) (hr : 0 < radius) (hs : 0 < step)
    (a b : ℤ) (ha : OnGrid radius step (a - xs)) (hb' : OnGrid radius step (b - ys)) (c : ℝ) (hc : 0 < c)
    (hin : ∀ i j : ℤ, (((j - (img.nc / 2 : ℕ) - a : ℤ) : ℝ)) ^ 2 + (((i - (img.nr / 2 : ℕ) - b : ℤ) : ℝ)) ^ 2 ≤ (nBeam / 2) ^ 2 →
      img.px i j = some c)
    (hout : ∀ i j, ¬ InBeam img nBeam a b (i : Fin img.nr) (j : Fin img.nc) → img.val i j = 0) :
    ∃ M, coarseOnce img nBeam xs ys radius step = .ok ((a, b), M) := by
  classical
  obtain ⟨x, y, M, hok, hx, hy, hbest⟩ := C52_best img nBeam xs ys radius step hb hr hs
  have hle := (hbest a b ha hb').1
  by_cases he : x = a ∧ y = b
  · exact ⟨M, by rw [hok, he.1, he.2]⟩
  exfalso
  have hval : ∀ (i : Fin img.nr) (j : Fin img.nc), InBeam img nBeam a b i j → img.val i j = c := by
    intro i j hij
    have := hin (i : ℕ) (j : ℕ) hij
    rw [Arr2.px_val] at this
    exact Option.some.inj this
  have term : ∀ (i : Fin img.nr) (j : Fin img.nc), (if InBeam img nBeam x y i j then img.val i j else 0) ≤
      (if InBeam img nBeam a b i j then img.val i j else 0) := by
    intro i j
    by_cases h1 : InBeam img nBeam a b i j
    · rw [if_pos h1]
      split
      · exact le_rfl
      · rw [hval i j h1]; exact hc.le
    · rw [if_neg h1, hout i j h1, ite_self]
  obtain ⟨k, hk1, hk2⟩ := last_inside nBeam (a - x) (b - y) (by omega)
  have hpix := hin (k * (b - y) + (img.nr / 2 : ℕ) + b) (k * (a - x) + (img.nc / 2 : ℕ) + a) (by
    rw [show k * (a - x) + (img.nc / 2 : ℕ) + a - (img.nc / 2 : ℕ) - a = k * (a - x) by ring,
      show k * (b - y) + (img.nr / 2 : ℕ) + b - (img.nr / 2 : ℕ) - b = k * (b - y) by ring]
    exact hk1)
  have hbd := (Arr2.px_isSome img _ _).mp (by rw [hpix]; rfl)
  obtain ⟨⟨b1, b2⟩, b3, b4⟩ := hbd
  set I : ℤ := k * (b - y) + (img.nr / 2 : ℕ) + b with hI
  set J : ℤ := k * (a - x) + (img.nc / 2 : ℕ) + a with hJ
  let i0 : Fin img.nr := ⟨I.toNat, by omega⟩
  let j0 : Fin img.nc := ⟨J.toNat, by omega⟩
  have ei : ((i0 : ℕ) : ℤ) = I := Int.toNat_of_nonneg b1
  have ej : ((j0 : ℕ) : ℤ) = J := Int.toNat_of_nonneg b3
  have in1 : InBeam img nBeam a b i0 j0 := by
    unfold InBeam
    rw [ei, ej, hI, hJ, show k * (a - x) + (img.nc / 2 : ℕ) + a - (img.nc / 2 : ℕ) - a = k * (a - x) by ring,
      show k * (b - y) + (img.nr / 2 : ℕ) + b - (img.nr / 2 : ℕ) - b = k * (b - y) by ring]
    exact hk1
  have in2 : ¬ InBeam img nBeam x y i0 j0 := by
    unfold InBeam
    rw [ei, ej, hI, hJ, show k * (a - x) + (img.nc / 2 : ℕ) + a - (img.nc / 2 : ℕ) - x = (k + 1 : ℕ) * (a - x) by push_cast; ring,
      show k * (b - y) + (img.nr / 2 : ℕ) + b - (img.nr / 2 : ℕ) - y = (k + 1 : ℕ) * (b - y) by push_cast; ring]
    exact hk2
  have hlt : beamSum img nBeam x y < beamSum img nBeam a b := by
    unfold beamSum
    refine Finset.sum_lt_sum (fun i _ => Finset.sum_le_sum fun j _ => term i j) ⟨i0, Finset.mem_univ _, ?_⟩
    refine Finset.sum_lt_sum (fun j _ => term i0 j) ⟨j0, Finset.mem_univ _, ?_⟩
    rw [if_neg in2, if_pos in1, hval i0 j0 in1]
    exact hc
  linarith

/-- The intent of the bounds tests in the source, that the offset's pixel lies in the image. -/
def InImage (img : Arr2 ℝ) (x y : ℤ) : Prop :=
  (0 ≤ x + (img.nc / 2 : ℕ) ∧ x + (img.nc / 2 : ℕ) < img.nc) ∧ (0 ≤ y + (img.nr / 2 : ℕ) ∧ y + (img.nr / 2 : ℕ) < img.nr)

/-- **C52** (finding). The bounds tests are vacuous: from a dark 3 x 3 image the search returns an offset outside the image, though
offsets inside are on the grid. -/
theorem C52_may_leave_image : ¬ ∀ (img : Arr2 ℝ) (nBeam : ℝ) (xs ys radius step x y : ℤ) (M : Arr2 ℝ),
    coarseOnce img nBeam xs ys radius step = .ok ((x, y), M) → InImage img xs ys → InImage img x y := by
  intro h
  have hz : ∀ x y, beamSum (⟨3, 3, fun _ _ => 0⟩ : Arr2 ℝ) 1 x y = 0 := by
    intro x y
    unfold beamSum
    simp
  obtain ⟨x, y, M, hok, ⟨k, hk, hk'⟩, ⟨l, hl, hl'⟩, hbest⟩ := C52_best (⟨3, 3, fun _ _ => 0⟩ : Arr2 ℝ) 1 0 0 3 1 one_pos (by omega) (by omega)
  have := h _ _ _ _ _ _ _ _ _ hok (by unfold InImage; simp)
  have hx := hbest (-3) (-3) ⟨0, by omega, by omega⟩ ⟨0, by omega, by omega⟩
  rw [hz, hz] at hx
  have h2 := hx.2
  unfold InImage at this
  simp only at this
  have : (-3 < y ∨ -3 = y ∧ -3 < x) := by omega
  exact lt_irrefl _ (h2 this)

/-! ### C51 -/

theorem nextStep_spec (shrink : ℝ) (hs : 1 < shrink) (step : ℤ) (h : 1 ≤ step) :
    (step = 1 → nextStep shrink step = 0) ∧
    (step ≠ 1 → nextStep shrink step = max 1 ⌊(step : ℝ) / shrink⌋ ∧ 1 ≤ nextStep shrink step ∧ nextStep shrink step < step) := by
  unfold nextStep
  refine ⟨fun h1 => if_pos h1, fun h1 => ?_⟩
  rw [if_neg h1]
  simp only
  have hlt : ⌊(step : ℝ) / shrink⌋ < step := by
    rw [Int.floor_lt, div_lt_iff₀ (by linarith)]
    have : (1 : ℝ) ≤ step := by exact_mod_cast h
    nlinarith
  split
  · next c => rw [max_eq_left (by omega)]; omega
  · next c => rw [max_eq_right (by omega)]; omega

/-- The steps of a terminating search: each is the previous one divided by the shrink factor, rounded down but at least 1, and the
search stops after the round with step 1. -/
def StepChain (shrink : ℝ) : ℤ → List ℤ → Prop
  | _, [] => False
  | s, [t] => t = s ∧ s = 1
  | s, t :: u :: rest => t = s ∧ u < t ∧ u = max 1 ⌊(t : ℝ) / shrink⌋ ∧ StepChain shrink u (u :: rest)

theorem loop_terminates (img : Arr2 ℝ) (nBeam shrink : ℝ) (hb : 0 < nBeam) (hs : 1 < shrink) (n : ℕ) :
    ∀ (est : Option (ℤ × ℤ)) (xs ys radius step : ℤ), 0 < radius → 1 ≤ step → step ≤ n → ∀ fuel, n + 1 ≤ fuel →
      ∃ x y steps, coarseLoop img nBeam shrink fuel est xs ys radius step = some (.ok ((x, y), steps)) ∧
        StepChain shrink step steps ∧ steps.length ≤ n := by
  induction n with
  | zero => intro _ _ _ _ step _ h1 h2; omega
  | succ n ih =>
    intro est xs ys radius step hr h1 h2 fuel hf
    obtain ⟨fuel, rfl⟩ : ∃ f, fuel = f + 1 := ⟨fuel - 1, by omega⟩
    obtain ⟨x, y, M, hok, -⟩ := C52_best img nBeam xs ys radius step hb hr (by omega)
    obtain ⟨hn1, hn2⟩ := nextStep_spec shrink hs step h1
    unfold coarseLoop
    rw [if_neg (by omega), hok]
    simp only
    by_cases hone : step = 1
    · rw [hn1 hone]
      obtain ⟨fuel, rfl⟩ : ∃ f, fuel = f + 1 := ⟨fuel - 1, by omega⟩
      unfold coarseLoop
      simp only [if_true]
      exact ⟨x, y, [step], rfl, ⟨rfl, hone⟩, by simp⟩
    · obtain ⟨e, l1, l2⟩ := hn2 hone
      obtain ⟨x', y', steps, h3, h4, h5⟩ := ih (some (x, y)) x y (2 * step) (nextStep shrink step) (by omega) l1 (by omega) fuel (by omega)
      rw [h3]
      refine ⟨x', y', step :: steps, rfl, ?_, by simp; omega⟩
      match steps, h4 with
      | [t], ⟨h, h'⟩ => exact ⟨rfl, by omega, by omega, rfl, by omega⟩
      | t :: u :: rest, h =>
        obtain ⟨g1, g2⟩ := h
        subst g1
        exact ⟨rfl, l2, e, rfl, g2⟩

/-- **C51.** For every image with at least two pixels along some axis, every beam size and every shrink factor above 1, the search
terminates with an estimate.  It takes at most as many rounds as its first step, its steps decrease strictly, each by the
shrink factor, and the last one is 1. -/
theorem C51_terminates (img : Arr2 ℝ) (nBeam shrink : ℝ) (hb : 0 < nBeam) (hs : 1 < shrink) (hn : 2 ≤ img.nr ∨ 2 ≤ img.nc) :
    ∃ x y steps, StepChain shrink (max 1 ⌊nBeam / shrink⌋) steps ∧ steps.length ≤ (max 1 ⌊nBeam / shrink⌋).toNat ∧
      ∀ fuel, (max 1 ⌊nBeam / shrink⌋).toNat < fuel → coarselyLocate fuel img nBeam shrink = some (.ok ((x, y), steps)) := by
  have hstep : 1 ≤ max 1 ⌊nBeam / shrink⌋ := le_max_left _ _
  generalize hS : max 1 ⌊nBeam / shrink⌋ = S at hstep
  have key : ∀ fuel, S.toNat + 1 ≤ fuel → ∃ x y steps, coarselyLocate fuel img nBeam shrink = some (.ok ((x, y), steps)) ∧
      StepChain shrink S steps ∧ steps.length ≤ S.toNat := by
    intro fuel hf
    unfold coarselyLocate
    rw [if_neg (not_not.mpr hb), if_neg (by push Not; linarith), if_neg (by push Not; exact hs), hS]
    exact loop_terminates img nBeam shrink hb hs S.toNat none 0 0 _ S (by omega) hstep (by omega) fuel hf
  have mono : ∀ (f : ℕ) est xs ys radius step r, coarseLoop img nBeam shrink f est xs ys radius step = some r →
      coarseLoop img nBeam shrink (f + 1) est xs ys radius step = some r := by
    intro f
    induction f with
    | zero => intro _ _ _ _ _ _ h; exact absurd h (by simp [coarseLoop])
    | succ f ih =>
      intro est xs ys radius step r h
      unfold coarseLoop at h ⊢
      by_cases h0 : step = 0
      · rw [if_pos h0] at h ⊢; exact h
      · rw [if_neg h0] at h ⊢
        cases hc : coarseOnce img nBeam xs ys radius step with
        | error e => rw [hc] at h; exact h
        | ok p =>
          obtain ⟨e, M⟩ := p
          rw [hc] at h
          simp only at h ⊢
          cases hl : coarseLoop img nBeam shrink f (some e) e.1 e.2 (2 * step) (nextStep shrink step) with
          | none => rw [hl] at h; cases h
          | some q => rw [hl] at h; rw [ih _ _ _ _ _ _ hl]; exact h
  have mono' : ∀ f r, coarselyLocate f img nBeam shrink = some r → coarselyLocate (f + 1) img nBeam shrink = some r := by
    intro f r h
    unfold coarselyLocate at h ⊢
    rw [if_neg (not_not.mpr hb), if_neg (by push Not; linarith), if_neg (by push Not; exact hs)] at h ⊢
    exact mono f _ _ _ _ _ _ h
  obtain ⟨x, y, steps, h1, h2, h3⟩ := key (S.toNat + 1) le_rfl
  refine ⟨x, y, steps, h2, h3, fun fuel hf => ?_⟩
  obtain ⟨d, rfl⟩ := Nat.exists_eq_add_of_le (show S.toNat + 1 ≤ fuel by omega)
  clear hf
  induction d with
  | zero => exact h1
  | succ d ih => exact mono' _ _ ih

/-- **C51.** The other cases: a shrink factor of at most 1 or a bad beam size is refused, and so is an image of a single pixel. -/
theorem C51_rejects (img : Arr2 ℝ) (nBeam shrink : ℝ) (h : nBeam ≤ 0 ∨ shrink ≤ 1 ∨ (img.nr ≤ 1 ∧ img.nc ≤ 1)) (fuel : ℕ) :
    coarselyLocate (fuel + 1) img nBeam shrink = some (.error .typeError) := by
  unfold coarselyLocate
  by_cases h1 : 0 < nBeam
  swap
  · rw [if_pos h1]
  rw [if_neg (not_not.mpr h1)]
  by_cases h2 : shrink ≤ 1
  · rw [if_pos h2, ite_self]
  rw [if_neg (by push Not at h2 ⊢; linarith), if_neg h2]
  have h3 : img.nr ≤ 1 ∧ img.nc ≤ 1 := by
    rcases h with h | h | h
    · linarith
    · exact absurd h h2
    · exact h
  unfold coarseLoop
  rw [if_neg (by have := le_max_left (1 : ℤ) ⌊nBeam / shrink⌋; omega)]
  have : coarseOnce img nBeam 0 0 (max (img.nc / 2 : ℕ) (img.nr / 2 : ℕ)) (max 1 ⌊nBeam / shrink⌋) = .error .typeError :=
    (C52_rejects img nBeam 0 0 _ _).2 (by omega)
  rw [this]

/-- `C51_terminates`: with a beam of 30 pixels and the default shrink factor 3 the steps are 10, 3, 1. -/
example : StepChain 3 (max 1 ⌊(30 : ℝ) / 3⌋) [10, 3, 1] := by
  have e1 : ⌊(30 : ℝ) / 3⌋ = 10 := by norm_num
  have e2 : ⌊(10 : ℝ) / 3⌋ = 3 := by rw [Int.floor_eq_iff]; norm_num
  have e3 : ⌊(3 : ℝ) / 3⌋ = 1 := by norm_num
  rw [e1]
  refine ⟨by norm_num, by norm_num, ?_, ⟨by norm_num, by norm_num, ?_, ⟨by norm_num, rfl⟩⟩⟩
  · push_cast; rw [e2]; norm_num
  · push_cast; rw [e3]; norm_num

/-- `C52_ideal_pupil`: a 7 x 7 image with a disc of diameter 2 (a plus sign) one pixel right of and one below the centre. -/
example : ∃ M, coarseOnce (⟨7, 7, fun i j => if ((j : ℕ) - 4 : ℤ) ^ 2 + ((i : ℕ) - 2 : ℤ) ^ 2 ≤ 1 then 5 else 0⟩ : Arr2 ℝ) 2 0 0 3 1 =
    .ok ((1, -1), M) := by
  refine C52_ideal_pupil _ 2 0 0 3 1 (by norm_num) (by omega) (by omega) 1 (-1) ⟨4, by omega, by omega⟩ ⟨2, by omega, by omega⟩ 5
    (by norm_num) ?_ ?_
  · intro i j h
    have h' : (j - (7 / 2 : ℕ) - 1) ^ 2 + (i - (7 / 2 : ℕ) - -1) ^ 2 ≤ 1 := by
      have h2 : (((j - (7 / 2 : ℕ) - 1) ^ 2 + (i - (7 / 2 : ℕ) - -1) ^ 2 : ℤ) : ℝ) ≤ ((1 : ℤ) : ℝ) := by
        push_cast at h ⊢
        norm_num at h ⊢
        exact h
      exact_mod_cast h2
    norm_num at h'
    have hj : -1 ≤ j - 4 ∧ j - 4 ≤ 1 := by constructor <;> nlinarith
    have hi : -1 ≤ i - 2 ∧ i - 2 ≤ 1 := by constructor <;> nlinarith
    rw [Arr2.px_of_inB _ (by simp only; omega)]
    simp only
    have e1 : ((j.toNat : ℕ) : ℤ) = j := Int.toNat_of_nonneg (by omega)
    have e2 : ((i.toNat : ℕ) : ℤ) = i := Int.toNat_of_nonneg (by omega)
    rw [e1, e2, if_pos (by nlinarith)]
  · intro i j h
    unfold InBeam at h
    simp only at h ⊢
    rw [if_neg]
    intro hc
    apply h
    have h2 : (((((j : ℕ) : ℤ) - 4) ^ 2 + (((i : ℕ) : ℤ) - 2) ^ 2 : ℤ) : ℝ) ≤ ((1 : ℤ) : ℝ) := by exact_mod_cast hc
    push_cast at h2 ⊢
    norm_num
    linarith

end Coralign.Props
