import Verif.Props.FindOptFit
import Verif.Props.Center

/-!
# Property C120: the optimum and the centroid follow the axes of the data
-/

namespace Coralign.Props

open Coralign Coralign.Spec

/-! ### Specification -/

/-- Rows and columns exchanged. -/
def axesExchanged {α : Type} (a : Arr2 α) : Arr2 α := ⟨a.nc, a.nr, fun j i => a.val i j⟩

/-- The image upside down. -/
def upsideDown {α : Type} (a : Arr2 α) : Arr2 α := ⟨a.nr, a.nc, fun i j => a.val i.rev j⟩

/-- The image mirrored left to right. -/
def leftRight {α : Type} (a : Arr2 α) : Arr2 α := ⟨a.nr, a.nc, fun i j => a.val i j.rev⟩

/-! ### One dimension -/

theorem misfit_axis (xs ys : List ℝ) (s u a b c : ℝ) :
    parabolaMisfit ((xs.map fun x => s * x + u).zip ys) a b c = parabolaMisfit (xs.zip ys) (a * s ^ 2) (2 * a * s * u + b * s) (a * u ^ 2 + b * u + c) := by
  unfold parabolaMisfit
  rw [List.zip_map_left, List.map_map]
  congr 1
  refine List.map_congr_left fun p _ => ?_
  simp only [Function.comp, Prod.map_fst, Prod.map_snd, id]
  ring

theorem best_axis {xs ys : List ℝ} {a b c : ℝ} (h : BestParabola (xs.zip ys) a b c) (s u : ℝ) (hs : s ≠ 0) :
    BestParabola ((xs.map fun x => s * x + u).zip ys) (a / s ^ 2) (b / s - 2 * a * u / s ^ 2) (c - b * u / s + a * u ^ 2 / s ^ 2) := by
  intro a' b' c'
  rw [misfit_axis, misfit_axis]
  have e1 : a / s ^ 2 * s ^ 2 = a := by field_simp
  have e2 : 2 * (a / s ^ 2) * s * u + (b / s - 2 * a * u / s ^ 2) * s = b := by field_simp; ring
  have e3 : a / s ^ 2 * u ^ 2 + (b / s - 2 * a * u / s ^ 2) * u + (c - b * u / s + a * u ^ 2 / s ^ 2) = c := by field_simp; ring
  rw [e1, e2, e3]
  exact h _ _ _

theorem three_axis {xs : List ℝ} (h : ThreeValues xs) (s u : ℝ) (hs : s ≠ 0) : ThreeValues (xs.map fun x => s * x + u) := by
  obtain ⟨x, hx, y, hy, z, hz, h1, h2, h3⟩ := h
  have inj : ∀ p q : ℝ, p ≠ q → s * p + u ≠ s * q + u := by
    intro p q hpq hc
    exact hpq (mul_left_cancel₀ hs (by linarith))
  exact ⟨_, List.mem_map.mpr ⟨x, hx, rfl⟩, _, List.mem_map.mpr ⟨y, hy, rfl⟩, _, List.mem_map.mpr ⟨z, hz, rfl⟩, inj _ _ h1, inj _ _ h2, inj _ _ h3⟩

/-- **C120.** Moving the abscissae of `find_optimum_1d` by a distance, and possibly reversing their direction (`s = -1`), does the same to the answer; and data
without a curvature are refused as before. -/
theorem C120_moved_1d (S : Solver) (xs ys : List ℝ) (h3 : ThreeValues xs) (s u : ℝ) (hs : s = 1 ∨ s = -1) :
    findOptimum1d S (xs.map fun x => s * x + u) ys = (findOptimum1d S xs ys).map fun v => s * v + u := by
  have hs0 : s ≠ 0 := by rcases hs with rfl | rfl <;> norm_num
  have hs2 : s ^ 2 = 1 := by rcases hs with rfl | rfl <;> norm_num
  by_cases hl : xs.length = ys.length
  · obtain ⟨a, b, c, hb⟩ := C13_best_exists xs ys hl
    have h1 := C13_best_fit S xs ys hl h3 a b c hb
    have h2 := C13_best_fit S (xs.map fun x => s * x + u) ys (by simpa using hl) (three_axis h3 s u hs0) _ _ _ (best_axis hb s u hs0)
    rw [hs2, div_one, div_one] at h2
    by_cases ha : (1 : ℝ) / 2 ^ 52 ≤ |a|
    · have ha0 : a ≠ 0 := by
        rintro rfl
        rw [abs_zero] at ha
        norm_num at ha
      rw [h1.1 ha, h2.1 ha]
      show Except.ok _ = Except.ok _
      congr 1
      rcases hs with rfl | rfl <;> field_simp <;> ring
    · rw [h1.2 (not_le.mp ha), h2.2 (not_le.mp ha)]
      rfl
  · rw [C13_length_mismatch S xs ys hl, C13_length_mismatch S _ ys (by simpa using hl)]
    rfl

/-- **C120.** In other units of the abscissae the answer is the same position, unless one of the two fits is refused. -/
theorem C120_stretched_1d (S : Solver) (xs ys : List ℝ) (h3 : ThreeValues xs) (s u : ℝ) (hs : s ≠ 0) (v v' : ℝ) (h : findOptimum1d S xs ys = .ok v)
    (h' : findOptimum1d S (xs.map fun x => s * x + u) ys = .ok v') : v' = s * v + u := by
  have hl : xs.length = ys.length := by
    by_contra hne
    rw [C13_length_mismatch S xs ys hne] at h
    cases h
  obtain ⟨a, b, c, hb⟩ := C13_best_exists xs ys hl
  have h1 := C13_best_fit S xs ys hl h3 a b c hb
  have h2 := C13_best_fit S (xs.map fun x => s * x + u) ys (by simpa using hl) (three_axis h3 s u hs) _ _ _ (best_axis hb s u hs)
  by_cases ha : (1 : ℝ) / 2 ^ 52 ≤ |a|
  · by_cases ha' : (1 : ℝ) / 2 ^ 52 ≤ |a / s ^ 2|
    · have ha0 : a ≠ 0 := by
        rintro rfl
        rw [abs_zero] at ha
        norm_num at ha
      rw [h1.1 ha] at h
      rw [h2.1 ha'] at h'
      rw [← Except.ok.inj h, ← Except.ok.inj h']
      field_simp
      ring
    · rw [h2.2 (not_le.mp ha')] at h'
      cases h'
  · rw [h1.2 (not_le.mp ha)] at h
    cases h

/-- **C120.** A constant added to the data does not change the outcome. -/
theorem C120_constant_1d (S : Solver) (xs ys : List ℝ) (h3 : ThreeValues xs) (k : ℝ) :
    findOptimum1d S xs (ys.map fun v => v + k) = findOptimum1d S xs ys := by
  by_cases hl : xs.length = ys.length
  · obtain ⟨a, b, c, hb⟩ := C13_best_exists xs ys hl
    have e : ∀ a b c : ℝ, parabolaMisfit (xs.zip (ys.map fun v => v + k)) a b c = parabolaMisfit (xs.zip ys) a b (c - k) := by
      intro a b c
      unfold parabolaMisfit
      rw [List.zip_map_right, List.map_map]
      congr 1
      refine List.map_congr_left fun p _ => ?_
      simp only [Function.comp, Prod.map_fst, Prod.map_snd, id]
      ring
    have hb' : BestParabola (xs.zip (ys.map fun v => v + k)) a b (c + k) := by
      intro a' b' c'
      rw [e, e, add_sub_cancel_right]
      exact hb _ _ _
    have h1 := C13_best_fit S xs ys hl h3 a b c hb
    have h2 := C13_best_fit S xs (ys.map fun v => v + k) (by simpa using hl) h3 _ _ _ hb'
    by_cases ha : (1 : ℝ) / 2 ^ 52 ≤ |a|
    · rw [h1.1 ha, h2.1 ha]
    · rw [h1.2 (not_le.mp ha), h2.2 (not_le.mp ha)]
  · rw [C13_length_mismatch S xs ys hl, C13_length_mismatch S xs _ (by simpa using hl)]

/-- **C120.** The order in which the samples are listed does not matter. -/
theorem C120_order_1d (S : Solver) (xs ys xs' ys' : List ℝ) (hl : xs.length = ys.length) (hl' : xs'.length = ys'.length) (h3 : ThreeValues xs)
    (hp : (xs.zip ys).Perm (xs'.zip ys')) : findOptimum1d S xs' ys' = findOptimum1d S xs ys := by
  obtain ⟨a, b, c, hb⟩ := C13_best_exists xs ys hl
  have e : ∀ a b c : ℝ, parabolaMisfit (xs'.zip ys') a b c = parabolaMisfit (xs.zip ys) a b c := fun a b c => ((hp.map _).sum_eq).symm
  have hb' : BestParabola (xs'.zip ys') a b c := by
    intro a' b' c'
    rw [e, e]
    exact hb _ _ _
  have h3' : ThreeValues xs' := by
    have hx : xs.Perm xs' := by
      have := hp.map Prod.fst
      rwa [List.map_fst_zip hl.le, List.map_fst_zip hl'.le] at this
    obtain ⟨x, h1, y, h2, z, h3, g⟩ := h3
    exact ⟨x, hx.subset h1, y, hx.subset h2, z, hx.subset h3, g⟩
  have h1 := C13_best_fit S xs ys hl h3 a b c hb
  have h2 := C13_best_fit S xs' ys' hl' h3' a b c hb'
  by_cases ha : (1 : ℝ) / 2 ^ 52 ≤ |a|
  · rw [h1.1 ha, h2.1 ha]
  · rw [h1.2 (not_le.mp ha), h2.2 (not_le.mp ha)]

/-! ### Two dimensions -/

theorem refused_2d (S : Solver) (xs ys : List ℝ) (arr : Arr2 ℝ) (mask : Arr2 Bool)
    (h : ¬ (arr.nr = mask.nr ∧ arr.nc = mask.nc ∧ arr.nr = ys.length ∧ arr.nc = xs.length)) : findOptimum2d S xs ys arr mask = .error .valueError := by
  unfold findOptimum2d
  by_cases h1 : arr.nr ≠ mask.nr ∨ arr.nc ≠ mask.nc
  · rw [dif_pos h1]
  · rw [dif_neg h1]
    push Not at h1
    by_cases h2 : arr.nr ≠ ys.length
    · rw [dif_pos h2]
    · rw [dif_neg h2]
      by_cases h3 : arr.nc ≠ xs.length
      · rw [dif_pos h3]
      · exact absurd ⟨h1.1, h1.2, not_not.mp h2, not_not.mp h3⟩ h

/-- Two points at which both partial derivatives vanish are one. -/
theorem stationary_unique (a b c d e x y x' y' : ℝ) (hD : b * b - 4 * a * c ≠ 0) (h1 : 2 * a * x + b * y + d = 0) (h2 : b * x + 2 * c * y + e = 0)
    (h3 : 2 * a * x' + b * y' + d = 0) (h4 : b * x' + 2 * c * y' + e = 0) : x' = x ∧ y' = y := by
  constructor
  · have : (b * b - 4 * a * c) * (x' - x) = 0 := by linear_combination b * (h4 - h2) - 2 * c * (h3 - h1)
    exact sub_eq_zero.mp ((mul_eq_zero.mp this).resolve_left hD)
  · have : (b * b - 4 * a * c) * (y' - y) = 0 := by linear_combination b * (h3 - h1) - 2 * a * (h4 - h2)
    exact sub_eq_zero.mp ((mul_eq_zero.mp this).resolve_left hD)

theorem getD_axis (xs : List ℝ) (s u : ℝ) (j : ℕ) (h : j < xs.length) : (xs.map fun x => s * x + u).getD j 0 = s * xs.getD j 0 + u := by
  rw [List.getD_eq_getElem _ _ (by simpa using h), List.getD_eq_getElem _ _ h, List.getElem_map]

theorem surface_axis (xs ys : List ℝ) (arr : Arr2 ℝ) (mask : Arr2 Bool) (hy : arr.nr = ys.length) (hx : arr.nc = xs.length) (s u t v a b c d e f : ℝ) :
    surfaceMisfit (xs.map fun x => s * x + u) (ys.map fun y => t * y + v) arr mask a b c d e f =
      surfaceMisfit xs ys arr mask (a * s ^ 2) (b * s * t) (c * t ^ 2) (2 * a * s * u + b * s * v + d * s) (b * t * u + 2 * c * t * v + e * t)
        (a * u ^ 2 + b * u * v + c * v ^ 2 + d * u + e * v + f) := by
  classical
  unfold surfaceMisfit
  refine Finset.sum_congr rfl fun i _ => Finset.sum_congr rfl fun j _ => ?_
  rw [getD_axis xs s u j (by omega), getD_axis ys t v i (by omega)]
  split_ifs
  · ring
  · rfl

theorem surface_best_axis {xs ys : List ℝ} {arr : Arr2 ℝ} {mask : Arr2 Bool} (hy : arr.nr = ys.length) (hx : arr.nc = xs.length) {a b c d e f : ℝ}
    (h : BestSurface xs ys arr mask a b c d e f) (s u t v : ℝ) (hs : s ≠ 0) (ht : t ≠ 0) :
    ∃ f', BestSurface (xs.map fun x => s * x + u) (ys.map fun y => t * y + v) arr mask (a / s ^ 2) (b / (s * t)) (c / t ^ 2)
      (d / s - 2 * a * u / s ^ 2 - b * v / (s * t)) (e / t - b * u / (s * t) - 2 * c * v / t ^ 2) f' := by
  refine ⟨f - (a / s ^ 2 * u ^ 2 + b / (s * t) * u * v + c / t ^ 2 * v ^ 2 + (d / s - 2 * a * u / s ^ 2 - b * v / (s * t)) * u +
    (e / t - b * u / (s * t) - 2 * c * v / t ^ 2) * v), fun a' b' c' d' e' f' => ?_⟩
  rw [surface_axis xs ys arr mask hy hx, surface_axis xs ys arr mask hy hx]
  have e1 : a / s ^ 2 * s ^ 2 = a := by field_simp
  have e2 : b / (s * t) * s * t = b := by field_simp
  have e3 : c / t ^ 2 * t ^ 2 = c := by field_simp
  have e4 : 2 * (a / s ^ 2) * s * u + b / (s * t) * s * v + (d / s - 2 * a * u / s ^ 2 - b * v / (s * t)) * s = d := by field_simp; ring
  have e5 : b / (s * t) * t * u + 2 * (c / t ^ 2) * t * v + (e / t - b * u / (s * t) - 2 * c * v / t ^ 2) * t = e := by field_simp; ring
  rw [e1, e2, e3, e4, e5, show ∀ p q r w z f : ℝ, p + q + r + w + z + (f - (p + q + r + w + z)) = f from fun _ _ _ _ _ _ => by ring]
  exact h _ _ _ _ _ _

theorem determines_axis {xs ys : List ℝ} {mask : Arr2 Bool} (h : DeterminesQuadratic xs ys mask) (s u t v : ℝ) (hs : s ≠ 0) (ht : t ≠ 0) :
    DeterminesQuadratic (xs.map fun x => s * x + u) (ys.map fun y => t * y + v) mask := by
  intro a b c d e f hz
  obtain ⟨h1, h2, h3, h4, h5, h6⟩ := h (a * s ^ 2) (b * (s * t)) (c * t ^ 2) (s * (2 * a * u + b * v + d)) (t * (b * u + 2 * c * v + e))
    (a * u ^ 2 + b * u * v + c * v ^ 2 + d * u + e * v + f) (by
      intro i j x y hm hx hy
      have := hz i j (s * x + u) (t * y + v) hm (by rw [List.getElem?_map, hx]; rfl) (by rw [List.getElem?_map, hy]; rfl)
      linear_combination this)
  have ha : a = 0 := (mul_eq_zero.mp h1).resolve_right (pow_ne_zero 2 hs)
  have hb : b = 0 := (mul_eq_zero.mp h2).resolve_right (mul_ne_zero hs ht)
  have hc : c = 0 := (mul_eq_zero.mp h3).resolve_right (pow_ne_zero 2 ht)
  subst ha hb hc
  have hd : d = 0 := by simpa using (mul_eq_zero.mp h4).resolve_left hs
  have he : e = 0 := by simpa using (mul_eq_zero.mp h5).resolve_left ht
  subst hd he
  exact ⟨rfl, rfl, rfl, rfl, rfl, by simpa using h6⟩

/-- What `find_optimum_2d` does with the best surface, as one alternative. -/
theorem optimum_2d_cases (S : Solver) (xs ys : List ℝ) (arr : Arr2 ℝ) (mask : Arr2 Bool)
    (hr : arr.nr = mask.nr) (hc : arr.nc = mask.nc) (hy : arr.nr = ys.length) (hx : arr.nc = xs.length)
    (a b c d e f : ℝ) (hb : BestSurface xs ys arr mask a b c d e f) (hd : DeterminesQuadratic xs ys mask) :
    (b * b - 4 * a * c ≠ 0 ∧ ¬ (|b * b - 4 * a * c| < 4 * (1 / 10 ^ 15) ∨ |2 * c| < 2 * (1 / 10 ^ 15)) ∧
      ∃ x y, findOptimum2d S xs ys arr mask = .ok (x, y) ∧ 2 * a * x + b * y + d = 0 ∧ b * x + 2 * c * y + e = 0) ∨
    ((|b * b - 4 * a * c| < 4 * (1 / 10 ^ 15) ∨ |2 * c| < 2 * (1 / 10 ^ 15)) ∧ findOptimum2d S xs ys arr mask = .error .quadraticException) := by
  have h := C14_best_fit S xs ys arr mask hr hc hy hx a b c d e f hb hd
  by_cases hbad : |b * b - 4 * a * c| < 4 * (1 / 10 ^ 15) ∨ |2 * c| < 2 * (1 / 10 ^ 15)
  · exact Or.inr ⟨hbad, h.2 hbad⟩
  · refine Or.inl ⟨?_, hbad, ?_⟩
    · push Not at hbad
      intro h0
      have := hbad.1
      rw [h0, abs_zero] at this
      norm_num at this
    · push Not at hbad
      exact h.1 hbad.1 hbad.2

/-- **C120.** Moving the coordinates of `find_optimum_2d` along either axis, and possibly reversing either direction, does the same to the answer; and flat data are
refused as before. -/
theorem C120_moved_2d (S : Solver) (xs ys : List ℝ) (arr : Arr2 ℝ) (mask : Arr2 Bool) (hd : DeterminesQuadratic xs ys mask) (s u t v : ℝ) (hs : s = 1 ∨ s = -1)
    (ht : t = 1 ∨ t = -1) :
    findOptimum2d S (xs.map fun x => s * x + u) (ys.map fun y => t * y + v) arr mask =
      (findOptimum2d S xs ys arr mask).map fun q => (s * q.1 + u, t * q.2 + v) := by
  by_cases hsh : arr.nr = mask.nr ∧ arr.nc = mask.nc ∧ arr.nr = ys.length ∧ arr.nc = xs.length
  · obtain ⟨hr, hc, hy, hx⟩ := hsh
    have hs0 : s ≠ 0 := by rcases hs with rfl | rfl <;> norm_num
    have ht0 : t ≠ 0 := by rcases ht with rfl | rfl <;> norm_num
    have hs2 : s ^ 2 = 1 := by rcases hs with rfl | rfl <;> norm_num
    have ht2 : t ^ 2 = 1 := by rcases ht with rfl | rfl <;> norm_num
    obtain ⟨a, b, c, d, e, f, hb⟩ := C14_best_exists xs ys arr mask hr hc hy hx
    obtain ⟨f', hb'⟩ := surface_best_axis hy hx hb s u t v hs0 ht0
    have k1 := optimum_2d_cases S xs ys arr mask hr hc hy hx a b c d e f hb hd
    have k2 := optimum_2d_cases S _ _ arr mask hr hc (by simpa using hy) (by simpa using hx) _ _ _ _ _ _ hb' (determines_axis hd s u t v hs0 ht0)
    rw [hs2, ht2, div_one, div_one, div_one, div_one] at k2
    have hD : b / (s * t) * (b / (s * t)) - 4 * a * c = b * b - 4 * a * c := by
      rw [div_mul_div_comm, show s * t * (s * t) = s ^ 2 * t ^ 2 by ring, hs2, ht2, mul_one, div_one]
    rw [hD] at k2
    rcases k1 with ⟨hD0, hg, x, y, e1, g1, g2⟩ | ⟨hbad, e1⟩
    · rcases k2 with ⟨-, -, x', y', e2, g3, g4⟩ | ⟨hbad, -⟩
      · rw [e1, e2]
        show Except.ok _ = Except.ok _
        obtain ⟨q1, q2⟩ := stationary_unique a (b / (s * t)) c (d / s - 2 * a * u - b * v / (s * t)) (e / t - b * u / (s * t) - 2 * c * v) (s * x + u) (t * y + v) x' y'
          (by rw [hD]; exact hD0) (by
            rcases hs with rfl | rfl <;> rcases ht with rfl | rfl <;> norm_num <;> linarith) (by
            rcases hs with rfl | rfl <;> rcases ht with rfl | rfl <;> norm_num <;> linarith) g3 g4
        rw [q1, q2]
      · exact absurd hbad hg
    · rcases k2 with ⟨-, hg, -⟩ | ⟨-, e2⟩
      · exact absurd hbad hg
      · rw [e1, e2]
        rfl
  · rw [refused_2d S xs ys arr mask hsh, refused_2d S _ _ arr mask (by simpa using hsh)]
    rfl

/-- **C120.** In other units of the coordinates, even different ones along the two axes, the answer is the same position, unless one of the two fits is refused. -/
theorem C120_stretched_2d (S : Solver) (xs ys : List ℝ) (arr : Arr2 ℝ) (mask : Arr2 Bool) (hd : DeterminesQuadratic xs ys mask) (s u t v : ℝ) (hs : s ≠ 0)
    (ht : t ≠ 0) (p q : ℝ × ℝ) (h : findOptimum2d S xs ys arr mask = .ok p)
    (h' : findOptimum2d S (xs.map fun x => s * x + u) (ys.map fun y => t * y + v) arr mask = .ok q) : q = (s * p.1 + u, t * p.2 + v) := by
  by_cases hsh : arr.nr = mask.nr ∧ arr.nc = mask.nc ∧ arr.nr = ys.length ∧ arr.nc = xs.length
  · obtain ⟨hr, hc, hy, hx⟩ := hsh
    obtain ⟨a, b, c, d, e, f, hb⟩ := C14_best_exists xs ys arr mask hr hc hy hx
    obtain ⟨f', hb'⟩ := surface_best_axis hy hx hb s u t v hs ht
    have k1 := optimum_2d_cases S xs ys arr mask hr hc hy hx a b c d e f hb hd
    have k2 := optimum_2d_cases S _ _ arr mask hr hc (by simpa using hy) (by simpa using hx) _ _ _ _ _ _ hb' (determines_axis hd s u t v hs ht)
    rcases k1 with ⟨hD0, hg, x, y, e1, g1, g2⟩ | ⟨hbad, e1⟩
    · rcases k2 with ⟨hD1, -, x', y', e2, g3, g4⟩ | ⟨hbad, e2⟩
      · rw [h] at e1
        rw [h'] at e2
        rw [Except.ok.inj e1, Except.ok.inj e2]
        obtain ⟨q1, q2⟩ := stationary_unique _ _ _ _ _ (s * x + u) (t * y + v) x' y' hD1 (by
            have : 2 * (a / s ^ 2) * (s * x + u) + b / (s * t) * (t * y + v) + (d / s - 2 * a * u / s ^ 2 - b * v / (s * t)) = (2 * a * x + b * y + d) / s := by
              field_simp
              ring
            rw [this, g1, zero_div]) (by
            have : b / (s * t) * (s * x + u) + 2 * (c / t ^ 2) * (t * y + v) + (e / t - b * u / (s * t) - 2 * c * v / t ^ 2) = (b * x + 2 * c * y + e) / t := by
              field_simp
              ring
            rw [this, g2, zero_div]) g3 g4
        rw [q1, q2]
      · rw [h'] at e2
        cases e2
    · rw [h] at e1
      cases e1
  · rw [refused_2d S xs ys arr mask hsh] at h
    cases h

/-- **C120.** A constant added to the array does not change the outcome. -/
theorem C120_constant_2d (S : Solver) (xs ys : List ℝ) (arr : Arr2 ℝ) (mask : Arr2 Bool) (hd : DeterminesQuadratic xs ys mask) (k : ℝ) :
    findOptimum2d S xs ys (arr.map fun w => w + k) mask = findOptimum2d S xs ys arr mask := by
  by_cases hsh : arr.nr = mask.nr ∧ arr.nc = mask.nc ∧ arr.nr = ys.length ∧ arr.nc = xs.length
  · obtain ⟨hr, hc, hy, hx⟩ := hsh
    obtain ⟨a, b, c, d, e, f, hb⟩ := C14_best_exists xs ys arr mask hr hc hy hx
    have hmis : ∀ a b c d e f : ℝ, surfaceMisfit xs ys (arr.map fun w => w + k) mask a b c d e f = surfaceMisfit xs ys arr mask a b c d e (f - k) := by
      intro a b c d e f
      unfold surfaceMisfit
      refine Finset.sum_congr rfl fun i _ => Finset.sum_congr rfl fun j _ => ?_
      split_ifs
      · simp only [Arr2.map]
        ring
      · rfl
    have hb' : BestSurface xs ys (arr.map fun w => w + k) mask a b c d e (f + k) := by
      intro a' b' c' d' e' f'
      rw [hmis, hmis, add_sub_cancel_right]
      exact hb _ _ _ _ _ _
    have k1 := optimum_2d_cases S xs ys arr mask hr hc hy hx a b c d e f hb hd
    have k2 := optimum_2d_cases S xs ys (arr.map fun w => w + k) mask hr hc hy hx _ _ _ _ _ _ hb' hd
    rcases k1 with ⟨hD0, hg, x, y, e1, g1, g2⟩ | ⟨hbad, e1⟩
    · rcases k2 with ⟨-, -, x', y', e2, g3, g4⟩ | ⟨hbad, -⟩
      · obtain ⟨q1, q2⟩ := stationary_unique a b c d e x y x' y' hD0 g1 g2 g3 g4
        rw [e1, e2, q1, q2]
      · exact absurd hbad hg
    · rcases k2 with ⟨-, hg, -⟩ | ⟨-, e2⟩
      · exact absurd hbad hg
      · rw [e1, e2]
  · rw [refused_2d S xs ys arr mask hsh, refused_2d S xs ys (arr.map fun w => w + k) mask hsh]

/-! ### Exchange of the axes -/

theorem exchanged_px {α : Type} (a : Arr2 α) (i j : ℤ) : (axesExchanged a).px i j = a.px j i := by
  obtain ⟨n, m, f⟩ := a
  unfold axesExchanged
  by_cases h : (0 ≤ j ∧ j < (n : ℤ)) ∧ 0 ≤ i ∧ i < (m : ℤ)
  · exact (Arr2.px_of_inB (⟨m, n, fun j i => f i j⟩ : Arr2 α) ⟨h.2, h.1⟩).trans (Arr2.px_of_inB (⟨n, m, f⟩ : Arr2 α) h).symm
  · exact (Arr2.px_of_not_inB (⟨m, n, fun j i => f i j⟩ : Arr2 α) (fun g => h ⟨g.2, g.1⟩)).trans (Arr2.px_of_not_inB (⟨n, m, f⟩ : Arr2 α) h).symm

theorem surface_exchanged (xs ys : List ℝ) (arr : Arr2 ℝ) (mask : Arr2 Bool) (a b c d e f : ℝ) :
    surfaceMisfit ys xs (axesExchanged arr) (axesExchanged mask) a b c d e f = surfaceMisfit xs ys arr mask c b a e d f := by
  classical
  unfold surfaceMisfit
  rw [Finset.sum_comm]
  refine Finset.sum_congr rfl fun i _ => Finset.sum_congr rfl fun j _ => ?_
  rw [exchanged_px]
  show (if mask.px _ _ = some true then (_ - arr.val i j) ^ 2 else 0) = _
  split_ifs
  · ring
  · rfl

theorem determines_exchanged {xs ys : List ℝ} {mask : Arr2 Bool} (h : DeterminesQuadratic xs ys mask) : DeterminesQuadratic ys xs (axesExchanged mask) := by
  intro a b c d e f hz
  obtain ⟨h1, h2, h3, h4, h5, h6⟩ := h c b a e d f (by
    intro i j x y hm hx hy
    have := hz j i y x (by rw [exchanged_px]; exact hm) hy hx
    linear_combination this)
  exact ⟨h3, h2, h1, h5, h4, h6⟩

/-- **C120, part.** Exchanging rows and columns of the array and the mask, and the two coordinate vectors, exchanges the two coordinates of the answer when neither fit
is refused, and the two fits are refused together when the curvature of the best surface along each axis is above the resolution.  What is missing, because the
code violates it: without that condition one may be refused and the other not (`C120_exchange_refused`). -/
theorem C120_exchanged_2d_partial (S : Solver) (xs ys : List ℝ) (arr : Arr2 ℝ) (mask : Arr2 Bool) (hd : DeterminesQuadratic xs ys mask) :
    (∀ p q, findOptimum2d S xs ys arr mask = .ok p → findOptimum2d S ys xs (axesExchanged arr) (axesExchanged mask) = .ok q → q = (p.2, p.1)) ∧
    (∀ a b c d e f, BestSurface xs ys arr mask a b c d e f → 1 / 10 ^ 15 ≤ |a| → 1 / 10 ^ 15 ≤ |c| →
      findOptimum2d S ys xs (axesExchanged arr) (axesExchanged mask) = (findOptimum2d S xs ys arr mask).map fun p => (p.2, p.1)) := by
  by_cases hsh : arr.nr = mask.nr ∧ arr.nc = mask.nc ∧ arr.nr = ys.length ∧ arr.nc = xs.length
  · obtain ⟨hr, hc, hy, hx⟩ := hsh
    have hbx : ∀ {a b c d e f : ℝ}, BestSurface xs ys arr mask a b c d e f → BestSurface ys xs (axesExchanged arr) (axesExchanged mask) c b a e d f := by
      intro a b c d e f hb a' b' c' d' e' f'
      rw [surface_exchanged, surface_exchanged]
      exact hb _ _ _ _ _ _
    have hcom : ∀ a b c : ℝ, b * b - 4 * c * a = b * b - 4 * a * c := fun a b c => by ring
    constructor
    · intro p q h h'
      obtain ⟨a, b, c, d, e, f, hb⟩ := C14_best_exists xs ys arr mask hr hc hy hx
      have k1 := optimum_2d_cases S xs ys arr mask hr hc hy hx a b c d e f hb hd
      have k2 := optimum_2d_cases S ys xs (axesExchanged arr) (axesExchanged mask) hc hr hx hy c b a e d f (hbx hb) (determines_exchanged hd)
      rcases k1 with ⟨hD0, hg, x, y, e1, g1, g2⟩ | ⟨hbad, e1⟩
      · rcases k2 with ⟨-, -, x', y', e2, g3, g4⟩ | ⟨hbad, e2⟩
        · rw [h] at e1
          rw [h'] at e2
          rw [Except.ok.inj e1, Except.ok.inj e2]
          obtain ⟨q1, q2⟩ := stationary_unique a b c d e x y y' x' hD0 g1 g2 (by linarith) (by linarith)
          rw [q1, q2]
        · rw [h'] at e2
          cases e2
      · rw [h] at e1
        cases e1
    · intro a b c d e f hb ha hcc
      have k1 := optimum_2d_cases S xs ys arr mask hr hc hy hx a b c d e f hb hd
      have k2 := optimum_2d_cases S ys xs (axesExchanged arr) (axesExchanged mask) hc hr hx hy c b a e d f (hbx hb) (determines_exchanged hd)
      have n1 : ¬ |2 * c| < 2 * (1 / 10 ^ 15) := by
        rw [abs_mul, abs_two]
        linarith
      have n2 : ¬ |2 * a| < 2 * (1 / 10 ^ 15) := by
        rw [abs_mul, abs_two]
        linarith
      rw [hcom] at k2
      rcases k1 with ⟨hD0, hg, x, y, e1, g1, g2⟩ | ⟨hbad, e1⟩
      · rcases k2 with ⟨-, -, x', y', e2, g3, g4⟩ | ⟨hbad, -⟩
        · obtain ⟨q1, q2⟩ := stationary_unique a b c d e x y y' x' hD0 g1 g2 (by linarith) (by linarith)
          rw [e1, e2, q1, q2]
          rfl
        · exact absurd (Or.inl (hbad.resolve_right n2)) hg
      · rcases k2 with ⟨-, hg, -⟩ | ⟨-, e2⟩
        · exact absurd (Or.inl (hbad.resolve_right n1)) hg
        · rw [e1, e2]
          rfl
  · have hsh' : ¬ ((axesExchanged arr).nr = (axesExchanged mask).nr ∧ (axesExchanged arr).nc = (axesExchanged mask).nc ∧ (axesExchanged arr).nr = xs.length ∧
        (axesExchanged arr).nc = ys.length) := fun g => hsh ⟨g.2.1, g.1, g.2.2.2, g.2.2.1⟩
    rw [refused_2d S xs ys arr mask hsh, refused_2d S ys xs _ _ hsh']
    exact ⟨fun p q h => (by cases h), fun _ _ _ _ _ _ _ _ _ => rfl⟩

/-- The surface `x² + x y` sampled at three columns and three rows: it has one stationary point, at the origin. -/
def crossTerm : Arr2 ℝ := ⟨3, 3, fun i j => ((j : ℕ) : ℝ) ^ 2 + ((j : ℕ) : ℝ) * ((i : ℕ) : ℝ)⟩

theorem crossTerm_determined : DeterminesQuadratic [0, 1, 2] [0, 1, 2] (Arr2.full 3 3 true) := by
  intro a b c d e f h
  have hm : ∀ i j : ℕ, i < 3 → j < 3 → (Arr2.full 3 3 true).px i j = some true := by
    intro i j hi hj
    exact Arr2.px_val (Arr2.full 3 3 true) ⟨i, hi⟩ ⟨j, hj⟩
  have h00 := h 0 0 0 0 (hm 0 0 (by norm_num) (by norm_num)) rfl rfl
  have h01 := h 0 1 1 0 (hm 0 1 (by norm_num) (by norm_num)) rfl rfl
  have h02 := h 0 2 2 0 (hm 0 2 (by norm_num) (by norm_num)) rfl rfl
  have h10 := h 1 0 0 1 (hm 1 0 (by norm_num) (by norm_num)) rfl rfl
  have h20 := h 2 0 0 2 (hm 2 0 (by norm_num) (by norm_num)) rfl rfl
  have h11 := h 1 1 1 1 (hm 1 1 (by norm_num) (by norm_num)) rfl rfl
  refine ⟨?_, ?_, ?_, ?_, ?_, ?_⟩ <;> linarith

theorem crossTerm_best : BestSurface [0, 1, 2] [0, 1, 2] crossTerm (Arr2.full 3 3 true) 1 1 0 0 0 0 := by
  classical
  intro a b c d e f
  have h0 : surfaceMisfit [0, 1, 2] [0, 1, 2] crossTerm (Arr2.full 3 3 true) 1 1 0 0 0 0 = 0 := by
    unfold surfaceMisfit
    refine Finset.sum_eq_zero fun i _ => Finset.sum_eq_zero fun j _ => ?_
    have hg : ∀ k : Fin 3, ([0, 1, 2] : List ℝ).getD (k : ℕ) 0 = ((k : ℕ) : ℝ) := by
      intro k
      fin_cases k <;> norm_num
    have hi := hg i
    have hj := hg j
    split_ifs
    · rw [hi, hj]
      show (_ - (((j : ℕ) : ℝ) ^ 2 + ((j : ℕ) : ℝ) * ((i : ℕ) : ℝ))) ^ 2 = 0
      ring
    · rfl
  rw [h0]
  unfold surfaceMisfit
  refine Finset.sum_nonneg fun i _ => Finset.sum_nonneg fun j _ => ?_
  split_ifs
  · exact sq_nonneg _
  · exact le_rfl

/-- **C120, counterexample.** Samples of `x² + x y` on three columns and three rows are refused with `QuadraticException` ("no quadratic component"), because the surface
has no curvature along the rows; with rows and columns exchanged the stationary point is found. -/
theorem C120_exchange_refused (S : Solver) : findOptimum2d S [0, 1, 2] [0, 1, 2] crossTerm (Arr2.full 3 3 true) = .error .quadraticException ∧
    findOptimum2d S [0, 1, 2] [0, 1, 2] (axesExchanged crossTerm) (axesExchanged (Arr2.full 3 3 true)) = .ok (0, 0) := by
  constructor
  · exact (C14_best_fit S _ _ crossTerm (Arr2.full 3 3 true) rfl rfl rfl rfl 1 1 0 0 0 0 crossTerm_best crossTerm_determined).2 (Or.inr (by norm_num))
  · have hb : BestSurface [0, 1, 2] [0, 1, 2] (axesExchanged crossTerm) (axesExchanged (Arr2.full 3 3 true)) 0 1 1 0 0 0 := by
      intro a b c d e f
      rw [surface_exchanged, surface_exchanged]
      exact crossTerm_best _ _ _ _ _ _
    obtain ⟨x, y, h, g1, g2⟩ := (C14_best_fit S _ _ _ _ rfl rfl rfl rfl 0 1 1 0 0 0 hb (determines_exchanged crossTerm_determined)).1 (by norm_num) (by norm_num)
    rw [h]
    have hy : y = 0 := by linarith
    have hx : x = 0 := by linarith
    rw [hx, hy]

/-! ### The centroid -/

variable {K : Type} [Field K] [DecidableEq K]

theorem centroid_carry {a b : Arr2 K} (he : energy b = energy a) (h0 : (∀ i j, a.val i j = 0) ↔ ∀ i j, b.val i j = 0) (hne : ∃ i j, a.val i j ≠ 0) (f : K × K → K × K)
    (hf : energy a ≠ 0 → (colMoment b / energy a, rowMoment b / energy a) = f (colMoment a / energy a, rowMoment a / energy a)) :
    centerOfEnergy b = (centerOfEnergy a).map f := by
  by_cases h : energy a = 0
  · have hb : ∃ i j, b.val i j ≠ 0 := by
      by_contra hc
      push Not at hc
      obtain ⟨i, j, hij⟩ := hne
      exact hij (h0.mpr hc i j)
    rw [C10_zero_total a h hne, C10_zero_total b (he.trans h) hb]
    rfl
  · rw [centerOfEnergy_eq a h, centerOfEnergy_eq b (by rw [he]; exact h), he, hf h]
    rfl

/-- **C120.** Turning an image that is not blank upside down reflects the row of its centre of energy (and leaves an indefinite answer indefinite). -/
theorem C120_upside_down (a : Arr2 K) (hne : ∃ i j, a.val i j ≠ 0) :
    centerOfEnergy (upsideDown a) = (centerOfEnergy a).map fun q => (q.1, (a.nr : K) - 1 - q.2) := by
  have key : ∀ g : Fin a.nr → Fin a.nc → K, ∑ i : Fin a.nr, ∑ j, g i j * a.val i.rev j = ∑ i, ∑ j, g i.rev j * a.val i j := by
    intro g
    rw [← Equiv.sum_comp Fin.revPerm]
    refine Finset.sum_congr rfl fun i _ => Finset.sum_congr rfl fun j _ => ?_
    rw [Fin.revPerm_apply, Fin.rev_rev]
  have he : energy (upsideDown a) = energy a := by
    have := key fun _ _ => 1
    simp only [one_mul] at this
    exact this
  have hc : colMoment (upsideDown a) = colMoment a := key fun _ j => ((j : ℕ) : K)
  have hr : rowMoment (upsideDown a) = ((a.nr : K) - 1) * energy a - rowMoment a := by
    refine (key fun i _ => ((i : ℕ) : K)).trans ?_
    unfold energy rowMoment
    rw [Finset.mul_sum, ← Finset.sum_sub_distrib]
    refine Finset.sum_congr rfl fun i _ => ?_
    rw [Finset.mul_sum, ← Finset.sum_sub_distrib]
    refine Finset.sum_congr rfl fun j _ => ?_
    have : ((i.rev : ℕ) : K) = (a.nr : K) - 1 - ((i : ℕ) : K) := by
      have h1 : ((i.rev : ℕ)) + (i : ℕ) + 1 = a.nr := by
        rw [Fin.val_rev]
        have := i.isLt
        omega
      have h2 := congrArg (fun z : ℕ => (z : K)) h1
      push_cast at h2
      linear_combination h2
    rw [this]
    ring
  refine centroid_carry he ⟨fun h i j => h i.rev j, fun h i j => by have := h i.rev j; simpa [upsideDown] using this⟩ hne _ fun h => ?_
  rw [hc, hr, sub_div, mul_div_cancel_right₀ _ h]

/-- **C120.** Exchanging rows and columns of an image exchanges the two coordinates of its centre of energy. -/
theorem C120_transposed (a : Arr2 K) : centerOfEnergy (axesExchanged a) = (centerOfEnergy a).map fun q => (q.2, q.1) := by
  by_cases hne : ∃ i j, a.val i j ≠ 0
  · have he : energy (axesExchanged a) = energy a := by
      unfold energy axesExchanged
      rw [Finset.sum_comm]
    have hc : colMoment (axesExchanged a) = rowMoment a := by
      unfold colMoment rowMoment axesExchanged
      rw [Finset.sum_comm]
    have hr : rowMoment (axesExchanged a) = colMoment a := by
      unfold colMoment rowMoment axesExchanged
      rw [Finset.sum_comm]
    exact centroid_carry he ⟨fun h i j => h j i, fun h i j => h j i⟩ hne _ fun _ => by rw [hc, hr]
  · push Not at hne
    rw [C10_blank a hne, C10_blank (axesExchanged a) fun i j => hne j i]
    rfl

/-- **C120.** Mirroring an image that is not blank left to right reflects the column of its centre of energy. -/
theorem C120_left_right (a : Arr2 K) (hne : ∃ i j, a.val i j ≠ 0) :
    centerOfEnergy (leftRight a) = (centerOfEnergy a).map fun q => ((a.nc : K) - 1 - q.1, q.2) := by
  have h1 : leftRight a = axesExchanged (upsideDown (axesExchanged a)) := rfl
  obtain ⟨i, j, hij⟩ := hne
  rw [h1, C120_transposed, C120_upside_down (axesExchanged a) ⟨j, i, hij⟩, C120_transposed]
  cases centerOfEnergy a <;> rfl

/-- **C120.** The centre of energy of the sum of two images is the mean of their centres, weighted with their energies. -/
theorem C120_sum (n m : ℕ) (f g : Fin n → Fin m → K) (p q : K × K) (hf : energy ⟨n, m, f⟩ ≠ 0) (hg : energy ⟨n, m, g⟩ ≠ 0)
    (hs : energy (⟨n, m, f⟩ : Arr2 K) + energy ⟨n, m, g⟩ ≠ 0)
    (hp : centerOfEnergy ⟨n, m, f⟩ = some p) (hq : centerOfEnergy ⟨n, m, g⟩ = some q) :
    centerOfEnergy ⟨n, m, fun i j => f i j + g i j⟩ =
      some ((energy (⟨n, m, f⟩ : Arr2 K) * p.1 + energy ⟨n, m, g⟩ * q.1) / (energy (⟨n, m, f⟩ : Arr2 K) + energy ⟨n, m, g⟩),
        (energy (⟨n, m, f⟩ : Arr2 K) * p.2 + energy ⟨n, m, g⟩ * q.2) / (energy (⟨n, m, f⟩ : Arr2 K) + energy ⟨n, m, g⟩)) := by
  rw [centerOfEnergy_eq _ hf] at hp
  rw [centerOfEnergy_eq _ hg] at hq
  have e0 : energy (⟨n, m, fun i j => f i j + g i j⟩ : Arr2 K) = energy (⟨n, m, f⟩ : Arr2 K) + energy ⟨n, m, g⟩ := by
    unfold energy
    simp only [Finset.sum_add_distrib]
  have e1 : colMoment (⟨n, m, fun i j => f i j + g i j⟩ : Arr2 K) = colMoment (⟨n, m, f⟩ : Arr2 K) + colMoment ⟨n, m, g⟩ := by
    unfold colMoment
    simp only [mul_add, Finset.sum_add_distrib]
  have e2 : rowMoment (⟨n, m, fun i j => f i j + g i j⟩ : Arr2 K) = rowMoment (⟨n, m, f⟩ : Arr2 K) + rowMoment ⟨n, m, g⟩ := by
    unfold rowMoment
    simp only [mul_add, Finset.sum_add_distrib]
  rw [centerOfEnergy_eq _ (by rw [e0]; exact hs), e0, e1, e2, ← Option.some.inj hp, ← Option.some.inj hq]
  simp only
  rw [mul_div_cancel₀ _ hf, mul_div_cancel₀ _ hf, mul_div_cancel₀ _ hg, mul_div_cancel₀ _ hg]

/-! ### The hypotheses can be met -/

example (S : Solver) := C120_moved_2d S [0, 1, 2] [0, 1, 2] crossTerm (Arr2.full 3 3 true) crossTerm_determined (-1) 5 1 (-2) (Or.inr rfl) (Or.inl rfl)

example : ThreeValues [0, 1, 2] := ⟨0, by simp, 1, by simp, 2, by simp, by norm_num⟩

example : (([0, 1, 2] : List ℝ).zip [5, 6, 9]).Perm (([2, 0, 1] : List ℝ).zip [9, 5, 6]) := by
  simp only [List.zip_cons_cons, List.zip_nil_right]
  exact ((List.Perm.swap _ _ _).cons _).trans (List.Perm.swap _ _ _)

/-- An image of two rows and three columns, and its transpose. -/
example : centerOfEnergy (⟨2, 3, fun i j => if (i : ℕ) = 1 ∧ (j : ℕ) = 2 then 5 else 0⟩ : Arr2 ℚ) = some (2, 1) ∧
    centerOfEnergy (axesExchanged (⟨2, 3, fun i j => if (i : ℕ) = 1 ∧ (j : ℕ) = 2 then 5 else 0⟩ : Arr2 ℚ)) = some (1, 2) := by
  have h : centerOfEnergy (⟨2, 3, fun i j => if (i : ℕ) = 1 ∧ (j : ℕ) = 2 then 5 else 0⟩ : Arr2 ℚ) = some (2, 1) := by decide +kernel
  refine ⟨h, ?_⟩
  rw [C120_transposed, h]
  rfl

end Coralign.Props
