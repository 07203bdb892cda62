import Verif.Model.RectProper
import Verif.Spec.RectProper
import Verif.Spec.Shapes
import Mathlib.Tactic.FieldSimp
import Mathlib.Tactic.LinearCombination

/-!
# Lemmas on the scan converter
-/

namespace Coralign

open Coralign.Spec

/-- The part of the interval from `lo` to `hi` in the unit interval around `x`. -/
noncomputable def overlap (lo hi x : ℝ) : ℝ := max 0 (min hi (x + 1 / 2) - max lo (x - 1 / 2))

theorem lineCover_overlap (P : ℝ → ℝ → Prop) (x y lo hi : ℝ) (h : ∀ t, P t y ↔ lo ≤ t ∧ t ≤ hi) : lineCover P x y = overlap lo hi x := by
  have e : {t : ℝ | |t - x| ≤ 1 / 2 ∧ P t y} = Set.Icc (max lo (x - 1 / 2)) (min hi (x + 1 / 2)) := by
    ext t
    simp only [Set.mem_ofPred_eq, Set.mem_Icc, h, abs_le, max_le_iff, le_min_iff]
    constructor
    · rintro ⟨⟨h1, h2⟩, h3, h4⟩
      exact ⟨⟨h3, by linarith⟩, h4, by linarith⟩
    · rintro ⟨⟨h1, h2⟩, h3, h4⟩
      exact ⟨⟨by linarith, by linarith⟩, h1, h3⟩
  unfold lineCover overlap
  rw [e, Real.volume_Icc]
  rcases le_total 0 (min hi (x + 1 / 2) - max lo (x - 1 / 2)) with h0 | h0
  · rw [ENNReal.toReal_ofReal h0, max_eq_right h0]
  · rw [ENNReal.ofReal_of_nonpos h0, max_eq_left h0, ENNReal.toReal_zero]

theorem lineCover_none (P : ℝ → ℝ → Prop) (x y : ℝ) (h : ∀ t, ¬ P t y) : lineCover P x y = 0 := by
  have e : {t : ℝ | |t - x| ≤ 1 / 2 ∧ P t y} = ∅ := by
    ext t
    simp [h t]
  unfold lineCover
  rw [e, MeasureTheory.measure_empty, ENNReal.toReal_zero]

/-- The code shares the chord out exactly. -/
theorem chordAdd_eq (ngrid : ℤ) (mag xl xr : ℝ) (col : ℤ) (h0 : 0 ≤ col) (h1 : col < ngrid) (hx : xl ≤ xr) :
    chordAdd ngrid mag xl xr col = mag * overlap xl xr col := by
  have hm := npRound_mono hx
  have hl := abs_le.mp (abs_sub_npRound_le xl)
  have hr := abs_le.mp (abs_sub_npRound_le xr)
  unfold chordAdd overlap
  simp only
  generalize npRound xl = l at hm hl
  generalize npRound xr = r at hm hr
  have big : ∀ a b : ℤ, a < b → (a : ℝ) + 1 ≤ b := fun a b h => by exact_mod_cast h
  rcases lt_trichotomy col l with hc | hc | hc
  · -- left of the chord
    have hcl := big _ _ hc
    have e : max 0 (min xr ((col : ℝ) + 1 / 2) - max xl ((col : ℝ) - 1 / 2)) = 0 := by
      apply max_eq_left
      have := min_le_right xr ((col : ℝ) + 1 / 2)
      have := le_max_left xl ((col : ℝ) - 1 / 2)
      linarith
    rw [e, mul_zero]
    split_ifs <;> first | (exfalso; omega) | simp
  · subst hc
    rcases eq_or_lt_of_le hm with he | he
    · subst he
      rw [if_neg (by simp), if_pos ⟨⟨h0, h1⟩, rfl⟩]
      rw [min_eq_left (by linarith [hr.2]), max_eq_left (show (col : ℝ) - 1 / 2 ≤ xl by linarith [hl.1]), max_eq_right (by linarith)]
    · have hcr := big _ _ he
      rw [if_pos (by omega), if_pos ⟨⟨h0, h1⟩, rfl⟩]
      rw [min_eq_right (by linarith [hr.1]), max_eq_left (show (col : ℝ) - 1 / 2 ≤ xl by linarith [hl.1]), max_eq_right (by linarith [hl.2])]
      have e1 : (if (r ≥ 0 ∧ r < ngrid) ∧ col = r then mag * (xr - (r - 0.5)) else 0) = 0 := if_neg (by omega)
      have e2 : (if r - col > 1 ∧ col + 1 < ngrid ∧ r > 0 then
          (if (if col + 1 < 0 then 0 else col + 1) ≤ col ∧ col < (if r > ngrid then ngrid else r) then mag else 0) else 0) = 0 := by
        split_ifs <;> first | rfl | (exfalso; omega)
      rw [e1, e2]
      norm_num
  · rcases lt_trichotomy col r with hd | hd | hd
    · -- strictly between
      have hcl := big _ _ hc
      have hcr := big _ _ hd
      rw [if_pos (by omega)]
      rw [min_eq_right (by linarith [hr.1]), max_eq_right (show xl ≤ (col : ℝ) - 1 / 2 by linarith [hl.2]), max_eq_right (by linarith)]
      have e0 : (if (l ≥ 0 ∧ l < ngrid) ∧ col = l then mag * ((l + 0.5) - xl) else 0) = 0 := if_neg (by omega)
      have e1 : (if (r ≥ 0 ∧ r < ngrid) ∧ col = r then mag * (xr - (r - 0.5)) else 0) = 0 := if_neg (by omega)
      have e2 : (if r - l > 1 ∧ l + 1 < ngrid ∧ r > 0 then
          (if (if l + 1 < 0 then 0 else l + 1) ≤ col ∧ col < (if r > ngrid then ngrid else r) then mag else 0) else 0) = mag := by
        split_ifs <;> first | rfl | (exfalso; omega)
      rw [e0, e1, e2]
      norm_num
    · subst hd
      have hcl := big _ _ hc
      rw [if_pos (by omega)]
      rw [min_eq_left (by linarith [hr.2]), max_eq_right (show xl ≤ (col : ℝ) - 1 / 2 by linarith [hl.2]), max_eq_right (by linarith [hr.1])]
      have e0 : (if (l ≥ 0 ∧ l < ngrid) ∧ col = l then mag * ((l + 0.5) - xl) else 0) = 0 := if_neg (by omega)
      have e2 : (if col - l > 1 ∧ l + 1 < ngrid ∧ col > 0 then
          (if (if l + 1 < 0 then 0 else l + 1) ≤ col ∧ col < (if col > ngrid then ngrid else col) then mag else 0) else 0) = 0 := by
        split_ifs <;> first | rfl | (exfalso; omega)
      rw [e0, e2, if_pos ⟨⟨h0, h1⟩, rfl⟩]
      norm_num
    · have hdr := big _ _ hd
      have e : max 0 (min xr ((col : ℝ) + 1 / 2) - max xl ((col : ℝ) - 1 / 2)) = 0 := by
        apply max_eq_left
        have := min_le_left xr ((col : ℝ) + 1 / 2)
        have := le_max_right xl ((col : ℝ) - 1 / 2)
        linarith [hr.2]
      rw [e, mul_zero]
      split_ifs <;> first | (exfalso; omega) | simp

/-! ### The two chains of edges -/

/-- Corners `i0` (lowest), `i1` (left), `i2` (highest), `i3` (right) of a rectangle, in the order the scan meets them. -/
structure Chain (c : Corners) (i0 i1 i2 i3 : ℕ) : Prop where
  n0 : nextCorner i0 = i1
  n1 : nextCorner i1 = i2
  n2 : nextCorner i2 = i3
  p0 : prevCorner i0 = i3
  p3 : prevCorner i3 = i2
  p2 : prevCorner i2 = i1
  distinct : i0 ≠ i1 ∧ i0 ≠ i2 ∧ i0 ≠ i3 ∧ i1 ≠ i2 ∧ i1 ≠ i3 ∧ i2 ≠ i3
  x2 : c.xp i2 = c.xp i1 + c.xp i3 - c.xp i0
  y2 : c.yp i2 = c.yp i1 + c.yp i3 - c.yp i0
  ux : c.xp i1 ≤ c.xp i0
  uy : c.yp i0 < c.yp i1
  vx : c.xp i0 < c.xp i3
  vy : c.yp i0 ≤ c.yp i3
  low : min4 c.yp = c.yp i0
  high : max4 c.yp = c.yp i2

/-- Inside the parallelogram. -/
def Corners.inside (c : Corners) (i0 i1 i3 : ℕ) (x y : ℝ) : Prop :=
  ((c.xp i1 - c.xp i0) * (y - c.yp i0) ≤ (c.yp i1 - c.yp i0) * (x - c.xp i0) ∧
    (c.xp i3 - c.xp i0) * (y - c.yp i0) - (c.yp i3 - c.yp i0) * (x - c.xp i0) ≤
      (c.xp i3 - c.xp i0) * (c.yp i1 - c.yp i0) - (c.yp i3 - c.yp i0) * (c.xp i1 - c.xp i0)) ∧
  ((c.yp i3 - c.yp i0) * (x - c.xp i0) ≤ (c.xp i3 - c.xp i0) * (y - c.yp i0) ∧
    (c.yp i1 - c.yp i0) * (x - c.xp i0) - (c.xp i1 - c.xp i0) * (y - c.yp i0) ≤
      (c.xp i3 - c.xp i0) * (c.yp i1 - c.yp i0) - (c.yp i3 - c.yp i0) * (c.xp i1 - c.xp i0))

theorem edge_le_iff (c : Corners) (k k' : ℕ) (x y : ℝ) (h : 0 < c.yp k' - c.yp k) :
    edgeX c k k' y ≤ x ↔ (c.xp k' - c.xp k) * (y - c.yp k) ≤ (c.yp k' - c.yp k) * (x - c.xp k) := by
  unfold edgeX
  rw [if_pos h.ne', div_mul_eq_mul_div, ← le_sub_iff_add_le, div_le_iff₀ h, mul_comm (x - c.xp k)]

theorem le_edge_iff (c : Corners) (k k' : ℕ) (x y : ℝ) (h : 0 < c.yp k' - c.yp k) :
    x ≤ edgeX c k k' y ↔ (c.yp k' - c.yp k) * (x - c.xp k) ≤ (c.xp k' - c.xp k) * (y - c.yp k) := by
  unfold edgeX
  rw [if_pos h.ne', div_mul_eq_mul_div, ← sub_le_iff_le_add, le_div_iff₀ h, mul_comm (x - c.xp k)]

theorem edge_at (c : Corners) (k k' : ℕ) : edgeX c k k' (c.yp k) = c.xp k := by
  unfold edgeX
  split_ifs
  · rw [sub_self, mul_zero, zero_add]
  · rfl

variable {c : Corners} {i0 i1 i2 i3 : ℕ}

/-- The left end of the chord is on the edge the scan uses: which edge that is depends on the height. -/
theorem Chain.left_iff (h : Chain c i0 i1 i2 i3) (k : ℕ) (x y : ℝ) (_hy0 : c.yp i0 ≤ y) (hy2 : y ≤ c.yp i2)
    (hk : (k = i0 ∧ y < c.yp i1) ∨ (k = i1 ∧ c.yp i1 ≤ y) ∨ (k = i2 ∧ c.yp i2 ≤ y ∧ c.yp i1 < c.yp i2)) :
    edgeX c k (nextCorner k) y ≤ x ↔
      ((c.xp i1 - c.xp i0) * (y - c.yp i0) ≤ (c.yp i1 - c.yp i0) * (x - c.xp i0) ∧
        (c.xp i3 - c.xp i0) * (y - c.yp i0) - (c.yp i3 - c.yp i0) * (x - c.xp i0) ≤
          (c.xp i3 - c.xp i0) * (c.yp i1 - c.yp i0) - (c.yp i3 - c.yp i0) * (c.xp i1 - c.xp i0)) := by
  have hux := h.ux
  have huy := h.uy
  have hvx := h.vx
  have hvy := h.vy
  have hx2 := h.x2
  have hy2' := h.y2
  rcases hk with ⟨rfl, hlt⟩ | ⟨rfl, hge⟩ | ⟨rfl, hge, hstr⟩
  · rw [h.n0, edge_le_iff c _ _ x y (by linarith)]
    constructor
    · intro h1
      refine ⟨h1, ?_⟩
      have hX : c.xp i1 - c.xp k ≤ x - c.xp k := by
        by_contra hc
        push Not at hc
        nlinarith [mul_nonneg (show 0 ≤ c.xp k - c.xp i1 by linarith) (show 0 ≤ c.yp i1 - y by linarith),
          mul_pos (show 0 < c.yp i1 - c.yp k by linarith) (show 0 < c.xp i1 - c.xp k - (x - c.xp k) by linarith)]
      nlinarith [mul_nonneg (show 0 ≤ c.xp i3 - c.xp k by linarith) (show 0 ≤ c.yp i1 - y by linarith),
        mul_nonneg (show 0 ≤ c.yp i3 - c.yp k by linarith) (show 0 ≤ x - c.xp i1 by linarith)]
    · exact fun h1 => h1.1
  · rw [h.n1]
    rcases eq_or_lt_of_le hvy with he | hlt
    · have hyy : y = c.yp k := by linarith
      have hyc : c.yp i2 = c.yp k := by linarith
      have : edgeX c k i2 y = c.xp k := by rw [hyy]; exact edge_at c k i2
      rw [this, ← he, hyy]
      constructor
      · intro h1
        exact ⟨by nlinarith, by linarith⟩
      · rintro ⟨h1, -⟩
        have : (c.yp k - c.yp i0) * (x - c.xp k) ≥ 0 := by nlinarith
        have := nonneg_of_mul_nonneg_right this (by linarith)
        linarith
    · rw [edge_le_iff c _ _ x y (by linarith), hx2, hy2']
      have e1 : (c.xp k + c.xp i3 - c.xp i0 - c.xp k) = c.xp i3 - c.xp i0 := by ring
      have e2 : (c.yp k + c.yp i3 - c.yp i0 - c.yp k) = c.yp i3 - c.yp i0 := by ring
      rw [e1, e2]
      constructor
      · intro h1
        have hX : c.xp k ≤ x := by
          by_contra hc
          push Not at hc
          nlinarith [mul_nonneg (show 0 ≤ c.xp i3 - c.xp i0 by linarith) (show 0 ≤ y - c.yp k by linarith),
            mul_pos (show 0 < c.yp i3 - c.yp i0 by linarith) (show 0 < c.xp k - x by linarith)]
        refine ⟨?_, by nlinarith⟩
        nlinarith [mul_nonneg (show 0 ≤ c.yp k - c.yp i0 by linarith) (show 0 ≤ x - c.xp k by linarith),
          mul_nonneg (show 0 ≤ c.xp i0 - c.xp k by linarith) (show 0 ≤ y - c.yp k by linarith)]
      · rintro ⟨-, h2⟩
        nlinarith
  · have hyy : y = c.yp k := le_antisymm hy2 hge
    rw [hyy, edge_at, hx2, hy2']
    have hv : 0 < c.yp i3 - c.yp i0 := by linarith
    constructor
    · intro h1
      constructor
      · nlinarith [mul_nonneg (show 0 ≤ c.yp i1 - c.yp i0 by linarith) (show 0 ≤ x - (c.xp i1 + c.xp i3 - c.xp i0) by linarith),
          mul_nonneg (show 0 ≤ c.xp i0 - c.xp i1 by linarith) hv.le,
          mul_nonneg (show 0 ≤ c.yp i1 - c.yp i0 by linarith) (show 0 ≤ c.xp i3 - c.xp i0 by linarith)]
      · nlinarith [mul_nonneg hv.le (show 0 ≤ x - (c.xp i1 + c.xp i3 - c.xp i0) by linarith)]
    · rintro ⟨-, h2⟩
      have : 0 ≤ (c.yp i3 - c.yp i0) * (x - (c.xp i1 + c.xp i3 - c.xp i0)) := by nlinarith
      have := nonneg_of_mul_nonneg_right this hv
      linarith

/-- The right end of the chord. -/
theorem Chain.right_iff (h : Chain c i0 i1 i2 i3) (k : ℕ) (x y : ℝ) (hy0 : c.yp i0 ≤ y) (hy2 : y ≤ c.yp i2)
    (hk : (k = i0 ∧ y < c.yp i3) ∨ (k = i3 ∧ c.yp i3 ≤ y) ∨ (k = i2 ∧ c.yp i2 ≤ y)) :
    x ≤ edgeX c k (prevCorner k) y ↔
      ((c.yp i3 - c.yp i0) * (x - c.xp i0) ≤ (c.xp i3 - c.xp i0) * (y - c.yp i0) ∧
        (c.yp i1 - c.yp i0) * (x - c.xp i0) - (c.xp i1 - c.xp i0) * (y - c.yp i0) ≤
          (c.xp i3 - c.xp i0) * (c.yp i1 - c.yp i0) - (c.yp i3 - c.yp i0) * (c.xp i1 - c.xp i0)) := by
  have hux := h.ux
  have huy := h.uy
  have hvx := h.vx
  have hvy := h.vy
  have hx2 := h.x2
  have hy2' := h.y2
  rcases hk with ⟨rfl, hlt⟩ | ⟨rfl, hge⟩ | ⟨rfl, hge⟩
  · rw [h.p0, le_edge_iff c _ _ x y (by linarith)]
    constructor
    · intro h1
      refine ⟨h1, ?_⟩
      have hv : 0 < c.yp i3 - c.yp k := by linarith
      have hX : x ≤ c.xp i3 := by
        by_contra hc
        push Not at hc
        nlinarith [mul_pos (show 0 < c.xp i3 - c.xp k by linarith) (show 0 < c.yp i3 - y by linarith),
          mul_pos hv (show 0 < x - c.xp i3 by linarith)]
      nlinarith [mul_nonneg (show 0 ≤ c.yp i1 - c.yp k by linarith) (show 0 ≤ c.xp i3 - x by linarith),
        mul_nonneg (show 0 ≤ c.xp k - c.xp i1 by linarith) (show 0 ≤ c.yp i3 - y by linarith)]
    · exact fun h1 => h1.1
  · rw [h.p3, le_edge_iff c _ _ x y (by linarith), hx2, hy2']
    have e1 : (c.xp i1 + c.xp k - c.xp i0 - c.xp k) = c.xp i1 - c.xp i0 := by ring
    have e2 : (c.yp i1 + c.yp k - c.yp i0 - c.yp k) = c.yp i1 - c.yp i0 := by ring
    rw [e1, e2]
    constructor
    · intro h1
      have hX : x ≤ c.xp k := by
        by_contra hc
        push Not at hc
        nlinarith [mul_nonneg (show 0 ≤ c.xp i0 - c.xp i1 by linarith) (show 0 ≤ y - c.yp k by linarith),
          mul_pos (show 0 < c.yp i1 - c.yp i0 by linarith) (show 0 < x - c.xp k by linarith)]
      refine ⟨?_, by nlinarith⟩
      nlinarith [mul_nonneg (show 0 ≤ c.yp k - c.yp i0 by linarith) (show 0 ≤ c.xp k - x by linarith),
        mul_nonneg (show 0 ≤ c.xp k - c.xp i0 by linarith) (show 0 ≤ y - c.yp k by linarith)]
    · rintro ⟨-, h2⟩
      nlinarith
  · have hyy : y = c.yp k := le_antisymm hy2 hge
    rw [hyy, edge_at, hx2, hy2']
    have hu : 0 < c.yp i1 - c.yp i0 := by linarith
    constructor
    · intro h1
      constructor
      · nlinarith [mul_nonneg (show 0 ≤ c.yp i3 - c.yp i0 by linarith) (show 0 ≤ (c.xp i1 + c.xp i3 - c.xp i0) - x by linarith),
          mul_nonneg (show 0 ≤ c.xp i0 - c.xp i1 by linarith) (show 0 ≤ c.yp i3 - c.yp i0 by linarith),
          mul_nonneg hu.le (show 0 ≤ c.xp i3 - c.xp i0 by linarith)]
      · nlinarith [mul_nonneg hu.le (show 0 ≤ (c.xp i1 + c.xp i3 - c.xp i0) - x by linarith)]
    · rintro ⟨-, h2⟩
      have : 0 ≤ (c.yp i1 - c.yp i0) * ((c.xp i1 + c.xp i3 - c.xp i0) - x) := by nlinarith
      have := nonneg_of_mul_nonneg_right this hu
      linarith

/-- Points inside are not below the lowest nor above the highest corner. -/
theorem Chain.inside_height (h : Chain c i0 i1 i2 i3) (x y : ℝ) (hi : c.inside i0 i1 i3 x y) : c.yp i0 ≤ y ∧ y ≤ c.yp i2 := by
  have hux := h.ux
  have huy := h.uy
  have hvx := h.vx
  have hvy := h.vy
  have hy2' := h.y2
  obtain ⟨⟨h1, h2⟩, h3, h4⟩ := hi
  have hD : 0 < (c.xp i3 - c.xp i0) * (c.yp i1 - c.yp i0) - (c.yp i3 - c.yp i0) * (c.xp i1 - c.xp i0) := by
    nlinarith [mul_pos (show 0 < c.xp i3 - c.xp i0 by linarith) (show 0 < c.yp i1 - c.yp i0 by linarith),
      mul_nonneg (show 0 ≤ c.yp i3 - c.yp i0 by linarith) (show 0 ≤ c.xp i0 - c.xp i1 by linarith)]
  constructor
  · -- (y - y0) D = uy * (vx Y - vy X) + vy * (uy X - ux Y)
    have : 0 ≤ ((c.xp i3 - c.xp i0) * (c.yp i1 - c.yp i0) - (c.yp i3 - c.yp i0) * (c.xp i1 - c.xp i0)) * (y - c.yp i0) := by
      nlinarith [mul_nonneg (show 0 ≤ c.yp i1 - c.yp i0 by linarith) (sub_nonneg.mpr h3),
        mul_nonneg (show 0 ≤ c.yp i3 - c.yp i0 by linarith) (sub_nonneg.mpr h1)]
    have := nonneg_of_mul_nonneg_right this hD
    linarith
  · have : 0 ≤ ((c.xp i3 - c.xp i0) * (c.yp i1 - c.yp i0) - (c.yp i3 - c.yp i0) * (c.xp i1 - c.xp i0)) * (c.yp i2 - y) := by
      rw [hy2']
      nlinarith [mul_nonneg (show 0 ≤ c.yp i1 - c.yp i0 by linarith) (sub_nonneg.mpr h2),
        mul_nonneg (show 0 ≤ c.yp i3 - c.yp i0 by linarith) (sub_nonneg.mpr h4)]
    have := nonneg_of_mul_nonneg_right this hD
    linarith

/-- Every height in between is met. -/
theorem Chain.inside_some (h : Chain c i0 i1 i2 i3) (y : ℝ) (hy0 : c.yp i0 ≤ y) (hy2 : y ≤ c.yp i2) : ∃ x, c.inside i0 i1 i3 x y := by
  have hux := h.ux
  have huy := h.uy
  have hvx := h.vx
  have hvy := h.vy
  have hy2' := h.y2
  have hH : 0 < c.yp i1 + c.yp i3 - 2 * c.yp i0 := by linarith
  have hD : 0 < (c.xp i3 - c.xp i0) * (c.yp i1 - c.yp i0) - (c.yp i3 - c.yp i0) * (c.xp i1 - c.xp i0) := by
    nlinarith [mul_pos (show 0 < c.xp i3 - c.xp i0 by linarith) (show 0 < c.yp i1 - c.yp i0 by linarith),
      mul_nonneg (show 0 ≤ c.yp i3 - c.yp i0 by linarith) (show 0 ≤ c.xp i0 - c.xp i1 by linarith)]
  obtain ⟨t, ht⟩ : ∃ t, y - c.yp i0 = t * (c.yp i1 + c.yp i3 - 2 * c.yp i0) := ⟨(y - c.yp i0) / (c.yp i1 + c.yp i3 - 2 * c.yp i0), (div_mul_cancel₀ _ hH.ne').symm⟩
  have t0 : 0 ≤ t := by
    have : 0 ≤ t * (c.yp i1 + c.yp i3 - 2 * c.yp i0) := by linarith
    exact nonneg_of_mul_nonneg_left this hH
  have t1 : t ≤ 1 := by
    by_contra hc
    push Not at hc
    nlinarith
  refine ⟨c.xp i0 + t * (c.xp i1 + c.xp i3 - 2 * c.xp i0), ?_⟩
  unfold Corners.inside
  rw [ht]
  have p1 := mul_nonneg t0 hD.le
  have p2 := mul_nonneg (show 0 ≤ 1 - t by linarith) hD.le
  refine ⟨⟨by nlinarith, by nlinarith⟩, by nlinarith, by nlinarith⟩

/-! ### The scan -/

/-- Which corners the scan can be at once everything up to height `Y` is done. -/
def ScanOK (c : Corners) (i0 i1 i2 i3 : ℕ) (s : ScanState) (Y : ℝ) : Prop :=
  (s.left = i0 ∨ (s.left = i1 ∧ c.yp i1 ≤ Y) ∨ (s.left = i2 ∧ c.yp i2 ≤ Y)) ∧
  (s.right = i0 ∨ (s.right = i3 ∧ c.yp i3 ≤ Y) ∨ (s.right = i2 ∧ c.yp i2 ≤ Y))

theorem ScanOK.mono {s : ScanState} {Y Y' : ℝ} (h : ScanOK c i0 i1 i2 i3 s Y) (hY : Y ≤ Y') : ScanOK c i0 i1 i2 i3 s Y' := by
  refine ⟨h.1.imp_right (Or.imp ?_ ?_), h.2.imp_right (Or.imp ?_ ?_)⟩ <;> exact fun h => ⟨h.1, h.2.trans hY⟩

/-- The height of a sub-row. -/
noncomputable def subRow (mag : ℕ) (ypix : ℤ) (ysub : ℕ) : ℝ := ypix - 0.5 + (0.5 + ysub) / mag

theorem scanRow_spec (h : Chain c i0 i1 i2 i3) (ngrid : ℤ) (mag : ℕ) (ypix : ℤ) (l : List ℕ) :
    ∀ (s : ScanState) (Y : ℝ), ScanOK c i0 i1 i2 i3 s Y → (∀ k ∈ l, Y < subRow mag ypix k) →
      l.Pairwise (fun a b => subRow mag ypix a < subRow mag ypix b) → ∀ Y', Y ≤ Y' → (∀ k ∈ l, subRow mag ypix k ≤ Y') →
      ScanOK c i0 i1 i2 i3 (scanRow c ngrid mag ypix l s) Y' ∧
      ∀ i j : ℤ, 0 ≤ j → j < ngrid → (scanRow c ngrid mag ypix l s).img i j =
        s.img i j + if i = ypix then (l.map fun k => (mag : ℝ) * lineCover (c.inside i0 i1 i3) j (subRow mag ypix k)).sum else 0 := by
  induction l with
  | nil =>
    intro s Y hs _ _ Y' hY' _
    refine ⟨hs.mono hY', fun i j _ _ => ?_⟩
    simp [scanRow]
  | cons k rest ih =>
    intro s Y hs hlt hord Y' hY' hle
    have hkY := hlt k (List.mem_cons_self ..)
    obtain ⟨hord1, hord2⟩ := List.pairwise_cons.mp hord
    have hrest : ∀ a ∈ rest, subRow mag ypix k < subRow mag ypix a := hord1
    unfold scanRow
    simp only
    have hydef : ((ypix : ℝ) - 0.5 + (0.5 + (k : ℝ)) / mag) = subRow mag ypix k := rfl
    rw [hydef]
    have none : ∀ y : ℝ, ¬ (c.yp i0 ≤ y ∧ y ≤ c.yp i2) → ∀ x, lineCover (c.inside i0 i1 i3) x y = 0 := by
      intro y hy x
      exact lineCover_none _ _ _ fun t ht => hy (h.inside_height t y ht)
    have hleft_low : subRow mag ypix k < c.yp s.left → subRow mag ypix k < c.yp i0 := by
      intro hl
      rcases hs.1 with e | ⟨e, he⟩ | ⟨e, he⟩
      · rwa [e] at hl
      · rw [e] at hl; linarith
      · rw [e] at hl; linarith
    by_cases c1 : subRow mag ypix k < c.yp s.left
    · rw [if_pos c1]
      have := ih s (subRow mag ypix k) (hs.mono hkY.le) hrest hord2 Y' (hle k (List.mem_cons_self ..)) (fun a ha => hle a (List.mem_cons_of_mem _ ha))
      refine ⟨this.1, fun i j hj0 hj1 => ?_⟩
      rw [this.2 i j hj0 hj1, List.map_cons, List.sum_cons, none _ (fun hc => absurd hc.1 (not_le.mpr (hleft_low c1))), mul_zero, zero_add]
    rw [if_neg c1]
    by_cases c2 : subRow mag ypix k > max4 c.yp
    · rw [if_pos c2]
      rw [h.high] at c2
      refine ⟨hs.mono hY', fun i j _ _ => ?_⟩
      have : ((k :: rest).map fun k => (mag : ℝ) * lineCover (c.inside i0 i1 i3) j (subRow mag ypix k)).sum = 0 := by
        apply List.sum_eq_zero
        intro v hv
        obtain ⟨a, ha, rfl⟩ := List.mem_map.mp hv
        have : c.yp i2 < subRow mag ypix a := by
          rcases List.mem_cons.mp ha with rfl | ha
          · exact c2
          · exact c2.trans (hrest a ha)
        rw [none _ (fun hc => absurd hc.2 (not_le.mpr this)), mul_zero]
      rw [this, ite_self, add_zero]
    rw [if_neg c2]
    rw [h.high] at c2
    push Not at c1 c2
    generalize hy : subRow mag ypix k = y at *
    have hux := h.ux
    have huy := h.uy
    have hvx := h.vx
    have hvy := h.vy
    have hy2' := h.y2
    have hlow : c.yp i0 ≤ y := by
      rcases hs.1 with e | ⟨e, he⟩ | ⟨e, he⟩
      · rwa [e] at c1
      · linarith
      · linarith
    -- the corners after the update
    have hL : ∃ left, (if y ≥ c.yp (nextCorner s.left) then nextCorner s.left else s.left) = left ∧
        ((left = i0 ∧ y < c.yp i1) ∨ (left = i1 ∧ c.yp i1 ≤ y) ∨ (left = i2 ∧ c.yp i2 ≤ y ∧ c.yp i1 < c.yp i2)) := by
      refine ⟨_, rfl, ?_⟩
      rcases hs.1 with e | ⟨e, he⟩ | ⟨e, he⟩
      · rw [e, h.n0]
        by_cases hc : y ≥ c.yp i1
        · rw [if_pos hc]; exact Or.inr (Or.inl ⟨rfl, hc⟩)
        · rw [if_neg hc]; exact Or.inl ⟨rfl, lt_of_not_ge hc⟩
      · rw [e, h.n1]
        by_cases hc : y ≥ c.yp i2
        · rw [if_pos hc]; exact Or.inr (Or.inr ⟨rfl, hc, by linarith⟩)
        · rw [if_neg hc]; exact Or.inr (Or.inl ⟨rfl, by linarith⟩)
      · exfalso; linarith
    have hR : ∃ right, (if y ≥ c.yp (prevCorner s.right) then prevCorner s.right else s.right) = right ∧
        ((right = i0 ∧ y < c.yp i3) ∨ (right = i3 ∧ c.yp i3 ≤ y) ∨ (right = i2 ∧ c.yp i2 ≤ y)) := by
      refine ⟨_, rfl, ?_⟩
      rcases hs.2 with e | ⟨e, he⟩ | ⟨e, he⟩
      · rw [e, h.p0]
        by_cases hc : y ≥ c.yp i3
        · rw [if_pos hc]; exact Or.inr (Or.inl ⟨rfl, hc⟩)
        · rw [if_neg hc]; exact Or.inl ⟨rfl, lt_of_not_ge hc⟩
      · rw [e, h.p3]
        by_cases hc : y ≥ c.yp i2
        · rw [if_pos hc]; exact Or.inr (Or.inr ⟨rfl, hc⟩)
        · rw [if_neg hc]; exact Or.inr (Or.inl ⟨rfl, by linarith⟩)
      · exfalso; linarith
    obtain ⟨left, eL, hL⟩ := hL
    obtain ⟨right, eR, hR⟩ := hR
    rw [eL, eR]
    have hchord : ∀ x, c.inside i0 i1 i3 x y ↔ edgeX c left (nextCorner left) y ≤ x ∧ x ≤ edgeX c right (prevCorner right) y := by
      intro x
      rw [h.left_iff left x y hlow c2 hL, h.right_iff right x y hlow c2 hR]
      rfl
    obtain ⟨x0, hx0⟩ := h.inside_some y hlow c2
    have hxx : edgeX c left (nextCorner left) y ≤ edgeX c right (prevCorner right) y := ((hchord x0).mp hx0).1.trans ((hchord x0).mp hx0).2
    have hs' : ∀ im, ScanOK c i0 i1 i2 i3 ⟨left, right, im⟩ y := by
      intro im
      refine ⟨?_, ?_⟩
      · rcases hL with ⟨e, _⟩ | ⟨e, he⟩ | ⟨e, he, _⟩
        · exact Or.inl e
        · exact Or.inr (Or.inl ⟨e, he⟩)
        · exact Or.inr (Or.inr ⟨e, he⟩)
      · rcases hR with ⟨e, _⟩ | ⟨e, he⟩ | ⟨e, he⟩
        · exact Or.inl e
        · exact Or.inr (Or.inl ⟨e, he⟩)
        · exact Or.inr (Or.inr ⟨e, he⟩)
    have hyY' : y ≤ Y' := by rw [← hy]; exact hle k (List.mem_cons_self ..)
    have := ih _ y (hs' (fun i j => if i = ypix then s.img i j + chordAdd ngrid mag (edgeX c left (nextCorner left) y)
      (edgeX c right (prevCorner right) y) j else s.img i j)) hrest hord2 Y' hyY' (fun a ha => hle a (List.mem_cons_of_mem _ ha))
    refine ⟨this.1, fun i j hj0 hj1 => ?_⟩
    rw [this.2 i j hj0 hj1]
    simp only
    by_cases hi : i = ypix
    · rw [if_pos hi, if_pos hi, if_pos hi, List.map_cons, List.sum_cons, chordAdd_eq ngrid mag _ _ j hj0 hj1 hxx,
        lineCover_overlap _ _ _ _ _ (by rw [hy]; exact hchord)]
      ring
    · rw [if_neg hi, if_neg hi, if_neg hi]

theorem scanRows_spec (h : Chain c i0 i1 i2 i3) (ngrid : ℤ) (mag : ℕ) (hmag : 1 ≤ mag) (rows : List ℤ) :
    ∀ (s : ScanState) (Y : ℝ), ScanOK c i0 i1 i2 i3 s Y → (∀ r ∈ rows, Y ≤ r - 1 / 2) → rows.Pairwise (· < ·) →
      ∀ i j : ℤ, 0 ≤ j → j < ngrid → (scanRows c ngrid mag rows s).img i j =
        s.img i j + if i ∈ rows then ∑ k ∈ Finset.range mag, (mag : ℝ) * lineCover (c.inside i0 i1 i3) j (subRow mag i k) else 0 := by
  have hm : (0 : ℝ) < mag := by exact_mod_cast hmag
  have bounds : ∀ (r : ℤ) (k : ℕ), k < mag → (r : ℝ) - 1 / 2 < subRow mag r k ∧ subRow mag r k < r + 1 / 2 := by
    intro r k hk
    have hk' : (k : ℝ) + 1 ≤ mag := by exact_mod_cast hk
    unfold subRow
    have h1 : 0 < (0.5 + (k : ℝ)) / mag := by positivity
    have h2 : (0.5 + (k : ℝ)) / mag < 1 := by rw [div_lt_one hm]; linarith
    constructor <;> linarith
  induction rows with
  | nil => intro s Y _ _ _ i j _ _; simp [scanRows]
  | cons r rest ih =>
    intro s Y hs hY hord i j hj0 hj1
    obtain ⟨hord1, hord2⟩ := List.pairwise_cons.mp hord
    have hrow := scanRow_spec h ngrid mag r (List.range mag) s ((r : ℝ) - 1 / 2) (hs.mono (hY r (List.mem_cons_self ..)))
      (fun k hk => (bounds r k (List.mem_range.mp hk)).1) (by
        refine List.Pairwise.imp ?_ List.pairwise_lt_range
        intro a b hab
        unfold subRow
        have : (a : ℝ) < b := by exact_mod_cast hab
        have : (0.5 + (a : ℝ)) / mag < (0.5 + (b : ℝ)) / mag := div_lt_div_of_pos_right (by linarith) hm
        linarith) ((r : ℝ) + 1 / 2) (by linarith) (fun k hk => (bounds r k (List.mem_range.mp hk)).2.le)
    unfold scanRows
    rw [ih _ ((r : ℝ) + 1 / 2) hrow.1 (fun r' hr' => by
      have : (r : ℝ) + 1 ≤ r' := by exact_mod_cast hord1 r' hr'
      linarith) hord2 i j hj0 hj1, hrow.2 i j hj0 hj1]
    have esum : ((List.range mag).map fun k => (mag : ℝ) * lineCover (c.inside i0 i1 i3) j (subRow mag r k)).sum =
        ∑ k ∈ Finset.range mag, (mag : ℝ) * lineCover (c.inside i0 i1 i3) j (subRow mag r k) := rfl
    rw [esum]
    by_cases hi : i = r
    · subst hi
      have hnot : i ∉ rest := fun hm => lt_irrefl _ (hord1 i hm)
      rw [if_pos rfl, if_neg hnot, if_pos (List.mem_cons_self ..), add_zero]
    · rw [if_neg hi, add_zero]
      have : i ∈ r :: rest ↔ i ∈ rest := by rw [List.mem_cons]; simp [hi]
      simp only [this]

/-! ### Where the scan starts -/

theorem min4_le (v : ℕ → ℝ) (k : ℕ) (hk : k < 4) : min4 v ≤ v k := by
  unfold min4
  have : k = 0 ∨ k = 1 ∨ k = 2 ∨ k = 3 := by omega
  rcases this with rfl | rfl | rfl | rfl <;> simp

theorem le_max4 (v : ℕ → ℝ) (k : ℕ) (hk : k < 4) : v k ≤ max4 v := by
  unfold max4
  have : k = 0 ∨ k = 1 ∨ k = 2 ∨ k = 3 := by omega
  rcases this with rfl | rfl | rfl | rfl <;> simp

theorem min4_mem (v : ℕ → ℝ) : ∃ k < 4, v k = min4 v := by
  unfold min4
  rcases min_choice (min (v 0) (v 1)) (min (v 2) (v 3)) with h | h <;> rw [h]
  · rcases min_choice (v 0) (v 1) with h | h <;> rw [h]
    exacts [⟨0, by norm_num, rfl⟩, ⟨1, by norm_num, rfl⟩]
  · rcases min_choice (v 2) (v 3) with h | h <;> rw [h]
    exacts [⟨2, by norm_num, rfl⟩, ⟨3, by norm_num, rfl⟩]

theorem max4_mem (v : ℕ → ℝ) : ∃ k < 4, v k = max4 v := by
  unfold max4
  rcases max_choice (max (v 0) (v 1)) (max (v 2) (v 3)) with h | h <;> rw [h]
  · rcases max_choice (v 0) (v 1) with h | h <;> rw [h]
    exacts [⟨0, by norm_num, rfl⟩, ⟨1, by norm_num, rfl⟩]
  · rcases max_choice (v 2) (v 3) with h | h <;> rw [h]
    exacts [⟨2, by norm_num, rfl⟩, ⟨3, by norm_num, rfl⟩]

theorem foldr_min_spec (f : ℕ → ℝ) (M : ℝ) (l : List ℕ) (hM : ∀ k ∈ l, f k ≤ M) (hne : l ≠ []) :
    (∃ k ∈ l, f k = l.foldr (fun k m => min (f k) m) M) ∧ ∀ k ∈ l, l.foldr (fun k m => min (f k) m) M ≤ f k := by
  induction l with
  | nil => exact absurd rfl hne
  | cons a rest ih =>
    rw [List.foldr_cons]
    by_cases hr : rest = []
    · subst hr
      have : f a ≤ M := hM a (List.mem_cons_self ..)
      simp [this]
    · obtain ⟨⟨k, hk, e⟩, hle⟩ := ih (fun k hk => hM k (List.mem_cons_of_mem _ hk)) hr
      refine ⟨?_, ?_⟩
      · rcases min_choice (f a) (rest.foldr (fun k m => min (f k) m) M) with h | h <;> rw [h]
        · exact ⟨a, List.mem_cons_self .., rfl⟩
        · exact ⟨k, List.mem_cons_of_mem _ hk, e⟩
      · intro k' hk'
        rcases List.mem_cons.mp hk' with rfl | hk'
        · exact min_le_left _ _
        · exact (min_le_right _ _).trans (hle k' hk')

theorem startCorner_spec (c : Corners) : startCorner c < 4 ∧ (∀ k < 4, c.yp (startCorner c) ≤ c.yp k) ∧
    ∀ k < 4, c.yp k = c.yp (startCorner c) → c.xp (startCorner c) ≤ c.xp k := by
  classical
  unfold startCorner
  simp only
  set low := [0, 1, 2, 3].filter fun k => decide (c.yp k = min4 c.yp) with hlow
  have mem_low : ∀ k, k ∈ low ↔ k < 4 ∧ c.yp k = min4 c.yp := by
    intro k
    rw [hlow, List.mem_filter, decide_eq_true_eq]
    simp only [List.mem_cons, List.not_mem_nil, or_false]
    constructor
    · rintro ⟨h, e⟩
      exact ⟨by omega, e⟩
    · rintro ⟨h, e⟩
      exact ⟨by omega, e⟩
  obtain ⟨k0, hk0, e0⟩ := min4_mem c.yp
  have hne : low ≠ [] := List.ne_nil_of_mem ((mem_low k0).mpr ⟨hk0, e0⟩)
  obtain ⟨⟨k1, hk1, e1⟩, hle⟩ := foldr_min_spec c.xp (max4 c.xp) low (fun k hk => le_max4 _ _ ((mem_low k).mp hk).1) hne
  set xmin := low.foldr (fun k m => min (c.xp k) m) (max4 c.xp) with hxmin
  have hk1' : k1 ∈ low.filter fun k => decide (c.xp k = xmin) := by
    rw [List.mem_filter, decide_eq_true_eq]
    exact ⟨hk1, e1⟩
  obtain ⟨a, t, hat⟩ := List.exists_cons_of_ne_nil (List.ne_nil_of_mem hk1')
  have ha : a ∈ low.filter fun k => decide (c.xp k = xmin) := by rw [hat]; exact List.mem_cons_self ..
  rw [List.mem_filter, decide_eq_true_eq] at ha
  rw [hat]
  simp only [List.head?_cons, Option.getD_some]
  obtain ⟨ha4, hay⟩ := (mem_low a).mp ha.1
  refine ⟨ha4, fun k hk => ?_, fun k hk e => ?_⟩
  · rw [hay]; exact min4_le _ _ hk
  · rw [ha.2]
    exact hle k ((mem_low k).mpr ⟨hk, e.trans hay⟩)

/-- A rectangle whose lowest corner is `i0`: the sides have lengths `p` (up to the left) and `q` (up to the right), the direction of the second is
`(A, B)`, and the centre is `(xc, yc)`. -/
theorem chain_of (c : Corners) (i0 i1 i2 i3 : ℕ) (A B p q xc yc : ℝ) (hp : 0 < p) (hq : 0 < q) (hA : 0 < A) (hB : 0 ≤ B) (hAB : A ^ 2 + B ^ 2 = 1)
    (hn : nextCorner i0 = i1 ∧ nextCorner i1 = i2 ∧ nextCorner i2 = i3) (hpv : prevCorner i0 = i3 ∧ prevCorner i3 = i2 ∧ prevCorner i2 = i1)
    (hd : i0 ≠ i1 ∧ i0 ≠ i2 ∧ i0 ≠ i3 ∧ i1 ≠ i2 ∧ i1 ≠ i3 ∧ i2 ≠ i3) (h4 : ∀ k, k < 4 ↔ k = i0 ∨ k = i1 ∨ k = i2 ∨ k = i3)
    (hx0 : c.xp i0 = xc + (p * B - q * A) / 2) (hy0 : c.yp i0 = yc - (p * A + q * B) / 2)
    (hx1 : c.xp i1 = xc - (p * B + q * A) / 2) (hy1 : c.yp i1 = yc + (p * A - q * B) / 2)
    (hx2 : c.xp i2 = xc - (p * B - q * A) / 2) (hy2 : c.yp i2 = yc + (p * A + q * B) / 2)
    (hx3 : c.xp i3 = xc + (p * B + q * A) / 2) (hy3 : c.yp i3 = yc - (p * A - q * B) / 2) :
    Chain c i0 i1 i2 i3 ∧ ∀ x y, c.inside i0 i1 i3 x y ↔ |(x - xc) * A + (y - yc) * B| ≤ q / 2 ∧ |(y - yc) * A - (x - xc) * B| ≤ p / 2 := by
  have hpA := mul_pos hp hA
  have hqA := mul_pos hq hA
  have hpB := mul_nonneg hp.le hB
  have hqB := mul_nonneg hq.le hB
  have all : ∀ k < 4, c.yp i0 ≤ c.yp k ∧ c.yp k ≤ c.yp i2 := by
    intro k hk
    rcases (h4 k).mp hk with rfl | rfl | rfl | rfl <;> constructor <;> linarith
  have i04 : i0 < 4 := (h4 i0).mpr (Or.inl rfl)
  have i24 : i2 < 4 := (h4 i2).mpr (Or.inr (Or.inr (Or.inl rfl)))
  refine ⟨⟨hn.1, hn.2.1, hn.2.2, hpv.1, hpv.2.1, hpv.2.2, hd, by linarith, by linarith, by linarith, by linarith, by linarith, by linarith, ?_, ?_⟩, ?_⟩
  · obtain ⟨k, hk, e⟩ := min4_mem c.yp
    exact le_antisymm (min4_le _ _ i04) (by rw [← e]; exact (all k hk).1)
  · obtain ⟨k, hk, e⟩ := max4_mem c.yp
    exact le_antisymm (by rw [← e]; exact (all k hk).2) (le_max4 _ _ i24)
  · intro x y
    unfold Corners.inside
    have ux : c.xp i1 - c.xp i0 = -(p * B) := by rw [hx0, hx1]; ring
    have uy : c.yp i1 - c.yp i0 = p * A := by rw [hy0, hy1]; ring
    have vx : c.xp i3 - c.xp i0 = q * A := by rw [hx0, hx3]; ring
    have vy : c.yp i3 - c.yp i0 = q * B := by rw [hy0, hy3]; ring
    rw [ux, uy, vx, vy]
    have eD : q * A * (p * A) - q * B * (-(p * B)) = p * q := by linear_combination (p * q) * hAB
    have e1 : p * A * (x - c.xp i0) = -(p * B) * (y - c.yp i0) + p * (((x - xc) * A + (y - yc) * B) + q / 2) := by
      rw [hx0, hy0]; linear_combination (p * q / 2) * hAB
    have e2 : q * A * (y - c.yp i0) = q * B * (x - c.xp i0) + q * (((y - yc) * A - (x - xc) * B) + p / 2) := by
      rw [hx0, hy0]; linear_combination (p * q / 2) * hAB
    rw [eD, e1, e2, abs_le, abs_le]
    generalize (x - xc) * A + (y - yc) * B = ξ
    generalize (y - yc) * A - (x - xc) * B = η
    constructor
    · rintro ⟨⟨h1, h2⟩, h3, h4⟩
      have a1 : 0 ≤ p * (ξ + q / 2) := by linarith
      have a2 : q * (η + p / 2) ≤ q * p := by linarith
      have a3 : 0 ≤ q * (η + p / 2) := by linarith
      have a4 : p * (ξ + q / 2) ≤ p * q := by linarith
      have b1 := nonneg_of_mul_nonneg_right a1 hp
      have b2 := le_of_mul_le_mul_left a2 hq
      have b3 := nonneg_of_mul_nonneg_right a3 hq
      have b4 := le_of_mul_le_mul_left a4 hp
      exact ⟨⟨by linarith, by linarith⟩, by linarith, by linarith⟩
    · rintro ⟨⟨h1, h2⟩, h3, h4⟩
      have a1 : 0 ≤ p * (ξ + q / 2) := mul_nonneg hp.le (by linarith)
      have a2 : q * (η + p / 2) ≤ q * p := mul_le_mul_of_nonneg_left (by linarith) hq.le
      have a3 : 0 ≤ q * (η + p / 2) := mul_nonneg hq.le (by linarith)
      have a4 : p * (ξ + q / 2) ≤ p * q := mul_le_mul_of_nonneg_left (by linarith) hp.le
      exact ⟨⟨by linarith, by linarith⟩, by linarith, by linarith⟩

/-- Whatever the angle, the corner where the scan starts and its neighbours are as the scan needs them, and the figure is the rectangle. -/
theorem rect_chain (xr yr angle xc yc : ℝ) (hx : 0 < xr) (hy : 0 < yr) :
    ∃ i0 i1 i2 i3, startCorner (rectCorners xr yr angle xc yc) = i0 ∧ Chain (rectCorners xr yr angle xc yc) i0 i1 i2 i3 ∧
      ∀ x y, (rectCorners xr yr angle xc yc).inside i0 i1 i3 x y ↔
        |(x - xc) * Real.cos angle + (y - yc) * Real.sin angle| ≤ xr ∧ |(y - yc) * Real.cos angle - (x - xc) * Real.sin angle| ≤ yr := by
  obtain ⟨h4, hlo, hlft⟩ := startCorner_spec (rectCorners xr yr angle xc yc)
  generalize startCorner (rectCorners xr yr angle xc yc) = i at *
  have hCS : Real.cos angle ^ 2 + Real.sin angle ^ 2 = 1 := by rw [add_comm]; exact Real.sin_sq_add_cos_sq angle
  have X : ∀ k, (rectCorners xr yr angle xc yc).xp k = cornerX0 xr k * Real.cos angle - cornerY0 yr k * Real.sin angle + xc := fun _ => rfl
  have Y : ∀ k, (rectCorners xr yr angle xc yc).yp k = cornerX0 xr k * Real.sin angle + cornerY0 yr k * Real.cos angle + yc := fun _ => rfl
  have X0 : cornerX0 xr 0 = -xr := by simp [cornerX0]
  have X1 : cornerX0 xr 1 = -xr := by simp [cornerX0]
  have X2 : cornerX0 xr 2 = xr := by simp [cornerX0]
  have X3 : cornerX0 xr 3 = xr := by simp [cornerX0]
  have Y0 : cornerY0 yr 0 = -yr := by simp [cornerY0]
  have Y1 : cornerY0 yr 1 = yr := by simp [cornerY0]
  have Y2 : cornerY0 yr 2 = yr := by simp [cornerY0]
  have Y3 : cornerY0 yr 3 = -yr := by simp [cornerY0]
  set C := Real.cos angle
  set S := Real.sin angle
  have hi : i = 0 ∨ i = 1 ∨ i = 2 ∨ i = 3 := by omega
  have pos : ∀ a b : ℝ, 0 < a → 0 ≤ a * b → 0 ≤ b := fun a b ha h => nonneg_of_mul_nonneg_right h ha
  rcases hi with rfl | rfl | rfl | rfl
  · have h1 := hlo 1 (by norm_num)
    have h3 := hlo 3 (by norm_num)
    have t1 := hlft 1 (by norm_num)
    simp only [X, Y, X0, X1, X2, X3, Y0, Y1, Y2, Y3] at h1 h3 t1
    have hC : 0 ≤ C := pos yr C hy (by linarith)
    have hS : 0 ≤ S := pos xr S hx (by linarith)
    have hC' : 0 < C := by
      rcases eq_or_lt_of_le hC with e | h
      · exfalso
        rw [← e] at t1 hCS
        have := t1 (by ring)
        have : S ≤ 0 := by nlinarith
        have : S = 0 := le_antisymm this hS
        rw [this] at hCS
        norm_num at hCS
      · exact h
    obtain ⟨ch, ins⟩ := chain_of (rectCorners xr yr angle xc yc) 0 1 2 3 C S (2 * yr) (2 * xr) xc yc (by linarith) (by linarith) hC' hS hCS
      (by decide) (by decide) (by decide) (by intro k; omega)
      (by rw [X, X0, Y0]; ring) (by rw [Y, X0, Y0]; ring) (by rw [X, X1, Y1]; ring) (by rw [Y, X1, Y1]; ring)
      (by rw [X, X2, Y2]; ring) (by rw [Y, X2, Y2]; ring) (by rw [X, X3, Y3]; ring) (by rw [Y, X3, Y3]; ring)
    refine ⟨0, 1, 2, 3, rfl, ch, fun x y => ?_⟩
    rw [ins x y, mul_div_cancel_left₀ xr (two_ne_zero), mul_div_cancel_left₀ yr (two_ne_zero)]
  · have h1 := hlo 2 (by norm_num)
    have h3 := hlo 0 (by norm_num)
    have t1 := hlft 2 (by norm_num)
    simp only [X, Y, X0, X1, X2, X3, Y0, Y1, Y2, Y3] at h1 h3 t1
    have hS : 0 ≤ S := pos xr S hx (by linarith)
    have hC : 0 ≤ -C := pos yr (-C) hy (by linarith)
    have hS' : 0 < S := by
      rcases eq_or_lt_of_le hS with e | h
      · exfalso
        rw [← e] at t1 hCS
        have := t1 (by ring)
        have : C = 0 := by nlinarith
        rw [this] at hCS
        norm_num at hCS
      · exact h
    obtain ⟨ch, ins⟩ := chain_of (rectCorners xr yr angle xc yc) 1 2 3 0 S (-C) (2 * xr) (2 * yr) xc yc (by linarith) (by linarith) hS' hC
      (by linarith) (by decide) (by decide) (by decide) (by intro k; omega)
      (by rw [X, X1, Y1]; ring) (by rw [Y, X1, Y1]; ring) (by rw [X, X2, Y2]; ring) (by rw [Y, X2, Y2]; ring)
      (by rw [X, X3, Y3]; ring) (by rw [Y, X3, Y3]; ring) (by rw [X, X0, Y0]; ring) (by rw [Y, X0, Y0]; ring)
    refine ⟨1, 2, 3, 0, rfl, ch, fun x y => ?_⟩
    rw [ins x y, mul_div_cancel_left₀ xr (two_ne_zero), mul_div_cancel_left₀ yr (two_ne_zero), and_comm,
      show (y - yc) * S - (x - xc) * -C = (x - xc) * C + (y - yc) * S by ring,
      show (x - xc) * S + (y - yc) * -C = -((y - yc) * C - (x - xc) * S) by ring, abs_neg]
  · have h1 := hlo 3 (by norm_num)
    have h3 := hlo 1 (by norm_num)
    have t1 := hlft 3 (by norm_num)
    simp only [X, Y, X0, X1, X2, X3, Y0, Y1, Y2, Y3] at h1 h3 t1
    have hC : 0 ≤ -C := pos yr (-C) hy (by linarith)
    have hS : 0 ≤ -S := pos xr (-S) hx (by linarith)
    have hC' : 0 < -C := by
      rcases eq_or_lt_of_le hC with e | h
      · exfalso
        have e' : C = 0 := by linarith
        rw [e'] at t1 hCS
        have := t1 (by ring)
        have : S = 0 := by nlinarith
        rw [this] at hCS
        norm_num at hCS
      · exact h
    obtain ⟨ch, ins⟩ := chain_of (rectCorners xr yr angle xc yc) 2 3 0 1 (-C) (-S) (2 * yr) (2 * xr) xc yc (by linarith) (by linarith) hC' hS
      (by linarith) (by decide) (by decide) (by decide) (by intro k; omega)
      (by rw [X, X2, Y2]; ring) (by rw [Y, X2, Y2]; ring) (by rw [X, X3, Y3]; ring) (by rw [Y, X3, Y3]; ring)
      (by rw [X, X0, Y0]; ring) (by rw [Y, X0, Y0]; ring) (by rw [X, X1, Y1]; ring) (by rw [Y, X1, Y1]; ring)
    refine ⟨2, 3, 0, 1, rfl, ch, fun x y => ?_⟩
    rw [ins x y, mul_div_cancel_left₀ xr (two_ne_zero), mul_div_cancel_left₀ yr (two_ne_zero),
      show (y - yc) * -C - (x - xc) * -S = -((y - yc) * C - (x - xc) * S) by ring,
      show (x - xc) * -C + (y - yc) * -S = -((x - xc) * C + (y - yc) * S) by ring, abs_neg, abs_neg]
  · have h1 := hlo 0 (by norm_num)
    have h3 := hlo 2 (by norm_num)
    have t1 := hlft 0 (by norm_num)
    simp only [X, Y, X0, X1, X2, X3, Y0, Y1, Y2, Y3] at h1 h3 t1
    have hS : 0 ≤ -S := pos xr (-S) hx (by linarith)
    have hC : 0 ≤ C := pos yr C hy (by linarith)
    have hS' : 0 < -S := by
      rcases eq_or_lt_of_le hS with e | h
      · exfalso
        have e' : S = 0 := by linarith
        rw [e'] at t1 hCS
        have := t1 (by ring)
        have : C = 0 := by nlinarith
        rw [this] at hCS
        norm_num at hCS
      · exact h
    obtain ⟨ch, ins⟩ := chain_of (rectCorners xr yr angle xc yc) 3 0 1 2 (-S) C (2 * xr) (2 * yr) xc yc (by linarith) (by linarith) hS' hC
      (by linarith) (by decide) (by decide) (by decide) (by intro k; omega)
      (by rw [X, X3, Y3]; ring) (by rw [Y, X3, Y3]; ring) (by rw [X, X0, Y0]; ring) (by rw [Y, X0, Y0]; ring)
      (by rw [X, X1, Y1]; ring) (by rw [Y, X1, Y1]; ring) (by rw [X, X2, Y2]; ring) (by rw [Y, X2, Y2]; ring)
    refine ⟨3, 0, 1, 2, rfl, ch, fun x y => ?_⟩
    rw [ins x y, mul_div_cancel_left₀ xr (two_ne_zero), mul_div_cancel_left₀ yr (two_ne_zero), and_comm,
      show (y - yc) * -S - (x - xc) * C = -((x - xc) * C + (y - yc) * S) by ring,
      show (x - xc) * -S + (y - yc) * C = (y - yc) * C - (x - xc) * S by ring, abs_neg]

end Coralign
