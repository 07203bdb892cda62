import Verif.Props.DmReg
import Mathlib.Analysis.Real.Pi.Bounds

/-!
# Concrete registrations for C57, C74 and C75
-/

namespace Coralign.Props

open Coralign Coralign.Spec

/-! ### The four corner pixels of a 3 x 3 image -/

/-- The corners are usable. -/
def corners : Arr2 Bool := ⟨3, 3, fun i j => decide ((i : ℕ) ≠ 1 ∧ (j : ℕ) ≠ 1)⟩

/-- A saddle of height `m` at the corners. -/
noncomputable def saddle (m : ℝ) : Arr2 ℝ := ⟨3, 3, fun i j => m * ((((i : ℕ) : ℝ) - 1) * (((j : ℕ) : ℝ) - 1))⟩

theorem ptt_saddle (S : Solver) (m : ℝ) : removePistonTipTilt S (saddle m) corners = .ok (saddle m) := by
  refine C25_identity S (saddle m) corners rfl rfl ?_ ⟨?_, ?_, ?_⟩
  · intro i j h
    have hb := (Arr2.px_isSome corners i j).mp (by rw [h]; rfl)
    have hb' : (0 ≤ i ∧ i < ((3 : ℕ) : ℤ)) ∧ (0 ≤ j ∧ j < ((3 : ℕ) : ℤ)) := hb
    rw [Arr2.px_of_inB corners hb] at h
    have h' : decide (i.toNat ≠ 1 ∧ j.toNat ≠ 1) = false := Option.some.inj h
    rw [decide_eq_false_iff_not] at h'
    rw [Arr2.px_of_inB (saddle m) hb']
    congr 1
    show m * (((i.toNat : ℝ) - 1) * ((j.toNat : ℝ) - 1)) = 0
    by_cases hi : i.toNat = 1
    · rw [hi]; norm_num
    · have : j.toNat = 1 := by by_contra hj; exact h' ⟨hi, hj⟩
      rw [this]; norm_num
  · show ∑ i : Fin 3, ∑ j : Fin 3, m * ((((i : ℕ) : ℝ) - 1) * (((j : ℕ) : ℝ) - 1)) = 0
    simp only [Fin.sum_univ_three]; norm_num
  · show ∑ i : Fin 3, ∑ j : Fin 3, ((i : ℕ) : ℝ) * (m * ((((i : ℕ) : ℝ) - 1) * (((j : ℕ) : ℝ) - 1))) = 0
    simp only [Fin.sum_univ_three]; norm_num
  · show ∑ i : Fin 3, ∑ j : Fin 3, ((j : ℕ) : ℝ) * (m * ((((i : ℕ) : ℝ) - 1) * (((j : ℕ) : ℝ) - 1))) = 0
    simp only [Fin.sum_univ_three]; norm_num

/-- On the corners only the saddle part of a map survives. -/
theorem ptt_corners (S : Solver) (v : Fin 3 → Fin 3 → ℝ) :
    removePistonTipTilt S ⟨3, 3, v⟩ corners = .ok (saddle ((v 0 0 - v 0 2 - v 2 0 + v 2 2) / 4)) := by
  set q := (v 0 0 - v 0 2 - v 2 0 + v 2 2) / 4 with hq
  rw [← ptt_saddle S q, ptt_ok S ⟨3, 3, v⟩ corners rfl rfl, ptt_ok S (saddle q) corners rfl rfl]
  congr 2
  refine ptt_congr_plane S (saddle q).val v _ ((v 0 0 + v 0 2 + v 2 0 + v 2 2) / 4 - (v 2 0 + v 2 2 - v 0 0 - v 0 2) / 4 - (v 0 2 + v 2 2 - v 0 0 - v 2 0) / 4)
    ((v 2 0 + v 2 2 - v 0 0 - v 0 2) / 4) ((v 0 2 + v 2 2 - v 0 0 - v 2 0) / 4) ?_
  intro i j h
  change Fin 3 at i j
  have h' : (i : ℕ) ≠ 1 ∧ (j : ℕ) ≠ 1 := of_decide_eq_true h
  have hi : i = 0 ∨ i = 2 := by
    have := i.isLt
    rcases (show (i : ℕ) = 0 ∨ (i : ℕ) = 2 by omega) with e | e
    · exact Or.inl (Fin.ext e)
    · exact Or.inr (Fin.ext e)
  have hj : j = 0 ∨ j = 2 := by
    have := j.isLt
    rcases (show (j : ℕ) = 0 ∨ (j : ℕ) = 2 by omega) with e | e
    · exact Or.inl (Fin.ext e)
    · exact Or.inr (Fin.ext e)
  rcases hi with rfl | rfl <;> rcases hj with rfl | rfl
  all_goals simp only [saddle, hq]
  all_goals norm_num
  all_goals ring

theorem corners_misfit (a b : Fin 3 → Fin 3 → ℝ) : totalMisfit corners ⟨3, 3, a⟩ ⟨3, 3, b⟩ =
    |a 0 0 - b 0 0| + |a 0 2 - b 0 2| + |a 2 0 - b 2 0| + |a 2 2 - b 2 2| := by
  have e : ∀ (v : Fin 3 → Fin 3 → ℝ) (i j : Fin 3), (⟨3, 3, v⟩ : Arr2 ℝ).zext (i : ℕ) (j : ℕ) = v i j := fun v i j => Arr2.zext_val ⟨3, 3, v⟩ i j
  have : totalMisfit corners ⟨3, 3, a⟩ ⟨3, 3, b⟩ = ∑ i : Fin 3, ∑ j : Fin 3,
      if ((i : ℕ) ≠ 1 ∧ (j : ℕ) ≠ 1) then |a i j - b i j| else 0 := by
    unfold totalMisfit
    rw [Fintype.sum_prod_type]
    refine Finset.sum_congr rfl fun i _ => Finset.sum_congr rfl fun j _ => ?_
    refine if_congr ?_ ?_ rfl
    · show decide ((i : ℕ) ≠ 1 ∧ (j : ℕ) ≠ 1) = true ↔ _
      exact decide_eq_true_iff
    · exact congrArg₂ (fun x y => |x - y|) (e a i j) (e b i j)
  rw [this]
  simp only [Fin.sum_univ_three]
  norm_num
  ring

theorem saddle_misfit (m q : ℝ) : totalMisfit corners (saddle m) (saddle q) = 4 * |m - q| := by
  refine (corners_misfit _ _).trans ?_
  norm_num
  rw [show -m + q = -(m - q) by ring, abs_neg]
  ring

theorem wrapPhase_small (v : ℝ) (h : |v| ≤ 1) : wrapPhase v = v := by
  unfold wrapPhase
  rw [mul_comm, Complex.exp_mul_I, ← Complex.ofReal_cos, ← Complex.ofReal_sin]
  have := Real.pi_gt_three
  have h' := abs_le.mp h
  rw [Complex.ofReal_cos, Complex.ofReal_sin]
  exact Complex.arg_cos_add_sin_mul_I ⟨by linarith, by linarith⟩

/-- Phases whose change is a saddle of height 1. -/
noncomputable def saddleData : PhaseData := ⟨Arr2.full 3 3 1, Arr2.full 3 3 0, Arr2.full 3 3 1, saddle 1, corners⟩

theorem saddle_measured (S : Solver) : measuredDiff S saddleData = .ok (saddle 1) := by
  have e : (saddleData.ph1.subPx saddleData.ph0).map wrapPhase = saddle 1 := by
    show (⟨3, 3, fun i j => wrapPhase ((saddle 1).val i j - ((Arr2.full 3 3 (0 : ℝ)).px (i : ℕ) (j : ℕ)).getD 0)⟩ : Arr2 ℝ) = ⟨3, 3, _⟩
    congr 1
    funext i j
    have h0 : (Arr2.full 3 3 (0 : ℝ)).px (i : ℕ) (j : ℕ) = some 0 := Arr2.px_val (Arr2.full 3 3 (0 : ℝ)) i j
    rw [h0, Option.getD_some, sub_zero]
    refine wrapPhase_small _ ?_
    show |1 * ((((i : ℕ) : ℝ) - 1) * (((j : ℕ) : ℝ) - 1))| ≤ 1
    rw [one_mul, abs_mul]
    have hb : ∀ k : Fin 3, |((k : ℕ) : ℝ) - 1| ≤ 1 := by
      intro k
      have : ((k : ℕ) : ℝ) ≤ 2 := by exact_mod_cast (show (k : ℕ) ≤ 2 by omega)
      have : (0 : ℝ) ≤ ((k : ℕ) : ℝ) := by positivity
      rw [abs_le]; constructor <;> linarith
    calc _ ≤ 1 * 1 := mul_le_mul (hb i) (hb j) (abs_nonneg _) zero_le_one
      _ = 1 := by norm_num
  unfold measuredDiff
  rw [e]
  exact ptt_saddle S 1

/-! ### A rotation routine with a known effect -/

/-- A linear stand-in for the rotation: it scales the map by `1 + (φ² + 20 φ)/10000` and leaves it alone for `φ = 0`. -/
noncomputable def Rotate.breathe : Rotate where
  run th a := a.map fun v : ℝ => (1 + (th ^ 2 + 20 * th) / 10000) * v
  nr _ _ := rfl
  nc _ _ := rfl
  linear th n m f g a b i j := by
    rw [Arr2.px_map, Arr2.px_map, Arr2.px_map]
    by_cases h : (0 ≤ i ∧ i < n) ∧ (0 ≤ j ∧ j < m)
    · rw [Arr2.px_of_inB _ h, Arr2.px_of_inB _ h, Arr2.px_of_inB _ h]
      simp only [Option.map_some, Option.getD_some]
      ring
    · rw [Arr2.px_of_not_inB _ h, Arr2.px_of_not_inB _ h, Arr2.px_of_not_inB _ h]; simp
  zeroAngle a := by
    obtain ⟨n, m, v⟩ := a
    show (⟨n, m, fun i j => _⟩ : Arr2 ℝ) = _
    congr 1
    funext i j
    norm_num

/-- With it, clocking the DM by `th` scales the surface. -/
theorem breathe_dmh (Sp : Spline) (T : Shift) (nrow ncol : ℤ) (dm : Arr2 ℝ) (n : ℤ) (w : Arr2 ℝ) (P : ℤ) (cx cy dx dy th : ℝ) (flipx : Bool) (o : Arr2 ℝ)
    (h0 : dmhtoph Sp Rotate.breathe T nrow ncol dm n w P cx cy dx dy 0 flipx = .ok o) :
    dmhtoph Sp Rotate.breathe T nrow ncol dm n w P cx cy dx dy th flipx = .ok (o.map fun v : ℝ => (1 + (th ^ 2 - 20 * th) / 10000) * v) := by
  have A := dmh_args h0
  obtain ⟨o', h1⟩ := (C62_shape Sp Rotate.breathe T nrow ncol dm n w P cx cy dx dy th flipx).1.mpr A
  rw [h1]
  rw [dmh_eq Sp _ T nrow ncol dm n w P cx cy dx dy th flipx A] at h1
  rw [dmh_eq Sp _ T nrow ncol dm n w P cx cy dx dy 0 flipx A] at h0
  generalize (if flipx = true then _ else _ : Arr2 ℝ) = X at h0 h1
  rw [neg_zero, Rotate.zeroAngle] at h0
  have hc : Combines (1 + (th ^ 2 - 20 * th) / 10000) 0 (Rotate.breathe.run (-th) X) X X := by
    refine ⟨⟨rfl, rfl⟩, ⟨rfl, rfl⟩, fun i j => ?_⟩
    show ((X.map _).px i j).getD 0 = _ * (X.px i j).getD 0 + 0 * (X.px i j).getD 0
    rw [Arr2.px_map]
    cases X.px i j with
    | none => simp
    | some v => simp only [Option.map_some, Option.getD_some]; ring
  obtain ⟨n1, m1, g, k, e1, e2, e3⟩ := ((hc.shift T dy dx).crop nrow ncol h1 h0 h0).elim
  rw [e1] at e2
  rw [e3, e1]
  congr 1
  show (⟨n1, m1, _⟩ : Arr2 ℝ) = ⟨n1, m1, _⟩
  congr 1
  funext i j
  ring

/-! ### The DM -/

/-- The facesheet of point-like actuators, one sample apart, is the command map. -/
theorem facesheet_points (n : ℕ) (d : Fin n → Fin n → ℝ) (a b : Fin n) : facesheet ⟨n, n, d⟩ (Arr2.full 1 1 1) 1 (a : ℕ) (b : ℕ) = d a b := by
  have hz : ∀ i j : ℤ, (Arr2.full 1 1 (1 : ℝ)).zext i j = if i = 0 ∧ j = 0 then 1 else 0 := by
    intro i j
    show ((Arr2.full 1 1 (1 : ℝ)).px i j).getD 0 = _
    rw [Arr2.px_full]
    by_cases h : i = 0 ∧ j = 0
    · rw [if_pos h, if_pos (by omega)]; rfl
    · rw [if_neg h, if_neg (by omega)]; rfl
  unfold facesheet
  show (∑ a' : Fin n, ∑ b' : Fin n, d a' b' * (Arr2.full 1 1 (1 : ℝ)).zext (((1 : ℕ) : ℤ) / 2 + ((a : ℕ) - 1 * (a' : ℕ))) (((1 : ℕ) : ℤ) / 2 + ((b : ℕ) - 1 * (b' : ℕ)))) = _
  rw [Finset.sum_eq_single a, Finset.sum_eq_single b]
  · rw [hz, if_pos (by omega), mul_one]
  · intro b' _ hb
    rw [hz, if_neg, mul_zero]
    intro hc
    exact hb (Fin.ext (by omega))
  · intro h; exact absurd (Finset.mem_univ _) h
  · intro a' _ ha
    refine Finset.sum_eq_zero fun b' _ => ?_
    rw [hz, if_neg, mul_zero]
    intro hc
    exact ha (Fin.ext (by omega))
  · intro h; exact absurd (Finset.mem_univ _) h

/-- Commands `r c (r² + c²)` on 7 x 7 actuators. -/
noncomputable def quarticPoke : Arr2 ℝ :=
  ⟨7, 7, fun i j => (((i : ℕ) : ℝ) - 3) * (((j : ℕ) : ℝ) - 3) * ((((i : ℕ) : ℝ) - 3) ^ 2 + (((j : ℕ) : ℝ) - 3) ^ 2)⟩

/-- Unit gains and point-like actuators, one pixel apart. -/
noncomputable def pointDm : DmReg := ⟨Arr2.full 7 7 1, Arr2.full 1 1 1, 7, 1, 1, 1, 0, false⟩

theorem quartic_heights : voltsToDmh pointDm.gain quarticPoke (2 * Real.pi) = .ok quarticPoke := by
  have hp := Real.pi_pos
  unfold voltsToDmh
  rw [if_neg (by linarith), dif_pos ⟨rfl, rfl⟩]
  congr 1
  show (⟨7, 7, _⟩ : Arr2 ℝ) = ⟨7, 7, _⟩
  congr 1
  funext i j
  show dmhOf 1 _ _ = _
  unfold dmhOf
  field_simp
  rfl

theorem pointDm_args : DmhArgs 3 3 quarticPoke 7 (Arr2.full 1 1 1) 1 1 1 where
  rows := by norm_num
  cols := by norm_num
  nact := by norm_num
  samples := by norm_num
  posX := by norm_num
  posY := by norm_num
  smaller := by constructor <;> decide
  shape := ⟨rfl, rfl⟩
  sampled := by norm_num
  square := rfl
  odd := rfl
  enough := by decide

/-- The surface at the corners of the image, for whole-pixel displacements. -/
theorem quartic_surface (Sp : Spline) (T : Shift) (X Y : ℤ) (hX : -2 ≤ X ∧ X ≤ 2) (hY : -2 ≤ Y ∧ Y ≤ 2) (th : ℝ) :
    ∃ v : Fin 3 → Fin 3 → ℝ, dmhtoph Sp Rotate.breathe T 3 3 quarticPoke 7 (Arr2.full 1 1 1) 1 1 1 X Y th false = .ok ⟨3, 3, v⟩ ∧
      ∀ i j : Fin 3, v i j = (1 + (th ^ 2 - 20 * th) / 10000) *
        (((((i : ℕ) : ℝ) - 1 - Y) * (((j : ℕ) : ℝ) - 1 - X)) * ((((i : ℕ) : ℝ) - 1 - Y) ^ 2 + (((j : ℕ) : ℝ) - 1 - X) ^ 2)) := by
  obtain ⟨o, ho⟩ := (C62_shape Sp Rotate.breathe T 3 3 quarticPoke 7 (Arr2.full 1 1 1) 1 1 1 X Y 0 false).1.mpr pointDm_args
  obtain ⟨s1, s2⟩ := (C62_shape Sp Rotate.breathe T 3 3 quarticPoke 7 (Arr2.full 1 1 1) 1 1 1 X Y 0 false).2 o ho
  have hf := fun k l y x hkl hk hl hy hx => C62_facesheet Sp Rotate.breathe T 3 3 quarticPoke 7 (Arr2.full 1 1 1) 1 1 1 X Y false o ho k l y x hkl hk hl hy hx
  have hth := breathe_dmh Sp T 3 3 quarticPoke 7 (Arr2.full 1 1 1) 1 1 1 X Y th false o ho
  obtain ⟨nr, nc, v⟩ := o
  obtain rfl : nr = 3 := by exact_mod_cast s1
  obtain rfl : nc = 3 := by exact_mod_cast s2
  refine ⟨_, hth, fun i j => ?_⟩
  show (1 + (th ^ 2 - 20 * th) / 10000) * v i j = _
  congr 1
  have hi := i.isLt
  have hj := j.isLt
  have hsq : 1 ≤ Real.sqrt 2 := by rw [Real.one_le_sqrt]; norm_num
  have hsmall : ∀ k : ℤ, -1 ≤ k → k ≤ 1 → 2 * |(k : ℝ)| ≤ Real.sqrt 2 * (((7 : ℤ) : ℝ) + ((Arr2.full 1 1 (1 : ℝ)).nr : ℝ) / ((1 : ℤ) : ℝ)) * max 1 1 := by
    intro k h1 h2
    have hk : |(k : ℝ)| ≤ 1 := by
      rw [abs_le]; constructor
      · exact_mod_cast h1
      · exact_mod_cast h2
    have : ((Arr2.full 1 1 (1 : ℝ)).nr : ℝ) = 1 := by norm_num [Arr2.full]
    rw [this, max_self]
    norm_num
    linarith
  have := hf (((i : ℕ) : ℤ) - 1) (((j : ℕ) : ℤ) - 1) (((i : ℕ) : ℤ) - 1 - Y + 3) (((j : ℕ) : ℤ) - 1 - X + 3) (by unfold Reaches; omega)
    (hsmall _ (by omega) (by omega)) (hsmall _ (by omega) (by omega)) (by unfold dmPos; push_cast; ring) (by unfold dmPos; simp only [Bool.false_eq_true, if_false]; push_cast; ring)
  have hc : (⟨3, 3, v⟩ : Arr2 ℝ).centered (((i : ℕ) : ℤ) - 1) (((j : ℕ) : ℤ) - 1) = some (v i j) := by
    have e := Arr2.px_val (⟨3, 3, v⟩ : Arr2 ℝ) i j
    unfold Arr2.centered
    refine Eq.trans ?_ e
    congr 1
    · show ((3 : ℕ) : ℤ) / 2 + (((i : ℕ) : ℤ) - 1) = _; omega
    · show ((3 : ℕ) : ℤ) / 2 + (((j : ℕ) : ℤ) - 1) = _; omega
  rw [hc] at this
  rw [Option.some.inj this]
  obtain ⟨y, hy⟩ := Int.eq_ofNat_of_zero_le (show 0 ≤ ((i : ℕ) : ℤ) - 1 - Y + 3 by omega)
  obtain ⟨x, hx⟩ := Int.eq_ofNat_of_zero_le (show 0 ≤ ((j : ℕ) : ℤ) - 1 - X + 3 by omega)
  have hy7 : y < 7 := by omega
  have hx7 : x < 7 := by omega
  rw [hy, hx]
  refine (facesheet_points 7 _ ⟨y, hy7⟩ ⟨x, hx7⟩).trans ?_
  have e1 : (y : ℝ) = ((i : ℕ) : ℝ) - 1 - Y + 3 := by
    have := congrArg (fun z : ℤ => (z : ℝ)) hy
    push_cast at this
    linarith
  have e2 : (x : ℝ) = ((j : ℕ) : ℝ) - 1 - X + 3 := by
    have := congrArg (fun z : ℤ => (z : ℝ)) hx
    push_cast at this
    linarith
  show ((y : ℝ) - 3) * ((x : ℝ) - 3) * (((y : ℝ) - 3) ^ 2 + ((x : ℝ) - 3) ^ 2) = _
  rw [e1, e2]
  ring

theorem breathe_pos (th : ℝ) : 99 / 100 ≤ 1 + (th ^ 2 - 20 * th) / 10000 := by nlinarith [sq_nonneg (th - 10)]

theorem quartic_offset_misfit (Sp : Spline) (T : Shift) (S : Solver) (F : ℝ → ℝ → ℝ → ℝ)
    (hF : IsOffsetMisfit Sp Rotate.breathe T S corners (saddle 1) quarticPoke pointDm F)
    (X Y : ℤ) (hX : -2 ≤ X ∧ X ≤ 2) (hY : -2 ≤ Y ∧ Y ≤ 2) (th : ℝ) :
    F th X Y = 24 * (1 + (th ^ 2 - 20 * th) / 10000) * ((X : ℝ) ^ 2 + (Y : ℝ) ^ 2) + (16 * (1 + (th ^ 2 - 20 * th) / 10000) - 4) := by
  obtain ⟨surf, sim, h1, h2, h3⟩ := hF th X Y
  obtain ⟨v, e1, e2⟩ := quartic_surface Sp T X Y hX hY th
  have e1' : dmhtoph Sp Rotate.breathe T corners.nr corners.nc quarticPoke pointDm.nact pointDm.inf pointDm.ppactD pointDm.cx pointDm.cy X Y th pointDm.flipx =
    .ok ⟨3, 3, v⟩ := e1
  rw [e1'] at h1
  obtain rfl := Except.ok.inj h1
  have e3 : removePistonTipTilt S ((⟨3, 3, v⟩ : Arr2 ℝ).map fun v : ℝ => v * 2) corners = _ := ptt_corners S fun i j => v i j * 2
  rw [e3] at h2
  rw [h3, ← Except.ok.inj h2, saddle_misfit, e2, e2, e2, e2]
  have hpos := breathe_pos th
  generalize 1 + (th ^ 2 - 20 * th) / 10000 = c at hpos ⊢
  rw [abs_of_nonpos]
  · norm_num; ring
  · norm_num
    nlinarith [mul_nonneg (show (0 : ℝ) ≤ c by linarith) (sq_nonneg (X : ℝ)), mul_nonneg (show (0 : ℝ) ≤ c by linarith) (sq_nonneg (Y : ℝ))]

theorem quartic_clock_misfit (Sp : Spline) (T : Shift) (G : ℝ → ℝ → ℝ → ℝ)
    (hG : IsClockMisfit Sp Rotate.breathe T corners (saddle 1) quarticPoke pointDm G) (th : ℝ) :
    G 0 0 th = 1 / 1250 * (th - 10) ^ 2 + (4 - 1 / 1250 * 100) := by
  obtain ⟨surf, h1, h3⟩ := hG 0 0 th
  obtain ⟨v, e1, e2⟩ := quartic_surface Sp T 0 0 (by norm_num) (by norm_num) th
  have e1' : dmhtoph Sp Rotate.breathe T corners.nr corners.nc quarticPoke pointDm.nact pointDm.inf pointDm.ppactD pointDm.cx pointDm.cy 0 0 th pointDm.flipx =
    .ok ⟨3, 3, v⟩ := by rw [Int.cast_zero] at e1; exact e1
  rw [e1'] at h1
  obtain rfl := Except.ok.inj h1
  rw [h3]
  refine (corners_misfit _ v).trans ?_
  rw [e2, e2, e2, e2]
  have hpos := breathe_pos th
  have hc : 1 / 1250 * (th - 10) ^ 2 + (4 - 1 / 1250 * 100) = 8 * (1 + (th ^ 2 - 20 * th) / 10000) - 4 := by ring
  rw [hc]
  generalize 1 + (th ^ 2 - 20 * th) / 10000 = c at hpos ⊢
  norm_num
  rw [abs_of_nonpos (show 1 - c * 2 ≤ 0 by linarith), abs_of_nonneg (show 0 ≤ -1 + c * 2 by linarith)]
  ring

/-- The tuning used here. -/
noncomputable def regTuning (nBoth nClk : ℤ) (s : ℝ) : ClockTuning := ⟨nBoth, 1, 3, 1, s, 90, 3, nClk⟩

theorem mem_trials_int (c : ℤ) (x : ℝ) (hx : x ∈ trials 3 1 (c : ℝ)) : ∃ k : ℤ, x = k ∧ c - 1 ≤ k ∧ k ≤ c + 1 := by
  obtain ⟨k, hk, rfl⟩ := List.mem_map.mp hx
  have := List.mem_range.mp hk
  refine ⟨c + (k : ℤ) - 1, ?_, by omega, by omega⟩
  push_cast
  ring

theorem quartic_search (Sp : Spline) (T : Shift) (S : Solver) (F : ℝ → ℝ → ℝ → ℝ)
    (hF : IsOffsetMisfit Sp Rotate.breathe T S corners (saddle 1) quarticPoke pointDm F) (s th : ℝ) :
    QuadraticSearch (F th) 3 s (spacing 1 3) 1 (1, 0) 0 0 := by
  have hpos := breathe_pos th
  have key : ∀ X : ℤ, 0 ≤ X ∧ X ≤ 1 → Paraboloid (F th) (trials 3 1 (X : ℝ)) (trials 3 1 ((0 : ℤ) : ℝ)) 0 0 := by
    intro X hX
    refine ⟨24 * (1 + (th ^ 2 - 20 * th) / 10000), 0, 24 * (1 + (th ^ 2 - 20 * th) / 10000), 16 * (1 + (th ^ 2 - 20 * th) / 10000) - 4, ?_, ?_, ?_⟩
    · rw [zero_mul, zero_sub, abs_neg, abs_of_nonneg (by nlinarith)]
      nlinarith
    · rw [abs_of_nonneg (by linarith)]
      nlinarith
    · intro x hx y hy
      obtain ⟨x, rfl, hx⟩ := mem_trials_int X x hx
      obtain ⟨y, rfl, hy⟩ := mem_trials_int 0 y hy
      rw [quartic_offset_misfit Sp T S F hF x y (by omega) (by omega) th]
      ring
  have hsp : spacing 1 3 = 1 := by unfold spacing; norm_num
  intro p hp cx cy hc i hi
  obtain rfl : i = 0 := by omega
  rw [pow_zero, one_mul, hsp]
  rcases hc with h | h
  · rw [← h] at hp
    rcases hp with h | h
    · obtain ⟨rfl, rfl⟩ := Prod.mk.inj h
      have := key 1 (by norm_num)
      simpa using this
    · obtain ⟨rfl, rfl⟩ := Prod.mk.inj h
      have := key 0 (by norm_num)
      simpa using this
  · exact absurd h.1 (by norm_num)

theorem quartic_args (nBoth nClk : ℤ) (s : ℝ) (h1 : 0 < nBoth) (h2 : 0 < nClk) (hs : 0 < s ∧ s ≤ 1) :
    ClockArgs saddleData 1 quarticPoke (regTuning nBoth nClk s) (2 * Real.pi) :=
  ⟨⟨⟨rfl, rfl⟩, ⟨rfl, rfl⟩, ⟨rfl, rfl⟩, rfl, rfl⟩, Or.inl rfl, rfl, by have := Real.pi_pos; linarith, h1, by norm_num [regTuning], by norm_num [regTuning], hs,
    by norm_num [regTuning], h2⟩

/-- The hypotheses of `C57_registration_partial` can be met: the search starts one pixel and ten degrees off and finds the registration, for
every number of rounds and every shrink factor. -/
example (Sp : Spline) (T : Shift) (S : Solver) (nBoth : ℤ) (hB : 0 < nBoth) (s : ℝ) (hs : 0 < s ∧ s ≤ 1) :
    calcTranslationClocking Sp Rotate.breathe T S saddleData 1 quarticPoke 1 0 pointDm pointDm (regTuning nBoth 1 s) (2 * Real.pi) = .ok (0, 0, 10) := by
  obtain ⟨⟨F, hF⟩, G, hG⟩ := misfits_exist Sp Rotate.breathe T S corners (saddle 1) quarticPoke pointDm pointDm_args
  refine C57_registration_partial Sp Rotate.breathe T S saddleData 1 quarticPoke 1 0 pointDm pointDm (regTuning nBoth 1 s) (2 * Real.pi)
    (quartic_args nBoth 1 s hB (by norm_num) hs) pointDm rfl quarticPoke (saddle 1) quartic_heights ((isMeasured_iff S saddleData _ rfl rfl).mpr (saddle_measured S)) F G hF hG (by norm_num [regTuning])
    (by norm_num [regTuning]) (by norm_num [regTuning]) (by norm_num [regTuning]) (Or.inl rfl) 0 0 10 (fun th _ => quartic_search Sp T S F hF s th) ?_
  intro p _ q _
  refine ⟨1 / 1250, 4 - 1 / 1250 * 100, by norm_num [macheps], fun x _ => quartic_clock_misfit Sp T G hG x⟩

/-- **C57**, a machine-checked failure: the best registration is `(0, 0, 10°)`, one clocking iteration finds it, and with a shrink factor of
1/2 more iterations end up at `10 - 10 (1 - 2) (1 - 4) ... (1 - 2^(n-1))` degrees. -/
theorem C57_more_iterations_worse (Sp : Spline) (T : Shift) (S : Solver) (n : ℤ) (hn : 2 ≤ n) (hn' : n ≤ 20) :
    calcTranslationClocking Sp Rotate.breathe T S saddleData 1 quarticPoke 1 0 pointDm pointDm (regTuning 1 n (1 / 2)) (2 * Real.pi) =
      .ok (0, 0, 10 - 10 * ∏ j ∈ Finset.range (n.toNat - 1), (1 - 2 ^ (j + 1))) := by
  obtain ⟨⟨F, hF⟩, G, hG⟩ := misfits_exist Sp Rotate.breathe T S corners (saddle 1) quarticPoke pointDm pointDm_args
  have hGq := quartic_clock_misfit Sp T G hG
  obtain ⟨th1, m1, m2, e⟩ := C57_clocking_drift Sp Rotate.breathe T S saddleData 1 quarticPoke 1 0 pointDm pointDm (regTuning 1 n (1 / 2)) (2 * Real.pi)
    (quartic_args 1 n (1 / 2) (by norm_num) (by omega) (by norm_num)) rfl pointDm rfl quarticPoke (saddle 1) quartic_heights ((isMeasured_iff S saddleData _ rfl rfl).mpr (saddle_measured S)) F G hF hG
    (by norm_num [regTuning]) (by norm_num [regTuning]) (by norm_num [regTuning]) (by norm_num [regTuning]) (show 1 < n by omega) 0 0 10
    (quartic_search Sp T S F hF (1 / 2) 0) (by
      intro th1 _ i hi
      refine ⟨1 / 1250, 4 - 1 / 1250 * 100, ?_, fun x _ => hGq x⟩
      have hi' : (i : ℤ) + 1 < n := hi
      show 1 / 2 ^ 52 ≤ |1 / 1250| * ((1 / 2 : ℝ) ^ (i + 1)) ^ 2
      have : ((1 : ℝ) / 2) ^ 19 ≤ (1 / 2) ^ (i + 1) := pow_le_pow_of_le_one (by norm_num) (by norm_num) (by omega)
      have h2 : ((1 : ℝ) / 2) ^ 19 * (1 / 2) ^ 19 ≤ ((1 / 2 : ℝ) ^ (i + 1)) ^ 2 := by rw [sq]; exact mul_le_mul this this (by positivity) (by positivity)
      rw [abs_of_pos (by norm_num)]
      calc (1 : ℝ) / 2 ^ 52 ≤ 1 / 1250 * ((1 / 2) ^ 19 * (1 / 2) ^ 19) := by norm_num
        _ ≤ _ := mul_le_mul_of_nonneg_left h2 (by norm_num))
  have hth1 : th1 = 0 := by
    have hl : trials (regTuning 1 n (1 / 2)).nClock.toNat (spacing (regTuning 1 n (1 / 2)).clockMaxDeg (regTuning 1 n (1 / 2)).nClock) pointDm.thact =
        [-90, 0, 90] := by
      show trials 3 (spacing 90 3) 0 = _
      simp only [trials, spacing, List.range_succ, List.range_zero, List.nil_append, List.cons_append, List.map_cons, List.map_nil]
      norm_num
    rw [hl] at m1 m2
    have := m2 0 (by simp)
    rw [hGq, hGq] at this
    simp only [List.mem_cons, List.not_mem_nil, or_false] at m1
    rcases m1 with rfl | rfl | rfl
    · norm_num at this
    · rfl
    · norm_num at this
  rw [e, hth1]
  congr 3
  show 10 + (0 - 10) * driftFactor (1 / 2) (n.toNat - 1) = _
  have : driftFactor (1 / 2) (n.toNat - 1) = ∏ j ∈ Finset.range (n.toNat - 1), (1 - 2 ^ (j + 1)) := by
    unfold driftFactor
    refine Finset.prod_congr rfl fun j _ => ?_
    rw [one_div, inv_pow, inv_inv]
  rw [this]
  ring

/-- Four iterations end up 210 degrees away from the best clocking. -/
example (Sp : Spline) (T : Shift) (S : Solver) :
    calcTranslationClocking Sp Rotate.breathe T S saddleData 1 quarticPoke 1 0 pointDm pointDm (regTuning 1 4 (1 / 2)) (2 * Real.pi) = .ok (0, 0, 220) := by
  rw [C57_more_iterations_worse Sp T S 4 (by norm_num) (by norm_num)]
  congr 3
  rw [show (4 : ℤ).toNat - 1 = 3 from rfl, Finset.prod_range_succ, Finset.prod_range_succ, Finset.prod_range_one]
  norm_num

/-! ### Scale -/

/-- The actuator in the middle of 3 x 3 is poked. -/
noncomputable def middlePoke : Arr2 ℝ := ⟨3, 3, fun i j => if i = 1 ∧ j = 1 then 1 else 0⟩

/-- An influence function of 17 x 17 samples, six per actuator. -/
noncomputable def hornInf : Arr2 ℝ := ⟨17, 17, fun i j =>
  (SignType.sign (((i : ℕ) : ℝ) - 8) : ℝ) * (SignType.sign (((j : ℕ) : ℝ) - 8) : ℝ) *
    (1 + (3 / |((j : ℕ) : ℝ) - 8| - 5 / 4) ^ 2 + (3 / |((i : ℕ) : ℝ) - 8| - 1) ^ 2)⟩

/-- Two pixels per actuator. -/
noncomputable def hornDm : DmReg := ⟨Arr2.full 3 3 1, hornInf, 3, 6, 2, 2, 0, false⟩

theorem middle_heights : voltsToDmh hornDm.gain middlePoke (2 * Real.pi) = .ok middlePoke := by
  have hp := Real.pi_pos
  unfold voltsToDmh
  rw [if_neg (by linarith), dif_pos ⟨rfl, rfl⟩]
  congr 1
  show (⟨3, 3, _⟩ : Arr2 ℝ) = ⟨3, 3, _⟩
  congr 1
  funext i j
  show dmhOf 1 _ _ = _
  unfold dmhOf
  field_simp
  rfl

/-- The scale changes tried. -/
def threeScales (u : ℝ) : Prop := u = 1 / 2 ∨ u = 1 ∨ u = 3 / 2

theorem threeScales_node {u : ℝ} (hu : threeScales u) : ∃ m : ℕ, 0 < m ∧ m ≤ 8 ∧ (m : ℝ) * u = 3 := by
  rcases hu with rfl | rfl | rfl
  · exact ⟨6, by norm_num, by norm_num, by norm_num⟩
  · exact ⟨3, by norm_num, by norm_num, by norm_num⟩
  · exact ⟨2, by norm_num, by norm_num, by norm_num⟩

theorem horn_args (u v : ℝ) (hu : threeScales u) (hv : threeScales v) : DmhArgs 3 3 middlePoke 3 hornInf 6 (u * 2) (v * 2) where
  rows := by norm_num
  cols := by norm_num
  nact := by norm_num
  samples := by norm_num
  posX := by rcases hu with rfl | rfl | rfl <;> norm_num
  posY := by rcases hv with rfl | rfl | rfl <;> norm_num
  smaller := by constructor <;> (show ((17 : ℕ) : ℤ) < 3 * 6; decide)
  shape := ⟨rfl, rfl⟩
  sampled := by rcases hu with rfl | rfl | rfl <;> rcases hv with rfl | rfl | rfl <;> norm_num
  square := rfl
  odd := rfl
  enough := by show (4 : ℤ) ≤ (3 - 1) * 6 + ((17 : ℕ) : ℤ); decide

theorem horn_at (m p : ℕ) (hm : 0 < m ∧ m ≤ 8) (hp : 0 < p ∧ p ≤ 8) (k l : ℤ) (hk : k = 1 ∨ k = -1) (hl : l = 1 ∨ l = -1) :
    (hornInf.centered (k * m) (l * p)).getD 0 = k * l * (1 + (3 / (p : ℝ) - 5 / 4) ^ 2 + (3 / (m : ℝ) - 1) ^ 2) := by
  have hb : (0 ≤ ((17 : ℕ) : ℤ) / 2 + k * m ∧ ((17 : ℕ) : ℤ) / 2 + k * m < ((17 : ℕ) : ℤ)) ∧
      (0 ≤ ((17 : ℕ) : ℤ) / 2 + l * p ∧ ((17 : ℕ) : ℤ) / 2 + l * p < ((17 : ℕ) : ℤ)) := by
    rcases hk with rfl | rfl <;> rcases hl with rfl | rfl <;> omega
  have key : ∀ (k : ℤ) (m : ℕ), 0 < m ∧ m ≤ 8 → k = 1 ∨ k = -1 →
      ((((17 : ℕ) : ℤ) / 2 + k * m).toNat : ℝ) - 8 = k * m ∧ (SignType.sign ((k : ℝ) * m) : ℝ) = k ∧ |(k : ℝ) * m| = m := by
    intro k m hm hk
    have hmr : (0 : ℝ) < m := by exact_mod_cast hm.1
    refine ⟨?_, ?_, ?_⟩
    · have : (((((17 : ℕ) : ℤ) / 2 + k * m).toNat : ℤ)) = 8 + k * m := by
        rw [Int.toNat_of_nonneg (by rcases hk with rfl | rfl <;> omega)]; norm_num
      have := congrArg (fun z : ℤ => (z : ℝ)) this
      push_cast at this ⊢
      linarith
    · rcases hk with rfl | rfl
      · rw [sign_pos (by push_cast; linarith)]; simp
      · rw [sign_neg (by push_cast; linarith)]; simp
    · rcases hk with rfl | rfl
      · push_cast; rw [one_mul, abs_of_pos hmr]
      · push_cast; rw [neg_one_mul, abs_neg, abs_of_pos hmr]
  obtain ⟨a1, a2, a3⟩ := key k m hm hk
  obtain ⟨b1, b2, b3⟩ := key l p hp hl
  have : hornInf.centered (k * m) (l * p) = _ := Arr2.px_of_inB hornInf hb
  rw [this, Option.getD_some]
  show (SignType.sign (((((17 : ℕ) : ℤ) / 2 + k * m).toNat : ℝ) - 8) : ℝ) * (SignType.sign (((((17 : ℕ) : ℤ) / 2 + l * p).toNat : ℝ) - 8) : ℝ) *
    (1 + (3 / |((((17 : ℕ) : ℤ) / 2 + l * p).toNat : ℝ) - 8| - 5 / 4) ^ 2 + (3 / |((((17 : ℕ) : ℤ) / 2 + k * m).toNat : ℝ) - 8| - 1) ^ 2) = _
  rw [a1, b1, a2, b2, a3, b3]

theorem horn_misfit (Sp : Spline) (R : Rotate) (T : Shift) (S : Solver) :
    IsScaleMisfit Sp R T S corners (saddle 1) middlePoke hornDm 0 0 0 (fun u v => threeScales u ∧ threeScales v)
      (fun u v => 8 * (u - 5 / 4) ^ 2 + 8 * (v - 1) ^ 2 + 4) := by
  intro u v ⟨hu, hv⟩
  obtain ⟨o, ho⟩ := (C62_shape Sp R T 3 3 middlePoke 3 hornInf 6 (u * 2) (v * 2) 0 0 0 false).1.mpr (horn_args u v hu hv)
  obtain ⟨s1, s2⟩ := (C62_shape Sp R T 3 3 middlePoke 3 hornInf 6 (u * 2) (v * 2) 0 0 0 false).2 o ho
  have hf := fun k l y x hkl hy hx => C62_single_poke Sp R T 3 3 3 1 1 1 hornInf 6 (u * 2) (v * 2) o ho k l y x hkl hy hx
  obtain ⟨nr, nc, f⟩ := o
  obtain rfl : nr = 3 := by exact_mod_cast s1
  obtain rfl : nc = 3 := by exact_mod_cast s2
  obtain ⟨p, p1, p2, p3⟩ := threeScales_node hu
  obtain ⟨m, m1, m2, m3⟩ := threeScales_node hv
  have hup : 3 / (p : ℝ) = u := by
    have : (0 : ℝ) < p := by exact_mod_cast p1
    rw [div_eq_iff this.ne']; linarith
  have hvm : 3 / (m : ℝ) = v := by
    have : (0 : ℝ) < m := by exact_mod_cast m1
    rw [div_eq_iff this.ne']; linarith
  have hval : ∀ i j : Fin 3, (i : ℕ) ≠ 1 → (j : ℕ) ≠ 1 → f i j = (((i : ℕ) : ℝ) - 1) * (((j : ℕ) : ℝ) - 1) * (1 + (u - 5 / 4) ^ 2 + (v - 1) ^ 2) := by
    intro i j hi hj
    have hi3 := i.isLt
    have hj3 := j.isLt
    have hk : ((i : ℕ) : ℤ) - 1 = 1 ∨ ((i : ℕ) : ℤ) - 1 = -1 := by omega
    have hl : ((j : ℕ) : ℤ) - 1 = 1 ∨ ((j : ℕ) : ℤ) - 1 = -1 := by omega
    have node : ∀ (k : ℤ) (m : ℕ) (v : ℝ), (m : ℝ) * v = 3 → (k : ℝ) / (v * 2) = dmPos ((3 : ℕ) : ℤ) 6 (6 * ((1 : Fin 3) : ℕ) + k * m) := by
      intro k m v h
      have hv0 : v ≠ 0 := by rintro rfl; norm_num at h
      have hm : (m : ℝ) = 3 / v := by rw [eq_div_iff hv0]; exact h
      unfold dmPos
      push_cast
      rw [hm]
      have : (((1 : Fin 3) : ℕ) : ℝ) = 1 := by norm_num
      rw [this]
      field_simp
      ring
    have := hf (((i : ℕ) : ℤ) - 1) (((j : ℕ) : ℤ) - 1) ((((i : ℕ) : ℤ) - 1) * m) ((((j : ℕ) : ℤ) - 1) * p) (by unfold Reaches; omega) (node _ m v m3) (node _ p u p3)
    rw [horn_at m p ⟨m1, m2⟩ ⟨p1, p2⟩ _ _ hk hl, hup, hvm] at this
    have hc : (⟨3, 3, f⟩ : Arr2 ℝ).centered (((i : ℕ) : ℤ) - 1) (((j : ℕ) : ℤ) - 1) = some (f i j) := by
      have e := Arr2.px_val (⟨3, 3, f⟩ : Arr2 ℝ) i j
      unfold Arr2.centered
      refine Eq.trans ?_ e
      congr 1
      · show ((3 : ℕ) : ℤ) / 2 + (((i : ℕ) : ℤ) - 1) = _; omega
      · show ((3 : ℕ) : ℤ) / 2 + (((j : ℕ) : ℤ) - 1) = _; omega
    rw [hc] at this
    rw [Option.some.inj this]
    push_cast
    ring
  refine ⟨_, _, ho, ptt_corners S fun i j => f i j * 2, ?_⟩
  rw [saddle_misfit, hval 0 0 (by decide) (by decide), hval 0 2 (by decide) (by decide), hval 2 0 (by decide) (by decide), hval 2 2 (by decide) (by decide)]
  norm_num
  rw [abs_of_nonpos (by nlinarith [sq_nonneg (u - 5 / 4), sq_nonneg (v - 1)])]
  ring

theorem threeScales_trials : trials 3 (2 * (1 / 2) / (((3 : ℕ) : ℝ) - 1)) 1 = [1 / 2, 1, 3 / 2] := by
  simp only [trials, List.range_succ, List.range_zero, List.nil_append, List.cons_append, List.map_cons, List.map_nil]
  norm_num

/-- The hypotheses of `C74_scale` can be met: the calibration says two pixels per actuator in both directions, the phase belongs to a DM with
`5/4` of that along x, and the search finds it. -/
example (Sp : Spline) (R : Rotate) (T : Shift) (S : Solver) (s : ℝ) (hs : 0 < s ∧ s ≤ 1) :
    calcScale Sp R T S saddleData 1 middlePoke hornDm hornDm ⟨1 / 2, 3, 1, s⟩ (2 * Real.pi) 0 0 0 = .ok (5 / 2, 2) := by
  have h := C74_scale Sp R T S saddleData 1 middlePoke hornDm hornDm ⟨1 / 2, 3, 1, s⟩ (2 * Real.pi) 0 0 0
    ⟨⟨⟨rfl, rfl⟩, ⟨rfl, rfl⟩, ⟨rfl, rfl⟩, rfl, rfl⟩, Or.inl rfl, rfl, by have := Real.pi_pos; linarith, by norm_num, by norm_num, hs⟩ rfl hornDm rfl
    middlePoke (saddle 1) middle_heights ((isMeasured_iff S saddleData _ rfl rfl).mpr (saddle_measured S)) _ _ (horn_misfit Sp R T S) (by norm_num) (by norm_num) (5 / 4) 1 ?_
  · rw [h]
    show Except.ok (5 / 4 * (2 : ℝ), 1 * (2 : ℝ)) = _
    norm_num
  · have hg : ScaleGrid (fun u v => threeScales u ∧ threeScales v) (fun u v : ℝ => 8 * (u - 5 / 4) ^ 2 + 8 * (v - 1) ^ 2 + 4) 3 (5 / 4) 1 1 1 (1 / 2) := by
      refine ⟨by norm_num, ?_, 8, 0, 8, 4, ?_, ?_, ?_⟩
      · rw [threeScales_trials]
        intro u hu v hv
        simp only [List.mem_cons, List.not_mem_nil, or_false] at hu hv
        rw [mul_one, mul_one]
        exact ⟨hu, hv⟩
      · norm_num
      · norm_num
      · intro u _ v _
        norm_num
        try ring
    exact ⟨fun _ => hg, fun h => absurd h (by norm_num), fun k h1 h2 => absurd h2 (by have : (1 : ℤ).toNat = 1 := rfl; simp only [this]; omega)⟩

/-! ### Images that are not square -/

/-- The actuator at the right-hand end of the middle row of 5 x 5 is poked. -/
noncomputable def endPoke : Arr2 ℝ := ⟨5, 5, fun i j => if i = 2 ∧ j = 4 then 1 else 0⟩

theorem end_args (a b : ℤ) (ha : 0 < a) (hb : 0 < b) : DmhArgs a b endPoke 5 (Arr2.full 1 1 1) 1 1 1 where
  rows := ha
  cols := hb
  nact := by norm_num
  samples := by norm_num
  posX := by norm_num
  posY := by norm_num
  smaller := by constructor <;> decide
  shape := ⟨rfl, rfl⟩
  sampled := by norm_num
  square := rfl
  odd := rfl
  enough := by decide

/-- **C75**, a machine-checked failure: on a 3 x 5 image a poked actuator two pixels right of the centre shows up in the surface, and
`calc_scale` simulates no phase there. -/
theorem C75_nonsquare_counterexample (Sp : Spline) (R : Rotate) (T : Shift) :
    ∃ surf sim, dmhtoph Sp R T 3 5 endPoke 5 (Arr2.full 1 1 1) 1 1 1 0 0 0 false = .ok surf ∧ surf.centered 0 2 = some 1 ∧
      scaleSim Sp R T 3 5 endPoke ⟨Arr2.full 5 5 1, Arr2.full 1 1 1, 5, 1, 1, 1, 0, false⟩ 0 0 0 1 1 = .ok sim ∧ sim.centered 0 2 = some 0 := by
  obtain ⟨surf, h1⟩ := (C62_shape Sp R T 3 5 endPoke 5 (Arr2.full 1 1 1) 1 1 1 0 0 0 false).1.mpr (end_args 3 5 (by norm_num) (by norm_num))
  obtain ⟨surf', h2⟩ := (C62_shape Sp R T 5 3 endPoke 5 (Arr2.full 1 1 1) 1 1 1 0 0 0 false).1.mpr (end_args 5 3 (by norm_num) (by norm_num))
  obtain ⟨sim, h3, -⟩ := C01_pad_crop_registered (surf'.map fun v : ℝ => v * 2) 3 5 0 (by norm_num) (by norm_num)
  have h4 : scaleSim Sp R T 3 5 endPoke ⟨Arr2.full 5 5 1, Arr2.full 1 1 1, 5, 1, 1, 1, 0, false⟩ 0 0 0 1 1 = .ok sim := by
    unfold scaleSim
    simp only
    rw [h2, res_ok_bind]
    exact h3
  refine ⟨surf, sim, h1, ?_, h4, ?_⟩
  · have := C62_single_poke Sp R T 3 5 5 2 4 1 (Arr2.full 1 1 1) 1 1 1 surf h1 0 2 0 0 (by unfold Reaches; decide)
      (by unfold dmPos; norm_num) (by unfold dmPos; norm_num)
    rw [this]
    have : (Arr2.full 1 1 (1 : ℝ)).centered 0 0 = some 1 := by
      unfold Arr2.centered
      rw [Arr2.px_full, if_pos (by decide)]
    rw [this]
    norm_num
  · exact (C75_nonsquare_blank Sp R T 3 5 endPoke _ 0 0 0 1 1 sim h4).2.2 0 2 (by unfold Reaches; decide) (by unfold Reaches; decide)

/-- `C75_square_partial` at work: on a square image the whole surface is used. -/
example (Sp : Spline) (R : Rotate) (T : Shift) : ∃ surf, dmhtoph Sp R T 5 5 endPoke 5 (Arr2.full 1 1 1) 1 1 1 0 0 0 false = .ok surf ∧
    scaleSim Sp R T 5 5 endPoke ⟨Arr2.full 5 5 1, Arr2.full 1 1 1, 5, 1, 1, 1, 0, false⟩ 0 0 0 1 1 = .ok (surf.map fun v : ℝ => v * 2) := by
  obtain ⟨surf, h1⟩ := (C62_shape Sp R T 5 5 endPoke 5 (Arr2.full 1 1 1) 1 1 1 0 0 0 false).1.mpr (end_args 5 5 (by norm_num) (by norm_num))
  exact ⟨surf, h1, C75_square_partial Sp R T 5 endPoke _ 0 0 0 1 1 surf h1⟩

end Coralign.Props
