import Verif.Props.Clocking
import Verif.Props.MaskGen
import Verif.Props.SpmShear

/-!
# C76: a case in which the hypotheses of the theorems hold
-/

namespace Coralign.Props

open Coralign Coralign.Spec

theorem prepared_self (a : Arr2 ℝ) (n : ℕ) (hr : a.nr = n) (hc : a.nc = n) (hodd : n % 2 = 1) :
    smoothMask (normWindow (discWindow n (1 / 1))) ⟨n, n, prepared a n false⟩ = a := by
  refine ext_centered hr.symm hc.symm fun k l h => ?_
  have h' : (0 ≤ (n : ℤ) / 2 + k ∧ (n : ℤ) / 2 + k < n) ∧ (0 ≤ (n : ℤ) / 2 + l ∧ (n : ℤ) / 2 + l < n) := h
  have hsm := smooth_disc n hodd 1 (by norm_num) (prepared a n false) k l (by
      have : |k| ≤ (n : ℤ) / 2 := abs_le.mpr (by omega)
      omega) (by
      have : |l| ≤ (n : ℤ) / 2 := abs_le.mpr (by omega)
      omega)
  rw [discMean_one, prepared_at a n hodd false k l h'] at hsm
  unfold maskAt at hsm
  simp only [Bool.false_eq_true, if_false] at hsm
  unfold Arr2.zext at hsm
  rw [Int.cast_one] at hsm
  have hs := Arr2.px_of_inB (smoothMask (normWindow (discWindow n (1 / 1))) ⟨n, n, prepared a n false⟩)
    (i := (n : ℤ) / 2 + k) (j := (n : ℤ) / 2 + l) h'
  unfold Arr2.centered at hsm ⊢
  have ha := Arr2.px_of_inB a (i := (a.nr : ℤ) / 2 + k) (j := (a.nc : ℤ) / 2 + l) (by omega)
  have e : (smoothMask (normWindow (discWindow n (1 / 1))) ⟨n, n, prepared a n false⟩).px ((n : ℤ) / 2 + k) ((n : ℤ) / 2 + l) =
      a.px ((a.nr : ℤ) / 2 + k) ((a.nc : ℤ) / 2 + l) := by
    rw [one_div_one] at hs ⊢
    rw [hs, ha] at hsm ⊢
    simp only [Option.getD_some] at hsm
    rw [hsm]
  exact e

/-- At full size and without shift, the reference on a detector of the size of an odd square mask is the rotated mask. -/
theorem reference_full_size (Sp : ClampSpline) (R : Rotate) (a : Arr2 ℝ) (n : ℕ) (hr : a.nr = n) (hc : a.nc = n) (hodd : n % 2 = 1) (h4 : 3 < n)
    (th : ℝ) : IsReference Sp R a th 1 0 0 1 n n (R.run (-th) a) := by
  have hmax : max a.nr a.nc = n := by rw [hr, hc, max_self]
  have hargs : MaskArgs a 1 1 := ⟨one_pos, le_rfl, le_rfl, by
    rw [hmax, one_mul]
    exact_mod_cast h4⟩
  have hN : (n : ℤ) = ceilOdd ((1 : ℝ) * (max a.nr a.nc : ℕ)) := by
    rw [hmax, one_mul]
    have := C08_ceil_odd (n : ℝ)
    refine (this.unique ⟨⟨by omega, by simp⟩, fun z hz => ?_⟩).symm
    exact_mod_cast hz.2
  have hrsd := rsd_ok Sp R a th 1 0 0 1 false hargs n hN
  rw [prepared_self a n hr hc hodd] at hrsd
  have hA : (if th = 0 then a else R.run (-th) a) = R.run (-th) a := by
    split_ifs with h0
    · rw [h0, neg_zero, R.zeroAngle]
    · rfl
  rw [hA] at hrsd
  obtain ⟨g1, g2, -⟩ := side_facts ((n : ℝ) * 1 + 2 + 2 * max |(0 : ℝ)| |(0 : ℝ)|)
  obtain ⟨M, hM⟩ := Int.eq_ofNat_of_zero_le (show 0 ≤ ceilOdd ((n : ℝ) * 1 + 2 + 2 * max |(0 : ℝ)| |(0 : ℝ)|) by
    have : (0 : ℝ) ≤ (ceilOdd ((n : ℝ) * 1 + 2 + 2 * max |(0 : ℝ)| |(0 : ℝ)|) : ℤ) := le_trans (by positivity) g2
    exact_mod_cast this)
  rw [hM] at g1 g2 hrsd
  rw [Int.toNat_natCast] at hrsd
  have hnM : (n : ℤ) + 2 ≤ M := by
    have : (n : ℝ) + 2 ≤ M := by simpa using g2
    exact_mod_cast this
  refine ⟨_, hrsd, ?_⟩
  rw [padCrop_eq _ _ _ _ (by omega) (by omega)]
  congr 1
  have e1 : (R.run (-th) a).nr = n := (R.nr _ _).trans hr
  have e2 : (R.run (-th) a).nc = n := (R.nc _ _).trans hc
  refine ext_centered (by rw [embed_nr, e1]; simp) (by rw [embed_nc, e2]; simp) fun u v hR => ?_
  have hR' : Reaches n n u v := by
    have : Reaches (n : ℤ).toNat (n : ℤ).toNat u v := hR
    simpa using this
  rw [embed_centered _ _ _ _ (by simpa using hR')]
  unfold Reaches at hR'
  rw [resampled_px Sp _ n M (by omega) 1 0 0 u v (by unfold Reaches; omega), Option.getD_some]
  have coord : ∀ w : ℤ, -((n : ℤ) / 2) ≤ w → ((w : ℝ) - 0) * (1 / 1) = maskAxis n ((n : ℤ) / 2 + w).toNat := by
    intro w hw
    rw [maskAxis_odd n hodd, Int.toNat_of_nonneg (by omega)]
    push_cast
    ring
  rw [coord u (by omega), coord v (by omega)]
  generalize hB : R.run (-th) a = B at *
  obtain ⟨bn, bm, f⟩ := B
  simp only at e1 e2
  subst e1
  subst e2
  have hint := Sp.interpolates (maskAxis bm) (maskAxis bm) ⟨bm, bm, f⟩
    (⟨((bm : ℤ) / 2 + u).toNat, by omega⟩ : Fin bm) (⟨((bm : ℤ) / 2 + v).toNat, by omega⟩ : Fin bm)
    (maskAxis_strictMono bm) (maskAxis_strictMono bm)
  rw [hint]
  exact (Arr2.px_of_inB (⟨bm, bm, f⟩ : Arr2 ℝ) (i := (bm : ℤ) / 2 + u) (j := (bm : ℤ) / 2 + v) hR').symm

/-- A stand-in for the rotation that meets its contract: it slides the columns. -/
noncomputable def Rotate.slide : Rotate where
  run th a := Shift.nearest.run 0 th a
  nr th a := Shift.nearest.nr 0 th a
  nc th a := Shift.nearest.nc 0 th a
  linear th n m f g a b i j := Shift.nearest.linear 0 th n m f g a b i j
  zeroAngle a := by
    refine Arr2.ext_px (Shift.nearest.nr _ _ _) (Shift.nearest.nc _ _ _) fun i j h1 h2 h3 h4 => ?_
    have hin : (0 ≤ i ∧ i < a.nr) ∧ (0 ≤ j ∧ j < a.nc) := ⟨⟨h1, h2⟩, ⟨h3, h4⟩⟩
    have := Shift.nearest.whole 0 0 a i j hin
    simp only [Int.cast_zero, sub_zero] at this
    rw [this, Arr2.px_of_inB a hin]
    rfl

/-- A vertical strip three pixels wide in a 5 x 5 array, moved `s` columns to the right. -/
noncomputable def strip (s : ℤ) : Arr2 ℝ := ⟨5, 5, fun _ j => if 1 + s ≤ ((j : ℕ) : ℤ) ∧ ((j : ℕ) : ℤ) ≤ 3 + s then 1 else 0⟩

theorem slide_strip (s : ℤ) (hs : -1 ≤ s ∧ s ≤ 1) : Rotate.slide.run s (strip 0) = strip s := by
  refine Arr2.ext_px (Shift.nearest.nr _ _ _) (Shift.nearest.nc _ _ _) fun i j h1 h2 h3 h4 => ?_
  have hin : (0 ≤ i ∧ i < (strip 0).nr) ∧ (0 ≤ j ∧ j < (strip 0).nc) := ⟨⟨h1, h2⟩, ⟨h3, h4⟩⟩
  have hin' : (0 ≤ i ∧ i < (5 : ℤ)) ∧ (0 ≤ j ∧ j < (5 : ℤ)) := hin
  have := Shift.nearest.whole 0 s (strip 0) i j hin
  rw [Int.cast_zero] at this
  refine this.trans ?_
  rw [Arr2.px_of_inB (strip s) hin]
  congr 1
  rw [sub_zero]
  show _ = if 1 + s ≤ ((j.toNat : ℕ) : ℤ) ∧ ((j.toNat : ℕ) : ℤ) ≤ 3 + s then (1 : ℝ) else 0
  rw [Int.toNat_of_nonneg h3]
  by_cases hj : 0 ≤ j - s ∧ j - s < 5
  · have hin2 : (0 ≤ i ∧ i < (strip 0).nr) ∧ (0 ≤ j - s ∧ j - s < (strip 0).nc) := ⟨hin.1, hj⟩
    rw [Arr2.px_of_inB (strip 0) hin2, Option.getD_some]
    show (if 1 + 0 ≤ (((j - s).toNat : ℕ) : ℤ) ∧ (((j - s).toNat : ℕ) : ℤ) ≤ 3 + 0 then (1 : ℝ) else 0) = _
    rw [Int.toNat_of_nonneg hj.1]
    split_ifs <;> first | rfl | omega
  · have hout : ¬ ((0 ≤ i ∧ i < (strip 0).nr) ∧ (0 ≤ j - s ∧ j - s < (strip 0).nc)) := fun h => hj h.2
    rw [Arr2.px_of_not_inB (strip 0) hout, Option.getD_none, if_neg (by omega)]

theorem strip_thresh (s : ℤ) (hs : -1 ≤ s ∧ s ≤ 1) : ∃ m, ampthresh (strip s) 21 = .ok m ∧ m.nr = 5 ∧ m.nc = 5 ∧
    ∀ i j : ℤ, m.px i j = ((strip s).px i j).map fun v => decide (v = 1) := by
  have hmem : ∀ (j : Fin 5), (strip s).val (0 : Fin 5) j ∈ (strip s).pixels := fun j =>
    (mem_pixels_val (strip s) _).mpr ⟨(0 : Fin 5), j, rfl⟩
  have h0 : (0 : ℝ) ∈ (strip s).pixels := by
    by_cases h : s ≤ 0
    · have := hmem 4
      have e : (strip s).val (0 : Fin 5) (4 : Fin 5) = 0 := if_neg (by
        rw [show (((4 : Fin 5) : ℕ) : ℤ) = 4 from rfl]; omega)
      rwa [e] at this
    · have := hmem 0
      have e : (strip s).val (0 : Fin 5) (0 : Fin 5) = 0 := if_neg (by
        rw [show (((0 : Fin 5) : ℕ) : ℤ) = 0 from rfl]; omega)
      rwa [e] at this
  have h1 : (1 : ℝ) ∈ (strip s).pixels := by
    have := hmem 2
    have e : (strip s).val (0 : Fin 5) (2 : Fin 5) = 1 := if_pos (by
      rw [show (((2 : Fin 5) : ℕ) : ℤ) = 2 from rfl]; omega)
    rwa [e] at this
  have h2 : ∀ v ∈ (strip s).pixels, v = 0 ∨ v = 1 := by
    intro v hv
    obtain ⟨i, j, rfl⟩ := (mem_pixels_val (strip s) v).mp hv
    show (if _ then (1 : ℝ) else 0) = 0 ∨ (if _ then (1 : ℝ) else 0) = 1
    split_ifs <;> simp
  exact C12_two_level (strip s) 21 0 1 one_pos (by norm_num) h2 h0 h1

theorem strip_norm (s : ℤ) (hs : -1 ≤ s ∧ s ≤ 1) : NormBy (strip s) (strip s) 50 1 := by
  obtain ⟨m, hm, hr, hc, hpx⟩ := strip_thresh s hs
  refine ⟨m, hm, ?_⟩
  have hbits : (m.map fun b : Bool => if b = true then (1 : ℝ) else 0) = strip s := by
    refine Arr2.ext_px hr hc fun i j h1 h2 h3 h4 => ?_
    have hin : (0 ≤ i ∧ i < (strip s).nr) ∧ (0 ≤ j ∧ j < (strip s).nc) := by
      have e1 : ((m.map fun b : Bool => if b = true then (1 : ℝ) else 0).nr : ℤ) = 5 := by exact_mod_cast hr
      have e2 : ((m.map fun b : Bool => if b = true then (1 : ℝ) else 0).nc : ℤ) = 5 := by exact_mod_cast hc
      have e3 : ((strip s).nr : ℤ) = 5 := rfl
      have e4 : ((strip s).nc : ℤ) = 5 := rfl
      omega
    rw [Arr2.px_map, hpx, Arr2.px_of_inB (strip s) hin]
    simp only [Option.map_some, Option.some.injEq]
    show (if decide ((if _ then (1 : ℝ) else 0) = 1) = true then (1 : ℝ) else 0) = if _ then (1 : ℝ) else 0
    split_ifs <;> simp_all
  rw [hbits]
  obtain ⟨r, h1, ⟨i, j, h2, h3⟩, ⟨i', j', h4, h5⟩⟩ := C53_range (strip s).val (strip s).val 50 ⟨fun i j => by
      show (if _ then (1 : ℝ) else 0) = 0 ∨ (if _ then (1 : ℝ) else 0) = 1
      split_ifs <;> simp, ⟨(0 : Fin 5), (2 : Fin 5), if_pos (by
        rw [show (((2 : Fin 5) : ℕ) : ℤ) = 2 from rfl]; omega)⟩, by norm_num, by norm_num⟩
  rw [h2] at h3
  rw [h4] at h5
  obtain rfl : r = 1 := le_antisymm h5 h3
  exact h1

theorem strip_close (s s' : ℤ) (tol : ℝ) (h0 : 0 < tol) (h1 : tol ≤ 1) :
    closePixels ((strip s).map fun v : ℝ => v / 1) ((strip s').map fun v : ℝ => v / 1) tol =
      (Finset.univ.filter fun q : Fin 5 × Fin 5 => (1 + s ≤ ((q.2 : ℕ) : ℤ) ∧ ((q.2 : ℕ) : ℤ) ≤ 3 + s) ↔
        (1 + s' ≤ ((q.2 : ℕ) : ℤ) ∧ ((q.2 : ℕ) : ℤ) ≤ 3 + s')).card := by
  classical
  unfold closePixels
  refine congrArg Finset.card (Finset.filter_congr fun q _ => ?_)
  change Fin 5 × Fin 5 at q
  have hin : (0 ≤ ((q.1 : ℕ) : ℤ) ∧ ((q.1 : ℕ) : ℤ) < ((strip s').map fun v : ℝ => v / 1).nr) ∧
      (0 ≤ ((q.2 : ℕ) : ℤ) ∧ ((q.2 : ℕ) : ℤ) < ((strip s').map fun v : ℝ => v / 1).nc) := by
    have e1 : (((strip s').map fun v : ℝ => v / 1).nr : ℤ) = 5 := rfl
    have e2 : (((strip s').map fun v : ℝ => v / 1).nc : ℤ) = 5 := rfl
    have := q.1.isLt
    have := q.2.isLt
    omega
  have hp := Arr2.px_of_inB ((strip s').map fun v : ℝ => v / 1) hin
  rw [hp]
  simp only [Option.some.injEq, exists_eq_left']
  show |(if 1 + s ≤ ((q.2 : ℕ) : ℤ) ∧ ((q.2 : ℕ) : ℤ) ≤ 3 + s then (1 : ℝ) else 0) / 1 -
    (if 1 + s' ≤ ((((q.2 : ℕ) : ℤ).toNat : ℕ) : ℤ) ∧ ((((q.2 : ℕ) : ℤ).toNat : ℕ) : ℤ) ≤ 3 + s' then (1 : ℝ) else 0) / 1| < tol ↔ _
  rw [Int.toNat_natCast]
  by_cases ha : 1 + s ≤ ((q.2 : ℕ) : ℤ) ∧ ((q.2 : ℕ) : ℤ) ≤ 3 + s <;>
    by_cases hb : 1 + s' ≤ ((q.2 : ℕ) : ℤ) ∧ ((q.2 : ℕ) : ℤ) ≤ 3 + s' <;> simp [ha, hb, h0, h1]

/-- The mask is the strip in the middle; the measured strip lies one column to the left, where the stand-in rotation by one degree puts it.
The trial angles are -1, 0 and 1 degree; 5, 15 and 25 of the 25 pixels match.  Every hypothesis of `C76_recovers` is met and the answer is
one degree. -/
example (S : Solver) (Sp : ClampSpline) :
    computeClocking S Sp Rotate.slide ⟨5, 5, fun i j => (((strip (-1)).val i j : ℝ) : ℂ)⟩ 10 (strip 0) 10 0 0 1 3 50 (1 / 2) false = .ok 1 := by
  have hl : spread 1 3 = [-1, 0, 1] := by
    simp only [spread, List.range, List.range.loop, List.map_cons, List.map_nil]
    norm_num
  have hamp : (⟨5, 5, fun i j => ‖(((strip (-1)).val i j : ℝ) : ℂ)‖⟩ : Arr2 ℝ) = strip (-1) := by
    unfold strip
    congr 1
    funext i j
    rw [Complex.norm_real]
    show ‖(if _ then (1 : ℝ) else 0)‖ = if _ then (1 : ℝ) else 0
    split_ifs <;> simp
  have hsq : (strip (-1)).map (fun v : ℝ => v ^ 2) = strip (-1) := by
    unfold strip Arr2.map
    congr 1
    funext i j
    show (if _ then (1 : ℝ) else 0) ^ 2 = if _ then (1 : ℝ) else 0
    split_ifs <;> simp
  have key : ∀ (th : ℤ), -1 ≤ th ∧ th ≤ 1 → ∃ ref, IsReference Sp Rotate.slide (strip 0) (th : ℝ) (10 / 10) 0 0 1 5 5 ref ∧
      Matches ⟨5, 5, fun i j => ‖(((strip (-1)).val i j : ℝ) : ℂ)‖⟩ ref 50 (1 / 2) false
        (closePixels ((strip (-1)).map fun v : ℝ => v / 1) ((strip (-th)).map fun v : ℝ => v / 1) (1 / 2)) := by
    intro th hth
    refine ⟨strip (-th), ?_, ?_⟩
    · have := reference_full_size Sp Rotate.slide (strip 0) 5 rfl rfl (by norm_num) (by norm_num) (th : ℝ)
      rw [show -(th : ℝ) = ((-th : ℤ) : ℝ) by push_cast; ring, slide_strip (-th) (by omega)] at this
      rwa [show (10 : ℝ) / 10 = 1 by norm_num]
    · rw [hamp]
      unfold Matches
      rw [if_pos rfl, hsq]
      exact ⟨1, 1, strip_norm (-1) (by norm_num), strip_norm (-th) (by omega), rfl⟩
  have k1 := key (-1) (by norm_num)
  have k2 := key 0 (by norm_num)
  have k3 := key 1 (by norm_num)
  rw [strip_close _ _ _ (by norm_num) (by norm_num)] at k1 k2 k3
  refine C76_recovers S Sp Rotate.slide _ 10 (strip 0) 10 0 0 1 3 50 (1 / 2) false
    ⟨by norm_num, by norm_num, by norm_num, by norm_num, by norm_num⟩ (by norm_num) (by norm_num)
    (fun th => if th = -1 then 5 else if th = 0 then 15 else 25) (fun th hth => ?_) 1 25 10 ?_ (by norm_num) (fun th hth => ?_)
  · rw [show (3 : ℤ).toNat = 3 from rfl, hl] at hth
    simp only [List.mem_cons, List.not_mem_nil, or_false] at hth
    rcases hth with rfl | rfl | rfl
    · rw [if_pos rfl]
      have e : (Finset.univ.filter fun q : Fin 5 × Fin 5 => (1 + (-1 : ℤ) ≤ ((q.2 : ℕ) : ℤ) ∧ ((q.2 : ℕ) : ℤ) ≤ 3 + (-1 : ℤ)) ↔
        (1 + (-(-1) : ℤ) ≤ ((q.2 : ℕ) : ℤ) ∧ ((q.2 : ℕ) : ℤ) ≤ 3 + (-(-1) : ℤ))).card = 5 := by decide
      rw [e] at k1
      simpa using k1
    · rw [if_neg (by norm_num), if_pos rfl]
      have e : (Finset.univ.filter fun q : Fin 5 × Fin 5 => (1 + (-1 : ℤ) ≤ ((q.2 : ℕ) : ℤ) ∧ ((q.2 : ℕ) : ℤ) ≤ 3 + (-1 : ℤ)) ↔
        (1 + (-0 : ℤ) ≤ ((q.2 : ℕ) : ℤ) ∧ ((q.2 : ℕ) : ℤ) ≤ 3 + (-0 : ℤ))).card = 15 := by decide
      rw [e] at k2
      simpa using k2
    · rw [if_neg (by norm_num), if_neg (by norm_num)]
      have e : (Finset.univ.filter fun q : Fin 5 × Fin 5 => (1 + (-1 : ℤ) ≤ ((q.2 : ℕ) : ℤ) ∧ ((q.2 : ℕ) : ℤ) ≤ 3 + (-1 : ℤ)) ↔
        (1 + (-1 : ℤ) ≤ ((q.2 : ℕ) : ℤ) ∧ ((q.2 : ℕ) : ℤ) ≤ 3 + (-1 : ℤ))).card = 25 := by decide
      rw [e] at k3
      simpa using k3
  · rw [show (3 : ℤ).toNat = 3 from rfl, hl]
    simp
  · rw [show (3 : ℤ).toNat = 3 from rfl, hl] at hth
    simp only [List.mem_cons, List.not_mem_nil, or_false] at hth
    rcases hth with rfl | rfl | rfl <;> norm_num

end Coralign.Props
