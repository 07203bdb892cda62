import Verif.Model.QuadDouble
import Verif.Props.Quad
import Verif.Props.CenterDouble
import Verif.Props.HlcDouble
import Verif.Props.ZernikeDouble

/-!
# C109: `quadrant_energy_balance` in double precision
-/

namespace Coralign.Props

open Spec

/-! ### The disc -/

theorem double_sq_int (x : ℤ) (h : x.natAbs ≤ 2 ^ 25) : double ((x : ℝ) ^ 2) = (x : ℝ) ^ 2 := by
  have e : (x : ℝ) ^ 2 = ((x.natAbs ^ 2 : ℕ) : ℝ) := by
    rw [Nat.cast_pow, Nat.cast_natAbs, Int.cast_abs, sq_abs]
  rw [e]
  refine double_nat _ ?_
  calc x.natAbs ^ 2 ≤ (2 ^ 25) ^ 2 := Nat.pow_le_pow_left h 2
    _ ≤ 2 ^ 53 := by norm_num

theorem pixelRhoD_eq (x y : ℤ) (hx : x.natAbs ≤ 2 ^ 25) (hy : y.natAbs ≤ 2 ^ 25) : pixelRhoD x y = double (Real.sqrt ((x : ℝ) ^ 2 + (y : ℝ) ^ 2)) := by
  unfold pixelRhoD
  rw [double_sq_int x hx, double_sq_int y hy]
  have e : (x : ℝ) ^ 2 + (y : ℝ) ^ 2 = ((x.natAbs ^ 2 + y.natAbs ^ 2 : ℕ) : ℝ) := by
    push_cast
    rw [Nat.cast_natAbs, Nat.cast_natAbs, Int.cast_abs, sq_abs, Int.cast_abs, sq_abs]
  rw [e, double_nat]
  have h1 : x.natAbs ^ 2 ≤ (2 ^ 25) ^ 2 := Nat.pow_le_pow_left hx 2
  have h2 : y.natAbs ^ 2 ≤ (2 ^ 25) ^ 2 := Nat.pow_le_pow_left hy 2
  norm_num at h1 h2 ⊢
  omega

/-- The radius does not coincide with the rounded distance of a pixel that lies outside the circle. -/
def ClearRadius (radius : ℝ) : Prop := double radius = radius ∧ ∀ x y : ℤ, radius = double (Real.sqrt ((x : ℝ) ^ 2 + (y : ℝ) ^ 2)) → Real.sqrt ((x : ℝ) ^ 2 + (y : ℝ) ^ 2) ≤ radius

/-- **C109.** The pixels taken for the disc are those whose distance from the origin is at most the radius. -/
theorem C109_disc (x y : ℤ) (hx : x.natAbs ≤ 2 ^ 25) (hy : y.natAbs ≤ 2 ^ 25) (radius : ℝ) (hr : ClearRadius radius) :
    pixelRhoD x y ≤ radius ↔ Real.sqrt ((x : ℝ) ^ 2 + (y : ℝ) ^ 2) ≤ radius := by
  rw [pixelRhoD_eq x y hx hy]
  constructor
  · intro h
    by_contra hc
    push Not at hc
    have := double_mono hc.le
    rw [hr.1] at this
    exact absurd (hr.2 x y (le_antisymm this h)) (not_le.mpr hc)
  · intro h
    have := double_mono h
    rwa [hr.1] at this

/-- **C109.** A radius computed as the distance of a pixel always includes that pixel, although the rounded radius may be smaller than the distance. -/
theorem C109_rim (x y : ℤ) (hx : x.natAbs ≤ 2 ^ 25) (hy : y.natAbs ≤ 2 ^ 25) : pixelRhoD x y ≤ double (Real.sqrt ((x : ℝ) ^ 2 + (y : ℝ) ^ 2)) :=
  (pixelRhoD_eq x y hx hy).le

/-- **C109.** Every radius with at most 25 significant bits, such as every integer or half-integer below some ten millions, is clear in this sense. -/
theorem C109_short_radius (m k : ℕ) (hm : m ≤ 2 ^ 25) (hk : k ≤ 900) : ClearRadius ((m : ℝ) / 2 ^ k) := by
  have k0 : (0 : ℝ) < 2 ^ k := by positivity
  have e1 : (m : ℝ) / 2 ^ k = ((m : ℤ) : ℝ) * (2 : ℝ) ^ (-(k : ℤ)) := by
    rw [zpow_neg, zpow_natCast, div_eq_mul_inv]
    push_cast
    rfl
  refine ⟨by rw [e1]; exact double_of_bits _ _ (by norm_num at hm ⊢; omega) (by omega), fun x y h => ?_⟩
  by_contra hc
  push Not at hc
  obtain ⟨n, hn⟩ : ∃ n : ℕ, (x : ℝ) ^ 2 + (y : ℝ) ^ 2 = n := ⟨x.natAbs ^ 2 + y.natAbs ^ 2, by
    push_cast
    rw [Nat.cast_natAbs, Nat.cast_natAbs, Int.cast_abs, sq_abs, Int.cast_abs, sq_abs]⟩
  rw [hn] at h hc
  have m0 : (0 : ℝ) ≤ m := Nat.cast_nonneg m
  have hmr : (m : ℝ) ≤ 33554432 := by exact_mod_cast hm
  -- the next candidate above the radius is already too far
  have hN : m ^ 2 + 1 ≤ 4 ^ k * n := by
    rw [Real.lt_sqrt (div_nonneg m0 k0.le), div_pow, div_lt_iff₀ (by positivity), ← pow_mul, mul_comm k 2, pow_mul] at hc
    norm_num at hc
    have : m ^ 2 < n * 4 ^ k := by exact_mod_cast hc
    rw [mul_comm] at this
    omega
  have hfar : ((m : ℝ) + 1 / 134217728) / 2 ^ k ≤ Real.sqrt n := by
    apply Real.le_sqrt_of_sq_le
    rw [div_pow, div_le_iff₀ (by positivity), ← pow_mul, mul_comm k 2, pow_mul]
    have hN' : (m : ℝ) ^ 2 + 1 ≤ 4 ^ k * n := by exact_mod_cast hN
    norm_num
    nlinarith
  have e2 : ((m : ℝ) + 1 / 134217728) / 2 ^ k = ((m * 134217728 + 1 : ℤ) : ℝ) * (2 : ℝ) ^ (-(k : ℤ) - 27) := by
    rw [sub_eq_add_neg, two_zpow_add, zpow_neg, zpow_natCast]
    push_cast
    rw [show ((2 : ℝ) ^ (-27 : ℤ)) = 1 / 134217728 by norm_num]
    field_simp
  have hd := double_mono hfar
  rw [← h, e2, double_of_bits _ _ (by rw [abs_of_nonneg (by positivity)]; norm_num at hm ⊢; omega) (by omega), ← e2, div_le_div_iff_of_pos_right k0] at hd
  linarith

/-! ### Sums over regions -/

theorem allPixels_nodup (a : Arr2 ℝ) : (allPixels a).Nodup := (List.nodup_finRange _).product (List.nodup_finRange _)

theorem mem_allPixels (a : Arr2 ℝ) (p : Fin a.nr × Fin a.nc) : p ∈ allPixels a :=
  List.mem_product.mpr ⟨List.mem_finRange _, List.mem_finRange _⟩

open Classical in
theorem region_list (a : Arr2 ℝ) (Q : Fin a.nr × Fin a.nc → Prop) (f : Fin a.nr × Fin a.nc → ℝ) :
    (((allPixels a).filter fun p => Q p).map f).sum = ∑ i, ∑ j, sel (Q (i, j)) (f (i, j)) := by
  rw [← List.sum_toFinset f ((allPixels_nodup a).filter _), ← Fintype.sum_prod_type']
  have e : ((allPixels a).filter fun p => Q p).toFinset = Finset.univ.filter Q := by
    ext p
    rw [List.mem_toFinset, List.mem_filter]
    simp [mem_allPixels]
  rw [e, Finset.sum_filter]
  refine Finset.sum_congr rfl fun p _ => ?_
  unfold sel
  congr

theorem all_list (a : Arr2 ℝ) (f : Fin a.nr × Fin a.nc → ℝ) : ((allPixels a).map f).sum = ∑ i, ∑ j, f (i, j) := by
  rw [← List.sum_toFinset f (allPixels_nodup a), ← Fintype.sum_prod_type']
  refine Finset.sum_congr ?_ fun _ _ => rfl
  ext p
  simp [mem_allPixels]

theorem allPixels_length (a : Arr2 ℝ) : (allPixels a).length = a.nr * a.nc := by
  unfold allPixels
  rw [List.length_product]
  simp

theorem zero_or_big_sum {ι : Type} (l : List ι) (f : ι → ℝ) (b : ℝ) (hb : 0 ≤ b) (h : ∀ p ∈ l, f p = 0 ∨ b ≤ f p) : (l.map f).sum = 0 ∨ b ≤ (l.map f).sum := by
  have nn : ∀ z ∈ l.map f, 0 ≤ z := by
    intro z hz
    obtain ⟨p, hp, rfl⟩ := List.mem_map.mp hz
    rcases h p hp with h | h <;> linarith
  by_cases hc : ∃ p ∈ l, f p ≠ 0
  · obtain ⟨p, hp, h0⟩ := hc
    right
    exact ((h p hp).resolve_left h0).trans (List.single_le_sum nn _ (List.mem_map_of_mem hp))
  · left
    push Not at hc
    refine List.sum_eq_zero fun z hz => ?_
    obtain ⟨p, hp, rfl⟩ := List.mem_map.mp hz
    exact hc p hp

theorem energy_bounds (a : Arr2 ℝ) (ha : OrdinaryImage a) (hl : 1 ≤ litPixels a) (hb : a.nr * a.nc ≤ 2 ^ 40) : 0 < energy a ∧ energy a ≤ (2 : ℝ) ^ (440 : ℤ) := by
  have p0 := two_zpow_pos (-400)
  have v0 : ∀ i j, 0 ≤ a.val i j := fun i j => by
    rcases ha i j with h | h
    · exact h.ge
    · linarith [h.1]
  have e := all_list a fun p => a.val p.1 p.2
  simp only at e
  have eE : energy a = ((allPixels a).map fun p => a.val p.1 p.2).sum := e.symm
  constructor
  · obtain ⟨p, hp⟩ := Finset.card_pos.mp hl
    rw [Finset.mem_filter] at hp
    have h1 := ((ha p.1 p.2).resolve_left hp.2).1
    have : a.val p.1 p.2 ≤ energy a := by
      rw [eE]
      refine List.single_le_sum ?_ _ (List.mem_map_of_mem (f := fun p : Fin a.nr × Fin a.nc => a.val p.1 p.2) (mem_allPixels a p))
      intro z hz
      obtain ⟨q, -, rfl⟩ := List.mem_map.mp hz
      exact v0 _ _
    linarith
  · rw [eE]
    have := List.sum_le_card_nsmul ((allPixels a).map fun p => a.val p.1 p.2) ((2 : ℝ) ^ (400 : ℤ)) (by
      intro x hx
      obtain ⟨p, -, rfl⟩ := List.mem_map.mp hx
      rcases ha p.1 p.2 with h | h
      · rw [h]; exact (two_zpow_pos _).le
      · exact h.2)
    refine this.trans ?_
    rw [List.length_map, allPixels_length, nsmul_eq_mul, show (440 : ℤ) = 40 + 400 by norm_num, two_zpow_add]
    refine mul_le_mul_of_nonneg_right ?_ (two_zpow_pos _).le
    rw [show (40 : ℤ) = ((40 : ℕ) : ℤ) by norm_num, zpow_natCast]
    exact_mod_cast hb

theorem total_close (S : List ℝ → ℝ) (depth : ℕ → ℕ) (hS : RoundedSum depth S) (a : Arr2 ℝ) (ha : OrdinaryImage a) (D : ℕ) (hD : D ≤ 2 ^ 40)
    (hd : ∀ n ≤ a.nr * a.nc, depth n ≤ D) : ∃ r, Rel D r ∧ S ((allPixels a).map fun p => a.val p.1 p.2) = energy a * r := by
  have hlow : (2 : ℝ) ^ (-1000 : ℤ) ≤ (2 : ℝ) ^ (-400 : ℤ) := two_zpow_mono (by norm_num)
  have hlen := allPixels_length a
  obtain ⟨r, hr, e⟩ := hS.rel ((allPixels a).map fun p => a.val p.1 p.2) (by
    intro x hx
    obtain ⟨p, -, rfl⟩ := List.mem_map.mp hx
    exact (ha p.1 p.2).imp id fun h => hlow.trans h.1) (by rw [List.length_map, hlen]; exact (hd _ le_rfl).trans (hD.trans (by norm_num)))
  rw [List.length_map, hlen] at hr
  refine ⟨r, hr.mono (hd _ le_rfl), ?_⟩
  rw [e, all_list a fun p => a.val p.1 p.2]
  rfl

open Classical in
theorem region_close (S : List ℝ → ℝ) (depth : ℕ → ℕ) (hS : RoundedSum depth S) (a : Arr2 ℝ) (ha : OrdinaryImage a) (hl : 1 ≤ litPixels a) (hb : a.nr * a.nc ≤ 2 ^ 40)
    (D : ℕ) (hD : D ≤ 2 ^ 40) (hd : ∀ n ≤ a.nr * a.nc, depth n ≤ D) (T : ℝ) (hT : ∃ r, Rel D r ∧ T = energy a * r) (Q : Fin a.nr × Fin a.nc → Prop) :
    ((∑ i, ∑ j, sel (Q (i, j)) (a.val i j)) / energy a = 0 ∨ (2 : ℝ) ^ (-840 : ℤ) ≤ (∑ i, ∑ j, sel (Q (i, j)) (a.val i j)) / energy a) ∧
    (∑ i, ∑ j, sel (Q (i, j)) (a.val i j)) / energy a ≤ 1 ∧
    ∃ r, Rel (2 * D + 1) r ∧ S (((allPixels a).filter fun p => Q p).map fun p => double (a.val p.1 p.2 / T)) = (∑ i, ∑ j, sel (Q (i, j)) (a.val i j)) / energy a * r := by
  obtain ⟨hE0, hE2⟩ := energy_bounds a ha hl hb
  obtain ⟨rT, hrT, eT⟩ := hT
  have p0 := two_zpow_pos (-400)
  have p840 := two_zpow_pos (-840)
  have hw : ∀ p : Fin a.nr × Fin a.nc, a.val p.1 p.2 / energy a = 0 ∨ (2 : ℝ) ^ (-840 : ℤ) ≤ a.val p.1 p.2 / energy a := by
    intro p
    rcases ha p.1 p.2 with h | h
    · left; rw [h, zero_div]
    · right
      rw [le_div_iff₀ hE0]
      refine le_trans ?_ h.1
      calc (2 : ℝ) ^ (-840 : ℤ) * energy a ≤ (2 : ℝ) ^ (-840 : ℤ) * (2 : ℝ) ^ (440 : ℤ) := mul_le_mul_of_nonneg_left hE2 p840.le
        _ = (2 : ℝ) ^ (-400 : ℤ) := by rw [← two_zpow_add]; norm_num
  have hw0 : ∀ p : Fin a.nr × Fin a.nc, 0 ≤ a.val p.1 p.2 / energy a := fun p => by rcases hw p with h | h <;> linarith
  have hlow : (2 : ℝ) ^ (-1000 : ℤ) ≤ (2 : ℝ) ^ (-840 : ℤ) := two_zpow_mono (by norm_num)
  have hterm : ∀ p ∈ (allPixels a).filter (fun p => Q p), ∃ r, Rel (D + 1) r ∧ double (a.val p.1 p.2 / T) = a.val p.1 p.2 / energy a * r := by
    intro p _
    refine rel_rounded (by norm_num at hD ⊢; omega) ⟨rT⁻¹, hrT.inv, ?_⟩ ((hw p).imp id fun h => hlow.trans h)
    rw [eT]
    field_simp
  obtain ⟨q, hq, eq⟩ := Rel.listSum _ _ _ _ (fun p _ => hw0 p) hterm
  have hlen : ((allPixels a).filter fun p => Q p).length ≤ a.nr * a.nc := by
    rw [← allPixels_length]
    exact List.length_filter_le _ _
  obtain ⟨s, hs, es⟩ := hS.rel (((allPixels a).filter fun p => Q p).map fun p => double (a.val p.1 p.2 / T)) (by
      intro x hx
      obtain ⟨p, hp, rfl⟩ := List.mem_map.mp hx
      obtain ⟨r, hr, e⟩ := hterm p hp
      rcases hw p with h | h
      · left; rw [e, h, zero_mul]
      · right
        have hr2 := hr.leMany (by norm_num at hD ⊢; omega)
        rw [abs_le] at hr2
        have hdr : (((D + 1 : ℕ)) : ℝ) / 2 ^ 52 ≤ 1 / 2 := by
          have : (((D + 1 : ℕ)) : ℝ) ≤ 1099511627780 := by exact_mod_cast (by norm_num at hD; omega : D + 1 ≤ 1099511627780)
          rw [div_le_iff₀ (by norm_num)]
          norm_num at this ⊢
          linarith
        have hr3 : (1 / 2 : ℝ) ≤ r := by linarith [hr2.1]
        have e999 : (2 : ℝ) ^ (-1000 : ℤ) ≤ (2 : ℝ) ^ (-840 : ℤ) * (1 / 2) := by
          rw [one_div, ← zpow_neg_one, ← two_zpow_add]
          exact two_zpow_mono (by norm_num)
        rw [e]
        exact e999.trans (mul_le_mul h hr3 (by norm_num) (hw0 p)))
    (by rw [List.length_map]; exact (hd _ hlen).trans (hD.trans (by norm_num)))
  rw [List.length_map] at hs
  have eS : (((allPixels a).filter fun p => Q p).map fun p => a.val p.1 p.2 / energy a).sum = (∑ i, ∑ j, sel (Q (i, j)) (a.val i j)) / energy a := by
    rw [region_list a Q]
    simp only [Finset.sum_div]
    refine Finset.sum_congr rfl fun i _ => Finset.sum_congr rfl fun j _ => ?_
    by_cases h : Q (i, j)
    · rw [sel_pos h, sel_pos h]
    · rw [sel_neg h, sel_neg h, zero_div]
  rw [eS] at eq
  refine ⟨?_, ?_, q * s, ?_, ?_⟩
  · rw [← eS]
    exact zero_or_big_sum _ _ _ p840.le fun p _ => hw p
  · rw [div_le_one hE0]
    unfold energy
    refine Finset.sum_le_sum fun i _ => Finset.sum_le_sum fun j _ => ?_
    by_cases h : Q (i, j)
    · rw [sel_pos h]
    · rw [sel_neg h]
      rcases ha i j with h | h
      · exact h.ge
      · linarith [h.1]
  · exact (hq.mul (hs.mono (hd _ hlen))).mono (by omega)
  · rw [es, eq]; ring

/-! ### The balances -/

theorem rel_add {n : ℕ} {x y r s : ℝ} (hx : 0 ≤ x) (hy : 0 ≤ y) (hr : Rel n r) (hs : Rel n s) : ∃ q, Rel n q ∧ x * r + y * s = (x + y) * q := by
  obtain ⟨q, hq, e⟩ := Rel.listSum n [(x, x * r), (y, y * s)] (fun p => p.2) (fun p => p.1) (by simp [hx, hy]) (by
    intro p hp
    have : p = (x, x * r) ∨ p = (y, y * s) := by simpa using hp
    rcases this with rfl | rfl
    · exact ⟨r, hr, rfl⟩
    · exact ⟨s, hs, rfl⟩)
  refine ⟨q, hq, ?_⟩
  simpa using e

theorem pair_close {n : ℕ} (hn : n + 1 ≤ 2 ^ 45) {x y xD yD : ℝ} (hx : x = 0 ∨ (2 : ℝ) ^ (-840 : ℤ) ≤ x) (hy : y = 0 ∨ (2 : ℝ) ^ (-840 : ℤ) ≤ y)
    (hr : ∃ r, Rel n r ∧ xD = x * r) (hs : ∃ r, Rel n r ∧ yD = y * r) : |double (xD + yD) - (x + y)| ≤ (x + y) * ((n + 1) / 2 ^ 52) := by
  have p840 := two_zpow_pos (-840)
  have x0 : 0 ≤ x := by rcases hx with h | h <;> linarith
  have y0 : 0 ≤ y := by rcases hy with h | h <;> linarith
  obtain ⟨r, hr, rfl⟩ := hr
  obtain ⟨s, hs, rfl⟩ := hs
  obtain ⟨q, hq, e⟩ := rel_add x0 y0 hr hs
  have hlow : (2 : ℝ) ^ (-1000 : ℤ) ≤ (2 : ℝ) ^ (-840 : ℤ) := two_zpow_mono (by norm_num)
  have h := rel_rounded (n := n) (by norm_num at hn ⊢; omega) ⟨q, hq, e⟩ (by
    rcases hx with h | h
    · rcases hy with h' | h'
      · left; rw [h, h', add_zero]
      · right; linarith
    · right; linarith)
  have := rel_close (by norm_num at hn ⊢; omega) (by linarith) h
  push_cast at this
  exact this

theorem difference_close {A B AD BD k : ℝ} (hA : 0 ≤ A ∧ A ≤ 2) (hB : 0 ≤ B ∧ B ≤ 2) (hk : 0 ≤ k ∧ k ≤ 1 / 8) (h1 : |AD - A| ≤ A * k) (h2 : |BD - B| ≤ B * k) :
    |double (AD - BD) - (A - B)| ≤ 4 * k + 3 / 2 ^ 52 := by
  have e1 : A * k ≤ 2 * k := mul_le_mul_of_nonneg_right hA.2 hk.1
  have e2 : B * k ≤ 2 * k := mul_le_mul_of_nonneg_right hB.2 hk.1
  have z : |AD - BD| ≤ 3 := by
    rw [abs_le] at h1 h2 ⊢
    constructor <;> linarith [h1.1, h1.2, h2.1, h2.2, hA.1, hA.2, hB.1, hB.2, hk.2]
  have s := step_error (AD - BD) 3 (by norm_num) z
  rw [show double (AD - BD) - (A - B) = (double (AD - BD) - (AD - BD)) + (AD - A) - (BD - B) by ring]
  have t1 := abs_sub ((double (AD - BD) - (AD - BD)) + (AD - A)) (BD - B)
  have t2 := abs_add_le (double (AD - BD) - (AD - BD)) (AD - A)
  have e3 : (2 : ℝ) * 3 / 2 ^ 53 = 3 / 2 ^ 52 := by norm_num
  rw [e3] at s
  linarith

/-- **C109.** For every image without negative pixels, whatever the order in which numpy adds, the two balances computed in double precision are off by at most
`(8 d + 11) · 2⁻⁵²`, where `d` bounds the number of additions a term goes through. -/
theorem C109_balance (S : List ℝ → ℝ) (depth : ℕ → ℕ) (hS : RoundedSum depth S) (a : Arr2 ℝ) (ha : OrdinaryImage a) (hl : 1 ≤ litPixels a) (hb : a.nr * a.nc ≤ 2 ^ 40)
    (hnr : a.nr ≤ 2 ^ 25) (hnc : a.nc ≤ 2 ^ 25) (D : ℕ) (hD : D ≤ 2 ^ 40) (hd : ∀ n ≤ a.nr * a.nc, depth n ≤ D) (ox oy : ℤ) (radius : ℝ) (hr : ClearRadius radius)
    (dx dy : ℝ) (hok : quadrantEnergyBalance a ox oy radius = .ok (some (dx, dy))) :
    ∃ dxD dyD, quadrantEnergyBalanceD S a ox oy radius = .ok (some (dxD, dyD)) ∧ |dxD - dx| ≤ (8 * D + 11) / 2 ^ 52 ∧ |dyD - dy| ≤ (8 * D + 11) / 2 ^ 52 := by
  obtain ⟨r0, hx, hy, hx', hy', he⟩ := balance_ok_inv hok
  rw [balance_eq a ox oy radius r0 hx hy hx' hy' he] at hok
  simp only [Except.ok.injEq, Option.some.injEq, Prod.mk.injEq] at hok
  obtain ⟨hE0, -⟩ := energy_bounds a ha hl hb
  obtain ⟨rT, hrT, eT⟩ := total_close S depth hS a ha D hD hd
  have hT0 : S ((allPixels a).map fun p => a.val p.1 p.2) ≠ 0 := by rw [eT]; exact (mul_pos hE0 hrT.pos).ne'
  unfold quadrantEnergyBalanceD
  rw [if_neg (by linarith), if_neg (by omega), if_neg (by omega), if_neg (by omega), if_neg (by omega)]
  simp only
  rw [if_neg hT0]
  generalize hTg : S ((allPixels a).map fun p => a.val p.1 p.2) = T at eT hT0
  -- the square origin checks only bound the origin by the other side; all offsets are small
  have key : ∀ q : ℤ → ℤ → Prop,
      (discEnergy a ox oy radius q / energy a = 0 ∨ (2 : ℝ) ^ (-840 : ℤ) ≤ discEnergy a ox oy radius q / energy a) ∧ discEnergy a ox oy radius q / energy a ≤ 1 ∧
      ∃ r, Rel (2 * D + 1) r ∧ quadCountsD S a T ox oy radius q = discEnergy a ox oy radius q / energy a * r := by
    intro q
    have := region_close S depth hS a ha hl hb D hD hd T ⟨rT, hrT, eT⟩
      fun p => q ((p.2 : ℕ) - ox) ((p.1 : ℕ) - oy) ∧ pixelRhoD ((p.2 : ℕ) - ox) ((p.1 : ℕ) - oy) ≤ radius
    have e : (∑ i : Fin a.nr, ∑ j : Fin a.nc, sel (q ((j : ℕ) - ox) ((i : ℕ) - oy) ∧ pixelRhoD ((j : ℕ) - ox) ((i : ℕ) - oy) ≤ radius) (a.val i j)) = discEnergy a ox oy radius q := by
      unfold discEnergy
      refine Finset.sum_congr rfl fun i _ => Finset.sum_congr rfl fun j _ => sel_congr (and_congr_right fun _ => ?_) _
      have hi := i.isLt
      have hj := j.isLt
      rw [C109_disc _ _ (by norm_num at hnr hnc ⊢; omega) (by norm_num at hnr hnc ⊢; omega) radius hr, Real.sqrt_le_left r0]
    simp only [e] at this
    refine ⟨this.1, this.2.1, ?_⟩
    unfold quadCountsD
    convert this.2.2
  have D0 : (0 : ℝ) ≤ D := Nat.cast_nonneg D
  have hDr : (D : ℝ) ≤ 1099511627776 := by exact_mod_cast hD
  have p840 := two_zpow_pos (-840)
  have fin : ∀ q₁ q₂ q₃ q₄ : ℤ → ℤ → Prop,
      |double (double (quadCountsD S a T ox oy radius q₁ + quadCountsD S a T ox oy radius q₂) - double (quadCountsD S a T ox oy radius q₃ + quadCountsD S a T ox oy radius q₄)) -
        (discEnergy a ox oy radius q₁ + discEnergy a ox oy radius q₂ - (discEnergy a ox oy radius q₃ + discEnergy a ox oy radius q₄)) / energy a| ≤ (8 * D + 11) / 2 ^ 52 := by
    intro q₁ q₂ q₃ q₄
    obtain ⟨a1, b1, c1⟩ := key q₁
    obtain ⟨a2, b2, c2⟩ := key q₂
    obtain ⟨a3, b3, c3⟩ := key q₃
    obtain ⟨a4, b4, c4⟩ := key q₄
    have n45 : 2 * D + 1 + 1 ≤ 2 ^ 45 := by norm_num at hD ⊢; omega
    have h12 := pair_close n45 a1 a2 c1 c2
    have h34 := pair_close n45 a3 a4 c3 c4
    have pos : ∀ v : ℝ, (v = 0 ∨ (2 : ℝ) ^ (-840 : ℤ) ≤ v) → 0 ≤ v := fun v h => by rcases h with h | h <;> linarith
    have := difference_close (k := (((2 * D + 1 : ℕ) : ℝ) + 1) / 2 ^ 52) ⟨add_nonneg (pos _ a1) (pos _ a2), by linarith⟩ ⟨add_nonneg (pos _ a3) (pos _ a4), by linarith⟩
      ⟨by positivity, by rw [div_le_iff₀ (by norm_num)]; push_cast; norm_num; linarith⟩ h12 h34
    rw [show (discEnergy a ox oy radius q₁ + discEnergy a ox oy radius q₂ - (discEnergy a ox oy radius q₃ + discEnergy a ox oy radius q₄)) / energy a =
      discEnergy a ox oy radius q₁ / energy a + discEnergy a ox oy radius q₂ / energy a - (discEnergy a ox oy radius q₃ / energy a + discEnergy a ox oy radius q₄ / energy a) by ring]
    refine this.trans (le_of_eq ?_)
    push_cast
    ring
  refine ⟨_, _, rfl, ?_, ?_⟩
  · rw [← hok.1]
    exact fin _ _ _ _
  · rw [← hok.2]
    exact fin _ _ _ _

/-! ### A case -/

example : ∃ dxD dyD, quadrantEnergyBalanceD leftSum onAxisImage 1 1 1 = .ok (some (dxD, dyD)) ∧ |dxD - 2| ≤ (8 * (8 : ℕ) + 11) / 2 ^ 52 ∧ |dyD - 0| ≤ (8 * (8 : ℕ) + 11) / 2 ^ 52 := by
  have hr := C109_short_radius 1 0 (by norm_num) (by norm_num)
  norm_num at hr
  refine C109_balance leftSum _ leftSum_rounded onAxisImage ?_ ?_ (by norm_num [onAxisImage]) (by norm_num [onAxisImage]) (by norm_num [onAxisImage]) 8 (by norm_num) ?_ 1 1 1 hr 2 0
    C11_axis_counted_twice
  · intro i j
    show (if (i : ℕ) = 1 ∧ (j : ℕ) = 2 then (1 : ℝ) else 0) = 0 ∨ _ ≤ (if (i : ℕ) = 1 ∧ (j : ℕ) = 2 then (1 : ℝ) else 0) ∧ (if (i : ℕ) = 1 ∧ (j : ℕ) = 2 then (1 : ℝ) else 0) ≤ _
    split_ifs
    · right; exact ⟨by rw [← zpow_zero (2 : ℝ)]; exact two_zpow_mono (by norm_num), by rw [← zpow_zero (2 : ℝ)]; exact two_zpow_mono (by norm_num)⟩
    · left; rfl
  · exact Finset.card_pos.mpr ⟨((1 : Fin 3), (2 : Fin 3)), by rw [Finset.mem_filter]; exact ⟨Finset.mem_univ _, by show ¬ (if ((1 : Fin 3) : ℕ) = 1 ∧ ((2 : Fin 3) : ℕ) = 2 then (1 : ℝ) else 0) = 0; simp⟩⟩
  · intro n hn
    have hn : n ≤ 3 * 3 := hn
    omega

end Coralign.Props
