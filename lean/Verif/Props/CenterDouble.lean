import Verif.Model.CenterDouble
import Verif.Props.Center
import Verif.Lemmas.ShapesDouble
import Verif.Base.DoubleEval

/-!
# C108: rounding and the order of summation barely change the centre of energy and the rms
-/

namespace Coralign.Props

open Spec

/-! ### Lists of pixels -/

theorem nonzeroList_nodup (a : Arr2 ℝ) : (nonzeroList a).Nodup :=
  ((List.nodup_finRange _).product (List.nodup_finRange _)).filter _

theorem mem_nonzeroList (a : Arr2 ℝ) (p : Fin a.nr × Fin a.nc) : p ∈ nonzeroList a ↔ a.val p.1 p.2 ≠ 0 := by
  unfold nonzeroList
  rw [List.mem_filter, List.mem_product]
  simp

theorem nonzeroList_sum (a : Arr2 ℝ) (f : Fin a.nr × Fin a.nc → ℝ) : ((nonzeroList a).map f).sum = ∑ p ∈ nonzeroPixels a, f p := by
  rw [← List.sum_toFinset f (nonzeroList_nodup a)]
  refine Finset.sum_congr ?_ fun _ _ => rfl
  ext p
  rw [List.mem_toFinset, mem_nonzeroList]
  simp [nonzeroPixels]

/-- The number of non-zero pixels. -/
noncomputable def litPixels (a : Arr2 ℝ) : ℕ := (Finset.univ.filter fun p : Fin a.nr × Fin a.nc => ¬ a.val p.1 p.2 = 0).card

theorem nonzeroList_length (a : Arr2 ℝ) : (nonzeroList a).length = litPixels a := by
  unfold litPixels
  rw [← List.toFinset_card_of_nodup (nonzeroList_nodup a)]
  congr 1
  ext p
  rw [List.mem_toFinset, mem_nonzeroList]
  simp

/-! ### The centre of energy -/

/-- An image without negative pixels whose lit pixels are of ordinary size. -/
def OrdinaryImage (a : Arr2 ℝ) : Prop := ∀ i j, a.val i j = 0 ∨ ((2 : ℝ) ^ (-400 : ℤ) ≤ a.val i j ∧ a.val i j ≤ (2 : ℝ) ^ (400 : ℤ))

theorem rel_rounded {n : ℕ} {xD x : ℝ} (hn : n ≤ 2 ^ 50) (h : ∃ r, Rel n r ∧ xD = x * r) (hx : x = 0 ∨ (2 : ℝ) ^ (-1000 : ℤ) ≤ x) : ∃ r, Rel (n + 1) r ∧ double xD = x * r := by
  obtain ⟨r, hr, rfl⟩ := h
  rcases hx with rfl | hx
  · exact ⟨1, rel_one.mono (Nat.zero_le _), by simp⟩
  have hb := hr.leMany hn
  have hnr : (n : ℝ) ≤ 1125899906842624 := by exact_mod_cast hn
  have hr2 : (1 / 2 : ℝ) ≤ r := by
    rw [abs_le] at hb
    have : (n : ℝ) / 2 ^ 52 ≤ 1 / 2 := by norm_num; linarith
    linarith [hb.1]
  have p0 := two_zpow_pos (-1000)
  have hp : 0 < x * r := mul_pos (by linarith) hr.pos
  obtain ⟨k, hk⟩ : ∃ k : ℕ, x * r < (2 : ℝ) ^ k := pow_unbounded_of_one_lt _ (by norm_num)
  have hs : SizeIn (-1001) k (x * r) := by
    right
    rw [abs_of_pos hp]
    refine ⟨?_, by rw [zpow_natCast]; exact hk.le⟩
    rw [show (-1001 : ℤ) = -1000 + -1 by norm_num, two_zpow_add]
    refine mul_le_mul hx ?_ (two_zpow_pos _).le (by linarith)
    rw [zpow_neg_one]
    linarith
  obtain ⟨δ, hδ, e⟩ := hs.rel (by norm_num)
  exact ⟨r * (1 + δ), hr.mul (rel_step hδ), by rw [e]; ring⟩

theorem rel_close {n : ℕ} {xD x : ℝ} (hn : n ≤ 2 ^ 50) (hx : 0 ≤ x) (h : ∃ r, Rel n r ∧ xD = x * r) : |xD - x| ≤ x * (n / 2 ^ 52) := by
  obtain ⟨r, hr, rfl⟩ := h
  rw [show x * r - x = x * (r - 1) by ring, abs_mul, abs_of_nonneg hx]
  exact mul_le_mul_of_nonneg_left (hr.leMany hn) hx

theorem energy_list (a : Arr2 ℝ) : ((nonzeroList a).map fun p => a.val p.1 p.2).sum = energy a := by
  rw [nonzeroList_sum, ← totalEnergy_eq]
  rfl

theorem moment_list (a : Arr2 ℝ) (w : Fin a.nr → Fin a.nc → ℝ) (E : ℝ) :
    ((nonzeroList a).map fun p => w p.1 p.2 * (a.val p.1 p.2 / E)).sum = (∑ i, ∑ j, w i j * a.val i j) / E := by
  rw [nonzeroList_sum]
  simp only [← mul_div_assoc]
  rw [← Finset.sum_div, nonzero_sum a w]

theorem moment_close (S : List ℝ → ℝ) (depth : ℕ → ℕ) (hS : RoundedSum depth S) (a : Arr2 ℝ) (ha : OrdinaryImage a) (hl : 1 ≤ litPixels a) (hb : litPixels a ≤ 2 ^ 40)
    (hd : depth (litPixels a) ≤ 2 ^ 40) (c : Fin a.nr → Fin a.nc → ℕ) :
    S ((nonzeroList a).map fun p => a.val p.1 p.2) ≠ 0 ∧ 0 < energy a ∧
    |S ((nonzeroList a).map fun p => double ((c p.1 p.2 : ℝ) * double (a.val p.1 p.2 / S ((nonzeroList a).map fun p => a.val p.1 p.2)))) -
      (∑ i, ∑ j, (c i j : ℝ) * a.val i j) / energy a| ≤ (∑ i, ∑ j, (c i j : ℝ) * a.val i j) / energy a * ((2 * depth (litPixels a) + 2) / 2 ^ 52) := by
  have hlen := nonzeroList_length a
  have p0 := two_zpow_pos (-400)
  have hv : ∀ p ∈ nonzeroList a, (2 : ℝ) ^ (-400 : ℤ) ≤ a.val p.1 p.2 ∧ a.val p.1 p.2 ≤ (2 : ℝ) ^ (400 : ℤ) := fun p hp =>
    (ha p.1 p.2).resolve_left ((mem_nonzeroList a p).mp hp)
  have hlow : (2 : ℝ) ^ (-1000 : ℤ) ≤ (2 : ℝ) ^ (-400 : ℤ) := two_zpow_mono (by norm_num)
  obtain ⟨p₁, hp₁⟩ : ∃ p, p ∈ nonzeroList a := List.exists_mem_of_ne_nil _ (by rw [← List.length_pos_iff]; omega)
  have hE1 : a.val p₁.1 p₁.2 ≤ energy a := by
    rw [← energy_list]
    refine List.single_le_sum ?_ _ (List.mem_map_of_mem (f := fun p : Fin a.nr × Fin a.nc => a.val p.1 p.2) hp₁)
    intro x hx
    obtain ⟨p, hp, rfl⟩ := List.mem_map.mp hx
    linarith [(hv p hp).1]
  have hE0 : 0 < energy a := by linarith [(hv p₁ hp₁).1]
  have hE2 : energy a ≤ (2 : ℝ) ^ (440 : ℤ) := by
    rw [← energy_list]
    have := List.sum_le_card_nsmul ((nonzeroList a).map fun p => a.val p.1 p.2) ((2 : ℝ) ^ (400 : ℤ)) (by
      intro x hx
      obtain ⟨p, hp, rfl⟩ := List.mem_map.mp hx
      exact (hv p hp).2)
    refine this.trans ?_
    rw [List.length_map, hlen, nsmul_eq_mul, show (440 : ℤ) = 40 + 400 by norm_num, two_zpow_add]
    refine mul_le_mul_of_nonneg_right ?_ (two_zpow_pos _).le
    rw [show (40 : ℤ) = ((40 : ℕ) : ℤ) by norm_num, zpow_natCast]
    exact_mod_cast hb
  obtain ⟨rT, hrT, eT⟩ := hS.rel ((nonzeroList a).map fun p => a.val p.1 p.2) (by
      intro x hx
      obtain ⟨p, hp, rfl⟩ := List.mem_map.mp hx
      right
      exact hlow.trans (hv p hp).1) (by rw [List.length_map, hlen]; exact hd.trans (by norm_num))
  rw [List.length_map, hlen] at hrT
  rw [energy_list] at eT
  set T := S ((nonzeroList a).map fun p => a.val p.1 p.2)
  have hT0 : 0 < T := by rw [eT]; exact mul_pos hE0 hrT.pos
  refine ⟨hT0.ne', hE0, ?_⟩
  -- the weights
  have hw : ∀ p ∈ nonzeroList a, (2 : ℝ) ^ (-1000 : ℤ) ≤ a.val p.1 p.2 / energy a := by
    intro p hp
    rw [le_div_iff₀ hE0]
    refine le_trans ?_ (hv p hp).1
    calc (2 : ℝ) ^ (-1000 : ℤ) * energy a ≤ (2 : ℝ) ^ (-1000 : ℤ) * (2 : ℝ) ^ (440 : ℤ) := mul_le_mul_of_nonneg_left hE2 (two_zpow_pos _).le
      _ = (2 : ℝ) ^ (-560 : ℤ) := by rw [← two_zpow_add]; norm_num
      _ ≤ _ := two_zpow_mono (by norm_num)
  have hterm : ∀ p ∈ nonzeroList a, ∃ r, Rel (depth (litPixels a) + 1 + 1) r ∧
      double ((c p.1 p.2 : ℝ) * double (a.val p.1 p.2 / T)) = (c p.1 p.2 : ℝ) * (a.val p.1 p.2 / energy a) * r := by
    intro p hp
    have q : ∃ r, Rel (depth (litPixels a) + 1) r ∧ double (a.val p.1 p.2 / T) = a.val p.1 p.2 / energy a * r := by
      refine rel_rounded (by norm_num at hd ⊢; omega) ⟨rT⁻¹, hrT.inv, ?_⟩ (Or.inr (hw p hp))
      rw [eT]
      field_simp
    obtain ⟨r, hr, e⟩ := q
    refine rel_rounded (by norm_num at hd ⊢; omega) ⟨r, hr, by rw [e]; ring⟩ ?_
    rcases Nat.eq_zero_or_pos (c p.1 p.2) with h | h
    · left; rw [h]; simp
    · right
      have h1 : (1 : ℝ) ≤ c p.1 p.2 := by exact_mod_cast h
      have := hw p hp
      have h3 := two_zpow_pos (-1000)
      nlinarith
  have hg0 : ∀ p ∈ nonzeroList a, 0 ≤ (c p.1 p.2 : ℝ) * (a.val p.1 p.2 / energy a) := fun p hp =>
    mul_nonneg (Nat.cast_nonneg _) (by have := hw p hp; have h3 := two_zpow_pos (-1000); linarith)
  obtain ⟨q, hq, eq⟩ := Rel.listSum _ (nonzeroList a) _ _ hg0 hterm
  obtain ⟨s, hs, es⟩ := hS.rel ((nonzeroList a).map fun p => double ((c p.1 p.2 : ℝ) * double (a.val p.1 p.2 / T))) (by
      intro x hx
      obtain ⟨p, hp, rfl⟩ := List.mem_map.mp hx
      obtain ⟨r, hr, e⟩ := hterm p hp
      rw [e]
      rcases Nat.eq_zero_or_pos (c p.1 p.2) with h | h
      · left; rw [h]; simp
      · right
        have h1 : (1 : ℝ) ≤ c p.1 p.2 := by exact_mod_cast h
        have hr2 := hr.leMany (by norm_num at hd ⊢; omega)
        rw [abs_le] at hr2
        have hdr : (((depth (litPixels a) + 1 + 1 : ℕ)) : ℝ) / 2 ^ 52 ≤ 1 / 2 := by
          have : (((depth (litPixels a) + 1 + 1 : ℕ)) : ℝ) ≤ 1099511627780 := by exact_mod_cast (by norm_num at hd; omega : depth (litPixels a) + 1 + 1 ≤ 1099511627780)
          rw [div_le_iff₀ (by norm_num)]
          norm_num at this ⊢
          linarith
        have hr3 : (1 / 2 : ℝ) ≤ r := by linarith [hr2.1]
        have w2 : (2 : ℝ) ^ (-999 : ℤ) ≤ a.val p.1 p.2 / energy a := by
          rw [le_div_iff₀ hE0]
          refine le_trans ?_ (hv p hp).1
          calc (2 : ℝ) ^ (-999 : ℤ) * energy a ≤ (2 : ℝ) ^ (-999 : ℤ) * (2 : ℝ) ^ (440 : ℤ) := mul_le_mul_of_nonneg_left hE2 (two_zpow_pos _).le
            _ = (2 : ℝ) ^ (-559 : ℤ) := by rw [← two_zpow_add]; norm_num
            _ ≤ _ := two_zpow_mono (by norm_num)
        have e999 : (2 : ℝ) ^ (-1000 : ℤ) = 1 * (2 : ℝ) ^ (-999 : ℤ) * (1 / 2) := by
          rw [show (-1000 : ℤ) = -999 + -1 by norm_num, two_zpow_add, zpow_neg_one]; ring
        rw [e999]
        exact mul_le_mul (mul_le_mul h1 w2 (two_zpow_pos _).le (by linarith)) hr3 (by norm_num) (hg0 p hp))
    (by rw [List.length_map, hlen]; exact hd.trans (by norm_num))
  rw [List.length_map, hlen] at hs
  have hsum := moment_list a (fun i j => (c i j : ℝ)) (energy a)
  rw [hsum] at eq
  have m0 : 0 ≤ (∑ i, ∑ j, (c i j : ℝ) * a.val i j) / energy a := by
    rw [← hsum]
    refine List.sum_nonneg fun x hx => ?_
    obtain ⟨p, hp, rfl⟩ := List.mem_map.mp hx
    exact hg0 p hp
  have fin := rel_close (n := depth (litPixels a) + 1 + 1 + depth (litPixels a))
    (xD := S ((nonzeroList a).map fun p => double ((c p.1 p.2 : ℝ) * double (a.val p.1 p.2 / T)))) (by norm_num at hd ⊢; omega) m0 ⟨q * s, hq.mul hs, by rw [es, eq]; ring⟩
  refine fin.trans (mul_le_mul_of_nonneg_left (div_le_div_of_nonneg_right (le_of_eq ?_) (by norm_num)) m0)
  push_cast
  ring

/-- **C108.** For every image without negative pixels, whatever the order in which numpy adds, the computed centre of energy has a relative error of at most
`(2 d + 2) · 2⁻⁵²`, where `d` is the number of additions a term goes through. -/
theorem C108_center (S : List ℝ → ℝ) (depth : ℕ → ℕ) (hS : RoundedSum depth S) (a : Arr2 ℝ) (ha : OrdinaryImage a) (hl : 1 ≤ litPixels a) (hb : litPixels a ≤ 2 ^ 40)
    (hd : depth (litPixels a) ≤ 2 ^ 40) : ∃ x y, centerOfEnergyD S a = some (x, y) ∧
      |x - colMoment a / energy a| ≤ colMoment a / energy a * ((2 * depth (litPixels a) + 2) / 2 ^ 52) ∧
      |y - rowMoment a / energy a| ≤ rowMoment a / energy a * ((2 * depth (litPixels a) + 2) / 2 ^ 52) := by
  obtain ⟨h1, h2, h3⟩ := moment_close S depth hS a ha hl hb hd fun _ j => (j : ℕ)
  obtain ⟨-, -, h4⟩ := moment_close S depth hS a ha hl hb hd fun i _ => (i : ℕ)
  refine ⟨_, _, ?_, h3, h4⟩
  unfold centerOfEnergyD
  simp only
  rw [if_neg (c := nonzeroList a = []), if_neg h1]
  intro h0
  have := nonzeroList_length a
  rw [h0, List.length_nil] at this
  omega

/-- **C108.** Without any knowledge of the order the error is at most `2 n · 2⁻⁵²` times the width or height for an image with `n` lit pixels: less than a millionth of
a pixel for a million lit pixels in an image of 1000 by 1000. -/
theorem C108_center_any_order (S : List ℝ → ℝ) (depth : ℕ → ℕ) (hS : RoundedSum depth S) (a : Arr2 ℝ) (ha : OrdinaryImage a) (hl : 1 ≤ litPixels a)
    (hb : litPixels a ≤ 2 ^ 40) : ∃ x y, centerOfEnergyD S a = some (x, y) ∧
      |x - colMoment a / energy a| ≤ a.nc * (2 * litPixels a / 2 ^ 52) ∧ |y - rowMoment a / energy a| ≤ a.nr * (2 * litPixels a / 2 ^ 52) := by
  obtain ⟨x, y, h1, h2, h3⟩ := C108_center S _ hS.any a ha hl hb (by omega)
  have hE := (moment_close S _ hS.any a ha hl hb (by omega) fun i _ => (i : ℕ)).2.1
  have p0 := two_zpow_pos (-400)
  have v0 : ∀ i j, 0 ≤ a.val i j := fun i j => by rcases ha i j with h | h
                                                  · exact h.ge
                                                  · linarith [h.1]
  have e : (2 * ((litPixels a - 1 : ℕ) : ℝ) + 2) / 2 ^ 52 = 2 * litPixels a / 2 ^ 52 := by
    rw [Nat.cast_sub hl]
    push_cast
    ring
  rw [e] at h2 h3
  have hw : (0 : ℝ) ≤ 2 * litPixels a / 2 ^ 52 := by positivity
  refine ⟨x, y, h1, h2.trans (mul_le_mul_of_nonneg_right ?_ hw), h3.trans (mul_le_mul_of_nonneg_right ?_ hw)⟩
  · rw [div_le_iff₀ hE]
    unfold colMoment energy
    rw [Finset.mul_sum]
    refine Finset.sum_le_sum fun i _ => ?_
    rw [Finset.mul_sum]
    refine Finset.sum_le_sum fun j _ => mul_le_mul_of_nonneg_right ?_ (v0 i j)
    exact_mod_cast j.isLt.le
  · rw [div_le_iff₀ hE]
    unfold rowMoment energy
    rw [Finset.mul_sum]
    refine Finset.sum_le_sum fun i _ => ?_
    rw [Finset.mul_sum]
    refine Finset.sum_le_sum fun j _ => mul_le_mul_of_nonneg_right ?_ (v0 i j)
    exact_mod_cast i.isLt.le

theorem sum_single {depth : ℕ → ℕ} {S : List ℝ → ℝ} (hS : RoundedSum depth S) (x : ℝ) : S [x] = x := by
  obtain ⟨t, h1, -, h3⟩ := hS.2 [x] (by simp)
  rw [h3]
  have hl := h1.length_eq
  cases t with
  | leaf z => simpa [SumTree.leaves, SumTree.valueD] using h1
  | node l r =>
    have a1 := List.length_pos_iff.mpr l.leaves_ne
    have a2 := List.length_pos_iff.mpr r.leaves_ne
    simp only [SumTree.leaves, List.length_append, List.length_singleton] at hl
    omega

/-- **C108.** A single lit pixel, of either sign, is located exactly. -/
theorem C108_single_pixel (S : List ℝ → ℝ) (depth : ℕ → ℕ) (hS : RoundedSum depth S) (a : Arr2 ℝ) (i : Fin a.nr) (j : Fin a.nc) (hi : a.nr ≤ 2 ^ 53) (hj : a.nc ≤ 2 ^ 53)
    (hv : a.val i j ≠ 0) (h : ∀ i' j', (i', j') ≠ (i, j) → a.val i' j' = 0) : centerOfEnergyD S a = some (((j : ℕ) : ℝ), ((i : ℕ) : ℝ)) := by
  have hlist : nonzeroList a = [(i, j)] := by
    have hmem : ∀ p, p ∈ nonzeroList a ↔ p = (i, j) := by
      intro p
      rw [mem_nonzeroList]
      constructor
      · intro hp
        by_contra hc
        exact hp (h p.1 p.2 hc)
      · rintro rfl
        exact hv
    have nd := nonzeroList_nodup a
    match hl : nonzeroList a with
    | [] => rw [hl] at hmem; exact absurd ((hmem (i, j)).mpr rfl) (by simp)
    | [p] => rw [hl] at hmem; rw [(hmem p).mp (by simp)]
    | p :: q :: rest =>
      rw [hl] at hmem nd
      have e1 := (hmem p).mp (by simp)
      have e2 := (hmem q).mp (by simp)
      rw [e1, e2] at nd
      simp at nd
  unfold centerOfEnergyD
  simp only [hlist, List.map_cons, List.map_nil, sum_single hS]
  rw [if_neg (by simp), if_neg hv, div_self hv, double_one, mul_one, mul_one, double_nat _ (by omega), double_nat _ (by omega)]

/-! ### The rms -/

theorem rel_root {n : ℕ} {r : ℝ} (h : Rel n r) : Rel n (Real.sqrt r) := by
  have u0 : 0 < roundoff := two_zpow_pos _
  have p0 := pow_pos one_sub_roundoff_pos n
  have p1 : (1 - roundoff) ^ n ≤ 1 := pow_le_one₀ one_sub_roundoff_pos.le (by linarith)
  have hr := h.pos
  constructor
  · apply Real.le_sqrt_of_sq_le
    nlinarith [h.1]
  · have : (Real.sqrt r * (1 - roundoff) ^ n) ^ 2 ≤ 1 ^ 2 := by
      rw [mul_pow, Real.sq_sqrt hr.le]
      nlinarith [h.2]
    exact le_of_sq_le_sq this (by norm_num)

/-- **C108.** The computed rms of any real array with entries of ordinary size has a relative error of at most `(d + 3) · 2⁻⁵²`. -/
theorem C108_rms (S : List ℝ → ℝ) (depth : ℕ → ℕ) (hS : RoundedSum depth S) (xs : List ℝ) (hne : xs ≠ [])
    (hx : ∀ x ∈ xs, x = 0 ∨ ((2 : ℝ) ^ (-400 : ℤ) ≤ |x| ∧ |x| ≤ (2 : ℝ) ^ (400 : ℤ))) (hb : xs.length ≤ 2 ^ 40) (hd : depth xs.length ≤ 2 ^ 40) :
    |rmsD S xs - Real.sqrt ((xs.map fun x => x ^ 2).sum / xs.length)| ≤ Real.sqrt ((xs.map fun x => x ^ 2).sum / xs.length) * ((depth xs.length + 3) / 2 ^ 52) := by
  have n1 : (1 : ℝ) ≤ xs.length := by exact_mod_cast List.length_pos_iff.mpr hne
  have n0 : (0 : ℝ) < xs.length := by linarith
  have hsq : ∀ x ∈ xs, x ^ 2 = 0 ∨ (2 : ℝ) ^ (-800 : ℤ) ≤ x ^ 2 := by
    intro x hxm
    rcases hx x hxm with rfl | h
    · left; norm_num
    · right
      rw [show (-800 : ℤ) = -400 + -400 by norm_num, two_zpow_add, ← sq_abs, sq]
      exact mul_le_mul h.1 h.1 (two_zpow_pos _).le (abs_nonneg _)
  have hlow : (2 : ℝ) ^ (-1000 : ℤ) ≤ (2 : ℝ) ^ (-800 : ℤ) := two_zpow_mono (by norm_num)
  have hterm : ∀ x ∈ xs, ∃ r, Rel 1 r ∧ double (x * x) = x ^ 2 * r := by
    intro x hxm
    exact rel_rounded (n := 0) (by norm_num) ⟨1, rel_one, by ring⟩ ((hsq x hxm).imp id fun h => hlow.trans h)
  obtain ⟨q, hq, eq⟩ := Rel.listSum 1 xs (fun x => double (x * x)) (fun x => x ^ 2) (fun x _ => sq_nonneg x) hterm
  obtain ⟨s, hs, es⟩ := hS.rel (xs.map fun x => double (x * x)) (by
      intro z hz
      obtain ⟨x, hxm, rfl⟩ := List.mem_map.mp hz
      obtain ⟨r, hr, e⟩ := hterm x hxm
      rcases hsq x hxm with h | h
      · left; rw [e, h]; ring
      · right
        rw [e]
        have hr2 := hr.leMany (by norm_num)
        rw [abs_le] at hr2
        have hr3 : (1 / 2 : ℝ) ≤ r := by norm_num at hr2 ⊢; linarith [hr2.1]
        have e999 : (2 : ℝ) ^ (-1000 : ℤ) ≤ (2 : ℝ) ^ (-800 : ℤ) * (1 / 2) := by
          rw [one_div, ← zpow_neg_one, ← two_zpow_add]
          exact two_zpow_mono (by norm_num)
        exact e999.trans (mul_le_mul h hr3 (by norm_num) (sq_nonneg x))) (by rw [List.length_map]; exact hd.trans (by norm_num))
  rw [List.length_map] at hs
  set Q := (xs.map fun x => x ^ 2).sum with hQ
  have hQ0 : 0 ≤ Q := List.sum_nonneg fun z hz => by
    obtain ⟨x, -, rfl⟩ := List.mem_map.mp hz
    exact sq_nonneg x
  have hQs : Q = 0 ∨ (2 : ℝ) ^ (-800 : ℤ) ≤ Q := by
    by_cases h : ∃ x ∈ xs, x ≠ 0
    · obtain ⟨x, hxm, hx0⟩ := h
      right
      refine ((hsq x hxm).resolve_left (pow_ne_zero 2 hx0)).trans ?_
      refine List.single_le_sum ?_ _ (List.mem_map_of_mem (f := fun x : ℝ => x ^ 2) hxm)
      intro z hz
      obtain ⟨y, -, rfl⟩ := List.mem_map.mp hz
      exact sq_nonneg y
    · left
      push Not at h
      rw [hQ]
      refine List.sum_eq_zero fun z hz => ?_
      obtain ⟨x, hxm, rfl⟩ := List.mem_map.mp hz
      simp [h x hxm]
  have hNb : (xs.length : ℝ) ≤ (2 : ℝ) ^ (40 : ℤ) := by
    rw [show (40 : ℤ) = ((40 : ℕ) : ℤ) by norm_num, zpow_natCast]
    exact_mod_cast hb
  have hm : Q / xs.length = 0 ∨ (2 : ℝ) ^ (-840 : ℤ) ≤ Q / xs.length := by
    rcases hQs with h | h
    · left; rw [h]; simp
    · right
      rw [le_div_iff₀ n0]
      refine le_trans ?_ h
      calc (2 : ℝ) ^ (-840 : ℤ) * xs.length ≤ (2 : ℝ) ^ (-840 : ℤ) * (2 : ℝ) ^ (40 : ℤ) := mul_le_mul_of_nonneg_left hNb (two_zpow_pos _).le
        _ = _ := by rw [← two_zpow_add]; norm_num
  have q0 : 0 ≤ Q / xs.length := div_nonneg hQ0 n0.le
  obtain ⟨w, hw, ew⟩ := rel_rounded (n := 1 + depth xs.length) (xD := S (xs.map fun x => double (x * x)) / xs.length) (x := Q / xs.length)
    (by norm_num at hd ⊢; omega) ⟨q * s, hq.mul hs, by rw [es, eq]; ring⟩ (hm.imp id fun h => (two_zpow_mono (by norm_num)).trans h)
  have hroot : Real.sqrt (Q / xs.length) = 0 ∨ (2 : ℝ) ^ (-1000 : ℤ) ≤ Real.sqrt (Q / xs.length) := by
    rcases hm with h | h
    · left; rw [h, Real.sqrt_zero]
    · right
      apply Real.le_sqrt_of_sq_le
      refine le_trans ?_ h
      rw [sq, ← two_zpow_add]
      exact two_zpow_mono (by norm_num)
  have fin := rel_rounded (n := 1 + depth xs.length + 1) (xD := Real.sqrt (double (S (xs.map fun x => double (x * x)) / xs.length))) (by norm_num at hd ⊢; omega)
    ⟨Real.sqrt w, rel_root hw, by rw [ew, Real.sqrt_mul q0]⟩ hroot
  have c := rel_close (by norm_num at hd ⊢; omega) (Real.sqrt_nonneg _) fin
  unfold rmsD
  refine c.trans (mul_le_mul_of_nonneg_left (div_le_div_of_nonneg_right (le_of_eq ?_) (by norm_num)) (Real.sqrt_nonneg _))
  push_cast
  ring

/-! ### Negative pixels -/

/-- Summation from left to right. -/
noncomputable def leftSum : List ℝ → ℝ
  | [] => 0
  | x :: l => l.foldl (fun a b => double (a + b)) x

theorem leftSum_rounded : RoundedSum (fun n => n - 1) leftSum := by
  have tree : ∀ (l : List ℝ) (t : SumTree), ∃ u : SumTree, u.leaves = t.leaves ++ l ∧ u.valueD = l.foldl (fun a b => double (a + b)) t.valueD := by
    intro l
    induction l with
    | nil => exact fun t => ⟨t, by simp, rfl⟩
    | cons b l ih =>
      intro t
      obtain ⟨u, h1, h2⟩ := ih (SumTree.node t (SumTree.leaf b))
      exact ⟨u, by rw [h1]; simp [SumTree.leaves], by rw [h2]; rfl⟩
  refine ⟨rfl, fun l hl => ?_⟩
  match l, hl with
  | x :: l, _ =>
    obtain ⟨u, h1, h2⟩ := tree l (SumTree.leaf x)
    have h1' : u.leaves = x :: l := by rw [h1]; simp [SumTree.leaves]
    refine ⟨u, by rw [h1'], ?_, by rw [h2]; rfl⟩
    have := u.depth_lt
    rw [h1'] at this
    show u.depth ≤ (x :: l).length - 1
    omega

/-- The image `[2⁵³, 1, -2⁵³]`. -/
noncomputable def signedRow : Arr2 ℝ := ⟨1, 3, fun _ j => if (j : ℕ) = 0 then 2 ^ 53 else if (j : ℕ) = 1 then 1 else -2 ^ 53⟩

theorem signedRow_list : nonzeroList signedRow = [((0 : Fin 1), (0 : Fin 3)), ((0 : Fin 1), (1 : Fin 3)), ((0 : Fin 1), (2 : Fin 3))] := by
  unfold nonzeroList
  rw [List.filter_eq_self.mpr]
  · rfl
  · rintro ⟨i, j⟩ -
    fin_cases j <;> simp [signedRow]

theorem signedRow_energy : energy signedRow = 1 := by
  unfold energy
  show ∑ i : Fin 1, ∑ j : Fin 3, signedRow.val i j = 1
  simp [Fin.sum_univ_three, signedRow]

/-- **C108 fails with negative pixels.** The pixels `2⁵³, 1, -2⁵³` add up to one, so the centre of energy exists; summed from left to right they give zero, and the code
answers NaN. -/
theorem C108_negative_fails : energy signedRow = 1 ∧ centerOfEnergy signedRow ≠ none ∧ centerOfEnergyD leftSum signedRow = none := by
  have hE := signedRow_energy
  refine ⟨hE, ?_, ?_⟩
  · rw [centerOfEnergy_eq signedRow (by rw [hE]; norm_num)]
    simp
  · have h53 : double ((2 : ℝ) ^ 53 + 1) = 2 ^ 53 := by
      have h := roundQ_cast (2 ^ 53 + 1)
      have e : roundQ (2 ^ 53 + 1) = 2 ^ 53 := by decide +kernel
      rw [e] at h
      push_cast at h
      exact h.symm
    have hT : leftSum ((nonzeroList signedRow).map fun p => signedRow.val p.1 p.2) = 0 := by
      have e : (nonzeroList signedRow).map (fun p => signedRow.val p.1 p.2) = [2 ^ 53, 1, -2 ^ 53] := by
        rw [signedRow_list]
        show [signedRow.val (0 : Fin 1) (0 : Fin 3), signedRow.val (0 : Fin 1) (1 : Fin 3), signedRow.val (0 : Fin 1) (2 : Fin 3)] = _
        simp [signedRow]
      rw [e]
      show double (double (2 ^ 53 + 1) + -2 ^ 53) = 0
      rw [h53, add_neg_cancel, double_zero]
    unfold centerOfEnergyD
    simp only
    rw [if_neg (by rw [signedRow_list]; simp), if_pos hT]

/-! ### Cases -/

example : centerOfEnergyD leftSum ⟨2, 3, fun i j => if (i : ℕ) = 1 ∧ (j : ℕ) = 2 then -3 else 0⟩ = some (2, 1) := by
  have := C108_single_pixel leftSum _ leftSum_rounded ⟨2, 3, fun i j => if (i : ℕ) = 1 ∧ (j : ℕ) = 2 then -3 else 0⟩ (1 : Fin 2) (2 : Fin 3) (by norm_num) (by norm_num)
    (by simp) (by
      intro i' j' h
      simp only
      rw [if_neg]
      rintro ⟨h1, h2⟩
      exact h (Prod.ext (Fin.ext h1) (Fin.ext h2)))
  simpa using this

/-- Two equal pixels in a row of three. -/
noncomputable def pairRow : Arr2 ℝ := ⟨1, 3, fun _ j => if (j : ℕ) = 0 then 0 else 1⟩

example : ∃ x y, centerOfEnergyD leftSum pairRow = some (x, y) ∧ |x - colMoment pairRow / energy pairRow| ≤ pairRow.nc * (2 * litPixels pairRow / 2 ^ 52) := by
  have hl : litPixels pairRow ≤ 3 := (Finset.card_filter_le _ _).trans (by show (Finset.univ : Finset (Fin 1 × Fin 3)).card ≤ 3; simp)
  have h1 : 1 ≤ litPixels pairRow := Finset.card_pos.mpr ⟨((0 : Fin 1), (1 : Fin 3)), by rw [Finset.mem_filter]; exact ⟨Finset.mem_univ _, by simp [pairRow]⟩⟩
  obtain ⟨x, y, h, hx, -⟩ := C108_center_any_order leftSum _ leftSum_rounded pairRow (by
    intro i j
    simp only [pairRow]
    split_ifs
    · left; rfl
    · right; exact ⟨by rw [← zpow_zero (2 : ℝ)]; exact two_zpow_mono (by norm_num), by rw [← zpow_zero (2 : ℝ)]; exact two_zpow_mono (by norm_num)⟩) h1 (by norm_num; omega)
  exact ⟨x, y, h, hx⟩

example : |rmsD leftSum [3, 4] - Real.sqrt (([3, 4].map fun x : ℝ => x ^ 2).sum / (([3, 4] : List ℝ).length : ℝ))| ≤
    Real.sqrt (([3, 4].map fun x : ℝ => x ^ 2).sum / (([3, 4] : List ℝ).length : ℝ)) * (((1 : ℕ) + 3) / 2 ^ 52) := by
  refine C108_rms leftSum _ leftSum_rounded [3, 4] (by simp) ?_ (by simp) (by simp)
  intro x hx
  right
  have : x = 3 ∨ x = 4 := by simpa using hx
  have l : (2 : ℝ) ^ (-400 : ℤ) ≤ 1 := by rw [← zpow_zero (2 : ℝ)]; exact two_zpow_mono (by norm_num)
  have u : (2 : ℝ) ^ (2 : ℤ) ≤ (2 : ℝ) ^ (400 : ℤ) := two_zpow_mono (by norm_num)
  have e4 : (2 : ℝ) ^ (2 : ℤ) = 4 := by norm_num
  rw [e4] at u
  generalize (2 : ℝ) ^ (400 : ℤ) = A at u ⊢
  generalize (2 : ℝ) ^ (-400 : ℤ) = B at l ⊢
  rcases this with rfl | rfl <;> rw [abs_of_pos (by norm_num)] <;> constructor <;> linarith

end Coralign.Props
