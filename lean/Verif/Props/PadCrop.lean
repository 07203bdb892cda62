import Verif.Lemmas.PadCrop
import Mathlib.Data.Rat.Floor

/-!
# Properties C01-C04: `pad_crop` and `offcenter_crop`
-/

namespace Coralign.Props

open Coralign

variable {α : Type}

/-- **C01.** For every 2-D array and every valid requested shape, `pad_crop` succeeds, the output has
exactly that shape, and the pixel at signed offset `(k, l)` from the centre pixel is the input's pixel at
the same offset if it has one, and `extrapval` otherwise. -/
theorem C01_pad_crop_registered (a : Arr2 α) (h w : Int) (ev : α) (hh : 0 < h) (hw : 0 < w) :
    ∃ o, padCrop a [h, w] ev = .ok o ∧ (o.nr : Int) = h ∧ (o.nc : Int) = w ∧
      ∀ k l, Reaches h w k l →
        o.centered k l = some (match a.centered k l with | some v => v | none => ev) := by
  obtain ⟨o, ho, hnr, hnc, hpx⟩ := padCropChain_ok ev a [] h w (by simp) hh hw
  refine ⟨o, ?_, hnr, hnc, ?_⟩
  · have := ho
    simp only [List.nil_append] at this
    rw [padCropChain_cons] at this
    rw [padCrop_eq a h w ev hh hw] at this ⊢
    exact this
  · intro k l hr
    rw [(hpx k l hr).1 (fun _ _ hm => by cases hm)]
    cases a.centered k l <;> rfl

/-- **C01, error branch.** Anything that is not two positive integers is rejected with `TypeError`. -/
theorem C01_pad_crop_rejects (a : Arr2 α) (outsize : List Int) (ev : α) :
    padCrop a outsize ev = .error .typeError ↔
      ¬ ∃ h w : Int, outsize = [h, w] ∧ 0 < h ∧ 0 < w := by
  constructor
  · rintro he ⟨h, w, rfl, h1, h2⟩
    rw [padCrop_eq a h w ev h1 h2] at he
    cases he
  · exact padCrop_error a outsize ev

example : (0 : Int) < 5 ∧ (0 : Int) < 2 := by decide
/-- A 2x3 array padded to 5 rows and cropped to 2 columns, computed. -/
example :
    (match padCrop (Arr2.ofFn 2 3 fun i j => 10 * i + j) [5, 2] 7 with
     | .ok o => [[o.px 0 0, o.px 0 1], [o.px 1 0, o.px 1 1], [o.px 2 0, o.px 2 1], [o.px 3 0, o.px 3 1]]
     | .error _ => []) =
    [[some 7, some 7], [some 0, some 1], [some 10, some 11], [some 7, some 7]] := by decide

/-- **C02.** The result of a chain of `pad_crop` calls ending in a given final shape does not depend on the
order of the intermediate shapes - for arbitrary, even invalid, intermediate requests. -/
theorem C02_chain_order_irrelevant (a : Arr2 α) (ev : α) (ss ss' : List (List Int)) (out : List Int)
    (hp : ss.Perm ss') :
    padCropChain ev a (ss ++ [out]) = padCropChain ev a (ss' ++ [out]) := by
  by_cases hv : (∀ s ∈ ss, ValidSize s) ∧ ValidSize out
  · obtain ⟨hs, H, W, rfl, hH, hW⟩ := hv
    have hs' : ∀ s ∈ ss', ValidSize s := fun s hm => hs s (hp.mem_iff.mpr hm)
    obtain ⟨o, ho, hnr, hnc, hpx⟩ := padCropChain_ok ev a ss H W hs hH hW
    obtain ⟨o', ho', hnr', hnc', hpx'⟩ := padCropChain_ok ev a ss' H W hs' hH hW
    rw [ho, ho']
    congr 1
    refine ext_centered (by omega) (by omega) ?_
    intro k l hr
    rw [hnr, hnc] at hr
    have hiff : AllReach ss k l ↔ AllReach ss' k l := by
      unfold AllReach
      simp only [hp.mem_iff]
    by_cases hall : AllReach ss k l
    · rw [(hpx k l hr).1 hall, (hpx' k l hr).1 (hiff.mp hall)]
    · rw [(hpx k l hr).2 hall, (hpx' k l hr).2 (fun h => hall (hiff.mpr h))]
  · have aux : ∀ tt : List (List Int), (∀ s, s ∈ tt ↔ s ∈ ss) → ∃ s ∈ tt ++ [out], ¬ ValidSize s := by
      intro tt htt
      by_cases ho : ValidSize out
      · have : ¬ ∀ s ∈ ss, ValidSize s := fun h => hv ⟨h, ho⟩
        push Not at this
        obtain ⟨s, hs, hsv⟩ := this
        exact ⟨s, by simp [(htt s).mpr hs], hsv⟩
      · exact ⟨out, by simp, ho⟩
    rw [padCropChain_error ev a _ (aux ss (fun _ => Iff.rfl)),
      padCropChain_error ev a _ (aux ss' (fun s => (hp.mem_iff).symm))]

/-- **C02.** If no intermediate shape cuts below both the input and the final shape on an axis, the whole
chain equals the single direct call. -/
theorem C02_chain_collapses (a : Arr2 α) (ev : α) (ss : List (List Int)) (H W : Int)
    (hH : 0 < H) (hW : 0 < W)
    (hss : ∀ s ∈ ss, ∃ h w : Int, s = [h, w] ∧ 0 < h ∧ 0 < w ∧ min (a.nr : Int) H ≤ h ∧ min (a.nc : Int) W ≤ w) :
    padCropChain ev a (ss ++ [[H, W]]) = padCrop a [H, W] ev := by
  have hs : ∀ s ∈ ss, ValidSize s := by
    intro s hm
    obtain ⟨h, w, e, h1, h2, _⟩ := hss s hm
    exact ⟨h, w, e, h1, h2⟩
  obtain ⟨o, ho, hnr, hnc, hpx⟩ := padCropChain_ok ev a ss H W hs hH hW
  obtain ⟨o', ho', hnr', hnc', hpx'⟩ := C01_pad_crop_registered a H W ev hH hW
  rw [ho, ho']
  congr 1
  refine ext_centered (by omega) (by omega) ?_
  intro k l hr
  rw [hnr, hnc] at hr
  rw [hpx' k l hr]
  by_cases hall : AllReach ss k l
  · rw [(hpx k l hr).1 hall]; cases a.centered k l <;> rfl
  · rw [(hpx k l hr).2 hall, centered_eq_none]
    intro hra
    apply hall
    intro h w hm
    obtain ⟨h', w', e, _, _, m1, m2⟩ := hss _ hm
    simp only [List.cons.injEq, and_true] at e
    obtain ⟨rfl, rfl⟩ := e
    unfold Reaches at *
    omega

/-- Hypotheses of `C02_chain_collapses` met by a mixed-parity chain 3x4 -> 7x4 -> 8x9 -> 4x5. -/
example : ∀ s ∈ [[7, 4], [8, (9 : Int)]], ∃ h w : Int, s = [h, w] ∧ 0 < h ∧ 0 < w ∧
    min (((Arr2.ofFn 3 4 fun i j => i + j).nr : Nat) : Int) 4 ≤ h ∧
    min (((Arr2.ofFn 3 4 fun i j => i + j).nc : Nat) : Int) 5 ≤ w := by
  simp

/-- The collapse condition cannot be dropped: cropping below both shapes loses pixels. -/
example :
    (match padCropChain 0 (Arr2.ofFn 1 3 fun _ j => j + 1) [[1, 1], [1, 3]] with
     | .ok o => o.px 0 0 | .error _ => none) = some 0 ∧
    (match padCrop (Arr2.ofFn 1 3 fun _ j => j + 1) [1, 3] 0 with
     | .ok o => o.px 0 0 | .error _ => none) = some 1 := by decide

/-- **C03.** Padding to any shape at least as large and cropping back is the identity (for a non-empty
array: `pad_crop` rejects empty output shapes). -/
theorem C03_pad_then_crop (a : Arr2 α) (h w : Int) (ev ev' : α) (hr : 0 < a.nr) (hc : 0 < a.nc)
    (hh : (a.nr : Int) ≤ h) (hw : (a.nc : Int) ≤ w) :
    (padCrop a [h, w] ev).bind (fun b => padCrop b [(a.nr : Int), (a.nc : Int)] ev') = .ok a := by
  rw [padCrop_eq a h w ev (by omega) (by omega)]
  simp only [Except.bind]
  rw [padCrop_eq _ _ _ ev' (by omega) (by omega)]
  congr 1
  refine ext_centered (by simp) (by simp) ?_
  intro k l hre
  simp only [embed_nr, embed_nc, Int.toNat_natCast] at hre
  rw [embed_centered _ _ _ _ (by simpa using hre), embed_centered]
  · have : (a.centered k l).isSome := by
      unfold Arr2.centered; rw [Arr2.px_isSome]; exact hre
    obtain ⟨v, hv⟩ := Option.isSome_iff_exists.mp this
    rw [hv]; rfl
  · unfold Reaches at *
    omega

/-- The output is a copy with no dependence on `extrapval` when the shape is unchanged. -/
theorem C03_same_shape_is_copy (a : Arr2 α) (ev : α) (hr : 0 < a.nr) (hc : 0 < a.nc) :
    padCrop a [(a.nr : Int), (a.nc : Int)] ev = .ok a := by
  have := C03_pad_then_crop a a.nr a.nc ev ev hr hc le_rfl le_rfl
  rw [padCrop_eq a _ _ ev (by omega) (by omega)] at this ⊢
  simp only [Except.bind] at this
  rw [padCrop_eq _ _ _ ev (by omega) (by omega)] at this
  congr 1
  injection this with this
  refine ext_centered (by simp) (by simp) ?_
  intro k l hre
  simp only [embed_nr, embed_nc, Int.toNat_natCast] at hre
  rw [embed_centered _ _ _ _ (by simpa using hre)]
  have : (a.centered k l).isSome := by
    unfold Arr2.centered; rw [Arr2.px_isSome]; exact hre
  obtain ⟨v, hv⟩ := Option.isSome_iff_exists.mp this
  rw [hv]; rfl

example : 0 < (Arr2.ofFn 3 4 fun i j => i + j).nr ∧ ((Arr2.ofFn 3 4 fun i j => i + j).nr : Int) ≤ 6 := by
  decide

section
variable {K : Type*} [Field K] [LinearOrder K] [IsStrictOrderedRing K] [FloorRing K]

/-- **C04.** `offcenter_crop` always returns the `n x n` window, of the zero-extended image, whose centre
pixel (index `n // 2`) sits on the integer nearest to the requested centre (halves to even) - whether the
window is inside, partly inside or completely outside the image. -/
theorem C04_offcenter_crop_window (a : Arr2 α) (zero : α) (n : Int) (cy cx : K) (hn : 0 < n) :
    ∃ (o : Arr2 α) (yc xc : Int), offcenterCrop a zero n cy cx = .ok o ∧
      |cy - yc| ≤ 1 / 2 ∧ |cx - xc| ≤ 1 / 2 ∧
      (|cy - yc| = 1 / 2 → yc % 2 = 0) ∧ (|cx - xc| = 1 / 2 → xc % 2 = 0) ∧
      (o.nr : Int) = n ∧ (o.nc : Int) = n ∧
      ∀ i j : Int, 0 ≤ i → i < n → 0 ≤ j → j < n →
        o.px i j = some (match a.px (yc - n / 2 + i) (xc - n / 2 + j) with | some v => v | none => zero) := by
  have tie : ∀ x : K, |x - npRound x| = 1 / 2 → npRound x % 2 = 0 := by
    intro x hx
    have h0 := Int.floor_le x
    have h1 := Int.lt_floor_add_one x
    unfold npRound at hx ⊢
    split_ifs at hx ⊢ with c1 c2 c3
    · rw [abs_of_nonneg (by linarith)] at hx; linarith
    · push_cast at hx; rw [abs_of_nonpos (by linarith)] at hx; linarith
    · exact c3
    · omega
  refine ⟨_, npRound cy, npRound cx, offcenterCrop_eq a zero n hn cy cx, abs_sub_npRound_le cy,
    abs_sub_npRound_le cx, tie cy, tie cx, by simp; omega, by simp; omega, ?_⟩
  intro i j h1 h2 h3 h4
  rw [Arr2.px_ofFn_in _ (by omega), Int.toNat_of_nonneg h1, Int.toNat_of_nonneg h3]
  cases a.px (npRound cy - n / 2 + i) (npRound cx - n / 2 + j) <;> rfl

omit [IsStrictOrderedRing K] in
/-- **C04, error branch.** A non-positive output width is rejected with `TypeError`. -/
theorem C04_offcenter_crop_rejects (a : Arr2 α) (zero : α) (n : Int) (cy cx : K) (hn : n ≤ 0) :
    offcenterCrop a zero n cy cx = .error .typeError := by
  unfold offcenterCrop checkPosInt
  rw [if_pos hn]; rfl

/-- **C04.** A window that lies wholly outside the image gives the all-zero array. -/
theorem C04_offcenter_crop_outside (a : Arr2 α) (zero : α) (n : Int) (cy cx : K) (hn : 0 < n)
    (hout : cy + n < 0 ∨ (a.nr : K) + n < cy ∨ cx + n < 0 ∨ (a.nc : K) + n < cx) :
    offcenterCrop a zero n cy cx = .ok (Arr2.full n.toNat n.toNat zero) := by
  obtain ⟨o, yc, xc, ho, hy, hx, -, -, hnr, hnc, hpx⟩ := C04_offcenter_crop_window a zero n cy cx hn
  rw [ho]
  congr 1
  refine Arr2.ext_px (by simp; omega) (by simp; omega) ?_
  intro i j h1 h2 h3 h4
  rw [hpx i j h1 (by omega) h3 (by omega), Arr2.px_full_in _ (by omega)]
  have hn1 : (1 : K) ≤ n := by exact_mod_cast hn
  have : a.px (yc - n / 2 + i) (xc - n / 2 + j) = none := by
    rw [Arr2.px_eq_none]
    rw [abs_le] at hx hy
    rcases hout with h | h | h | h
    · have : ((yc + n : Int) : K) < ((1 : Int) : K) := by push_cast; linarith
      have : yc + n < 1 := by exact_mod_cast this
      omega
    · have : (((a.nr : Int) + n : Int) : K) < ((yc + 1 : Int) : K) := by push_cast; linarith
      have : (a.nr : Int) + n < yc + 1 := by exact_mod_cast this
      omega
    · have : ((xc + n : Int) : K) < ((1 : Int) : K) := by push_cast; linarith
      have : xc + n < 1 := by exact_mod_cast this
      omega
    · have : (((a.nc : Int) + n : Int) : K) < ((xc + 1 : Int) : K) := by push_cast; linarith
      have : (a.nc : Int) + n < xc + 1 := by exact_mod_cast this
      omega
  rw [this]

end

/-- A window hanging over the upper-left corner of a 2x2 image, centred at (0.5, -0.75) (rounded to (0, -1)). -/
example :
    (match offcenterCrop (Arr2.ofFn 2 2 fun i j => 10 * i + j + 1) 0 3 (1 / 2 : ℚ) (-3 / 4 : ℚ) with
     | .ok o => [o.px 0 2, o.px 1 1, o.px 1 2, o.px 2 2]
     | .error _ => []) = [some 0, some 0, some 1, some 11] := by decide +kernel

example : (4 : ℚ) + ((3 : Int) : ℚ) < 8 := by norm_num

end Coralign.Props
