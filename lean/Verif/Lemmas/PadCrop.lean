import Verif.Model.PadCrop
import Verif.Spec.PadCrop

namespace Coralign


variable {α : Type}

/-- Closed form of `padCrop` used inside proofs and by other models. -/
def embed (a : Arr2 α) (h w : Nat) (ev : α) : Arr2 α :=
  Arr2.ofFn h w fun i j =>
    (a.px ((i : Int) - (h : Int) / 2 + (a.nr : Int) / 2) ((j : Int) - (w : Int) / 2 + (a.nc : Int) / 2)).getD ev

theorem sb_lo (n h : Nat) : Arr2.sliceBound n ((n : Int) / 2 - min ((n : Int) / 2) ((h : Int) / 2)) =
    ((n : Int) / 2 - min ((n : Int) / 2) ((h : Int) / 2)).toNat :=
  Arr2.sliceBound_of_le (by omega) (by omega)
theorem sb_lo' (n h : Nat) : Arr2.sliceBound h ((h : Int) / 2 - min ((n : Int) / 2) ((h : Int) / 2)) =
    ((h : Int) / 2 - min ((n : Int) / 2) ((h : Int) / 2)).toNat :=
  Arr2.sliceBound_of_le (by omega) (by omega)
theorem sb_hi (n h : Nat) :
    Arr2.sliceBound n ((n : Int) / 2 + min ((n : Int) - (n : Int) / 2) ((h : Int) - (h : Int) / 2)) =
    ((n : Int) / 2 + min ((n : Int) - (n : Int) / 2) ((h : Int) - (h : Int) / 2)).toNat :=
  Arr2.sliceBound_of_le (by omega) (by omega)
theorem sb_hi' (n h : Nat) :
    Arr2.sliceBound h ((h : Int) / 2 + min ((n : Int) - (n : Int) / 2) ((h : Int) - (h : Int) / 2)) =
    ((h : Int) / 2 + min ((n : Int) - (n : Int) / 2) ((h : Int) - (h : Int) / 2)).toNat :=
  Arr2.sliceBound_of_le (by omega) (by omega)

theorem axis_iff (n h : Nat) (i : Int) (h0 : 0 ≤ i) (h1 : i < h) :
    ((((h : Int) / 2 - min ((n : Int) / 2) ((h : Int) / 2)).toNat : Int) ≤ i ∧
      i < (((h : Int) / 2 + min ((n : Int) - (n : Int) / 2) ((h : Int) - (h : Int) / 2)).toNat : Int)) ↔
    (0 ≤ (i.toNat : Int) - (h : Int) / 2 + (n : Int) / 2 ∧ (i.toNat : Int) - (h : Int) / 2 + (n : Int) / 2 < n) := by
  omega

theorem axis_sub (n h : Nat) (i : Int)
    (hc : (((h : Int) / 2 - min ((n : Int) / 2) ((h : Int) / 2)).toNat : Int) ≤ i ∧
      i < (((h : Int) / 2 + min ((n : Int) - (n : Int) / 2) ((h : Int) - (h : Int) / 2)).toNat : Int)) :
    0 ≤ i - (((h : Int) / 2 - min ((n : Int) / 2) ((h : Int) / 2)).toNat : Int) ∧
    i - (((h : Int) / 2 - min ((n : Int) / 2) ((h : Int) / 2)).toNat : Int) <
      ((((n : Int) / 2 + min ((n : Int) - (n : Int) / 2) ((h : Int) - (h : Int) / 2)).toNat -
        ((n : Int) / 2 - min ((n : Int) / 2) ((h : Int) / 2)).toNat : Nat) : Int) := by
  omega

theorem axis_shift (n h : Nat) (i : Int) (h0 : 0 ≤ i) :
    (((n : Int) / 2 - min ((n : Int) / 2) ((h : Int) / 2)).toNat : Int) +
      (i - (((h : Int) / 2 - min ((n : Int) / 2) ((h : Int) / 2)).toNat : Int)) =
    (i.toNat : Int) - (h : Int) / 2 + (n : Int) / 2 := by
  omega

theorem axis_len (n h : Nat) :
    ((n : Int) / 2 + min ((n : Int) - (n : Int) / 2) ((h : Int) - (h : Int) / 2)).toNat -
        ((n : Int) / 2 - min ((n : Int) / 2) ((h : Int) / 2)).toNat =
    ((h : Int) / 2 + min ((n : Int) - (n : Int) / 2) ((h : Int) - (h : Int) / 2)).toNat -
        ((h : Int) / 2 - min ((n : Int) / 2) ((h : Int) / 2)).toNat := by
  omega

theorem padCrop_eq (a : Arr2 α) (h w : Int) (ev : α) (hh : 0 < h) (hw : 0 < w) :
    padCrop a [h, w] ev = .ok (embed a h.toNat w.toNat ev) := by
  have c1 : checkPosInt h = .ok () := by unfold checkPosInt; rw [if_neg (by omega)]
  have c2 : checkPosInt w = .ok () := by unfold checkPosInt; rw [if_neg (by omega)]
  obtain ⟨h', rfl⟩ : ∃ n : Nat, h = n := ⟨h.toNat, by omega⟩
  obtain ⟨w', rfl⟩ : ∃ n : Nat, w = n := ⟨w.toNat, by omega⟩
  unfold padCrop
  simp only [c1, c2, bind, Except.bind]
  simp only [Int.toNat_natCast]
  set s0 := a.slice _ _ _ _ with hs0
  have e1 := sb_lo a.nr h'
  have e2 := sb_hi a.nr h'
  have e3 := sb_lo a.nc w'
  have e4 := sb_hi a.nc w'
  have f1 := sb_lo' a.nr h'
  have f2 := sb_hi' a.nr h'
  have f3 := sb_lo' a.nc w'
  have f4 := sb_hi' a.nc w'
  have n1 : s0.nr = _ := Arr2.slice_nr a _ _ _ _
  have n2 : s0.nc = _ := Arr2.slice_nc a _ _ _ _
  rw [e1, e2] at n1
  rw [e3, e4] at n2
  obtain ⟨o, ho, hnr, hnc, hin, hout⟩ := Arr2.assign_ok (Arr2.full h' w' ev) s0
    ((h' : Int) / 2 - min ((a.nr : Int) / 2) ((h' : Int) / 2))
    ((h' : Int) / 2 + min ((a.nr : Int) - (a.nr : Int) / 2) ((h' : Int) - (h' : Int) / 2))
    ((w' : Int) / 2 - min ((a.nc : Int) / 2) ((w' : Int) / 2))
    ((w' : Int) / 2 + min ((a.nc : Int) - (a.nc : Int) / 2) ((w' : Int) - (w' : Int) / 2))
    (by simp only [Arr2.full_nr]; rw [n1, f1, f2]; exact axis_len a.nr h')
    (by simp only [Arr2.full_nc]; rw [n2, f3, f4]; exact axis_len a.nc w')
  rw [ho]
  congr 1
  refine Arr2.ext_px hnr hnc ?_
  intro i j hi0 hi1 hj0 hj1
  rw [hnr] at hi1; rw [hnc] at hj1
  simp only [Arr2.full_nr, Arr2.full_nc] at hi1 hj1 hin hout
  rw [f1, f2, f3, f4] at hin hout
  rw [embed, Arr2.px_ofFn_in _ ⟨⟨hi0, hi1⟩, hj0, hj1⟩]
  by_cases hc : ((((h' : Int) / 2 - min ((a.nr : Int) / 2) ((h' : Int) / 2)).toNat : Int) ≤ i ∧
      i < (((h' : Int) / 2 + min ((a.nr : Int) - (a.nr : Int) / 2) ((h' : Int) - (h' : Int) / 2)).toNat : Int)) ∧
      ((((w' : Int) / 2 - min ((a.nc : Int) / 2) ((w' : Int) / 2)).toNat : Int) ≤ j ∧
      j < (((w' : Int) / 2 + min ((a.nc : Int) - (a.nc : Int) / 2) ((w' : Int) - (w' : Int) / 2)).toNat : Int))
  · rw [hin i j hc, hs0, Arr2.px_slice_in a (by rw [← hs0, n1, n2]; exact ⟨axis_sub a.nr h' i hc.1, axis_sub a.nc w' j hc.2⟩), e1, e3]
    rw [axis_shift a.nr h' i hi0, axis_shift a.nc w' j hj0]
    have hs : (a.px ((i.toNat : Int) - (h' : Int) / 2 + (a.nr : Int) / 2) ((j.toNat : Int) - (w' : Int) / 2 + (a.nc : Int) / 2)).isSome := by
      rw [Arr2.px_isSome]
      exact ⟨(axis_iff a.nr h' i hi0 hi1).mp hc.1, (axis_iff a.nc w' j hj0 hj1).mp hc.2⟩
    obtain ⟨v, hv⟩ := Option.isSome_iff_exists.mp hs
    rw [hv]; rfl
  · rw [hout i j hc, Arr2.px_full_in _ ⟨⟨hi0, hi1⟩, hj0, hj1⟩]
    have : a.px ((i.toNat : Int) - (h' : Int) / 2 + (a.nr : Int) / 2) ((j.toNat : Int) - (w' : Int) / 2 + (a.nc : Int) / 2) = none := by
      rw [Arr2.px_eq_none, ← axis_iff a.nr h' i hi0 hi1, ← axis_iff a.nc w' j hj0 hj1]
      exact hc
    rw [this]; rfl

theorem padCrop_error (a : Arr2 α) (outsize : List Int) (ev : α)
    (h : ¬ ∃ hh ww : Int, outsize = [hh, ww] ∧ 0 < hh ∧ 0 < ww) :
    padCrop a outsize ev = .error .typeError := by
  unfold padCrop
  split
  · next x y =>
    unfold checkPosInt
    by_cases h1 : x ≤ 0
    · simp [h1, bind, Except.bind]
    · by_cases h2 : y ≤ 0
      · simp [h1, h2, bind, Except.bind]
      · exact absurd ⟨x, y, rfl, by omega, by omega⟩ h
  · rfl

@[simp] theorem embed_nr (a : Arr2 α) (h w : Nat) (ev : α) : (embed a h w ev).nr = h := rfl
@[simp] theorem embed_nc (a : Arr2 α) (h w : Nat) (ev : α) : (embed a h w ev).nc = w := rfl

theorem embed_px (a : Arr2 α) (h w : Nat) (ev : α) {i j : Int}
    (hin : (0 ≤ i ∧ i < h) ∧ (0 ≤ j ∧ j < w)) :
    (embed a h w ev).px i j =
      some ((a.px (i - (h : Int) / 2 + (a.nr : Int) / 2) (j - (w : Int) / 2 + (a.nc : Int) / 2)).getD ev) := by
  rw [embed, Arr2.px_ofFn_in _ hin, Int.toNat_of_nonneg hin.1.1, Int.toNat_of_nonneg hin.2.1]

theorem embed_centered (a : Arr2 α) (h w : Nat) (ev : α) {k l : Int} (hr : Reaches h w k l) :
    (embed a h w ev).centered k l = some ((a.centered k l).getD ev) := by
  unfold Reaches at hr
  unfold Arr2.centered
  rw [embed_px _ _ _ _ (by simpa using hr)]
  simp only [embed_nr, embed_nc]
  have e1 : (h : Int) / 2 + k - (h : Int) / 2 + (a.nr : Int) / 2 = (a.nr : Int) / 2 + k := by omega
  have e2 : (w : Int) / 2 + l - (w : Int) / 2 + (a.nc : Int) / 2 = (a.nc : Int) / 2 + l := by omega
  rw [e1, e2]

theorem centered_eq_none (a : Arr2 α) {k l : Int} (hr : ¬ Reaches a.nr a.nc k l) : a.centered k l = none := by
  unfold Arr2.centered; rw [Arr2.px_eq_none]; exact hr

/-- Equality of arrays from equality of centred pixels. -/
theorem ext_centered {a b : Arr2 α} (hr : a.nr = b.nr) (hc : a.nc = b.nc)
    (h : ∀ k l : Int, Reaches a.nr a.nc k l → a.centered k l = b.centered k l) : a = b := by
  refine Arr2.ext_px hr hc ?_
  intro i j h1 h2 h3 h4
  have := h (i - (a.nr : Int) / 2) (j - (a.nc : Int) / 2) (by unfold Reaches; omega)
  unfold Arr2.centered at this
  rw [← hr, ← hc] at this
  have e1 : (a.nr : Int) / 2 + (i - (a.nr : Int) / 2) = i := by omega
  have e2 : (a.nc : Int) / 2 + (j - (a.nc : Int) / 2) = j := by omega
  rwa [e1, e2] at this

theorem padCropChain_nil (ev : α) (a : Arr2 α) : padCropChain ev a [] = .ok a := rfl

theorem padCropChain_cons (ev : α) (a : Arr2 α) (s : List Int) (ss : List (List Int)) :
    padCropChain ev a (s :: ss) = (padCrop a s ev).bind (fun b => padCropChain ev b ss) := rfl

theorem padCropChain_error (ev : α) (a : Arr2 α) (ss : List (List Int))
    (h : ∃ s ∈ ss, ¬ ValidSize s) : padCropChain ev a ss = .error .typeError := by
  induction ss generalizing a with
  | nil => obtain ⟨s, hs, _⟩ := h; cases hs
  | cons s ss ih =>
    rw [padCropChain_cons]
    by_cases hv : ValidSize s
    · obtain ⟨hh, ww, rfl, h1, h2⟩ := hv
      rw [padCrop_eq a hh ww ev h1 h2]
      simp only [Except.bind]
      apply ih
      obtain ⟨t, ht, htv⟩ := h
      rcases List.mem_cons.mp ht with rfl | ht'
      · exact absurd ⟨hh, ww, rfl, h1, h2⟩ htv
      · exact ⟨t, ht', htv⟩
    · rw [padCrop_error a s ev hv]; rfl

/-- Does every size in the list have a pixel at signed offset `(k, l)`? -/
def AllReach (ss : List (List Int)) (k l : Int) : Prop :=
  ∀ h w : Int, [h, w] ∈ ss → Reaches h w k l

theorem padCropChain_ok (ev : α) (a : Arr2 α) (ss : List (List Int)) (H W : Int)
    (hv : ∀ s ∈ ss, ValidSize s) (hH : 0 < H) (hW : 0 < W) :
    ∃ o, padCropChain ev a (ss ++ [[H, W]]) = .ok o ∧ (o.nr : Int) = H ∧ (o.nc : Int) = W ∧
      ∀ k l, Reaches H W k l →
        (AllReach ss k l → o.centered k l = some ((a.centered k l).getD ev)) ∧
        (¬ AllReach ss k l → o.centered k l = some ev) := by
  induction ss generalizing a with
  | nil =>
    refine ⟨embed a H.toNat W.toNat ev, ?_, by simp; omega, by simp; omega, ?_⟩
    · simp only [List.nil_append]
      rw [padCropChain_cons, padCrop_eq a H W ev hH hW]; rfl
    · intro k l hr
      have hr' : Reaches (H.toNat : Int) (W.toNat : Int) k l := by
        rw [Int.toNat_of_nonneg (by omega), Int.toNat_of_nonneg (by omega)]; exact hr
      constructor
      · intro _; exact embed_centered a _ _ ev hr'
      · intro hn; exact absurd (fun h w hm => by cases hm) hn
  | cons s ss ih =>
    obtain ⟨h, w, rfl, h1, h2⟩ := hv s (List.mem_cons_self)
    obtain ⟨o, ho, hnr, hnc, hpx⟩ := ih (embed a h.toNat w.toNat ev) (fun t ht => hv t (List.mem_cons_of_mem _ ht))
    refine ⟨o, ?_, hnr, hnc, ?_⟩
    · rw [List.cons_append, padCropChain_cons, padCrop_eq a h w ev h1 h2]; exact ho
    · intro k l hr
      obtain ⟨p1, p2⟩ := hpx k l hr
      have cast1 : Reaches (h.toNat : Int) (w.toNat : Int) k l ↔ Reaches h w k l := by
        rw [Int.toNat_of_nonneg (by omega), Int.toNat_of_nonneg (by omega)]
      constructor
      · intro hall
        have hr1 : Reaches h w k l := hall h w (List.mem_cons_self)
        rw [p1 (fun a b hm => hall a b (List.mem_cons_of_mem _ hm)), embed_centered a _ _ ev (cast1.mpr hr1)]
        rfl
      · intro hn
        by_cases hall : AllReach ss k l
        · have hr1 : ¬ Reaches h w k l := by
            intro hr1
            apply hn
            intro a b hm
            rcases List.mem_cons.mp hm with he | hm'
            · simp only [List.cons.injEq, and_true] at he; rw [he.1, he.2]; exact hr1
            · exact hall a b hm'
          rw [p1 hall, centered_eq_none _ (by simpa using fun hc => hr1 (cast1.mp hc))]
          rfl
        · exact p2 hall

/-! ### offcenter_crop -/

theorem ceilHalf_neg (n : Int) : ceilHalf (-n) = -(n / 2) := by unfold ceilHalf; omega

theorem offcenterPad_lo (n c cnt : Int) (_hn : 0 < n) : 0 ≤ c + offcenterPad n c cnt - n / 2 := by
  unfold offcenterPad ceilHalf
  simp only
  split_ifs <;> omega

theorem offcenterPad_nonneg (n c cnt : Int) : 0 ≤ offcenterPad n c cnt := by
  unfold offcenterPad ceilHalf
  simp only
  split_ifs <;> omega

theorem offcenterPad_hi (n c cnt : Int) (_hn : 0 < n) :
    c + offcenterPad n c cnt - n / 2 + n ≤ cnt + 2 * offcenterPad n c cnt := by
  unfold offcenterPad ceilHalf
  simp only
  split_ifs <;> omega

theorem offcenterCrop_eq {K : Type*} [Field K] [LinearOrder K] [IsStrictOrderedRing K] [FloorRing K]
    (a : Arr2 α) (zero : α) (n : Int) (hn : 0 < n) (cy cx : K) :
    offcenterCrop a zero n cy cx = .ok (Arr2.ofFn n.toNat n.toNat fun i j =>
      (a.px (npRound cy - n / 2 + i) (npRound cx - n / 2 + j)).getD zero) := by
  have c1 : checkPosInt n = .ok () := by unfold checkPosInt; rw [if_neg (by omega)]
  have hbuf : n / 2 + (if n % 2 = 1 then (1 : Int) else 0) = n - n / 2 := by split <;> omega
  unfold offcenterCrop
  simp only [c1, bind, Except.bind]
  generalize npRound cy = yc
  generalize npRound cx = xc
  have py := offcenterPad_nonneg n yc a.nr
  have px' := offcenterPad_nonneg n xc a.nc
  have ly := offcenterPad_lo n yc a.nr hn
  have lx := offcenterPad_lo n xc a.nc hn
  have uy := offcenterPad_hi n yc a.nr hn
  have ux := offcenterPad_hi n xc a.nc hn
  generalize offcenterPad n yc a.nr = P at *
  generalize offcenterPad n xc a.nc = Q at *
  have hpos1 : 0 < (a.nr : Int) + 2 * P := by omega
  have hpos2 : 0 < (a.nc : Int) + 2 * Q := by omega
  rw [padCrop_eq a _ _ zero hpos1 hpos2]
  simp only
  congr 1
  rw [add_assoc (yc + P), add_assoc (xc + Q), hbuf]
  set e := embed a ((a.nr : Int) + 2 * P).toNat ((a.nc : Int) + 2 * Q).toNat zero with he
  have enr : (e.nr : Int) = (a.nr : Int) + 2 * P := by rw [he, embed_nr]; omega
  have enc : (e.nc : Int) = (a.nc : Int) + 2 * Q := by rw [he, embed_nc]; omega
  have b1 : Arr2.sliceBound e.nr (yc + P - n / 2) = (yc + P - n / 2).toNat :=
    Arr2.sliceBound_of_le (by omega) (by omega)
  have b2 : Arr2.sliceBound e.nr (yc + P + (n - n / 2)) = (yc + P + (n - n / 2)).toNat :=
    Arr2.sliceBound_of_le (by omega) (by omega)
  have b3 : Arr2.sliceBound e.nc (xc + Q - n / 2) = (xc + Q - n / 2).toNat :=
    Arr2.sliceBound_of_le (by omega) (by omega)
  have b4 : Arr2.sliceBound e.nc (xc + Q + (n - n / 2)) = (xc + Q + (n - n / 2)).toNat :=
    Arr2.sliceBound_of_le (by omega) (by omega)
  have s1 := Arr2.slice_nr e (yc + P - n / 2) (yc + P + (n - n / 2)) (xc + Q - n / 2) (xc + Q + (n - n / 2))
  have s2 := Arr2.slice_nc e (yc + P - n / 2) (yc + P + (n - n / 2)) (xc + Q - n / 2) (xc + Q + (n - n / 2))
  rw [b1, b2] at s1
  rw [b3, b4] at s2
  refine Arr2.ext_px (by rw [s1, Arr2.ofFn_nr]; omega) (by rw [s2, Arr2.ofFn_nc]; omega) ?_
  intro i j hi0 hi1 hj0 hj1
  rw [Arr2.px_slice_in e ⟨⟨hi0, hi1⟩, hj0, hj1⟩, b1, b3, Arr2.px_ofFn_in _ (by omega), he,
    embed_px a _ _ zero (by omega)]
  congr 2
  congr 1 <;> omega

end Coralign
