import Verif.Model.Conjugate
import Verif.Props.Zernike
import Verif.Props.PadCrop
import Verif.Props.Pupil
import Verif.Props.Math
import Verif.Props.FitSurf

/-!
# Properties C49 and C50: splitting the wavefront
-/

namespace Coralign.Props

open Coralign Coralign.Spec Finset

theorem res_bind_ok {α β : Type} {x : Res α} {f : α → Res β} {v : β} (h : (x >>= f) = .ok v) : ∃ a, x = .ok a ∧ f a = .ok v := by
  cases x with
  | error e => cases h
  | ok a => exact ⟨a, rfl, h⟩

/-! ### C50 -/

/-- The coefficient of Noll mode `j` in a coefficient vector; a missing entry counts as zero. -/
noncomputable def nollCoef (coef : List ℝ) (j : ℕ) : ℝ := coef.getD (j - 1) 0

/-- Specification: the part of the Zernike expansion with modes `a, ..., b`, at a point relative to the pupil centre. -/
noncomputable def zernPart (coef : List ℝ) (a b : ℕ) (prad x y : ℝ) : ℝ :=
  ∑ j ∈ Finset.Icc a b, nollCoef coef j * mode j prad x y

theorem gen_crop (terms : List (ℤ × ℝ)) (xo yo diam : ℝ) (h w : ℤ) (ht : terms ≠ []) (hp : ∀ p ∈ terms, 1 ≤ p.1)
    (hd : 0 < diam) (hh : 0 < h) (hw : 0 < w) :
    ∃ m o, genZernikes (terms.map Prod.fst) (terms.map Prod.snd) xo yo diam (max h w) = .ok m ∧ padCrop m [h, w] 0 = .ok o ∧
      (o.nr : ℤ) = h ∧ (o.nc : ℤ) = w ∧ (max h w ≠ 1000000 → ∀ k l, Reaches h w k l →
        o.centered k l = some (zernSum terms (diam / 2) (l - xo) (k - yo))) := by
  obtain ⟨m, hm, h1, h2, h3⟩ := C23_centred terms xo yo diam (max h w) ⟨ht, hp, hd, by omega⟩
  obtain ⟨o, ho, hr, hc, hpx⟩ := C01_pad_crop_registered m h w 0 hh hw
  refine ⟨m, o, hm, ho, hr, hc, fun h6 k l hkl => ?_⟩
  rw [hpx k l hkl]
  rw [if_neg h6] at h1
  rw [h3 k l (by rw [h2]; unfold Reaches at hkl ⊢; omega), zernSum_mode terms hp]

theorem fitLength_length (n : ℕ) (coef : List ℝ) : (fitLength n coef).length = n := by
  unfold fitLength; simp; omega

theorem fitLength_get (n : ℕ) (coef : List ℝ) (k : ℕ) (hk : k < n) : (fitLength n coef)[k]? = some (coef.getD k 0) := by
  unfold fitLength
  by_cases h : k < coef.length
  · rw [List.getElem?_append_left (by simp; omega), List.getElem?_take_of_lt hk, List.getD_eq_getElem?_getD,
      List.getElem?_eq_getElem h]; rfl
  · rw [List.getElem?_append_right (by simp; omega), List.getD_eq_getElem?_getD, List.getElem?_eq_none (l := coef) (by omega)]
    rw [List.getElem?_replicate_of_lt (by simp; omega)]; rfl

/-- The terms handed to `gen_zernikes` for modes `a, ..., b`. -/
theorem zernSum_part (coef : List ℝ) (n : ℕ) (a : ℕ) (ha : 1 ≤ a) (hn : a ≤ n) (b : ℕ) (hb : b ≤ n) (hab : a ≤ b) :
    ∃ terms : List (ℤ × ℝ), terms ≠ [] ∧ (∀ p ∈ terms, 1 ≤ p.1) ∧ terms.map Prod.fst = arangeIncl a b ∧
      terms.map Prod.snd = ((fitLength n coef).drop (a - 1)).take (b + 1 - a) ∧
      ∀ prad x y, zernSum terms prad x y = zernPart coef a b prad x y := by
  refine ⟨(List.range (b + 1 - a)).map fun k : ℕ => ((a : ℤ) + k, coef.getD (a - 1 + k) 0), ?_, ?_, ?_, ?_, ?_⟩
  · intro h
    have := congrArg List.length h
    simp at this; omega
  · intro p hp
    simp only [List.mem_map, List.mem_range] at hp
    obtain ⟨k, _, rfl⟩ := hp
    simp only; omega
  · unfold arangeIncl
    rw [List.map_map, show ((b : ℤ) + 1 - a).toNat = b + 1 - a by omega]
    rfl
  · rw [List.map_map]
    apply List.ext_getElem?
    intro k
    by_cases hk : k < b + 1 - a
    · rw [List.getElem?_take_of_lt hk, List.getElem?_drop, fitLength_get _ _ _ (by omega)]
      simp [hk]
    · rw [List.getElem?_eq_none (by simp; omega), List.getElem?_eq_none (by simp; omega)]
  · intro prad x y
    unfold zernSum zernPart nollCoef
    have e : Finset.Icc a b = Finset.Ico a (b + 1) := by ext; simp only [Finset.mem_Icc, Finset.mem_Ico]; omega
    rw [e, Finset.sum_Ico_eq_sum_range, List.map_map]
    change (List.map _ (List.range (b + 1 - a))).sum = _
    rw [show ∀ f : ℕ → ℝ, (List.map f (List.range (b + 1 - a))).sum = ∑ k ∈ Finset.range (b + 1 - a), f k from
      fun f => rfl]
    refine Finset.sum_congr rfl fun k _ => ?_
    simp only [Function.comp]
    rw [show a + k - 1 = a - 1 + k by omega, show (a : ℤ) + k = ((a + k : ℕ) : ℤ) by push_cast; ring,
      zernSample_mode (a + k) (by omega)]

/-- The first four terms and the rest make up the whole expansion. -/
theorem zernPart_split (coef : List ℝ) (a b c : ℕ) (hab : a ≤ b + 1) (hbc : b ≤ c) (prad x y : ℝ) :
    zernPart coef a b prad x y + zernPart coef (b + 1) c prad x y = zernPart coef a c prad x y := by
  unfold zernPart
  have e : ∀ a b : ℕ, Finset.Icc a b = Finset.Ico a (b + 1) := by
    intro a b; ext; simp only [Finset.mem_Icc, Finset.mem_Ico]; omega
  rw [e, e, e, Finset.sum_Ico_consecutive _ hab (by omega)]

/-- What `gen_split_wfe` returns when it succeeds: modes 1-3; mode 4 if the focus mechanism is used and nothing otherwise;
and the rest. -/
theorem split_eq (useFCM : Bool) (N : ℕ) (coef : List ℝ) (diam : ℝ) (h w : ℤ) (xo yo : ℝ)
    (hN : (if useFCM then 5 else 4) ≤ N) (hd : 0 < diam) (hh : 0 < h) (hw : 0 < w) :
    ∃ a b c, genSplitWfe useFCM N coef diam h w xo yo = .ok (a, b, c) ∧
      ((a.nr : ℤ) = h ∧ (a.nc : ℤ) = w) ∧ ((b.nr : ℤ) = h ∧ (b.nc : ℤ) = w) ∧ ((c.nr : ℤ) = h ∧ (c.nc : ℤ) = w) ∧
      (max h w ≠ 1000000 → ∀ k l, Reaches h w k l →
        a.centered k l = some (zernPart coef 1 3 (diam / 2) (l - xo) (k - yo)) ∧
        b.centered k l = some (if useFCM then zernPart coef 4 4 (diam / 2) (l - xo) (k - yo) else 0) ∧
        c.centered k l = some (zernPart coef (if useFCM then 5 else 4) N (diam / 2) (l - xo) (k - yo))) := by
  have hN4 : 4 ≤ N := by cases useFCM <;> simp at hN <;> omega
  obtain ⟨t1, hne1, hp1, hf1, hs1, hz1⟩ := zernSum_part coef N 1 le_rfl (by omega) 3 (by omega) (by omega)
  obtain ⟨m1, o1, hm1, ho1, r1, c1, v1⟩ := gen_crop t1 xo yo diam h w hne1 hp1 hd hh hw
  have ef1 : arangeIncl (1 : ℕ) (3 : ℕ) = [1, 2, 3] := by decide
  rw [hf1, hs1, ef1] at hm1
  simp only [Nat.sub_self, List.drop_zero, Nat.reduceAdd, Nat.add_one_sub_one] at hm1
  unfold genSplitWfe
  rw [if_neg (by omega), if_neg (by linarith)]
  simp only [Int.toNat_natCast]
  cases useFCM with
  | true =>
    simp only [if_true] at hN ⊢
    obtain ⟨t4, hne4, hp4, hf4, hs4, hz4⟩ := zernSum_part coef N 4 (by omega) (by omega) 4 (by omega) (by omega)
    obtain ⟨m4, o4, hm4, ho4, r4, c4, v4⟩ := gen_crop t4 xo yo diam h w hne4 hp4 hd hh hw
    obtain ⟨t5, hne5, hp5, hf5, hs5, hz5⟩ := zernSum_part coef N 5 (by omega) (by omega) N le_rfl (by omega)
    obtain ⟨m5, o5, hm5, ho5, r5, c5, v5⟩ := gen_crop t5 xo yo diam h w hne5 hp5 hd hh hw
    have e3 := fitLength_get N coef 3 (by omega)
    have ef4 : arangeIncl (4 : ℕ) (4 : ℕ) = [4] := by decide
    have es4 : ((fitLength N coef).drop (4 - 1)).take (4 + 1 - 4) = [coef.getD 3 0] := by
      rw [show 4 - 1 = 3 from rfl, show 4 + 1 - 4 = 1 from rfl, List.take_one, List.head?_drop, e3]; rfl
    rw [hf4, hs4, ef4, es4] at hm4
    have es5 : ((fitLength N coef).drop (5 - 1)).take (N + 1 - 5) = (fitLength N coef).drop 4 :=
      List.take_of_length_le (by rw [List.length_drop, fitLength_length]; omega)
    rw [hf5, hs5, es5] at hm5
    rw [e3]
    simp only
    rw [hm4, res_ok_bind, ho4, res_ok_bind, hm1, res_ok_bind, ho1, res_ok_bind]
    have hm5' : genZernikes (arangeIncl 5 N) (List.drop 4 (fitLength N coef)) xo yo diam (max h w) = .ok m5 := hm5
    rw [hm5', res_ok_bind, ho5, res_ok_bind]
    exact ⟨o1, o4, o5, rfl, ⟨r1, c1⟩, ⟨r4, c4⟩, ⟨r5, c5⟩, fun h6 k l hkl =>
      ⟨by rw [v1 h6 k l hkl, hz1], by rw [v4 h6 k l hkl, hz4], by rw [v5 h6 k l hkl, hz5]⟩⟩
  | false =>
    simp only [Bool.false_eq_true, if_false] at hN ⊢
    obtain ⟨t4, hne4, hp4, hf4, hs4, hz4⟩ := zernSum_part coef N 4 (by omega) (by omega) N le_rfl (by omega)
    obtain ⟨m4, o4, hm4, ho4, r4, c4, v4⟩ := gen_crop t4 xo yo diam h w hne4 hp4 hd hh hw
    have es4 : ((fitLength N coef).drop (4 - 1)).take (N + 1 - 4) = (fitLength N coef).drop 3 :=
      List.take_of_length_le (by rw [List.length_drop, fitLength_length]; omega)
    rw [hf4, hs4, es4] at hm4
    have hm4' : genZernikes (arangeIncl 4 N) (List.drop 3 (fitLength N coef)) xo yo diam (max h w) = .ok m4 := hm4
    rw [if_neg (by omega), hm1, res_ok_bind, ho1, res_ok_bind, hm4', res_ok_bind, ho4, res_ok_bind]
    refine ⟨o1, _, o4, rfl, ⟨r1, c1⟩, ⟨by simp; omega, by simp; omega⟩, ⟨r4, c4⟩, fun h6 k l hkl =>
      ⟨by rw [v1 h6 k l hkl, hz1], ?_, by rw [v4 h6 k l hkl, hz4]⟩⟩
    unfold Arr2.centered
    unfold Reaches at hkl
    rw [Arr2.px_full, if_pos (by simp; omega)]

/-- **C50.** Whether or not the focus mechanism is used, the three maps of `gen_split_wfe` add up to the whole Zernike
expansion up to the requested order, at every pixel.  (Missing coefficients count as zero and extra ones are dropped.  The one
excluded size, a million pixels, is the number the code uses to mean "not given".) -/
theorem C50_sum (useFCM : Bool) (N : ℕ) (coef : List ℝ) (diam : ℝ) (h w : ℤ) (xo yo : ℝ) (a b c : Arr2 ℝ)
    (hok : genSplitWfe useFCM N coef diam h w xo yo = .ok (a, b, c)) (hN : (if useFCM then 5 else 4) ≤ N) (hd : 0 < diam)
    (hh : 0 < h) (hw : 0 < w) (h6 : max h w ≠ 1000000) (k l : ℤ) (hkl : Reaches h w k l) :
    ∃ x y z, a.centered k l = some x ∧ b.centered k l = some y ∧ c.centered k l = some z ∧
      x + y + z = zernPart coef 1 N (diam / 2) (l - xo) (k - yo) := by
  obtain ⟨a', b', c', he, -, -, -, hv⟩ := split_eq useFCM N coef diam h w xo yo hN hd hh hw
  rw [hok] at he
  simp only [Except.ok.injEq, Prod.mk.injEq] at he
  obtain ⟨rfl, rfl, rfl⟩ := he
  obtain ⟨h1, h2, h3⟩ := hv h6 k l hkl
  refine ⟨_, _, _, h1, h2, h3, ?_⟩
  cases useFCM with
  | true =>
    simp only [if_true] at hN ⊢
    rw [zernPart_split _ 1 3 4 (by omega) (by omega), zernPart_split _ 1 4 N (by omega) (by omega)]
  | false =>
    simp only [Bool.false_eq_true, if_false] at hN ⊢
    rw [add_zero, zernPart_split _ 1 3 N (by omega) (by omega)]

/-- **C50.** Which modes go where: modes 1 to 3 in the first map; mode 4 alone in the second when the focus mechanism is used,
nothing otherwise; all the remaining modes in the third. -/
theorem C50_parts (useFCM : Bool) (N : ℕ) (coef : List ℝ) (diam : ℝ) (h w : ℤ) (xo yo : ℝ)
    (hN : (if useFCM then 5 else 4) ≤ N) (hd : 0 < diam) (hh : 0 < h) (hw : 0 < w) (h6 : max h w ≠ 1000000) :
    ∃ a b c, genSplitWfe useFCM N coef diam h w xo yo = .ok (a, b, c) ∧ ∀ k l, Reaches h w k l →
      a.centered k l = some (zernPart coef 1 3 (diam / 2) (l - xo) (k - yo)) ∧
      b.centered k l = some (if useFCM then nollCoef coef 4 * mode 4 (diam / 2) (l - xo) (k - yo) else 0) ∧
      c.centered k l = some (zernPart coef (if useFCM then 5 else 4) N (diam / 2) (l - xo) (k - yo)) := by
  obtain ⟨a, b, c, he, -, -, -, hv⟩ := split_eq useFCM N coef diam h w xo yo hN hd hh hw
  refine ⟨a, b, c, he, fun k l hkl => ?_⟩
  obtain ⟨h1, h2, h3⟩ := hv h6 k l hkl
  refine ⟨h1, ?_, h3⟩
  rw [h2]
  unfold zernPart
  rw [Finset.Icc_self, Finset.sum_singleton]

theorem gen_length {inds : List ℤ} {coefs : List ℝ} {xo yo nBeam : ℝ} {nArray : ℤ} {m : Arr2 ℝ}
    (h : genZernikes inds coefs xo yo nBeam nArray = .ok m) : inds.length = coefs.length ∧ inds ≠ [] := by
  unfold genZernikes at h
  by_cases h1 : inds.length ≠ coefs.length
  · rw [if_pos h1] at h; cases h
  · refine ⟨not_not.mp h1, ?_⟩
    rw [if_neg h1] at h
    rintro rfl
    by_cases h2 : nBeam ≤ 0
    · rw [if_pos h2] at h; cases h
    · rw [if_neg h2] at h
      by_cases h3 : nArray ≤ 0
      · rw [if_pos h3] at h; cases h
      · rw [if_neg h3] at h
        obtain ⟨q, hq, -⟩ := res_bind_ok h
        obtain ⟨-, -, -, hne, -⟩ := (C22_rejects _ _ _ _).2 _ hq
        exact hne rfl

theorem padCrop_pos {α : Type} {a o : Arr2 α} {h w : ℤ} {ev : α} (he : padCrop a [h, w] ev = .ok o) : 0 < h ∧ 0 < w := by
  by_contra hc
  have := (C01_pad_crop_rejects a [h, w] ev).mpr (by
    rintro ⟨h', w', e, h1, h2⟩
    simp only [List.cons.injEq, and_true] at e
    obtain ⟨rfl, rfl⟩ := e
    exact hc ⟨h1, h2⟩)
  rw [this] at he
  cases he

/-- **C50.** `gen_split_wfe` returns exactly when there is at least one mode left for the mirrors - order 5 or more with the
focus mechanism, 4 or more without - and the diameter and shape are positive. -/
theorem C50_accepts_iff (useFCM : Bool) (N : ℤ) (coef : List ℝ) (diam : ℝ) (h w : ℤ) (xo yo : ℝ) :
    (∃ o, genSplitWfe useFCM N coef diam h w xo yo = .ok o) ↔
      (if useFCM then 5 else 4) ≤ N ∧ 0 < diam ∧ 0 < h ∧ 0 < w := by
  constructor
  · rintro ⟨o, ho⟩
    unfold genSplitWfe at ho
    by_cases h1 : N ≤ 0
    · rw [if_pos h1] at ho; cases ho
    by_cases h2 : diam ≤ 0
    · rw [if_neg h1, if_pos h2] at ho; cases ho
    rw [if_neg h1, if_neg h2] at ho
    simp only at ho
    cases useFCM with
    | true =>
      simp only [if_true] at ho ⊢
      cases hz : (fitLength N.toNat coef)[3]? with
      | none => rw [hz] at ho; cases ho
      | some c4 =>
        rw [hz] at ho
        obtain ⟨m4, -, ho⟩ := res_bind_ok ho
        obtain ⟨p4, hp4, ho⟩ := res_bind_ok ho
        obtain ⟨m1, -, ho⟩ := res_bind_ok ho
        obtain ⟨p1, -, ho⟩ := res_bind_ok ho
        obtain ⟨m5, hm5, -⟩ := res_bind_ok ho
        have := (gen_length hm5).2
        refine ⟨?_, not_le.mp h2, padCrop_pos hp4⟩
        by_contra hlt
        apply this
        unfold arangeIncl
        rw [show (N + 1 - 5).toNat = 0 by omega]; rfl
    | false =>
      simp only [Bool.false_eq_true, if_false] at ho ⊢
      by_cases h3 : h < 0 ∨ w < 0
      · rw [if_pos h3] at ho; cases ho
      rw [if_neg h3] at ho
      obtain ⟨m1, -, ho⟩ := res_bind_ok ho
      obtain ⟨p1, hp1, ho⟩ := res_bind_ok ho
      obtain ⟨m4, hm4, -⟩ := res_bind_ok ho
      have := (gen_length hm4).2
      refine ⟨?_, not_le.mp h2, padCrop_pos hp1⟩
      by_contra hlt
      apply this
      unfold arangeIncl
      rw [show (N + 1 - 4).toNat = 0 by omega]; rfl
  · rintro ⟨hN, hd, hh, hw⟩
    obtain ⟨n, rfl⟩ : ∃ n : ℕ, N = n := ⟨N.toNat, by cases useFCM <;> simp at hN <;> omega⟩
    obtain ⟨a, b, c, he, -⟩ := split_eq useFCM n coef diam h w xo yo (by cases useFCM <;> simp at hN ⊢ <;> omega) hd hh hw
    exact ⟨_, he⟩

/-- Non-trivial cases: a full coefficient vector, and a short one with and without the focus mechanism. -/
example : (∃ o, genSplitWfe true 22 (List.replicate 22 0.1) 300 600 600 0.2 (-0.3) = .ok o) ∧
    (∃ o, genSplitWfe false 4 [1, 2] 300 600 602 0 0 = .ok o) ∧ ¬ ∃ o, genSplitWfe true 4 [1, 2, 3, 4] 300 600 602 0 0 = .ok o := by
  refine ⟨(C50_accepts_iff _ _ _ _ _ _ _ _).mpr (by norm_num), (C50_accepts_iff _ _ _ _ _ _ _ _).mpr (by norm_num), ?_⟩
  rw [C50_accepts_iff]; norm_num

/-! ### C49 -/

/-- Specification: root-mean-square of a map over the pixels where `u` is true. -/
noncomputable def pupilRms {n m : ℕ} (u : Fin n → Fin m → Bool) (a : Fin n → Fin m → ℝ) : ℝ :=
  Real.sqrt ((∑ i, ∑ j, if u i j then a i j ^ 2 else 0) / (∑ i, ∑ j, if u i j then 1 else 0))

theorem rms_selected {n m : ℕ} (u : Fin n → Fin m → Bool) (a : Fin n → Fin m → ℝ) :
    rms (fun q : Selected u => a q.1.1 q.1.2) = pupilRms u a := by
  classical
  unfold rms pupilRms
  have key : ∀ f : Fin n → Fin m → ℝ, ∑ q : Selected u, f q.1.1 q.1.2 = ∑ i, ∑ j, if u i j then f i j else 0 := by
    intro f
    rw [← Finset.sum_product', Finset.univ_product_univ, ← Finset.sum_filter]
    exact (Finset.sum_subtype (p := fun p : Fin n × Fin m => u p.1 p.2 = true)
      (Finset.univ.filter fun p : Fin n × Fin m => u p.1 p.2 = true) (by simp) (fun p => f p.1 p.2)).symm
  rw [key (fun i j => a i j ^ 2), ← key (fun _ _ => 1)]
  simp

theorem selectPx_eq {n m : ℕ} (u : Fin n → Fin m → Bool) (a : Fin n → Fin m → ℝ) :
    selectPx ⟨n, m, u⟩ ⟨n, m, a⟩ = fun q : Selected u => a q.1.1 q.1.2 := by
  funext q
  exact Arr2.zext_val ⟨n, m, a⟩ q.1.1 q.1.2

theorem phaseCost_eq {n m : ℕ} (u : Fin n → Fin m → Bool) (l h : Fin n → Fin m → ℝ) (a : ℝ) (h0 : 0 ≤ a) (h1 : a ≤ 1) :
    phaseCost a ⟨n, m, l⟩ ⟨n, m, h⟩ ⟨n, m, u⟩ =
      .ok ((pupilRms u (fun i j => h i j + a * l i j) - (1 - a) * pupilRms u l) ^ 2) := by
  unfold phaseCost
  rw [if_neg (by push Not; exact ⟨h0, h1⟩), if_neg (by simp), if_neg (by simp)]
  rw [selectPx_eq, selectPx_eq]
  have e1 := rms_selected u (fun i j => h i j + a * l i j)
  have e2 := C09_rms_smul (1 - a) (fun q : Selected u => l q.1.1 q.1.2)
  rw [e2, rms_selected, abs_of_nonneg (by linarith), ← e1]

/-- The difference between the two mirrors' RMS does not decrease with the split factor. -/
theorem imbalance_mono {n m : ℕ} (u : Fin n → Fin m → Bool) (l h : Fin n → Fin m → ℝ) {a b : ℝ} (hab : a ≤ b) :
    pupilRms u (fun i j => h i j + a * l i j) - (1 - a) * pupilRms u l ≤
      pupilRms u (fun i j => h i j + b * l i j) - (1 - b) * pupilRms u l := by
  rw [← rms_selected, ← rms_selected, ← rms_selected]
  have e := C09_rms_add_le (fun q : Selected u => h q.1.1 q.1.2 + b * l q.1.1 q.1.2) (fun q => (a - b) * l q.1.1 q.1.2)
  rw [C09_rms_smul, abs_of_nonpos (by linarith)] at e
  have e2 : (fun q : Selected u => h q.1.1 q.1.2 + b * l q.1.1 q.1.2 + (a - b) * l q.1.1 q.1.2) =
      fun q => h q.1.1 q.1.2 + a * l q.1.1 q.1.2 := by funext q; ring
  rw [e2] at e
  linarith

/-- **C49.** If the low-order RMS over the pupil does not exceed the high-order RMS, split factor 0 minimises the cost over the
whole allowed range. -/
theorem C49_zero_is_best {n m : ℕ} (u : Fin n → Fin m → Bool) (l h : Fin n → Fin m → ℝ) (hle : pupilRms u l ≤ pupilRms u h) :
    ∃ c0, phaseCost 0 ⟨n, m, l⟩ ⟨n, m, h⟩ ⟨n, m, u⟩ = .ok c0 ∧ ∀ a, 0 ≤ a → a ≤ 1 →
      ∃ c, phaseCost a ⟨n, m, l⟩ ⟨n, m, h⟩ ⟨n, m, u⟩ = .ok c ∧ c0 ≤ c := by
  refine ⟨_, phaseCost_eq u l h 0 le_rfl zero_le_one, fun a h0 h1 => ⟨_, phaseCost_eq u l h a h0 h1, ?_⟩⟩
  have := imbalance_mono u l h h0
  have e0 : (fun i j => h i j + 0 * l i j) = h := by funext i j; ring
  rw [e0] at this ⊢
  apply pow_le_pow_left₀ _ this
  linarith

/-- **C49.** Otherwise exactly one split factor in [0, 1] makes the cost zero, that is, gives both mirrors the same RMS. -/
theorem C49_balance {n m : ℕ} (u : Fin n → Fin m → Bool) (l h : Fin n → Fin m → ℝ) (hlt : pupilRms u h < pupilRms u l) :
    ∃! a : ℝ, (0 ≤ a ∧ a ≤ 1) ∧ phaseCost a ⟨n, m, l⟩ ⟨n, m, h⟩ ⟨n, m, u⟩ = .ok 0 := by
  set L := pupilRms u l with hL
  set H := pupilRms u h with hH
  have hH0 : 0 ≤ H := Real.sqrt_nonneg _
  have hL0 : 0 < L := lt_of_le_of_lt hH0 hlt
  have hne : Nonempty (Selected u) := by
    by_contra hc
    rw [not_nonempty_iff] at hc
    rw [hL, ← rms_selected] at hL0
    unfold rms at hL0
    simp at hL0
  set N : ℝ := (Fintype.card (Selected u) : ℝ) with hN
  have hNp : 0 < N := by rw [hN]; exact_mod_cast Fintype.card_pos
  set D : ℝ := (∑ q : Selected u, h q.1.1 q.1.2 * l q.1.1 q.1.2) / N with hD
  have sq : ∀ a : ℝ, pupilRms u (fun i j => h i j + a * l i j) ^ 2 = H ^ 2 + 2 * a * D + a ^ 2 * L ^ 2 := by
    intro a
    have e0 := C09_rms_sq (fun q : Selected u => h q.1.1 q.1.2 + a * l q.1.1 q.1.2)
    have e1 := C09_rms_sq (fun q : Selected u => h q.1.1 q.1.2)
    have e2 := C09_rms_sq (fun q : Selected u => l q.1.1 q.1.2)
    rw [rms_selected] at e1 e2
    rw [rms_selected u (fun i j => h i j + a * l i j)] at e0
    have e3 : D * N = ∑ q : Selected u, h q.1.1 q.1.2 * l q.1.1 q.1.2 := by rw [hD]; field_simp
    have e4 : ∑ q : Selected u, (h q.1.1 q.1.2 + a * l q.1.1 q.1.2) ^ 2 =
        (H ^ 2 + 2 * a * D + a ^ 2 * L ^ 2) * N := by
      rw [add_mul, add_mul, e1, mul_assoc (a ^ 2), e2, mul_assoc (2 * a), e3, Finset.mul_sum, Finset.mul_sum,
        ← Finset.sum_add_distrib, ← Finset.sum_add_distrib]
      exact Finset.sum_congr rfl fun q _ => by ring
    rw [e4] at e0
    exact mul_right_cancel₀ hNp.ne' e0
  have nn : ∀ a : ℝ, 0 ≤ pupilRms u (fun i j => h i j + a * l i j) := fun a => Real.sqrt_nonneg _
  have hden : 0 < L ^ 2 + D := by
    have h1 := imbalance_mono u l h (show (-1 : ℝ) ≤ 0 by norm_num)
    have h2 := sq (-(H / L) )
    have h3 : 0 ≤ H ^ 2 + 2 * (-(H / L)) * D + (-(H / L)) ^ 2 * L ^ 2 := by rw [← h2]; positivity
    have h4 : (-(H / L)) ^ 2 * L ^ 2 = H ^ 2 := by field_simp
    rw [h4] at h3
    by_contra hc
    push Not at hc
    have h5 := sq 1
    have h6 : 0 ≤ H ^ 2 + 2 * 1 * D + 1 ^ 2 * L ^ 2 := by rw [← h5]; positivity
    nlinarith
  have key : ∀ a : ℝ, 0 ≤ a → a ≤ 1 →
      ((pupilRms u (fun i j => h i j + a * l i j) - (1 - a) * L) ^ 2 = 0 ↔ a = (L ^ 2 - H ^ 2) / (2 * (L ^ 2 + D))) := by
    intro a h0 h1
    rw [pow_eq_zero_iff two_ne_zero, sub_eq_zero,
      ← pow_left_inj₀ (nn a) (mul_nonneg (by linarith) hL0.le) two_ne_zero, sq, eq_div_iff (by positivity)]
    constructor <;> intro hh <;> linarith
  have hpos : 0 ≤ (L ^ 2 - H ^ 2) / (2 * (L ^ 2 + D)) := by
    apply div_nonneg _ (by positivity)
    nlinarith
  have hle1 : (L ^ 2 - H ^ 2) / (2 * (L ^ 2 + D)) ≤ 1 := by
    rw [div_le_one (by positivity)]
    have h5 := sq 1
    have h6 : 0 ≤ H ^ 2 + 2 * 1 * D + 1 ^ 2 * L ^ 2 := by rw [← h5]; positivity
    linarith
  refine ⟨(L ^ 2 - H ^ 2) / (2 * (L ^ 2 + D)), ⟨⟨hpos, hle1⟩, ?_⟩, ?_⟩
  · rw [phaseCost_eq u l h _ hpos hle1, (key _ hpos hle1).mpr rfl]
  · rintro a ⟨⟨h0, h1⟩, hc⟩
    rw [phaseCost_eq u l h a h0 h1] at hc
    exact (key a h0 h1).mp (Except.ok.inj hc)

/-- **C49.** The cost falls up to the balancing factor and rises after it, so a bounded line search has no other local minimum
to stop at. -/
theorem C49_unimodal {n m : ℕ} (u : Fin n → Fin m → Bool) (l h : Fin n → Fin m → ℝ) (a0 : ℝ) (hz : 0 ≤ a0 ∧ a0 ≤ 1)
    (hbal : phaseCost a0 ⟨n, m, l⟩ ⟨n, m, h⟩ ⟨n, m, u⟩ = .ok 0) (a b ca cb : ℝ) (hab : a ≤ b) (ha : 0 ≤ a) (hb : b ≤ 1)
    (hca : phaseCost a ⟨n, m, l⟩ ⟨n, m, h⟩ ⟨n, m, u⟩ = .ok ca) (hcb : phaseCost b ⟨n, m, l⟩ ⟨n, m, h⟩ ⟨n, m, u⟩ = .ok cb) :
    (b ≤ a0 → cb ≤ ca) ∧ (a0 ≤ a → ca ≤ cb) := by
  rw [phaseCost_eq u l h _ hz.1 hz.2] at hbal
  rw [phaseCost_eq u l h a ha (hab.trans hb)] at hca
  rw [phaseCost_eq u l h b (ha.trans hab) hb] at hcb
  have h0 := pow_eq_zero_iff two_ne_zero |>.mp (Except.ok.inj hbal)
  obtain rfl := Except.ok.inj hca
  obtain rfl := Except.ok.inj hcb
  have hm := imbalance_mono u l h hab
  constructor
  · intro hba
    have := imbalance_mono u l h hba
    rw [sq_le_sq, abs_of_nonpos (by linarith), abs_of_nonpos (by linarith)]
    linarith
  · intro haa
    have := imbalance_mono u l h haa
    rw [sq_le_sq, abs_of_nonneg (by linarith), abs_of_nonneg (by linarith)]
    linarith

/-- Specification: on `[0, 1]` the line search returns a point where `f` is smallest. -/
def FindsMinimum (F : FminBound) (f : ℝ → Res ℝ) : Prop :=
  ∃ r v, F.run f 0 1 = .ok r ∧ 0 ≤ r ∧ r ≤ 1 ∧ f r = .ok v ∧ ∀ a w, 0 ≤ a → a ≤ 1 → f a = .ok w → v ≤ w

/-- **C49.** The split applied by `flatten`, for a line search that finds the minimum of the cost: when the low-order RMS is
the larger one, both mirrors end up with the same RMS over the pupil; otherwise the first mirror takes the high-order part and
the second one the low-order part. -/
theorem C49_split_balanced (F : FminBound) {n m : ℕ} (u : Fin n → Fin m → Bool) (l h : Fin n → Fin m → ℝ) (sh1 sh2 : ℤ × ℤ)
    (hF : FindsMinimum F fun a => phaseCost a ⟨n, m, l⟩ ⟨n, m, h⟩ ⟨n, m, u⟩) :
    ∃ p1 p2 : Fin n → Fin m → ℝ, splitPhase F true true ⟨n, m, l⟩ ⟨n, m, h⟩ ⟨n, m, u⟩ sh1 sh2 =
        .ok (⟨n, m, p1⟩, ⟨n, m, p2⟩) ∧
      (∀ i j, u i j = true → p1 i j + p2 i j = l i j + h i j) ∧
      (pupilRms u h < pupilRms u l → pupilRms u p1 = pupilRms u p2) ∧
      (pupilRms u l ≤ pupilRms u h → ∀ i j, u i j = true → p1 i j = h i j ∧ p2 i j = l i j) := by
  have hz : ∀ (i : Fin n) (j : Fin m), (⟨n, m, h⟩ : Arr2 ℝ).zext (i : ℕ) (j : ℕ) = h i j := fun i j =>
    Arr2.zext_val ⟨n, m, h⟩ i j
  have hb : ∀ (i : Fin n) (j : Fin m), u i j = true → boolVal ⟨n, m, u⟩ (i : ℕ) (j : ℕ) = 1 := by
    intro i j hu
    have := Arr2.px_val (⟨n, m, u⟩ : Arr2 Bool) i j
    unfold boolVal; rw [this, if_pos (congrArg some hu)]
  have hcongr : ∀ f g : Fin n → Fin m → ℝ, (∀ i j, u i j = true → f i j = g i j) → pupilRms u f = pupilRms u g := by
    intro f g hfg
    rw [← rms_selected, ← rms_selected]
    congr 1
    funext q
    exact hfg _ _ q.2
  unfold splitPhase
  simp only [if_true]
  rw [selectPx_eq, selectPx_eq, rms_selected, rms_selected]
  by_cases hlt : pupilRms u h < pupilRms u l
  · obtain ⟨r, v, hr, h0, h1, hv, hmin⟩ := hF
    rw [if_pos hlt, hr, res_ok_bind]
    refine ⟨_, _, rfl, ?_, ?_, fun hc => absurd hc (not_le.mpr hlt)⟩
    · intro i j hu
      simp only [hz, hb i j hu]; ring
    · intro _
      obtain ⟨a0, ⟨⟨b0, b1⟩, hbal⟩, -⟩ := C49_balance u l h hlt
      have hv0 : v ≤ 0 := hmin a0 0 b0 b1 hbal
      beta_reduce at hv
      rw [phaseCost_eq u l h r h0 h1] at hv
      have hv' := Except.ok.inj hv
      have : (pupilRms u (fun i j => h i j + r * l i j) - (1 - r) * pupilRms u l) ^ 2 = 0 :=
        le_antisymm (hv' ▸ hv0) (sq_nonneg _)
      have h2 := sub_eq_zero.mp (pow_eq_zero_iff two_ne_zero |>.mp this)
      have e1 : pupilRms u (fun i j => (1 - r) * l i j) = (1 - r) * pupilRms u l := by
        rw [← rms_selected, ← rms_selected]
        have := C09_rms_smul (1 - r) (fun q : Selected u => l q.1.1 q.1.2)
        rw [this, abs_of_nonneg (by linarith)]
      refine Eq.trans ?_ (h2.trans e1.symm)
      exact hcongr _ _ fun i j hu => by simp only [hz, hb i j hu]; ring
  · rw [if_neg hlt, res_ok_bind]
    refine ⟨_, _, rfl, ?_, fun hc => absurd hc hlt, ?_⟩
    · intro i j hu
      simp only [hz, hb i j hu]; ring
    · intro _ i j hu
      simp only [hz, hb i j hu]
      constructor <;> ring

/-- **C49.** Split factors outside [0, 1] and maps of different shapes are refused. -/
theorem C49_rejects (a : ℝ) (low high : Arr2 ℝ) (u : Arr2 Bool)
    (hb : a < 0 ∨ 1 < a ∨ low.nr ≠ u.nr ∨ low.nc ≠ u.nc ∨ high.nr ≠ u.nr ∨ high.nc ≠ u.nc) :
    phaseCost a low high u = .error .valueError := by
  unfold phaseCost
  by_cases h1 : a < 0 ∨ a > 1
  · rw [if_pos h1]
  · rw [if_neg h1]
    by_cases h2 : low.nr = u.nr ∧ low.nc = u.nc
    · rw [if_neg (not_not.mpr h2)]
      by_cases h3 : high.nr = u.nr ∧ high.nc = u.nc
      · push Not at h1
        obtain h | h | h | h | h | h := hb
        · exact absurd h (not_lt.mpr h1.1)
        · exact absurd h (not_lt.mpr h1.2)
        · exact absurd h2.1 h
        · exact absurd h2.2 h
        · exact absurd h3.1 h
        · exact absurd h3.2 h
      · rw [if_pos h3]
    · rw [if_pos h2]

/-- Both cases of C49 occur: a two-pixel pupil with a larger low-order part, and the same with the parts exchanged. -/
example : pupilRms (n := 1) (m := 2) (fun _ _ => true) (fun _ _ => 1) < pupilRms (n := 1) (m := 2) (fun _ _ => true) (fun _ _ => 3) := by
  unfold pupilRms
  apply Real.sqrt_lt_sqrt <;> norm_num [Fin.sum_univ_two]

open scoped Classical in
/-- A line search as assumed in `C49_split_balanced`: choose a minimiser when there is one. -/
noncomputable def FminBound.best : FminBound where
  run f lo hi :=
    if hx : ∃ r v, lo ≤ r ∧ r ≤ hi ∧ f r = .ok v ∧ ∀ a w, lo ≤ a → a ≤ hi → f a = .ok w → v ≤ w then .ok hx.choose
    else .ok ((lo + hi) / 2)
  inRange f lo hi hle _ := by
    by_cases hx : ∃ r v, lo ≤ r ∧ r ≤ hi ∧ f r = .ok v ∧ ∀ a w, lo ≤ a → a ≤ hi → f a = .ok w → v ≤ w
    · rw [dif_pos hx]
      obtain ⟨v, h1, h2, -⟩ := hx.choose_spec
      exact ⟨_, rfl, h1, h2⟩
    · rw [dif_neg hx]
      exact ⟨_, rfl, by linarith, by linarith⟩

example {n m : ℕ} (u : Fin n → Fin m → Bool) (l h : Fin n → Fin m → ℝ) :
    FindsMinimum FminBound.best fun a => phaseCost a ⟨n, m, l⟩ ⟨n, m, h⟩ ⟨n, m, u⟩ := by
  have hx : ∃ r v, 0 ≤ r ∧ r ≤ 1 ∧ phaseCost r ⟨n, m, l⟩ ⟨n, m, h⟩ ⟨n, m, u⟩ = .ok v ∧
      ∀ a w, 0 ≤ a → a ≤ 1 → phaseCost a ⟨n, m, l⟩ ⟨n, m, h⟩ ⟨n, m, u⟩ = .ok w → v ≤ w := by
    by_cases hlt : pupilRms u h < pupilRms u l
    · obtain ⟨a0, ⟨⟨b0, b1⟩, hbal⟩, -⟩ := C49_balance u l h hlt
      refine ⟨a0, 0, b0, b1, hbal, fun a w h0 h1 hw => ?_⟩
      rw [phaseCost_eq u l h a h0 h1] at hw
      rw [← Except.ok.inj hw]
      exact sq_nonneg _
    · obtain ⟨c0, hc0, hmin⟩ := C49_zero_is_best u l h (not_lt.mp hlt)
      refine ⟨0, c0, le_rfl, zero_le_one, hc0, fun a w h0 h1 hw => ?_⟩
      obtain ⟨c, hc, hle⟩ := hmin a h0 h1
      rw [hc] at hw
      rwa [← Except.ok.inj hw]
  obtain ⟨v, h1, h2, h3, h4⟩ := hx.choose_spec
  refine ⟨hx.choose, v, ?_, h1, h2, h3, h4⟩
  unfold FminBound.best
  exact dif_pos hx

end Coralign.Props
