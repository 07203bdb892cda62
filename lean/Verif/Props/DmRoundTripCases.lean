import Verif.Props.DmRoundTrip

/-!
# C87: where the code undoes the registration in the wrong order

A mirror of 5 x 5 actuators, one pixel each, whose influence function is a single pixel: a poke is one bright pixel on the camera.
-/

namespace Coralign.Props

open Coralign Coralign.Spec

/-- A single-pixel influence function. -/
noncomputable def pixelInf : Arr2 ℝ := ⟨1, 1, fun _ _ => 1⟩

/-- The mirror, with a registration. -/
noncomputable def pixelDm (flipx : Bool) (th : ℝ) (dx dy : ℤ) : DmCal where
  nact := 5
  pitch := 1
  ppactCx := 1
  ppactCy := 1
  dx := dx
  dy := dy
  thact := th
  ppactD := 1
  flipx := flipx
  inf := pixelInf
  tie := Arr2.full 5 5 0
  gain := Arr2.full 5 5 1

/-- One actuator moved. -/
noncomputable def pokeAt (a b : ℕ) : Arr2 ℝ := ⟨5, 5, fun i j => if (i : ℕ) = a ∧ (j : ℕ) = b then 1 else 0⟩

theorem pixelInf_at (d e : ℤ) : pixelInf.zext (0 + d) (0 + e) = if d = 0 ∧ e = 0 then 1 else 0 := by
  rw [zero_add, zero_add]
  split
  · next h => obtain ⟨rfl, rfl⟩ := h; rw [zext_in (by simp [pixelInf])]; rfl
  · next h =>
    apply zext_out
    intro hb
    have h1 : pixelInf.nr = 1 := rfl
    have h2 : pixelInf.nc = 1 := rfl
    omega

theorem pixelInf_influence (d e : ℤ) : influenceAt pixelInf 1 d e = if d = 0 ∧ e = 0 then 1 else 0 := by
  unfold influenceAt
  have := pixelInf_at d e
  simpa [pixelInf] using this

theorem pixelInf_surface (n : ℕ) (y : Fin n → Fin n → ℝ) (r c : Fin n) : surfaceAt ⟨n, n, y⟩ pixelInf 1 (r : ℕ) (c : ℕ) = y r c := by
  unfold surfaceAt
  simp only [pixelInf_influence]
  rw [Finset.sum_eq_single r, Finset.sum_eq_single c]
  · simp
  · intro b _ hb
    rw [if_neg (by intro hc; apply hb; apply Fin.ext; omega), mul_zero]
  · intro hc; exact absurd (Finset.mem_univ _) hc
  · intro a _ ha
    apply Finset.sum_eq_zero
    intro b _
    rw [if_neg (by intro hc; apply ha; apply Fin.ext; omega), mul_zero]
  · intro hc; exact absurd (Finset.mem_univ _) hc

theorem pixelDm_ok (S : Spline) (flipx : Bool) (th : ℝ) (dx dy : ℤ) : MirrorOk S (pixelDm flipx th dx dy) 5 1 where
  nact := rfl
  some := by norm_num
  pitch := by norm_num [pixelDm]
  cx := by norm_num [pixelDm]
  cy := by norm_num [pixelDm]
  samples := by norm_num [pixelDm]
  sampled := le_rfl
  square := rfl
  odd := rfl
  enough := Or.inl rfl
  symmetric d e := by
    have h1 := pixelInf_at d e
    have h2 := pixelInf_at (-d) (-e)
    simp only [neg_eq_zero] at h2
    have : pixelInf.zext (0 + d) (0 + e) = pixelInf.zext (0 + -d) (0 + -e) := by rw [h1, h2]
    simpa [pixelDm, pixelInf, sub_eq_add_neg] using this
  regular := by
    apply C45_regular_of_local S 5 5 (by norm_num) (by norm_num) _ 1 le_rfl rfl rfl (Or.inl rfl)
    intro r c
    change ∑ a : Fin 5, ∑ b : Fin 5, |influenceAt pixelInf 1 ((a : ℕ) - (r : ℕ)) ((b : ℕ) - (c : ℕ))| < 2 * |influenceAt pixelInf 1 0 0|
    have hs := pixelInf_surface 5 (fun _ _ => 1) r c
    have : ∑ a : Fin 5, ∑ b : Fin 5, |influenceAt pixelInf 1 ((a : ℕ) - (r : ℕ)) ((b : ℕ) - (c : ℕ))| =
        surfaceAt ⟨5, 5, fun _ _ => 1⟩ pixelInf 1 (r : ℕ) (c : ℕ) := by
      unfold surfaceAt
      simp only [pixelInf_influence, one_mul]
      refine Finset.sum_congr rfl fun a _ => Finset.sum_congr rfl fun b _ => ?_
      have e : (((a : ℕ) : ℤ) - (r : ℕ) = 0 ∧ ((b : ℕ) : ℤ) - (c : ℕ) = 0) ↔ (((r : ℕ) : ℤ) - (a : ℕ) = 0 ∧ ((c : ℕ) : ℤ) - (b : ℕ) = 0) := by omega
      simp only [e]
      split <;> simp
    rw [this, hs, pixelInf_influence]
    norm_num

theorem pixelDm_on (flipx : Bool) (th : ℝ) (dx dy : ℤ) : OnPixels (pixelDm flipx th dx dy) 5 (fun i => (i : ℤ) - 2) (fun j => (j : ℤ) - 2) where
  row i _ := by simp only [pixelDm]; push_cast; ring
  col i _ := by simp only [pixelDm]; push_cast; ring

/-- The arguments are accepted. -/
theorem pixelDm_args (nrow ncol : ℤ) (h1 : 0 < nrow) (h2 : 0 < ncol) (a b : ℕ) : DmhArgs nrow ncol (pokeAt a b) 5 pixelInf 1 1 1 where
  rows := h1
  cols := h2
  nact := by norm_num
  samples := by norm_num
  posX := by norm_num
  posY := by norm_num
  smaller := by norm_num [pixelInf]
  shape := by simp [pokeAt]
  sampled := by norm_num
  square := rfl
  odd := rfl
  enough := by norm_num [pixelInf]

/-- The surface of a poke: one bright pixel where the actuator appears. -/
theorem pixelDm_surface (S : Spline) (R : Rotate) (hR : R.Exact) (T : Shift) (nrow ncol : ℤ) (a b : ℕ) (flipx : Bool) (th : ℝ) (dx dy : ℤ)
    (surf : Arr2 ℝ) (hok : dmhtoph S R T nrow ncol (pokeAt a b) 5 pixelInf 1 1 1 dx dy th flipx = .ok surf) (i j k l : ℤ)
    (hi : 0 ≤ i ∧ i < 5) (hj : 0 ≤ j ∧ j < 5)
    (hat : AppearsAt flipx th dx dy ((i - 2 : ℤ) : ℝ) ((j - 2 : ℤ) : ℝ) k l) (hkl : Reaches nrow ncol k l) (hk : |k| ≤ 4) (hl : |l| ≤ 4) :
    surf.zext (surf.nr / 2 + k) (surf.nc / 2 + l) = if i = a ∧ j = b then 1 else 0 := by
  have hs : (4 / 3 : ℝ) ≤ Real.sqrt 2 := by
    rw [show (4 / 3 : ℝ) = Real.sqrt ((4 / 3) ^ 2) by rw [Real.sqrt_sq]; norm_num]
    exact Real.sqrt_le_sqrt (by norm_num)
  have bd : ∀ z : ℤ, |z| ≤ 4 → 2 * |(z : ℝ)| ≤ Real.sqrt 2 * (((5 : ℤ) : ℝ) + ((pixelInf.nr : ℕ) : ℝ) / ((1 : ℤ) : ℝ)) * max 1 1 := by
    intro z hz
    have h1 : |(z : ℝ)| ≤ 4 := by exact_mod_cast hz
    have h2 : pixelInf.nr = 1 := rfl
    rw [h2, max_self]
    push_cast
    linarith
  have := C62_placed S R hR T nrow ncol (pokeAt a b) 5 pixelInf 1 1 1 th dx dy flipx surf hok (i - 2) (j - 2) i j k l
    (by unfold dmPos; push_cast; ring) (by unfold dmPos; push_cast; ring) hat hkl (bd k hk) (bd l hl)
  obtain ⟨o1, o2⟩ := (C62_shape S R T nrow ncol (pokeAt a b) 5 pixelInf 1 1 1 dx dy th flipx).2 surf hok
  rw [zext_centered (by rw [o1, o2]; exact hkl)] at this
  rw [Option.some.inj this]
  obtain ⟨i, rfl⟩ := Int.eq_ofNat_of_zero_le hi.1
  obtain ⟨j, rfl⟩ := Int.eq_ofNat_of_zero_le hj.1
  have := facesheet_actuator (pokeAt a b) pixelInf 1 i j
  simp only [Nat.cast_one, one_mul] at this
  rw [this]
  have := pixelInf_surface 5 (pokeAt a b).val ⟨i, by omega⟩ ⟨j, by omega⟩
  simp only at this
  refine Eq.trans this ?_
  simp only [pokeAt]
  congr 1
  simp

/-- What the code returns: the surface where it reads it. -/
theorem pixelDm_conv (S : Spline) (R : Rotate) (L : SpSolve) (surf : Arr2 ℝ) (flipx : Bool) (th : ℝ) (dx dy : ℤ)
    (h4 : 4 ≤ surf.nr ∧ 4 ≤ surf.nc)
    (hin : ∀ i j : ℕ, i < 5 → j < 5 → Reaches surf.nr surf.nc ((i : ℤ) - 2 + dy) ((j : ℤ) - 2 + dx)) :
    convSurfToDmCmd S R L surf (pixelDm flipx th dx dy) = .ok ⟨5, 5, fun i j => (undone R surf (pixelDm flipx th dx dy)).zext
      (surf.nr / 2 + (((i : ℕ) : ℤ) - 2 + dy)) (surf.nc / 2 + (((j : ℕ) : ℤ) - 2 + dx))⟩ := by
  have hm := pixelDm_ok S flipx th dx dy
  rw [conv_aligned S R L surf _ 5 1 hm dx dy rfl rfl _ _ (pixelDm_on flipx th dx dy) h4 hin]
  have := C45_round_trip_partial S L 5 5 hm.some hm.some (fun i j => (undone R surf (pixelDm flipx th dx dy)).zext
      (surf.nr / 2 + (((i : ℕ) : ℤ) - 2 + dy)) (surf.nc / 2 + (((j : ℕ) : ℤ) - 2 + dx))) pixelInf 1 le_rfl rfl rfl (Or.inl rfl) hm.regular
    hm.symmetric
  simp only [pixelInf_surface] at this
  exact this

/-- **C87, limit.** With a reversed mirror the horizontal offset is undone in the wrong direction: on a 9 x 9 surface made by poking actuator
`(2, 4)` of a mirror one pixel right of the centre, the code finds the poke two actuators further left. -/
theorem C87_flip_offset_fails (S : Spline) (R : Rotate) (hR : R.Exact) (T : Shift) (L : SpSolve) :
    ∃ surf cmd, dmhtoph S R T 9 9 (pokeAt 2 4) 5 pixelInf 1 1 1 (1 : ℤ) (0 : ℤ) 0 true = .ok surf ∧
      convSurfToDmCmd S R L surf (pixelDm true 0 1 0) = .ok cmd ∧ cmd.px 2 2 = some 1 ∧ (pokeAt 2 4).px 2 2 = some 0 := by
  obtain ⟨surf, hs⟩ := (C62_shape S R T 9 9 (pokeAt 2 4) 5 pixelInf 1 1 1 (1 : ℤ) (0 : ℤ) 0 true).1.mpr (pixelDm_args 9 9 (by norm_num) (by norm_num) 2 4)
  obtain ⟨o1, o2⟩ := (C62_shape S R T 9 9 (pokeAt 2 4) 5 pixelInf 1 1 1 (1 : ℤ) (0 : ℤ) 0 true).2 surf hs
  have o1 : surf.nr = 9 := by exact_mod_cast o1
  have o2 : surf.nc = 9 := by exact_mod_cast o2
  refine ⟨surf, _, hs, pixelDm_conv S R L surf true 0 1 0 (by omega) (by intro i j hi hj; unfold Reaches; omega), ?_, rfl⟩
  refine (Arr2.px_of_inB _ (by norm_num)).trans ?_
  congr 1
  have h1 := undone_at hR surf (pixelDm true 0 1 0) (by omega) (by omega) 0 1 0 1 (by unfold Reaches; omega) (by simp [pixelDm]) (by simp [pixelDm])
  have h2 := pixelDm_surface S R hR T 9 9 2 4 true 0 1 0 surf hs 2 4 0 (-1) (by norm_num) (by norm_num)
    (by have := appears_straight true 1 0 0 2; norm_num at this ⊢; exact this) (by unfold Reaches; omega) (by norm_num) (by norm_num)
  rw [show (pixelDm true 0 1 0).flipx = true from rfl] at h1
  simp only [if_true] at h1
  rw [h2] at h1
  simpa using h1

/-- **C87, limit.** With a reversed mirror a clocking angle is undone in the wrong direction: for a mirror turned by a right angle the
commands come back turned by half a turn. -/
theorem C87_flip_turn_fails (S : Spline) (R : Rotate) (hR : R.Exact) (T : Shift) (L : SpSolve) :
    ∃ surf cmd, dmhtoph S R T 9 9 (pokeAt 2 4) 5 pixelInf 1 1 1 (0 : ℤ) (0 : ℤ) 90 true = .ok surf ∧
      convSurfToDmCmd S R L surf (pixelDm true 90 0 0) = .ok cmd ∧ cmd.px 2 0 = some 1 ∧ (pokeAt 2 4).px 2 0 = some 0 := by
  obtain ⟨surf, hs⟩ := (C62_shape S R T 9 9 (pokeAt 2 4) 5 pixelInf 1 1 1 (0 : ℤ) (0 : ℤ) 90 true).1.mpr (pixelDm_args 9 9 (by norm_num) (by norm_num) 2 4)
  obtain ⟨o1, o2⟩ := (C62_shape S R T 9 9 (pokeAt 2 4) 5 pixelInf 1 1 1 (0 : ℤ) (0 : ℤ) 90 true).2 surf hs
  have o1 : surf.nr = 9 := by exact_mod_cast o1
  have o2 : surf.nc = 9 := by exact_mod_cast o2
  refine ⟨surf, _, hs, pixelDm_conv S R L surf true 90 0 0 (by omega) (by intro i j hi hj; unfold Reaches; omega), ?_, rfl⟩
  refine (Arr2.px_of_inB _ (by norm_num)).trans ?_
  congr 1
  have h : (90 : ℝ) * Real.pi / 180 = Real.pi / 2 := by ring
  have h1 := undone_at hR surf (pixelDm true 90 0 0) (by omega) (by omega) 0 (-2) (-2) 0 (by unfold Reaches; omega)
    (by simp [pixelDm, h]) (by simp [pixelDm, h])
  have h2 := pixelDm_surface S R hR T 9 9 2 4 true 90 0 0 surf hs 2 4 (-2) 0 (by norm_num) (by norm_num)
    (by have := appears_quarter true 0 0 0 2; norm_num at this ⊢; exact this) (by unfold Reaches; omega) (by norm_num) (by norm_num)
  rw [show (pixelDm true 90 0 0).flipx = true from rfl] at h1
  simp only [if_true, neg_zero] at h1
  rw [h2] at h1
  simpa using h1

/-- **C87, limit.** With a clocking angle the offset is undone along the wrong axis: for a mirror turned by a right angle and one pixel right
of the centre, the poke of actuator `(3, 3)` is found at actuator `(2, 2)`. -/
theorem C87_turn_offset_fails (S : Spline) (R : Rotate) (hR : R.Exact) (T : Shift) (L : SpSolve) :
    ∃ surf cmd, dmhtoph S R T 9 9 (pokeAt 3 3) 5 pixelInf 1 1 1 (1 : ℤ) (0 : ℤ) 90 false = .ok surf ∧
      convSurfToDmCmd S R L surf (pixelDm false 90 1 0) = .ok cmd ∧ cmd.px 2 2 = some 1 ∧ (pokeAt 3 3).px 2 2 = some 0 := by
  obtain ⟨surf, hs⟩ := (C62_shape S R T 9 9 (pokeAt 3 3) 5 pixelInf 1 1 1 (1 : ℤ) (0 : ℤ) 90 false).1.mpr (pixelDm_args 9 9 (by norm_num) (by norm_num) 3 3)
  obtain ⟨o1, o2⟩ := (C62_shape S R T 9 9 (pokeAt 3 3) 5 pixelInf 1 1 1 (1 : ℤ) (0 : ℤ) 90 false).2 surf hs
  have o1 : surf.nr = 9 := by exact_mod_cast o1
  have o2 : surf.nc = 9 := by exact_mod_cast o2
  refine ⟨surf, _, hs, pixelDm_conv S R L surf false 90 1 0 (by omega) (by intro i j hi hj; unfold Reaches; omega), ?_, rfl⟩
  refine (Arr2.px_of_inB _ (by norm_num)).trans ?_
  congr 1
  have h : (90 : ℝ) * Real.pi / 180 = Real.pi / 2 := by ring
  have h1 := undone_at hR surf (pixelDm false 90 1 0) (by omega) (by omega) 0 1 1 0 (by unfold Reaches; omega)
    (by simp [pixelDm, h]) (by simp [pixelDm, h])
  have h2 := pixelDm_surface S R hR T 9 9 3 3 false 90 1 0 surf hs 3 3 1 0 (by norm_num) (by norm_num)
    (by have := appears_quarter false 1 0 1 1; norm_num at this ⊢; exact this) (by unfold Reaches; omega) (by norm_num) (by norm_num)
  rw [show (pixelDm false 90 1 0).flipx = false from rfl] at h1
  simp only [Bool.false_eq_true, if_false] at h1
  rw [h2] at h1
  simpa using h1

/-- **C87, limit.** With an even number of columns the reversal of a mirror is off by one pixel: the poke of actuator `(2, 3)` is found at
actuator `(2, 2)`. -/
theorem C87_even_fails (S : Spline) (R : Rotate) (hR : R.Exact) (T : Shift) (L : SpSolve) :
    ∃ surf cmd, dmhtoph S R T 9 10 (pokeAt 2 3) 5 pixelInf 1 1 1 (0 : ℤ) (0 : ℤ) 0 true = .ok surf ∧
      convSurfToDmCmd S R L surf (pixelDm true 0 0 0) = .ok cmd ∧ cmd.px 2 2 = some 1 ∧ (pokeAt 2 3).px 2 2 = some 0 := by
  obtain ⟨surf, hs⟩ := (C62_shape S R T 9 10 (pokeAt 2 3) 5 pixelInf 1 1 1 (0 : ℤ) (0 : ℤ) 0 true).1.mpr (pixelDm_args 9 10 (by norm_num) (by norm_num) 2 3)
  obtain ⟨o1, o2⟩ := (C62_shape S R T 9 10 (pokeAt 2 3) 5 pixelInf 1 1 1 (0 : ℤ) (0 : ℤ) 0 true).2 surf hs
  have o1 : surf.nr = 9 := by exact_mod_cast o1
  have o2 : surf.nc = 10 := by exact_mod_cast o2
  refine ⟨surf, _, hs, pixelDm_conv S R L surf true 0 0 0 (by omega) (by intro i j hi hj; unfold Reaches; omega), ?_, rfl⟩
  refine (Arr2.px_of_inB _ (by norm_num)).trans ?_
  congr 1
  have h1 : (undone R surf (pixelDm true 0 0 0)).zext (surf.nr / 2 + 0) (surf.nc / 2 + 0) = surf.zext (surf.nr / 2 + 0) (surf.nc / 2 + -1) := by
    unfold undone
    simp only [pixelDm, if_true]
    rw [R.zeroAngle, fliplr_zext]
    congr 1
    omega
  have h2 := pixelDm_surface S R hR T 9 10 2 3 true 0 0 0 surf hs 2 3 0 (-1) (by norm_num) (by norm_num)
    (by have := appears_straight true 0 0 0 1; norm_num at this ⊢; exact this) (by unfold Reaches; omega) (by norm_num) (by norm_num)
  rw [h2] at h1
  simpa using h1

/-- The hypotheses of the partial theorems are met by this mirror, turned by a right angle, on a 9 x 9 surface. -/
example (S : Spline) : MirrorOk S (pixelDm false 90 0 0) 5 1 ∧ Commutes false 90 0 0 ∧
    OnPixels (pixelDm false 90 0 0) 5 (fun i => (i : ℤ) - 2) (fun j => (j : ℤ) - 2) ∧
    AppearsAt false 90 (0 : ℤ) (0 : ℤ) ((3 - 2 : ℤ) : ℝ) ((0 - 2 : ℤ) : ℝ) ((-2 : ℤ) : ℝ) ((-1 : ℤ) : ℝ) ∧ Rotate.atPixels.Exact :=
  ⟨pixelDm_ok S _ _ _ _, Or.inr ⟨rfl, rfl, rfl⟩, pixelDm_on _ _ _ _, by have := appears_quarter false 0 0 1 (-2); norm_num at this ⊢; exact this,
    Rotate.atPixels_exact⟩

/-- And by the same mirror moved by whole pixels. -/
example (S : Spline) : MirrorOk S (pixelDm false 0 1 (-1)) 5 1 ∧ Commutes false 0 1 (-1) :=
  ⟨pixelDm_ok S _ _ _ _, Or.inl ⟨rfl, by simp⟩⟩

end Coralign.Props
